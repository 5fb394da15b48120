import Verif.Props.Reload
import Verif.Props.Routing

/-
  C83: unplugging a device has no effect but that its events stop.
-/

set_option autoImplicit false

namespace Keyd

/-- The daemon with another device table. -/
def Daemon.tab (d : Daemon) (ds : List Device) : Daemon := { d with devices := ds }

/-- However the device table looks like, the outcome is the same but for the table, where every device is treated
alike and for itself. -/
def Tab (x : List Device → DRes Daemon) : Prop :=
  (∃ e, ∀ ds, x ds = .error e) ∨ ∃ (d : Daemon) (f : Device → Device), ∀ ds, x ds = .ok (d.tab (ds.map f))

/-- The same with a second result. -/
def TabR {α : Type} (x : List Device → DRes (Daemon × α)) : Prop :=
  (∃ e, ∀ ds, x ds = .error e) ∨
    ∃ (d : Daemon) (f : Device → Device) (a : α), ∀ ds, x ds = .ok (d.tab (ds.map f), a)

theorem Tab.id (d : Daemon) : Tab (fun ds => .ok (d.tab ds)) := Or.inr ⟨d, _root_.id, fun ds => by rw [List.map_id]⟩

theorem Tab.fail (e : DErr) : Tab (fun _ => .error e) := Or.inl ⟨e, fun _ => rfl⟩

theorem TabR.fail {α : Type} (e : DErr) : TabR (α := α) (fun _ => .error e) := Or.inl ⟨e, fun _ => rfl⟩

theorem TabR.id {α : Type} (d : Daemon) (a : α) : TabR (fun ds => .ok (d.tab ds, a)) :=
  Or.inr ⟨d, _root_.id, a, fun ds => by rw [List.map_id]⟩

theorem Tab.bind {x : List Device → DRes Daemon} {f : Daemon → DRes Daemon} (hx : Tab x)
    (hf : ∀ d : Daemon, Tab (fun ds => f (d.tab ds))) : Tab (fun ds => x ds >>= f) := by
  rcases hx with ⟨e, he⟩ | ⟨d, g, hd⟩
  · exact Or.inl ⟨e, fun ds => by show (x ds >>= f) = _; rw [he]; rfl⟩
  · rcases hf d with ⟨e, he⟩ | ⟨d', g', hd'⟩
    · exact Or.inl ⟨e, fun ds => by show (x ds >>= f) = _; rw [hd]; exact he _⟩
    · exact Or.inr ⟨d', g' ∘ g, fun ds => by show (x ds >>= f) = _; rw [hd]; exact (hd' _).trans (by rw [List.map_map])⟩

theorem Tab.bindR {α : Type} {x : List Device → DRes Daemon} {f : Daemon → DRes (Daemon × α)} (hx : Tab x)
    (hf : ∀ d : Daemon, TabR (fun ds => f (d.tab ds))) : TabR (fun ds => x ds >>= f) := by
  rcases hx with ⟨e, he⟩ | ⟨d, g, hd⟩
  · exact Or.inl ⟨e, fun ds => by show (x ds >>= f) = _; rw [he]; rfl⟩
  · rcases hf d with ⟨e, he⟩ | ⟨d', g', a, hd'⟩
    · exact Or.inl ⟨e, fun ds => by show (x ds >>= f) = _; rw [hd]; exact he _⟩
    · exact Or.inr ⟨d', g' ∘ g, a, fun ds => by show (x ds >>= f) = _; rw [hd]; exact (hd' _).trans (by rw [List.map_map])⟩

theorem TabR.bind {α : Type} {x : List Device → DRes (Daemon × α)} {f : Daemon × α → DRes Daemon} (hx : TabR x)
    (hf : ∀ (d : Daemon) (a : α), Tab (fun ds => f (d.tab ds, a))) : Tab (fun ds => x ds >>= f) := by
  rcases hx with ⟨e, he⟩ | ⟨d, g, a, hd⟩
  · exact Or.inl ⟨e, fun ds => by show (x ds >>= f) = _; rw [he]; rfl⟩
  · rcases hf d a with ⟨e, he⟩ | ⟨d', g', hd'⟩
    · exact Or.inl ⟨e, fun ds => by show (x ds >>= f) = _; rw [hd]; exact he _⟩
    · exact Or.inr ⟨d', g' ∘ g, fun ds => by show (x ds >>= f) = _; rw [hd]; exact (hd' _).trans (by rw [List.map_map])⟩

theorem TabR.bindR {α β : Type} {x : List Device → DRes (Daemon × α)} {f : Daemon × α → DRes (Daemon × β)} (hx : TabR x)
    (hf : ∀ (d : Daemon) (a : α), TabR (fun ds => f (d.tab ds, a))) : TabR (fun ds => x ds >>= f) := by
  rcases hx with ⟨e, he⟩ | ⟨d, g, a, hd⟩
  · exact Or.inl ⟨e, fun ds => by show (x ds >>= f) = _; rw [he]; rfl⟩
  · rcases hf d a with ⟨e, he⟩ | ⟨d', g', b, hd'⟩
    · exact Or.inl ⟨e, fun ds => by show (x ds >>= f) = _; rw [hd]; exact he _⟩
    · exact Or.inr ⟨d', g' ∘ g, b, fun ds => by show (x ds >>= f) = _; rw [hd]; exact (hd' _).trans (by rw [List.map_map])⟩

/-- A step that does not look at the table. -/
theorem tab_sendKey (d : Daemon) (ds : List Device) (c : Code) (b : Bool) :
    daemonSendKey (d.tab ds) c b = (daemonSendKey d c b).tab ds := by
  unfold daemonSendKey
  dsimp only
  repeat' split
  all_goals rfl

theorem tab_clear (d : Daemon) (ds : List Device) : clearVkbd (d.tab ds) = (clearVkbd d).tab ds := by
  unfold clearVkbd
  suffices ∀ (l : List Code) (d : Daemon), l.foldl clearStep (d.tab ds) = (l.foldl clearStep d).tab ds from this _ _
  intro l
  induction l with
  | nil => intro d; rfl
  | cons c l ih =>
    intro d
    rw [List.foldl_cons, List.foldl_cons, ← ih]
    congr 1
    unfold clearStep
    by_cases h : d.keystate c = true
    · rw [if_pos h, if_pos (by exact h)]; rfl
    · rw [if_neg h, if_neg (by exact h)]

/-- What a layer change does to a device's indicator. -/
def ledStep (addr : Nat) (c : Config) (n : Nat → Nat) (dev : Device) : Device :=
  if dev.data = some addr then
    { dev with
      led := (upd dev.led 1 ((List.range c.layers.length).any fun i =>
        decide (i ≠ 0 ∧ (c.layer i).type ≠ .layout ∧ n i ≠ 0))) }
  else dev

theorem tab_layer (env : Env) (addr : Nat) (c : Config) (n : Nat → Nat) (i : Nat) (b : Bool) (d : Daemon) :
    ∃ (d' : Daemon) (f : Device → Device), ∀ ds, onLayerChange env (d.tab ds) addr c n i b = d'.tab (ds.map f) := by
  unfold onLayerChange
  by_cases h : c.layerIndicator ≠ 0
  · by_cases hl : d.listeners = []
    · refine ⟨d, ledStep addr c n, fun ds => ?_⟩
      rw [if_pos h]
      dsimp only
      rw [if_pos (by exact hl)]
      unfold setLed Daemon.tab
      rfl
    · refine ⟨broadcast env d (changeLine (c.layer i) b), ledStep addr c n, fun ds => ?_⟩
      rw [if_pos h]
      dsimp only
      rw [if_neg (by exact hl)]
      unfold setLed Daemon.tab
      rfl
  · by_cases hl : d.listeners = []
    · refine ⟨d, _root_.id, fun ds => ?_⟩
      rw [if_neg h, List.map_id]
      dsimp only
      rw [if_pos (by exact hl)]
    · refine ⟨broadcast env d (changeLine (c.layer i) b), _root_.id, fun ds => ?_⟩
      rw [if_neg h, List.map_id]
      dsimp only
      rw [if_neg (by exact hl)]
      rfl

theorem tab_outs (env : Env) (addr : Nat) (c : Config) : ∀ (os : List Out) (n : Nat → Nat) (d : Daemon),
    ∃ (d' : Daemon) (f : Device → Device), ∀ ds, applyOuts env addr c (d.tab ds) n os = d'.tab (ds.map f)
  | [], n, d => ⟨d, _root_.id, fun ds => by rw [List.map_id]; rfl⟩
  | .key code down :: os, n, d => by
    obtain ⟨d', f, h⟩ := tab_outs env addr c os n (daemonSendKey d code down)
    refine ⟨d', f, fun ds => ?_⟩
    unfold applyOuts
    rw [tab_sendKey, h]
  | .layer i b :: os, n, d => by
    obtain ⟨d1, f1, h1⟩ := tab_layer env addr c
      (if (c.layer i).type = .layout then n else upd n i (if b then n i + 1 else n i - 1)) i b d
    obtain ⟨d', f, h⟩ := tab_outs env addr c os
      (if (c.layer i).type = .layout then n else upd n i (if b then n i + 1 else n i - 1)) d1
    refine ⟨d', f ∘ f1, fun ds => ?_⟩
    unfold applyOuts
    dsimp only
    rw [h1, h, List.map_map]
  | .command _ :: os, n, d => by
    obtain ⟨d', f, h⟩ := tab_outs env addr c os n d
    exact ⟨d', f, fun ds => by unfold applyOuts; rw [h]⟩
  | .sleep _ :: os, n, d => by
    obtain ⟨d', f, h⟩ := tab_outs env addr c os n d
    exact ⟨d', f, fun ds => by unfold applyOuts; rw [h]⟩

theorem tab_run (env : Env) (d : Daemon) (addr : Nat) (evs : List KeyEvent) :
    TabR (fun ds => kbdRun env (d.tab ds) addr evs) := by
  unfold kbdRun
  cases hk : d.heap addr with
  | none =>
    refine Or.inl ⟨.freed "kbd_process_events", fun ds => ?_⟩
    dsimp only
    rw [show (d.tab ds).heap addr = none from hk]
  | some k =>
    cases hr : kbdProcessEvents env.fuel k evs with
    | error e =>
      refine Or.inl ⟨.inner e, fun ds => ?_⟩
      dsimp only
      rw [show (d.tab ds).heap addr = some k from hk]
      dsimp only
      rw [hr]
      rfl
    | ok r =>
      obtain ⟨k', w⟩ := r
      obtain ⟨d', f, h⟩ := tab_outs env addr k.config (k'.trace.take (k'.trace.length - k.trace.length)).reverse
        (fun i => (k.layerState i).active) { d with heap := upd d.heap addr (some k') }
      refine Or.inr ⟨d', f, w, fun ds => ?_⟩
      dsimp only
      rw [show (d.tab ds).heap addr = some k from hk]
      dsimp only
      rw [hr, ← h]
      rfl

theorem tab_keypress (env : Env) (d : Daemon) (addr : Nat) (c : Code) (t : Int) :
    TabR (fun ds => processKeypress env (d.tab ds) addr c t) := by
  unfold processKeypress
  exact (tab_run env d addr _).bindR (fun d _ => tab_run env d addr _)

theorem tab_repeat (env : Env) (addr : Nat) (c : Code) (t : Int) : ∀ (n : Nat) (d : Daemon),
    Tab (fun ds => repeatKeypress env addr c t n (d.tab ds))
  | 0, d => Tab.id d
  | n+1, d => by
    unfold repeatKeypress
    exact (tab_keypress env d addr c t).bind (fun d w => tab_repeat env addr c t n { d with timeout := w })

theorem tab_managed (env : Env) (d : Daemon) (addr : Nat) (e : DevEvent) (t : Int) :
    Tab (fun ds => managedEvent env (d.tab ds) addr e t) := by
  unfold managedEvent
  dsimp only
  cases e.type with
  | key =>
    exact (tab_run env { d with active := some addr } addr _).bind (fun d w => Tab.id { d with timeout := w })
  | mouseMove =>
    dsimp only
    cases hk : d.heap addr with
    | none =>
      refine Or.inl ⟨.freed "event_handler: kbd->scroll", fun ds => ?_⟩
      dsimp only
      rw [show (d.tab ds).heap addr = none from hk]
    | some k =>
      have e1 : ∀ ds, (d.tab ds).heap addr = some k := fun _ => hk
      simp only [e1]
      cases k.scroll.active with
      | true =>
        unfold scrollMove
        by_cases hs : k.scroll.sensitivity = 0
        · simp only [hs, if_true]
          exact Tab.id { d with active := some addr }
        · simp only [hs, if_true, if_false]
          exact Tab.id (Daemon.vscroll (Daemon.vscroll { d with active := some addr, heap := upd d.heap addr _ } _ _) _ _)
      | false => exact Tab.id { d with active := some addr, vout := .move e.x e.y :: d.vout }
  | mouseMoveAbs => exact Tab.id { d with active := some addr, vout := .moveAbs e.x e.y :: d.vout }
  | mouseScroll =>
    refine Tab.bind (tab_repeat env addr _ t _ { d with active := some addr }) (fun d => ?_)
    refine Tab.bind (tab_repeat env addr _ t _ d) (fun d => ?_)
    refine Tab.bind (tab_repeat env addr _ t _ d) (fun d => ?_)
    exact tab_repeat env addr _ t _ d
  | _ => exact Tab.id { d with active := some addr }

theorem tab_device (env : Env) (d : Daemon) (dev : Device) (e : DevEvent) (t : Int) :
    Tab (fun ds => deviceEvent env (d.tab ds) dev e t) := by
  unfold deviceEvent
  cases dev.data with
  | some addr => exact tab_managed env d addr e t
  | none =>
    dsimp only
    by_cases h1 : dev.isVirtual = false ∧ dev.capabilities &&& CAP_MOUSE ≠ 0
    · simp only [if_pos h1]
      cases ha : d.active with
      | none =>
        have e1 : ∀ ds, (d.tab ds).active = none := fun _ => ha
        simp only [e1]
        exact Tab.id d
      | some a =>
        have e1 : ∀ ds, (d.tab ds).active = some a := fun _ => ha
        simp only [e1]
        split
        · exact (tab_keypress env d a _ t).bind (fun d w => Tab.id { d with timeout := w })
        · exact Tab.id d
    · simp only [if_neg h1]
      split
      · exact Or.inr ⟨d, _, fun _ => rfl⟩
      · exact Tab.id d

theorem tab_load : ∀ (ts : List Str) (d : Daemon),
    (∃ e, ∀ ds, loadConfigs ts (d.tab ds) = .error e) ∨ ∃ d' : Daemon, ∀ ds, loadConfigs ts (d.tab ds) = .ok (d'.tab ds)
  | [], d => Or.inr ⟨d, fun _ => rfl⟩
  | t :: ts, d => by
    unfold loadConfigs loadConfig
    cases hp : configParse t with
    | error e => exact Or.inl ⟨.inner e, fun _ => rfl⟩
    | ok o =>
      cases o with
      | none =>
        rcases tab_load ts d with ⟨e, h⟩ | ⟨d', h⟩
        · exact Or.inl ⟨e, fun ds => h ds⟩
        · exact Or.inr ⟨d', fun ds => h ds⟩
      | some c =>
        rcases tab_load ts { d with heap := upd d.heap d.next (some (newKeyboard c)), next := d.next + 1, configs := ⟨c, d.next⟩ :: d.configs }
          with ⟨e, h⟩ | ⟨d', h⟩
        · exact Or.inl ⟨e, fun ds => h ds⟩
        · exact Or.inr ⟨d', fun ds => h ds⟩

theorem tab_reload (env : Env) (d : Daemon) : Tab (fun ds => reload env (d.tab ds)) := by
  unfold reload
  rcases tab_load env.confs (freeConfigs d) with ⟨e, h⟩ | ⟨d', h⟩
  · refine Or.inl ⟨e, fun ds => ?_⟩
    show (loadConfigs env.confs ((freeConfigs d).tab ds) >>= _) = _
    rw [h]; rfl
  · refine Or.inr ⟨clearVkbd d', manageDevice env d'.configs, fun ds => ?_⟩
    show (loadConfigs env.confs ((freeConfigs d).tab ds) >>= _) = _
    rw [h, ← tab_clear]
    rfl

theorem tab_bindAll (exp : Str) : ∀ (es : List Ent) (d : Daemon), TabR (fun ds => bindAll exp es (d.tab ds))
  | [], d => TabR.id d false
  | e :: es, d => by
    unfold bindAll
    cases hk : d.heap e.kbd with
    | none =>
      refine Or.inl ⟨.freed "kbd_eval", fun ds => ?_⟩
      dsimp only
      rw [show (d.tab ds).heap e.kbd = none from hk]
    | some k =>
      have e1 : ∀ ds, (d.tab ds).heap e.kbd = some k := fun _ => hk
      simp only [e1]
      cases hr : kbdEval k exp with
      | error e => exact TabR.fail (.inner e)
      | ok r =>
        obtain ⟨k', ok⟩ := r
        exact (tab_bindAll exp es { d with heap := upd d.heap e.kbd (some k') }).bindR (fun d a => TabR.id d (ok || a))

theorem tab_execMacro (ds : List Device) : ∀ (outs : List MacroOut) (d : Daemon),
    execMacro (d.tab ds) outs = (execMacro d outs).tab ds
  | [], _ => rfl
  | o :: outs, d => by
    unfold execMacro
    rw [List.foldl_cons, List.foldl_cons]
    cases o with
    | key c b => exact (congrArg (fun d => execMacro d outs) (tab_sendKey d ds c b)).trans (tab_execMacro ds outs _)
    | sleep n => exact tab_execMacro ds outs d

theorem tab_vtap (ds : List Device) : ∀ (l : List Code) (d : Daemon),
    l.foldl Daemon.vtap (d.tab ds) = (l.foldl Daemon.vtap d).tab ds
  | [], _ => rfl
  | c :: l, d => tab_vtap ds l (d.vtap c)

theorem tab_inputChar (d : Daemon) (ds : List Device) (sz cp : Nat) :
    inputChar (d.tab ds) sz cp = (inputChar d sz cp).map (fun d => d.tab ds) := by
  unfold inputChar
  dsimp only
  have hu : ∀ d : Daemon, (match unicodeLookupIndex cp with
      | none => none
      | some idx => some ((unicodeGetSequence idx).foldl Daemon.vtap (d.tab ds))) =
      Option.map (fun d => d.tab ds) (match unicodeLookupIndex cp with
      | none => none
      | some idx => some ((unicodeGetSequence idx).foldl Daemon.vtap d)) := fun d => by
    cases unicodeLookupIndex cp with
    | none => rfl
    | some idx => show some _ = some _; rw [tab_vtap]
  by_cases hs : sz = 1
  · simp only [if_pos hs]
    cases parseKeySequence [UInt8.ofNat cp] with
    | some p =>
      dsimp only
      by_cases h : p.2 &&& MOD_SHIFT ≠ 0
      · simp only [if_pos h]; rfl
      · simp only [if_neg h]; rfl
    | none =>
      dsimp only
      by_cases h1 : UInt8.ofNat cp = 32
      · simp only [if_pos h1]; rfl
      by_cases h2 : UInt8.ofNat cp = 10
      · simp only [if_neg h1, if_pos h2]; rfl
      by_cases h3 : UInt8.ofNat cp = 9
      · simp only [if_neg h1, if_neg h2, if_pos h3]; rfl
      · simp only [if_neg h1, if_neg h2, if_neg h3]; exact hu d
  · simp only [if_neg hs]
    exact hu d

theorem tab_input : ∀ (n : Nat) (s : Str) (d : Daemon), TabR (fun ds => inputLoop n s (d.tab ds))
  | 0, _, d => TabR.id d true
  | n+1, s, d => by
    unfold inputLoop
    cases hr : utf8ReadChar s with
    | error e => exact TabR.fail (.inner e)
    | ok r =>
      obtain ⟨sz, cp⟩ := r
      show TabR (fun ds => if sz = 0 then .ok (d.tab ds, true) else match inputChar (d.tab ds) sz cp with
        | none => .ok (d.tab ds, false)
        | some d => inputLoop n (s.drop sz) d)
      by_cases h0 : sz = 0
      · simp only [if_pos h0]; exact TabR.id d true
      · simp only [if_neg h0, tab_inputChar]
        cases inputChar d sz cp with
        | none => exact TabR.id d false
        | some d' => exact tab_input n (s.drop sz) d'

theorem tab_client (env : Env) (d : Daemon) (con : Nat) (msg : Msg) :
    Tab (fun ds => handleClient env (d.tab ds) con msg) := by
  unfold handleClient
  by_cases h1 : msg.sz ≥ 4096
  · simp only [if_pos h1]; exact Tab.id (d.reply con .fail)
  by_cases h2 : msg.timeout > 1000000
  · simp only [if_neg h1, if_pos h2]; exact Tab.id (d.reply con .fail)
  simp only [if_neg h1, if_neg h2]
  cases msg.type with
  | «macro» =>
    dsimp only
    cases hm : macroParse (cstring (dropNewlines (msg.data.take msg.sz))) with
    | error e => exact Tab.fail (.inner e)
    | ok o =>
      cases o with
      | none => exact Tab.id (d.reply con .fail)
      | some m =>
        refine Or.inr ⟨(execMacro d (macroExecute m msg.timeout)).reply con .success, _root_.id, fun ds => ?_⟩
        show Except.ok ((execMacro (d.tab ds) (macroExecute m msg.timeout)).reply con .success) = _
        rw [tab_execMacro, List.map_id]
        rfl
  | input =>
    dsimp only
    exact (tab_input _ _ d).bind (fun d ok => Tab.id (d.reply con (if ok then .success else .fail)))
  | reload =>
    dsimp only
    exact (tab_reload env d).bind (fun d => Tab.id (d.reply con .success))
  | layerListen =>
    dsimp only
    unfold addListener
    by_cases hl : d.listeners.length = 32
    · have e1 : ∀ ds, (d.tab ds).listeners.length = 32 := fun _ => hl
      simp only [if_pos (e1 _)]
      exact Tab.id (d.reply con .tooManyListeners)
    · have e1 : ∀ ds, ¬ (d.tab ds).listeners.length = 32 := fun _ => hl
      simp only [if_neg (e1 _)]
      cases ha : d.active with
      | none =>
        have e2 : ∀ ds, (d.tab ds).active = none := fun _ => ha
        simp only [e2]
        exact Tab.id { d with listeners := d.listeners ++ [con], active := none }
      | some a =>
        have e2 : ∀ ds, (d.tab ds).active = some a := fun _ => ha
        simp only [e2]
        cases hk : d.heap a with
        | none =>
          have e3 : ∀ ds, (d.tab ds).heap a = none := fun _ => hk
          simp only [e3]
          exact Tab.fail _
        | some k =>
          have e3 : ∀ ds, (d.tab ds).heap a = some k := fun _ => hk
          simp only [e3]
          split
          · exact Tab.id { d with sent := (snapshot k).reverse.map (fun l => (con, l)) ++ d.sent, listeners := d.listeners ++ [con], active := some a }
          · exact Tab.id d
  | bind =>
    dsimp only
    exact (tab_bindAll _ d.configs d).bind (fun d ok => Tab.id (d.reply con (if ok then .success else .fail)))
  | _ => exact Tab.id (d.reply con .fail)

/-! ### The theorem -/

/-- The events of the main loop one after another, each with the circumstances (configuration files, devices that can
be grabbed, clients that read) and the time: the daemon at the end and the waits asked for. -/
def loopRun : List (Env × LoopEvent × Int) → Daemon → DRes (Daemon × List Int)
  | [], d => .ok (d, [])
  | (env, ev, t) :: es, d => do
    let (d, w) ← eventHandler env d ev t
    let (d, ws) ← loopRun es d
    .ok (d, w :: ws)

/-- The event comes from the device at place `i` of the table. -/
def LoopEvent.ofDevice (i : Nat) : LoopEvent → Prop
  | .dev j _ => j = i
  | _ => False

/-- The same event when the device at place `i` has left the table. -/
def LoopEvent.without (i : Nat) : LoopEvent → LoopEvent
  | .dev j e => .dev (if i < j then j - 1 else j) e
  | ev => ev

/-- The daemon without the device at place `i` of its table; nothing else changes. -/
def Daemon.unplug (d : Daemon) (i : Nat) : Daemon := { d with devices := d.devices.eraseIdx i }

theorem map_eraseIdx' {α β : Type} (f : α → β) : ∀ (l : List α) (i : Nat), (l.eraseIdx i).map f = (l.map f).eraseIdx i
  | [], _ => rfl
  | _ :: _, 0 => rfl
  | a :: l, i + 1 => by
    rw [List.eraseIdx_cons_succ, List.map_cons, List.map_cons, List.eraseIdx_cons_succ, map_eraseIdx' f l i]

theorem drop_one {α : Type} : ∀ (l : List α) (n i : Nat),
    ((l.zipIdx n).filter fun p => decide (p.2 ∉ [n + i])).map Prod.fst = l.eraseIdx i
  | [], _, _ => rfl
  | a :: l, n, 0 => by
    rw [List.zipIdx_cons, List.filter_cons_of_neg (by simp), List.eraseIdx_cons_zero]
    have : ∀ (l : List α) (m : Nat), n < m → ((l.zipIdx m).filter fun p => decide (p.2 ∉ [n + 0])).map Prod.fst = l := by
      intro l
      induction l with
      | nil => intro _ _; rfl
      | cons b l ih =>
        intro m hm
        rw [List.zipIdx_cons, List.filter_cons_of_pos (by simp; omega), List.map_cons, ih (m + 1) (by omega)]
    exact this l (n + 1) (by omega)
  | a :: l, n, i + 1 => by
    rw [List.zipIdx_cons, List.filter_cons_of_pos (by simp), List.map_cons, List.eraseIdx_cons_succ]
    have := drop_one l (n + 1) i
    rw [show n + 1 + i = n + (i + 1) by omega] at this
    rw [this]

theorem tab_event (env : Env) (d : Daemon) (ev : LoopEvent) (t : Int) (i : Nat) (hi : i < d.devices.length)
    (hev : ¬ ev.ofDevice i) :
    (∃ e, eventHandler env d ev t = .error e ∧ eventHandler env (d.unplug i) (ev.without i) t = .error e) ∨
    ∃ d' w, eventHandler env d ev t = .ok (d', w) ∧ i < d'.devices.length ∧
      eventHandler env (d.unplug i) (ev.without i) t = .ok (d'.unplug i, w) := by
  have key : ∀ (x : List Device → DRes Daemon), Tab x → ∀ g : Daemon → Int, (∀ d ds, g (Daemon.tab d ds) = g d) →
      (∃ e, (x d.devices >>= fun d => (.ok (d, g d) : DRes (Daemon × Int))) = .error e ∧
        (x (d.devices.eraseIdx i) >>= fun d => (.ok (d, g d) : DRes (Daemon × Int))) = .error e) ∨
      ∃ d' w, (x d.devices >>= fun d => (.ok (d, g d) : DRes (Daemon × Int))) = .ok (d', w) ∧ i < d'.devices.length ∧
        (x (d.devices.eraseIdx i) >>= fun d => (.ok (d, g d) : DRes (Daemon × Int))) = .ok (d'.unplug i, w) := by
    intro x hx g hg
    rcases hx with ⟨e, he⟩ | ⟨d', f, hd⟩
    · exact Or.inl ⟨e, by rw [he]; rfl, by rw [he]; rfl⟩
    · refine Or.inr ⟨d'.tab (d.devices.map f), g d', by rw [hd]; show Except.ok _ = _; rw [hg], ?_, ?_⟩
      · show i < (d.devices.map f).length
        rw [List.length_map]; exact hi
      · rw [hd]
        show Except.ok (_, g _) = _
        rw [hg, map_eraseIdx']
        rfl
  cases ev with
  | timeout =>
    cases ha : d.active with
    | none =>
      refine Or.inr ⟨tick d t, 0, ?_, hi, ?_⟩ <;> unfold eventHandler <;> dsimp only
      · rw [show (tick d t).active = none from ha]
      · show (match (tick (d.unplug i) t).active with | none => _ | some _ => _) = _
        rw [show (tick (d.unplug i) t).active = none from ha]
        rfl
    | some a =>
      have hx : ∀ ds, (kbdRun env ((tick d t).tab ds) a [⟨0, false, t⟩] >>= fun r =>
          (.ok ({ r.1 with timeout := r.2 }, r.2) : DRes (Daemon × Int))) =
          ((kbdRun env ((tick d t).tab ds) a [⟨0, false, t⟩] >>= fun r => (.ok { r.1 with timeout := r.2 } : DRes Daemon)) >>=
            fun d => (.ok (d, d.timeout) : DRes (Daemon × Int))) := fun ds => by
        cases kbdRun env ((tick d t).tab ds) a [⟨0, false, t⟩] <;> rfl
      have e1 : eventHandler env d .timeout t = (kbdRun env ((tick d t).tab d.devices) a [⟨0, false, t⟩] >>= fun r =>
          (.ok ({ r.1 with timeout := r.2 }, r.2) : DRes (Daemon × Int))) := by
        unfold eventHandler
        dsimp only
        rw [show (tick d t).active = some a from ha]
        rfl
      have e2 : eventHandler env (d.unplug i) (LoopEvent.without i .timeout) t =
          (kbdRun env ((tick d t).tab (d.devices.eraseIdx i)) a [⟨0, false, t⟩] >>= fun r =>
          (.ok ({ r.1 with timeout := r.2 }, r.2) : DRes (Daemon × Int))) := by
        show (match (tick (d.unplug i) t).active with | none => _ | some _ => _) = _
        rw [show (tick (d.unplug i) t).active = some a from ha]
        rfl
      rw [e1, e2, hx, hx]
      exact key _ ((tab_run env (tick d t) a [⟨0, false, t⟩]).bind (fun d w => Tab.id { d with timeout := w }))
        (fun d => d.timeout) (fun _ _ => rfl)
  | devRemove => exact Or.inr ⟨tick d t, (tick d t).timeout, rfl, hi, rfl⟩
  | devAdd dev =>
    refine Or.inr ⟨{ tick d t with devices := d.devices ++ [manageDevice env d.configs dev] }, (tick d t).timeout, rfl, ?_, ?_⟩
    · show i < (d.devices ++ [_]).length
      rw [List.length_append]; omega
    · show Except.ok _ = Except.ok _
      unfold Daemon.unplug
      dsimp only
      rw [List.eraseIdx_append_of_lt_length hi]
      rfl
  | client con msg =>
    exact key _ (tab_client env (tick d t) con msg) (fun d => d.timeout) (fun _ _ => rfl)
  | dev j e =>
    have hne : j ≠ i := fun h => hev h
    have hget : (d.devices.eraseIdx i)[if i < j then j - 1 else j]? = d.devices[j]? := by
      rw [List.getElem?_eraseIdx]
      by_cases h : i < j
      · rw [if_pos h, if_neg (by omega)]
        congr 1
        omega
      · rw [if_neg h, if_pos (by omega)]
    cases hd : d.devices[j]? with
    | none =>
      refine Or.inr ⟨tick d t, (tick d t).timeout, ?_, hi, ?_⟩
      · show (match d.devices[j]? with | none => _ | some _ => _) = _
        rw [hd]
      · show (match (d.devices.eraseIdx i)[if i < j then j - 1 else j]? with | none => _ | some _ => _) = _
        rw [hget, hd]
        rfl
    | some dev =>
      have h := key _ (tab_device env (tick d t) dev e t) (fun d => d.timeout) (fun _ _ => rfl)
      have e1 : eventHandler env d (.dev j e) t = (deviceEvent env ((tick d t).tab d.devices) dev e t >>= fun d =>
          (.ok (d, d.timeout) : DRes (Daemon × Int))) := by
        show (match d.devices[j]? with | none => _ | some _ => _) = _
        rw [hd]
        rfl
      have e2 : eventHandler env (d.unplug i) (LoopEvent.without i (.dev j e)) t =
          (deviceEvent env ((tick d t).tab (d.devices.eraseIdx i)) dev e t >>= fun d =>
          (.ok (d, d.timeout) : DRes (Daemon × Int))) := by
        show (match (d.devices.eraseIdx i)[if i < j then j - 1 else j]? with | none => _ | some _ => _) = _
        rw [hget, hd]
        rfl
      rw [e1, e2]
      exact h

/-- C83. Unplugging a device: from then on everything goes as if the device were still there and silent. Whatever
happens afterwards (events of the other devices, deadlines, clients, reloads, new devices), the same is sent to the
virtual keyboard, to the listeners and to the clients, the same waits are asked for, and the other devices get the same
keyboards and lights. -/
theorem C83_unplugged (i : Nat) : ∀ (es : List (Env × LoopEvent × Int)) (d : Daemon), i < d.devices.length →
    (∀ x ∈ es, ¬ x.2.1.ofDevice i) →
    loopRun (es.map fun x => (x.1, x.2.1.without i, x.2.2)) (d.unplug i) =
      (loopRun es d).map fun r => (r.1.unplug i, r.2)
  | [], d, _, _ => rfl
  | (env, ev, t) :: es, d, hi, h => by
    rw [List.map_cons]
    unfold loopRun
    rcases tab_event env d ev t i hi (h _ (List.mem_cons_self ..)) with ⟨e, e1, e2⟩ | ⟨d', w, e1, hi', e2⟩
    · dsimp only
      rw [e1, e2]; rfl
    · dsimp only
      rw [e1, e2]
      have ih := C83_unplugged i es d' hi' (fun x hx => h x (List.mem_cons_of_mem _ hx))
      show (loopRun _ (d'.unplug i) >>= _) = Except.map _ (loopRun es d' >>= _)
      rw [ih]
      cases loopRun es d' with
      | error e => rfl
      | ok r => rfl

/-- C83. Unplugging is all that the main loop does when a device is gone: the event itself sends nothing, to the
virtual keyboard or to anybody, and releases no key; and at the end of the iteration the device leaves the table. -/
theorem C83_nothing_sent (env : Env) (d d' : Daemon) (t w : Int) (run : eventHandler env d .devRemove t = .ok (d', w)) :
    d'.vout = d.vout ∧ d'.keystate = d.keystate ∧ d'.heap = d.heap ∧ d'.sent = d.sent ∧ d'.replies = d.replies ∧
    d'.devices = d.devices := by
  have e : eventHandler env d .devRemove t = .ok (tick d t, (tick d t).timeout) := rfl
  rw [e] at run
  cases run
  exact ⟨rfl, rfl, rfl, rfl, rfl, rfl⟩

theorem C83_leaves_table (l : Loop) (i : Nat) : dropRemoved l [i] = { l with d := l.d.unplug i } := by
  unfold dropRemoved Daemon.unplug
  have := drop_one l.d.devices 0 i
  rw [Nat.zero_add] at this
  rw [this]

/-! ### Examples -/

def secondKey (i : Nat) (c : Code) (v : UInt8) : LoopEvent := .dev i { type := .key, code := c, pressed := v, x := 0, y := 0 }

/-- Two keyboards; `s` is held on the first when it is unplugged; afterwards on the second `d` is typed, and `s` pressed
and released. -/
def unplugBefore : List (Env × LoopEvent × Int) :=
  [(demoEnv, demoKbd, 1), (demoEnv, .devAdd { id := b!"0003:0004", capabilities := CAP_KEYBOARD }, 2),
   (demoEnv, secondKey 0 31 1, 1000), (demoEnv, .devRemove, 1100)]

def unplugAfter : List (Env × LoopEvent × Int) :=
  [(demoEnv, secondKey 1 32 1, 2000), (demoEnv, secondKey 1 32 0, 2100), (demoEnv, secondKey 1 31 1, 3000),
   (demoEnv, secondKey 1 31 0, 3100)]

/-- What the virtual keyboard was told (oldest first) after the events, unplugging, and further events. -/
def unplugRun (before : List (Env × LoopEvent × Int)) (i : Nat) (after : List (Env × LoopEvent × Int)) : Option (List VOut) :=
  match reload demoEnv {} with
  | .error _ => none
  | .ok d =>
    match loopRun before d with
    | .error _ => none
    | .ok (d, _) =>
      if i < d.devices.length then
        match loopRun (after.map fun x => (x.1, x.2.1.without i, x.2.2)) (d.unplug i) with
        | .error _ => none
        | .ok (d, _) => some d.vout.reverse
      else none

/-- The key held on the unplugged keyboard stays down at the host, while other keys are typed on the second keyboard;
pressing it there sends nothing, releasing it there releases it. -/
theorem C83_example :
    unplugRun unplugBefore 0 (unplugAfter.take 2) = some [.key 31 true, .key 32 true, .key 32 false] ∧
    unplugRun unplugBefore 0 (unplugAfter.take 3) = some [.key 31 true, .key 32 true, .key 32 false] ∧
    unplugRun unplugBefore 0 unplugAfter = some [.key 31 true, .key 32 true, .key 32 false, .key 31 false] ∧
    ∀ x ∈ unplugAfter, ¬ x.2.1.ofDevice 0 := by
  refine ⟨?_, ?_, ?_, ?_⟩
  · set_option maxRecDepth 100000 in decide +kernel
  · set_option maxRecDepth 100000 in decide +kernel
  · set_option maxRecDepth 100000 in decide +kernel
  · intro x hx
    unfold unplugAfter at hx
    simp only [List.mem_cons, List.not_mem_nil, or_false] at hx
    rcases hx with rfl | rfl | rfl | rfl <;> (intro h; exact absurd (show (1 : Nat) = 0 from h) (by decide))

end Keyd
