import Verif.Proofs.LayerOps
import Verif.Props.Listeners
import Verif.Props.Document
import Verif.Props.Reload

/-
  C64: the layer indicator. With `layer_indicator` set, the caps lock LED of the devices of a keyboard is lit
  while one of its layers is active.
-/

set_option autoImplicit false

namespace Keyd

attribute [local irreducible] configInit

/-! ### Specification -/

/-- The LED of the device tells whether a layer of its keyboard is active (if the configuration asks for it). -/
def Device.indicates (d : Daemon) (dev : Device) : Prop :=
  ∀ addr k, dev.data = some addr → d.heap addr = some k → k.config.layerIndicator ≠ 0 →
    (dev.led 1 = true ↔ ∃ name, ActiveLayer k name)

/-- The event may set LEDs in another way: the host sets an LED of the virtual keyboard, or the configuration is
reloaded. -/
def LoopEvent.meddles (d : Daemon) : LoopEvent → Prop
  | .dev i e => e.type = .led ∧ ∃ dev, d.devices[i]? = some dev ∧ dev.isVirtual = true
  | .client _ msg => msg.type = .reload
  | _ => False

/-! ### Proofs -/

/-- What the LED is set to. -/
def ledOf (c : Config) (counts : Nat → Nat) : Bool :=
  (List.range c.layers.length).any fun i => decide (i ≠ 0 ∧ (c.layer i).type ≠ .layout ∧ counts i ≠ 0)

/-- The counts after some output. -/
def replay (c : Config) : (Nat → Nat) → List Out → (Nat → Nat)
  | n, [] => n
  | n, .layer i b :: os => replay c (if (c.layer i).type = .layout then n else upd n i (if b then n i + 1 else n i - 1)) os
  | n, _ :: os => replay c n os

theorem send_devices (d : Daemon) (code : Code) (down : Bool) : (daemonSendKey d code down).devices = d.devices := by
  unfold daemonSendKey
  dsimp only
  repeat' split
  all_goals rfl

theorem change_devices (env : Env) (d : Daemon) (a : Nat) (c : Config) (n : Nat → Nat) (i : Nat) (b : Bool) :
    (onLayerChange env d a c n i b).devices = d.devices.map (fun dev =>
      if dev.data = some a ∧ c.layerIndicator ≠ 0 then { dev with led := upd dev.led 1 (ledOf c n) } else dev) := by
  have e : (onLayerChange env d a c n i b).devices = (if c.layerIndicator ≠ 0 then setLed d a 1 (ledOf c n) else d).devices := by
    have : ∀ (d : Daemon) line, (if d.listeners = [] then d else broadcast env d line).devices = d.devices := by
      intro d line
      split <;> rfl
    unfold onLayerChange
    dsimp only
    rw [this]
    rfl
  rw [e]
  by_cases h : c.layerIndicator ≠ 0
  · rw [if_pos h]
    unfold setLed
    dsimp only
    apply List.map_congr_left
    intro dev _
    by_cases hd : dev.data = some a
    · rw [if_pos hd, if_pos ⟨hd, h⟩]
    · rw [if_neg hd, if_neg (fun h => hd h.1)]
  · rw [if_neg h]
    have : ∀ dev : Device, (if dev.data = some a ∧ c.layerIndicator ≠ 0 then { dev with led := upd dev.led 1 (ledOf c n) } else dev) = dev :=
      fun dev => if_neg (fun h' => h h'.2)
    simp only [this, List.map_id']

/-- The device after some output. -/
def ledAfter (c : Config) (a : Nat) (n : Nat → Nat) (os : List Out) (dev : Device) : Device :=
  if dev.data = some a ∧ c.layerIndicator ≠ 0 ∧ os.any Out.isLayer = true then { dev with led := upd dev.led 1 (ledOf c (replay c n os)) }
  else dev

theorem replay_idle {c : Config} : ∀ {os : List Out} {m : Nat → Nat}, ¬ os.any Out.isLayer = true → replay c m os = m := by
  intro os
  induction os with
  | nil => intro m _; rfl
  | cons o os ih =>
    intro m h
    rw [List.any_cons, Bool.or_eq_true, not_or] at h
    cases o with
    | layer i b => exact absurd rfl h.1
    | key x b => exact ih h.2
    | command x => exact ih h.2
    | sleep x => exact ih h.2

theorem applyOuts_devices (env : Env) (a : Nat) (c : Config) : ∀ (os : List Out) (d : Daemon) (n : Nat → Nat),
    (applyOuts env a c d n os).devices = d.devices.map (ledAfter c a n os)
  | [], d, n => by
    have : ∀ dev, ledAfter c a n [] dev = dev := fun dev => if_neg (fun h => by cases h.2.2)
    rw [show ledAfter c a n [] = id from funext this, List.map_id]
    rfl
  | .key x b :: os, d, n => by
    show (applyOuts env a c (daemonSendKey d x b) n os).devices = _
    rw [applyOuts_devices env a c os, send_devices]
    rfl
  | .command x :: os, d, n => by
    show (applyOuts env a c d n os).devices = _
    rw [applyOuts_devices env a c os]
    rfl
  | .sleep x :: os, d, n => by
    show (applyOuts env a c d n os).devices = _
    rw [applyOuts_devices env a c os]
    rfl
  | .layer i b :: os, d, n => by
    show (applyOuts env a c (onLayerChange env d a c (if (c.layer i).type = .layout then n else upd n i (if b then n i + 1 else n i - 1)) i b)
      (if (c.layer i).type = .layout then n else upd n i (if b then n i + 1 else n i - 1)) os).devices = _
    rw [applyOuts_devices env a c os, change_devices, List.map_map]
    apply List.map_congr_left
    intro dev _
    dsimp only [Function.comp]
    unfold ledAfter
    have hr : replay c n (.layer i b :: os) = replay c (if (c.layer i).type = .layout then n else upd n i (if b then n i + 1 else n i - 1)) os := rfl
    rw [hr]
    generalize (if (c.layer i).type = LayerType.layout then n else upd n i (if b then n i + 1 else n i - 1)) = m
    by_cases h : dev.data = some a ∧ c.layerIndicator ≠ 0
    · rw [if_pos h, if_pos (show dev.data = some a ∧ c.layerIndicator ≠ 0 ∧ ((Out.layer i b :: os).any Out.isLayer = true) from ⟨h.1, h.2, rfl⟩)]
      by_cases ho : os.any Out.isLayer = true
      · rw [if_pos ⟨h.1, h.2, ho⟩]
        dsimp only
        rw [upd_upd]
      · rw [if_neg (fun h' => ho h'.2.2)]
        rw [replay_idle ho]
    · rw [if_neg h, if_neg (fun h' => h ⟨h'.1, h'.2.1⟩), if_neg (fun h' => h ⟨h'.1, h'.2.1⟩)]

theorem replay_nest (c : Config) (i : Nat) (hi : (c.layer i).type ≠ .layout) : ∀ (os : List Out) (n : Nat → Nat) (tr : List Out),
    n i = nest i tr → replay c n os i = nest i (os.reverse ++ tr)
  | [], n, tr, h => h
  | .key x b :: os, n, tr, h => by
    show replay c n os i = _
    rw [replay_nest c i hi os n (.key x b :: tr) h]
    simp
  | .command x :: os, n, tr, h => by
    show replay c n os i = _
    rw [replay_nest c i hi os n (.command x :: tr) h]
    simp
  | .sleep x :: os, n, tr, h => by
    show replay c n os i = _
    rw [replay_nest c i hi os n (.sleep x :: tr) h]
    simp
  | .layer j b :: os, n, tr, h => by
    show replay c (if (c.layer j).type = .layout then n else upd n j (if b then n j + 1 else n j - 1)) os i = _
    rw [replay_nest c i hi os _ (.layer j b :: tr) ?_]
    · simp
    · show _ = if j = i then (if b then nest i tr + 1 else nest i tr - 1) else nest i tr
      by_cases hj : j = i
      · subst hj
        rw [if_neg hi, if_pos rfl, upd_same, h]
      · rw [if_neg hj]
        split
        · exact h
        · rw [upd_other _ _ (fun e => hj e.symm)]
          exact h

theorem active_led {c : Config} (hw : WF c) {k : Kbd} (hs : SameShape c k.config) :
    (∃ name, ActiveLayer k name) ↔ ledOf k.config (fun i => (k.layerState i).active) = true := by
  unfold ledOf
  rw [List.any_eq_true]
  constructor
  · rintro ⟨name, i, l, hl, _, ht, ha⟩
    refine ⟨i, List.mem_range.2 (List.getElem?_eq_some_iff.1 hl).1, decide_eq_true ⟨?_, ?_, ha⟩⟩
    · rintro rfl
      have h0 : (k.config.layer 0).type = .layout := by
        rw [hs.type]
        obtain ⟨l0, ls, e, _, ht⟩ := hw.mainFirst
        unfold Config.layer
        rw [e]
        exact ht
      rw [layer_of_getElem hl] at h0
      exact ht h0
    · rw [layer_of_getElem hl]; exact ht
  · rintro ⟨i, hi, h⟩
    obtain ⟨_, ht, ha⟩ := of_decide_eq_true h
    have hlt := List.mem_range.1 hi
    have hg : k.config.layers[i]? = some k.config.layers[i] := List.getElem?_eq_getElem hlt
    rw [layer_of_getElem hg] at ht
    exact ⟨_, i, _, hg, rfl, ht, ha⟩

theorem ledOf_congr (c : Config) {m n : Nat → Nat} (h : ∀ i, i < c.layers.length → (c.layer i).type ≠ .layout → m i = n i) :
    ledOf c m = ledOf c n := by
  unfold ledOf
  rw [Bool.eq_iff_iff, List.any_eq_true, List.any_eq_true]
  constructor
  · rintro ⟨i, hi, hp⟩
    obtain ⟨h1, h2, h3⟩ := of_decide_eq_true hp
    exact ⟨i, hi, decide_eq_true ⟨h1, h2, by rw [← h i (List.mem_range.1 hi) h2]; exact h3⟩⟩
  · rintro ⟨i, hi, hp⟩
    obtain ⟨h1, h2, h3⟩ := of_decide_eq_true hp
    exact ⟨i, hi, decide_eq_true ⟨h1, h2, by rw [h i (List.mem_range.1 hi) h2]; exact h3⟩⟩

/-- The indicator setting never changes. -/
theorem indicator_fixed {c : Config} (hb : Bound c) {k : Kbd} (h : HistoryOf c k) : k.config.layerIndicator = c.layerIndicator := by
  induction h with
  | start => rfl
  | events n k evs k' w _ run ih =>
    rw [(kbdProcessEvents_sat (config_outInv k.config).engineInv n k evs rfl).of_ok run]
    exact ih
  | bind k exp k' ok h run ih =>
    have ho := C25_reset_restores c k h
    by_cases e : exp = b!"reset"
    · subst e
      rw [ho] at run
      cases run
      rfl
    · unfold kbdEval at run
      rw [if_neg e, bind_eq_ok] at run
      obtain ⟨⟨c', ok'⟩, h1, run⟩ := run
      cases run
      have := configAddEntry_settings (layerFacts_history (C27_wellformed c hb) h).1.wf h1
      have e2 : c'.settings.layerIndicator = k.config.settings.layerIndicator := by rw [this]
      exact (show c'.layerIndicator = k.config.layerIndicator from e2).trans ih
  | scroll k s _ ih => exact ih

/-- Every device of `d` is still there in `d'`, at the same place, and if its LED was right it still is. -/
def Shown (d d' : Daemon) : Prop :=
  d'.devices.length = d.devices.length ∧
    ∀ (i : Nat) dev, d.devices[i]? = some dev → ∃ dev', d'.devices[i]? = some dev' ∧ (dev.indicates d → dev'.indicates d')

theorem Shown.refl (d : Daemon) : Shown d d := ⟨rfl, fun _ dev h => ⟨dev, h, id⟩⟩

theorem Shown.trans {a b c : Daemon} (h : Shown a b) (h' : Shown b c) : Shown a c := by
  refine ⟨h'.1.trans h.1, ?_⟩
  intro i dev e
  obtain ⟨dev1, e1, h1⟩ := h.2 i dev e
  obtain ⟨dev2, e2, h2⟩ := h'.2 i dev1 e1
  exact ⟨dev2, e2, h2 ∘ h1⟩

/-- The keyboards agree on what the LED should be. -/
def Alike (k k' : Kbd) : Prop :=
  k'.config.layerIndicator = k.config.layerIndicator ∧ ((∃ name, ActiveLayer k' name) ↔ ∃ name, ActiveLayer k name)

theorem shown_alike {d d' : Daemon} (hd : d'.devices = d.devices)
    (hh : ∀ a k', d'.heap a = some k' → ∃ k, d.heap a = some k ∧ Alike k k') : Shown d d' := by
  refine ⟨by rw [hd], ?_⟩
  intro i dev e
  refine ⟨dev, by rw [hd]; exact e, ?_⟩
  intro h a k' ea ek hi
  obtain ⟨k, e1, e2, e3⟩ := hh a k' ek
  rw [e3]
  exact h a k ea e1 (by rw [← e2]; exact hi)

theorem shown_same {d d' : Daemon} (hd : d'.devices = d.devices) (hh : d'.heap = d.heap) : Shown d d' :=
  shown_alike hd (fun _ k' e => ⟨k', by rw [← hh]; exact e, rfl, Iff.rfl⟩)

theorem shown_kbdRun {env : Env} {d d' : Daemon} {addr : Nat} {evs : List KeyEvent} {w : Int} (hd : DInv d)
    (run : kbdRun env d addr evs = .ok (d', w)) : Shown d d' := by
  unfold kbdRun at run
  cases hk : d.heap addr with
  | none => rw [hk] at run; cases run
  | some k =>
  rw [hk] at run
  dsimp only at run
  obtain ⟨⟨k', w'⟩, h1, h2⟩ := dbind_eq_ok.1 run
  have h1 : kbdProcessEvents env.fuel k evs = .ok (k', w') := by
    cases hr : kbdProcessEvents env.fuel k evs with
    | ok r => rw [hr] at h1; injection h1 with h1; rw [h1]
    | error e => rw [hr] at h1; cases h1
  dsimp only at h2
  injection h2 with h2
  have e1 := congrArg Prod.fst h2
  dsimp only at e1
  obtain ⟨os, hos⟩ := events_grow h1
  have hnew : k'.trace.take (k'.trace.length - k.trace.length) = os := by
    rw [hos, List.length_append, Nat.add_sub_cancel, List.take_left' rfl]
  rw [hnew] at e1
  have hdev : d'.devices = d.devices.map (ledAfter k.config addr (fun i => (k.layerState i).active) os.reverse) := by
    rw [← e1, applyOuts_devices]
  have hheap : d'.heap = upd d.heap addr (some k') := by
    rw [← e1, (keeps_applyOuts env addr k.config os.reverse _ _).1.heap]
  obtain ⟨e, he, hea⟩ := hd.owned addr (by rw [hk]; exact fun h => by cases h)
  obtain ⟨k0, hk0, hist⟩ := hd.live e he
  rw [hea, hk] at hk0
  injection hk0 with hk0
  subst hk0
  have hw := C27_wellformed _ (hd.bound e he)
  have hist' : HistoryOf e.config k' := .events _ _ _ _ _ hist h1
  have hc : k'.config = k.config := (kbdProcessEvents_sat (config_outInv k.config).engineInv _ k evs rfl).of_ok h1
  have ha := announced_history hw hist
  have ha' := announced_history hw hist'
  have hty : ∀ i, i < k.config.layers.length → (k.config.layer i).type ≠ .layout → isLayout e.config i = false := by
    intro i hl hi
    rw [ha.shape.type] at hi
    exact not_layout (by rw [← ha.shape.1]; exact hl) hi
  have key : ledOf k.config (replay k.config (fun i => (k.layerState i).active) os.reverse) =
      ledOf k'.config (fun i => (k'.layerState i).active) := by
    rw [hc]
    apply ledOf_congr
    intro i hl hi
    rw [replay_nest k.config i hi os.reverse _ k.trace (nest_counts ha (hty i hl hi)).symm, List.reverse_reverse, ← hos]
    exact nest_counts ha' (hty i hl hi)
  refine ⟨by rw [hdev, List.length_map], ?_⟩
  intro i dev hi
  refine ⟨_, by rw [hdev, List.getElem?_map, hi]; rfl, ?_⟩
  intro hin a k2 ea ek hind
  have hda : (ledAfter k.config addr (fun i => (k.layerState i).active) os.reverse dev).data = dev.data := by
    unfold ledAfter; split <;> rfl
  rw [hda] at ea
  rw [hheap] at ek
  by_cases haa : a = addr
  · subst haa
    rw [upd_same] at ek
    injection ek with ek
    subst ek
    rw [hc] at hind
    have hold := hin a k ea hk hind
    rw [active_led hw ha'.shape, ← key]
    rw [active_led hw ha.shape] at hold
    unfold ledAfter
    by_cases ho : os.reverse.any Out.isLayer = true
    · rw [if_pos ⟨ea, hind, ho⟩]
      dsimp only
      rw [upd_same]
    · rw [if_neg (fun h => ho h.2.2), hold]
      rw [replay_idle ho]
  · rw [upd_other _ _ haa] at ek
    have : ledAfter k.config addr (fun i => (k.layerState i).active) os.reverse dev = dev := by
      unfold ledAfter
      rw [if_neg]
      rintro ⟨h, _⟩
      rw [ea] at h
      injection h with h
      exact haa h
    rw [this]
    exact hin a k2 ea ek hind

theorem alike_bind {c : Config} (hb : Bound c) {k k' : Kbd} {exp : Str} {ok : Bool} (h : HistoryOf c k)
    (run : kbdEval k exp = .ok (k', ok)) : Alike k k' := by
  have h' : HistoryOf c k' := .bind k exp k' ok h run
  have hw := C27_wellformed _ hb
  have ha := announced_history hw h
  have ha' := announced_history hw h'
  refine ⟨by rw [indicator_fixed hb h', indicator_fixed hb h], ?_⟩
  rw [active_led hw ha.shape, active_led hw ha'.shape]
  have e := kbdEval_frame run
  have hs : k'.layerState = k.layerState := by rw [e]
  rw [hs]
  have : ledOf k'.config (fun i => (k.layerState i).active) = ledOf k.config (fun i => (k.layerState i).active) := by
    have hl : k'.config.layers.length = k.config.layers.length := ha'.shape.1.trans ha.shape.1.symm
    unfold ledOf
    rw [hl]
    congr 1
    funext i
    rw [ha'.shape.type, ha.shape.type]
  rw [this]

theorem shown_bindAll (exp : Str) : ∀ (es : List Ent) {d d' : Daemon} {b : Bool}, DInv d → (∀ e ∈ es, e ∈ d.configs) →
    bindAll exp es d = .ok (d', b) → Shown d d'
  | [], d, d', b, _, _, run => by
    have : d = d' := by injection run with run; exact congrArg Prod.fst run
    rw [this]
    exact .refl _
  | e :: es, d, d', b, hd, hm, run => by
    unfold bindAll at run
    obtain ⟨k, hk, hist⟩ := hd.live e (hm e List.mem_cons_self)
    rw [hk] at run
    dsimp only at run
    obtain ⟨⟨k', ok⟩, h1, h2⟩ := dbind_eq_ok.1 run
    have h1 := lift_ok.1 h1
    dsimp only at h2
    obtain ⟨⟨d2, any⟩, h3, h4⟩ := dbind_eq_ok.1 h2
    injection h4 with h4
    have e4 : d2 = d' := congrArg Prod.fst h4
    subst e4
    have hd1 : DInv { d with heap := upd d.heap e.kbd (some k') } :=
      hd.setKbd hk (fun c hc => HistoryOf.bind k exp k' ok hc h1)
    refine Shown.trans (b := { d with heap := upd d.heap e.kbd (some k') }) ?_
      (shown_bindAll exp es hd1 (fun x hx => hm x (List.mem_cons_of_mem _ hx)) h3)
    refine shown_alike rfl ?_
    intro a k2 ek
    dsimp only at ek
    by_cases ha : a = e.kbd
    · subst ha
      rw [upd_same] at ek
      injection ek with ek
      subst ek
      exact ⟨k, hk, alike_bind (hd.bound e (hm e List.mem_cons_self)) hist h1⟩
    · rw [upd_other _ _ ha] at ek
      exact ⟨k2, ek, rfl, Iff.rfl⟩

theorem execMacro_devices : ∀ (l : List MacroOut) (d : Daemon), (execMacro d l).devices = d.devices
  | [], _ => rfl
  | .key c b :: l, d => by
    show (execMacro (daemonSendKey d c b) l).devices = _
    rw [execMacro_devices l, send_devices]
  | .sleep _ :: l, d => execMacro_devices l d

theorem vtaps_devices : ∀ (l : List Code) (d : Daemon), (l.foldl Daemon.vtap d).devices = d.devices
  | [], _ => rfl
  | c :: l, d => by
    show (l.foldl Daemon.vtap (d.vtap c)).devices = _
    rw [vtaps_devices l]
    rfl

theorem inputChar_devices {d d' : Daemon} {sz cp : Nat} (run : inputChar d sz cp = some d') :
    d'.devices = d.devices ∧ d'.heap = d.heap := by
  have taps : ∀ (l : List Code) (d : Daemon), (l.foldl Daemon.vtap d).heap = d.heap := by
    intro l
    induction l with
    | nil => intro d; rfl
    | cons c l ih => intro d; exact ih (d.vtap c)
  unfold inputChar at run
  dsimp only at run
  split at run
  · rename_i dd hdd
    injection run with run
    subst run
    repeat' split at hdd
    all_goals first
      | (cases hdd; done)
      | (injection hdd with hdd; subst hdd; exact ⟨rfl, rfl⟩)
  · split at run
    · cases run
    · injection run with run
      subst run
      exact ⟨vtaps_devices _ _, taps _ _⟩

theorem inputLoop_devices : ∀ (n : Nat) (s : Str) {d d' : Daemon} {b : Bool}, inputLoop n s d = .ok (d', b) →
    d'.devices = d.devices ∧ d'.heap = d.heap
  | 0, s, d, d', b, run => by
    have : d = d' := by injection run with run; exact congrArg Prod.fst run
    subst this
    exact ⟨rfl, rfl⟩
  | n+1, s, d, d', b, run => by
    unfold inputLoop at run
    obtain ⟨⟨sz, cp⟩, _, run⟩ := dbind_eq_ok.1 run
    dsimp only at run
    split at run
    · have : d = d' := by injection run with run; exact congrArg Prod.fst run
      subst this
      exact ⟨rfl, rfl⟩
    · split at run
      · have : d = d' := by injection run with run; exact congrArg Prod.fst run
        subst this
        exact ⟨rfl, rfl⟩
      · rename_i d1 h1
        obtain ⟨a, b⟩ := inputLoop_devices n _ run
        obtain ⟨a', b'⟩ := inputChar_devices h1
        exact ⟨a.trans a', b.trans b'⟩

theorem shown_client {env : Env} {d d' : Daemon} {con : Nat} {msg : Msg} (hd : DInv d) (hm : msg.type ≠ .reload)
    (run : handleClient env d con msg = .ok d') : Shown d d' := by
  have stop : ∀ {d d' : Daemon} {r : Reply}, (.ok (d.reply con r) : DRes Daemon) = .ok d' → Shown d d' := by
    intro d d' r h
    injection h with h
    subst h
    exact shown_same rfl rfl
  unfold handleClient at run
  split at run
  · exact stop run
  split at run
  · exact stop run
  dsimp only at run
  split at run
  · obtain ⟨o, _, run⟩ := dbind_eq_ok.1 run
    cases o with
    | none => exact stop run
    | some m =>
      injection run with run
      subst run
      exact shown_same (execMacro_devices _ _) (execMacro_keeps _ d).1.heap
  · obtain ⟨⟨d1, ok⟩, h1, run⟩ := dbind_eq_ok.1 run
    obtain ⟨a, b⟩ := inputLoop_devices _ _ h1
    exact (shown_same a b).trans (stop run)
  · rename_i h; exact absurd h hm
  · unfold addListener at run
    split at run
    · injection run with run
      subst run
      exact shown_same rfl rfl
    · split at run
      · injection run with run
        subst run
        exact shown_same rfl rfl
      · split at run
        · cases run
        · split at run
          all_goals
            injection run with run
            subst run
            exact shown_same rfl rfl
  · obtain ⟨⟨d1, ok⟩, h1, run⟩ := dbind_eq_ok.1 run
    exact (shown_bindAll _ _ hd (fun e he => he) h1).trans (stop run)
  · exact stop run

theorem shown_keypress {env : Env} {d d' : Daemon} {a : Nat} {c : Code} {t w : Int} (hd : DInv d)
    (run : processKeypress env d a c t = .ok (d', w)) : Shown d d' := by
  unfold processKeypress at run
  obtain ⟨⟨d1, w1⟩, h1, h2⟩ := dbind_eq_ok.1 run
  exact (shown_kbdRun hd h1).trans (shown_kbdRun ((kbdRun_sat hd).of_ok h1).1 h2)

theorem shown_repeat {env : Env} {a : Nat} {c : Code} {t : Int} : ∀ (n : Nat) {d d' : Daemon}, DInv d →
    repeatKeypress env a c t n d = .ok d' → DInv d' ∧ Shown d d'
  | 0, d, d', hd, run => by
    injection run with run
    subst run
    exact ⟨hd, .refl d⟩
  | n+1, d, d', hd, run => by
    unfold repeatKeypress at run
    obtain ⟨⟨d1, w⟩, h1, h2⟩ := dbind_eq_ok.1 run
    dsimp only at h2
    have i1 : DInv d1 := ((processKeypress_sat hd).of_ok h1).1
    obtain ⟨i2, s2⟩ := shown_repeat n (i1.setTimeout w) h2
    exact ⟨i2, ((shown_keypress hd h1).trans (shown_same (d' := { d1 with timeout := w }) rfl rfl)).trans s2⟩

theorem shown_managed {env : Env} {d d' : Daemon} {a : Nat} {e : DevEvent} {t : Int} (hd : DInv d)
    (run : managedEvent env d a e t = .ok d') : Shown d d' := by
  have s0 : Shown d { d with active := some a } := shown_same rfl rfl
  have h0 : DInv { d with active := some a } := hd.setActive _
  refine s0.trans ?_
  unfold managedEvent at run
  dsimp only at run
  split at run
  · obtain ⟨⟨d1, w⟩, h1, h2⟩ := dbind_eq_ok.1 run
    injection h2 with h2
    subst h2
    exact (shown_kbdRun h0 h1).trans (shown_same rfl rfl)
  · split at run
    · cases run
    · rename_i k hk
      injection run with run
      subst run
      split
      · unfold scrollMove
        split
        · exact .refl _
        · refine shown_alike rfl ?_
          intro b k' ek
          change upd d.heap a _ b = some k' at ek
          by_cases hb : b = a
          · subst hb
            rw [upd_same] at ek
            injection ek with ek
            subst ek
            exact ⟨k, hk, rfl, Iff.rfl⟩
          · rw [upd_other _ _ hb] at ek
            exact ⟨k', ek, rfl, Iff.rfl⟩
      · exact shown_same rfl rfl
  · injection run with run
    subst run
    exact shown_same rfl rfl
  · obtain ⟨d1, h1, run⟩ := dbind_eq_ok.1 run
    obtain ⟨d2, h2, run⟩ := dbind_eq_ok.1 run
    obtain ⟨d3, h3, run⟩ := dbind_eq_ok.1 run
    obtain ⟨i1, s1⟩ := shown_repeat _ h0 h1
    obtain ⟨i2, s2⟩ := shown_repeat _ i1 h2
    obtain ⟨i3, s3⟩ := shown_repeat _ i2 h3
    obtain ⟨_, s4⟩ := shown_repeat _ i3 run
    exact ((s1.trans s2).trans s3).trans s4
  · injection run with run
    subst run
    exact .refl _

theorem shown_event {env : Env} {d d' : Daemon} {ev : LoopEvent} {t w : Int} (hd : DHistory d) (hm : ¬ ev.meddles d)
    (run : eventHandler env d ev t = .ok (d', w)) :
    Shown d d' ∨ ∃ dev, ev = .devAdd dev ∧ d' = { tick d t with devices := d.devices ++ [manageDevice env d.configs dev] } := by
  have hinv := (dinv_history hd).tick t
  have s0 : Shown d (tick d t) := shown_same rfl rfl
  by_cases hadd : ∃ dev, ev = .devAdd dev
  · obtain ⟨dev, rfl⟩ := hadd
    right
    unfold eventHandler at run
    injection run with run
    exact ⟨dev, rfl, (congrArg Prod.fst run).symm⟩
  left
  refine s0.trans ?_
  unfold eventHandler at run
  dsimp only at run
  split at run
  · split at run
    · injection run with run
      have := congrArg Prod.fst run
      dsimp only at this
      rw [this]
      exact .refl _
    · obtain ⟨⟨d1, w1⟩, h1, h2⟩ := dbind_eq_ok.1 run
      injection h2 with h2
      have := congrArg Prod.fst h2
      dsimp only at this
      rw [← this]
      exact (shown_kbdRun hinv h1).trans (shown_same rfl rfl)
  · rename_i j e
    split at run
    · injection run with run
      have := congrArg Prod.fst run
      dsimp only at this
      rw [this]
      exact .refl _
    · rename_i dv hdv
      obtain ⟨d1, h1, h2⟩ := dbind_eq_ok.1 run
      injection h2 with h2
      have := congrArg Prod.fst h2
      dsimp only at this
      rw [← this]
      unfold deviceEvent at h1
      split at h1
      · exact shown_managed hinv h1
      · split at h1
        · split at h1
          · split at h1
            · obtain ⟨⟨d2, w2⟩, h3, h4⟩ := dbind_eq_ok.1 h1
              injection h4 with h4
              subst h4
              exact (shown_keypress hinv h3).trans (shown_same rfl rfl)
            · injection h1 with h1; subst h1; exact .refl _
          · injection h1 with h1; subst h1; exact .refl _
        · split at h1
          · rename_i hv
            exact absurd ⟨hv.2, dv, hdv, hv.1⟩ hm
          · injection h1 with h1; subst h1; exact .refl _
  · rename_i dev
    exact absurd ⟨dev, rfl⟩ hadd
  · injection run with run
    have := congrArg Prod.fst run
    dsimp only at this
    rw [this]
    exact .refl _
  · obtain ⟨d1, h1, h2⟩ := dbind_eq_ok.1 run
    injection h2 with h2
    have := congrArg Prod.fst h2
    dsimp only at this
    rw [← this]
    exact shown_client hinv hm h1

/-- C64. Whatever the daemon does, except that the host sets an LED or the configuration is reloaded: a device whose LED
tells whether a layer of its keyboard is active still tells it afterwards. -/
theorem C64_indicator_partial {env : Env} {d d' : Daemon} {ev : LoopEvent} {t w : Int} (hd : DHistory d) (hm : ¬ ev.meddles d)
    (run : eventHandler env d ev t = .ok (d', w)) (i : Nat) (dev : Device) (hi : d.devices[i]? = some dev)
    (right : dev.indicates d) : ∃ dev', d'.devices[i]? = some dev' ∧ dev'.indicates d' := by
  rcases shown_event hd hm run with h | ⟨nd, rfl, rfl⟩
  · obtain ⟨dev', h1, h2⟩ := h.2 i dev hi
    exact ⟨dev', h1, h2 right⟩
  · refine ⟨dev, ?_, right⟩
    show (d.devices ++ _)[i]? = some dev
    rw [List.getElem?_append_left (List.getElem?_eq_some_iff.1 hi).1]
    exact hi

/-- The keyboard with this address has an active layer. -/
def Daemon.layerOn (d : Daemon) (addr : Nat) : Prop := ∃ k, d.heap addr = some k ∧ ∃ name, ActiveLayer k name

/-- A run of the daemon without such meddling: devices are plugged in with the LED off, and while no layer of the keyboard
they are added to is active. -/
inductive PlainRun : Daemon → Prop
  | start (env : Env) (d : Daemon) (run : reload env {} = .ok d) : PlainRun d
  | event (env : Env) (d : Daemon) (ev : LoopEvent) (t : Int) (d' : Daemon) (w : Int) (h : PlainRun d)
      (run : eventHandler env d ev t = .ok (d', w)) (plain : ¬ ev.meddles d)
      (fresh : ∀ dev, ev = .devAdd dev → dev.data = none ∧ dev.led 1 = false)
      (rest : ∀ dev, ev = .devAdd dev → ∀ addr, (manageDevice env d.configs dev).data = some addr → ¬ d.layerOn addr) : PlainRun d'
  | remove (d : Daemon) (removed : List Nat) (h : PlainRun d) :
      PlainRun { d with devices := (d.devices.zipIdx.filter fun p => decide (p.2 ∉ removed)).map Prod.fst }

theorem PlainRun.history {d : Daemon} (h : PlainRun d) : DHistory d := by
  induction h with
  | start env d run => exact .start env d run
  | event env d ev t d' w _ run _ fresh _ ih => exact .event env d ev t d' w ih run (fun dev e => (fresh dev e).1)
  | remove d removed _ ih => exact .remove d removed ih

theorem reload_empty {env : Env} {d : Daemon} (run : reload env {} = .ok d) : d.devices = [] := by
  unfold reload at run
  obtain ⟨d1, h1, run⟩ := dbind_eq_ok.1 run
  have run := Except.ok.inj run
  obtain ⟨k1, e1, _⟩ := kinv_loadAll env.confs (kinv_free dinv_init) h1
  have h2 := DInv.manage k1 env d1.devices (by rw [e1]; intro dev h; cases h)
  have hd := (clearVkbd_spec _ h2.tracked).1.data
  rw [run, e1] at hd
  exact List.map_eq_nil_iff.1 hd

/-- The LED of a device that is plugged in. -/
theorem manageDevice_led (env : Env) (cs : List Ent) (dev : Device) : (manageDevice env cs dev).led = dev.led := by
  unfold manageDevice
  repeat' split
  all_goals rfl

/-- C64. In such a run the LED of every device tells at any time whether a layer of its keyboard is active. -/
theorem C64_always_partial {d : Daemon} (h : PlainRun d) : ∀ dev ∈ d.devices, dev.indicates d := by
  induction h with
  | start env d run =>
    rw [reload_empty run]
    intro dev h
    cases h
  | event env d ev t d' w h run plain fresh rest ih =>
    intro dev' hm
    obtain ⟨i, hi, e⟩ := List.mem_iff_getElem.1 hm
    by_cases hl : i < d.devices.length
    · have hg : d.devices[i]? = some d.devices[i] := List.getElem?_eq_getElem hl
      obtain ⟨dev2, h1, h2⟩ := C64_indicator_partial h.history plain run i _ hg (ih _ (List.getElem_mem hl))
      rw [List.getElem?_eq_getElem hi, e] at h1
      injection h1 with h1
      rw [h1]
      exact h2
    · rcases shown_event h.history plain run with hs | ⟨nd, rfl, rfl⟩
      · rw [hs.1] at hi
        exact absurd hi hl
      · have hlast : dev' = manageDevice env d.configs nd := by
          rw [← e]
          show (d.devices ++ [manageDevice env d.configs nd])[i]'hi = _
          rw [List.getElem_append_right (Nat.le_of_not_lt hl), List.getElem_singleton]
        intro addr k ea ek _
        rw [hlast] at ea ⊢
        rw [manageDevice_led, (fresh nd rfl).2]
        exact ⟨fun h => (by cases h), fun h => absurd ⟨k, ek, h⟩ (rest nd rfl addr ea)⟩
  | remove d removed h ih =>
    intro dev hm
    obtain ⟨p, hp, e⟩ := List.mem_map.1 hm
    have := (List.mem_filter.1 hp).1
    have hmem : dev ∈ d.devices := by
      rw [← e]
      exact (List.mem_zipIdx this).2.2 ▸ List.getElem_mem _
    exact ih dev hmem

/-! ### Examples and the missing part -/

/-- A sufficient test for the conditions of `PlainRun.event`. -/
def plainB (env : Env) (d : Daemon) : LoopEvent → Bool
  | .devAdd dev => decide (dev.data = none ∧ dev.led 1 = false) &&
    (match (manageDevice env d.configs dev).data with
    | none => true
    | some a =>
      match d.heap a with
      | none => true
      | some k => decide (∀ i : Fin k.config.layers.length, k.config.layers[i].type = .layout ∨ (k.layerState i).active = 0))
  | .dev _ e => decide (e.type ≠ .led)
  | .client _ msg => decide (msg.type ≠ .reload)
  | _ => true

def plainRun (env : Env) : List (LoopEvent × Int) → Daemon → Option Daemon
  | [], d => some d
  | (ev, t) :: es, d =>
    if plainB env d ev then
      match eventHandler env d ev t with
      | .ok (d', _) => plainRun env es d'
      | .error _ => none
    else none

theorem plainRun_run {env : Env} : ∀ (es : List (LoopEvent × Int)) {d d' : Daemon}, PlainRun d → plainRun env es d = some d' → PlainRun d'
  | [], d, d', h, run => by
    injection run with run
    rw [← run]
    exact h
  | (ev, t) :: es, d, d', h, run => by
    unfold plainRun at run
    split at run
    · rename_i hp
      split at run
      · rename_i d1 w h1
        refine plainRun_run es (.event env d ev t d1 w h h1 ?_ ?_ ?_) run
        · intro hm
          cases ev with
          | dev i e => exact of_decide_eq_true hp hm.1
          | client c m => exact of_decide_eq_true hp hm
          | timeout => exact hm
          | devAdd dev => exact hm
          | devRemove => exact hm
        · rintro dev rfl
          unfold plainB at hp
          rw [Bool.and_eq_true] at hp
          exact of_decide_eq_true hp.1
        · rintro dev rfl addr ha ⟨k, hk, name, i, l, hl, _, ht, hact⟩
          unfold plainB at hp
          rw [Bool.and_eq_true, ha] at hp
          have hp := hp.2
          dsimp only at hp
          rw [hk] at hp
          have hlt := (List.getElem?_eq_some_iff.1 hl).1
          have hp := of_decide_eq_true hp ⟨i, hlt⟩
          have hl2 := (List.getElem?_eq_some_iff.1 hl).2
          rcases hp with hp | hp
          · exact ht (by rw [← hl2]; exact hp)
          · exact hact hp
      · cases run
    · cases run

def indicatorEnv : Env := { confs := [b!"[ids]
*
[global]
layer_indicator = 1
[main]
capslock = layer(nav)
[nav]
h = left
"] }

/-- The daemon after some events, if nothing meddled. -/
def indicatorRun (es : List (LoopEvent × Int)) : Option Daemon :=
  match reload indicatorEnv {} with
  | .ok d => plainRun indicatorEnv es d
  | .error _ => none

theorem indicatorRun_plain {es : List (LoopEvent × Int)} {d : Daemon} (h : indicatorRun es = some d) : PlainRun d := by
  unfold indicatorRun at h
  split at h
  · rename_i d0 h0
    exact plainRun_run es (.start _ _ h0) h
  · cases h

/-- The LEDs of the devices, and whether their keyboard has an active layer. -/
def leds (d : Daemon) : List (Bool × Bool) :=
  d.devices.map fun dev => (dev.led 1, match dev.data with
    | none => false
    | some a => match d.heap a with
      | none => false
      | some k => (List.range k.config.layers.length).any fun i => decide ((k.config.layer i).type ≠ .layout ∧ (k.layerState i).active ≠ 0))

/-- Two keyboards and a layer key: lit while it is held. -/
theorem C64_witness :
    (indicatorRun [(demoKbd, 1), (demoKbd, 2), (demoKey 58 1, 10)]).map leds = some [(true, true), (true, true)] ∧
    (indicatorRun [(demoKbd, 1), (demoKbd, 2), (demoKey 58 1, 10), (demoKey 58 0, 20)]).map leds = some [(false, false), (false, false)] := by
  constructor <;> (set_option maxRecDepth 100000 in decide +kernel)

def indicatorCheck (es : List (LoopEvent × Int)) (l : List (Bool × Bool)) : Bool :=
  match reload indicatorEnv {} with
  | .ok d => match daemonRun indicatorEnv es d with
    | .ok d => decide (leds d = l)
    | .error _ => false
  | .error _ => false

/-- The conditions are needed: a keyboard plugged in while a layer is active stays dark until the next change of layers. -/
theorem C64_fails_plugged :
    indicatorCheck [(demoKbd, 1), (demoKey 58 1, 10), (demoKbd, 20)] [(true, true), (false, true)] = true := by
  set_option maxRecDepth 100000 in decide +kernel

/-- A reload while a layer is active leaves the LED lit. -/
theorem C64_fails_reload :
    indicatorCheck [(demoKbd, 1), (demoKey 58 1, 10), (demoReload, 20)] [(true, false)] = true := by
  set_option maxRecDepth 100000 in decide +kernel

/-- The host's caps lock changes the LED too. -/
theorem C64_fails_host :
    indicatorCheck [(demoKbd, 1), (.devAdd { id := b!"0fac:0ade", isVirtual := true, capabilities := CAP_KEYBOARD }, 2),
      (.dev 1 { type := .led, code := 1, pressed := 1, x := 0, y := 0 }, 10)] [(true, false), (false, false)] = true := by
  set_option maxRecDepth 100000 in decide +kernel

end Keyd
