import Verif.Model.Daemon
import Verif.Props.KeyNames
import Verif.Props.Bindings
import Verif.Spec.Run
import Verif.Proofs.DaemonSat

/-
  C37 (which config manages a device), C38 (panic sequence), C40 (reload), C41 (IPC),
  C44 (scroll emulation).
-/

set_option autoImplicit false

namespace Keyd

attribute [local irreducible] configInit

/-! ### C37 -/

/-- The config lists the device: its decisive id entry is not an exclusion. -/
def Lists (c : Config) (id : Str) (flags : UInt8) : Bool :=
  match decisiveId c id flags with
  | some e => decide (e.flags &&& ID_EXCLUDED = 0)
  | none => false

/-- The config takes the device by its wildcard only. -/
def ByWildcard (c : Config) (id : Str) (flags : UInt8) : Bool :=
  match decisiveId c id flags with
  | some _ => false
  | none => c.wildcard

theorem checkMatch_rank (c : Config) (id : Str) (flags : UInt8) :
    configCheckMatch c id flags = if Lists c id flags then 2 else if ByWildcard c id flags then 1 else 0 := by
  rw [C36_check_match]
  unfold Lists ByWildcard
  cases decisiveId c id flags with
  | none => simp
  | some e =>
    by_cases h : e.flags &&& ID_EXCLUDED = 0 <;> simp [h]

theorem lookupScan_two (id : Str) (flags : UInt8) (m : Option Ent) : ∀ es, lookupScan id flags es (m, 2) = (m, 2)
  | [] => rfl
  | e :: es => by
    unfold lookupScan
    dsimp only
    rw [if_neg, lookupScan_two id flags m es]
    rw [checkMatch_rank]
    split
    · omega
    · split <;> omega

theorem lookupScan_one (id : Str) (flags : UInt8) (m : Option Ent) : ∀ es, lookupScan id flags es (m, 1) =
    match es.find? (fun e => Lists e.config id flags) with
    | some e => (some e, 2)
    | none => (m, 1)
  | [] => rfl
  | e :: es => by
    unfold lookupScan
    dsimp only
    rw [checkMatch_rank, List.find?_cons]
    cases h : Lists e.config id flags with
    | true => simp only [if_true]; rw [if_pos (by omega), lookupScan_two]
    | false =>
      simp only [Bool.false_eq_true, if_false]
      rw [if_neg (by split <;> omega), lookupScan_one id flags m es]

theorem lookupScan_zero (id : Str) (flags : UInt8) : ∀ es, lookupScan id flags es (none, 0) =
    match es.find? (fun e => Lists e.config id flags) with
    | some e => (some e, 2)
    | none =>
      match es.find? (fun e => ByWildcard e.config id flags) with
      | some e => (some e, 1)
      | none => (none, 0)
  | [] => rfl
  | e :: es => by
    unfold lookupScan
    dsimp only
    rw [checkMatch_rank, List.find?_cons, List.find?_cons]
    cases h : Lists e.config id flags with
    | true => simp only [if_true]; rw [if_pos (by omega), lookupScan_two]
    | false =>
      simp only [Bool.false_eq_true, if_false]
      cases h2 : ByWildcard e.config id flags with
      | true => simp only [if_true]; rw [if_pos (by omega), lookupScan_one]
      | false =>
        simp only [Bool.false_eq_true, if_false]
        rw [if_neg (by omega), lookupScan_zero id flags es]

/-- C37. The config for a device is the first one in the list that lists it; failing
that, unless the device is a mouse and nothing else, the first that takes it by wildcard. -/
theorem C37_lookup (configs : List Ent) (id : Str) (flags : UInt8) :
    lookupConfigEnt configs id flags =
      match configs.find? (fun e => Lists e.config id flags) with
      | some e => some e
      | none => if flags = ID_MOUSE then none else configs.find? (fun e => ByWildcard e.config id flags) := by
  unfold lookupConfigEnt
  rw [lookupScan_zero]
  cases configs.find? (fun e => Lists e.config id flags) with
  | some e => simp
  | none =>
    cases configs.find? (fun e => ByWildcard e.config id flags) with
    | some e => simp
    | none => simp

/-- The configs the accepted texts denote, in order. -/
def parsed : List Str → List Config
  | [] => []
  | t :: ts => match configParse t with
    | .ok (some c) => c :: parsed ts
    | _ => parsed ts

/-- C37. Loading puts the most recently loaded config first, so `C37_lookup` prefers it. -/
theorem C37_load_order : ∀ (ts : List Str) (d d' : Daemon), loadConfigs ts d = .ok d' →
    d'.configs.map Ent.config = (parsed ts).reverse ++ d.configs.map Ent.config
  | [], d, d', h => by
    unfold loadConfigs at h
    injection h with h; subst h; rfl
  | t :: ts, d, d', h => by
    unfold loadConfigs at h
    obtain ⟨d1, h1, h2⟩ := dbind_eq_ok.1 h
    have ih := C37_load_order ts d1 d' h2
    rw [ih]
    unfold loadConfig at h1
    obtain ⟨o, ho, h1⟩ := dbind_eq_ok.1 h1
    have ho := lift_ok.1 ho
    cases o with
    | none => injection h1 with h1; subst h1; simp only [parsed, ho]
    | some c =>
      injection h1 with h1; subst h1
      simp [parsed, ho]

/-- C37. A device that is not virtual is managed by the keyboard of that config, if there
is one and the device can be grabbed, and otherwise by none. -/
theorem C37_manage (env : Env) (configs : List Ent) (dev : Device) (hv : dev.isVirtual = false) :
    (manageDevice env configs dev).data =
      match lookupConfigEnt configs dev.id (deviceFlags dev) with
      | some e => if dev.grabbed ∨ env.grab dev.id then some e.kbd else none
      | none => none := by
  unfold manageDevice
  rw [if_neg (by simp [hv])]
  cases lookupConfigEnt configs dev.id (deviceFlags dev) with
  | none => rfl
  | some e => dsimp only; split <;> rfl

/-- C37. Virtual devices are left alone. -/
theorem C37_virtual (env : Env) (configs : List Ent) (dev : Device) (hv : dev.isVirtual = true) :
    manageDevice env configs dev = dev := by
  unfold manageDevice
  rw [if_pos hv]

/-- C37. A device with mouse but no keyboard capability is never managed through a
wildcard. -/
theorem C37_pure_mouse (env : Env) (configs : List Ent) (dev : Device) (hv : dev.isVirtual = false)
    (hk : dev.capabilities &&& CAP_KEYBOARD = 0)
    (hm : dev.capabilities &&& (CAP_MOUSE ||| CAP_MOUSE_ABS) ≠ 0)
    (hn : ∀ e ∈ configs, Lists e.config dev.id (deviceFlags dev) = false) :
    (manageDevice env configs dev).data = none := by
  rw [C37_manage env configs dev hv, C37_lookup]
  have hf : deviceFlags dev = ID_MOUSE := by
    unfold deviceFlags
    rw [if_neg (by simpa using hk), if_pos hm]
    rfl
  have : configs.find? (fun e => Lists e.config dev.id (deviceFlags dev)) = none := by
    rw [List.find?_eq_none]
    intro e he
    simp [hn e he]
  rw [this, hf]
  rfl

/-- C37, concretely: an explicit config beats an earlier wildcard; a mouse ignores the
wildcard. -/
theorem C37_example :
    let w : Ent := ⟨{ wildcard := true }, 0⟩
    let x : Ent := ⟨{ ids := [⟨b!"046d:b01d", ID_KEYBOARD⟩] }, 1⟩
    (lookupConfigEnt [w, x] b!"046d:b01d:00112233" ID_KEYBOARD).map Ent.kbd = some 1 ∧
    (lookupConfigEnt [w, x] b!"1234:5678:00112233" ID_KEYBOARD).map Ent.kbd = some 0 ∧
    (lookupConfigEnt [w, x] b!"1234:5678:00112233" ID_MOUSE).map Ent.kbd = none := by
  decide +kernel

/-! ### C38 -/

/-- The panic variables over a sequence of device events; `none` when the daemon has
terminated. -/
def panicFold (p : Panic) : List DevEvent → Option Panic
  | [] => some p
  | e :: es =>
    if (panicCheck p e.code e.pressed).2 then none else panicFold (panicCheck p e.code e.pressed).1 es

/-- The device events among the events of the main loop. -/
def devEvents : List LoopEvent → List DevEvent
  | [] => []
  | .dev _ e :: es => e :: devEvents es
  | _ :: es => devEvents es

/-- C38. Within the main loop nothing but the panic check ends the process, and nothing
but device events feeds it. -/
theorem C38_loop (env : Env) (now : Int) : ∀ (evs : List LoopEvent) (l : Loop) (r : Option Loop),
    loopEvents env now evs l = .ok r → r.map Loop.panic = panicFold l.panic (devEvents evs)
  | [], l, r, h => by
    unfold loopEvents at h
    injection h with h; subst h; rfl
  | e :: es, l, r, h => by
    unfold loopEvents at h
    obtain ⟨o, ho, h⟩ := dbind_eq_ok.1 h
    cases e with
    | dev i e =>
      unfold loopEvent at ho
      dsimp only at ho
      unfold devEvents panicFold
      cases hd : (panicCheck l.panic e.code e.pressed).2 with
      | true =>
        rw [hd] at ho
        injection ho with ho; subst ho
        injection h with h; subst h
        rfl
      | false =>
        rw [hd] at ho
        simp only [Bool.false_eq_true, if_false] at ho ⊢
        obtain ⟨⟨d, w⟩, -, ho⟩ := dbind_eq_ok.1 ho
        injection ho with ho; subst ho
        exact C38_loop env now es _ r h
    | _ =>
      unfold loopEvent at ho
      dsimp only at ho
      simp only [Bool.false_eq_true, if_false] at ho
      obtain ⟨⟨d, w⟩, -, ho⟩ := dbind_eq_ok.1 ho
      injection ho with ho; subst ho
      exact C38_loop env now es { d := d, timeout := w, panic := l.panic } r h

/-- The same for a whole iteration. -/
theorem C38_iteration (env : Env) (l : Loop) (start now : Int) (evs : List LoopEvent) (removed : List Nat)
    (r : Option Loop) (h : iteration env l start now evs removed = .ok r) :
    r.map Loop.panic = panicFold l.panic (devEvents evs) := by
  unfold iteration at h
  obtain ⟨l1, h1, h⟩ := dbind_eq_ok.1 h
  have hp : l1.panic = l.panic := by
    unfold afterPoll at h1
    split at h1
    · obtain ⟨⟨d, w⟩, -, h1⟩ := dbind_eq_ok.1 h1
      injection h1 with h1; subst h1; rfl
    · injection h1 with h1; subst h1; rfl
  obtain ⟨o, ho, h⟩ := dbind_eq_ok.1 h
  have := C38_loop env now evs l1 o ho
  rw [hp] at this
  rw [← this]
  injection h with h; subst h
  cases o <;> rfl

/-- The device events delivered for a sequence of raw evdev events, whichever devices
they are read from. `prev` is the event buffer shared by all devices. -/
def delivered : List (AbsRange × InputEvent) → DevEvent → Res (List DevEvent)
  | [], _ => .ok []
  | (r, ev) :: es, prev => do
    let (d, returned) ← readEvent r prev ev
    let ds ← delivered es d
    .ok (if returned then d :: ds else ds)

/-- The key with this evdev code is held after the raw events: its last press or release
was a press. -/
def physDown (b : Nat) (evs : List InputEvent) : Bool :=
  evs.foldl (fun h e => if e.type = EVDEV.KEY ∧ e.code = b ∧ e.value ≠ 2 then decide (e.value = 1) else h) false

/-- The three keys of the panic sequence (evdev codes). -/
def panicKeys : List Nat := [14, 28, 1]

/-- All three keys of the panic sequence are held. -/
def AllThree (evs : List InputEvent) : Prop := ∀ b ∈ panicKeys, physDown b evs = true

/-- What the panic variables mean. -/
def PanicMeans (p : Panic) (evs : List InputEvent) : Prop :=
  p.backspace = physDown 14 evs ∧ p.enter = physDown 28 evs ∧ p.escape = physDown 1 evs

theorem physDown_snoc (b : Nat) (evs : List InputEvent) (e : InputEvent) :
    physDown b (evs ++ [e]) =
      if e.type = EVDEV.KEY ∧ e.code = b ∧ e.value ≠ 2 then decide (e.value = 1) else physDown b evs := by
  unfold physDown
  rw [List.foldl_append]
  rfl

/-- Applying the panic check twice to the same event changes nothing more. -/
def Applied (p : Panic) (e : DevEvent) : Prop := (panicCheck p e.code e.pressed).1 = p

theorem applied_check (p : Panic) (c : Code) (v : UInt8) :
    (panicCheck (panicCheck p c v).1 c v).1 = (panicCheck p c v).1 := by
  unfold panicCheck
  dsimp only
  by_cases h1 : c = KEYD.ENTER
  · simp [h1]
  · by_cases h2 : c = KEYD.BACKSPACE
    · have hd : KEYD.BACKSPACE ≠ KEYD.ENTER := by decide
      simp [h2, hd]
    · by_cases h3 : c = KEYD.ESC
      · have hd : KEYD.ESC ≠ KEYD.ENTER := by decide
        have hd' : KEYD.ESC ≠ KEYD.BACKSPACE := by decide
        simp [h3, hd, hd']
      · simp [h1, h2, h3]

theorem translateCode_panic (b : Nat) : ∀ c, translateCode b = some c → ∀ k ∈ panicKeys, (c = UInt8.ofNat k ↔ b = k) := by
  intro c h k hk
  unfold translateCode at h
  split at h
  · rename_i hb
    have hk256 : k < 256 := by
      simp only [panicKeys, List.mem_cons, List.not_mem_nil, or_false] at hk
      omega
    have hne : b ≠ k := by omega
    constructor
    · intro e
      exfalso
      split at h
      · rename_i c' hl
        injection h with h; subst h
        have tab : ∀ p ∈ evdevTable, ∀ k ∈ panicKeys, p.2 ≠ UInt8.ofNat k := by decide +kernel
        have mem : ∀ (t : List (Nat × Code)) (x : Nat) (v : Code), t.lookup x = some v → (x, v) ∈ t := by
          intro t
          induction t with
          | nil => intro x v h; cases h
          | cons a t ih =>
            intro x v h
            rw [List.lookup_cons] at h
            split at h
            · rename_i hb
              injection h with h
              rw [List.mem_cons]
              left
              rw [beq_iff_eq] at hb
              rw [hb, ← h]
            · exact List.mem_cons_of_mem _ (ih x v h)
        exact tab _ (mem _ _ _ hl) k hk e
      · split at h
        · rename_i hr
          injection h with h
          have : ∀ n < 336, 320 ≤ n → ∀ k ∈ panicKeys, UInt8.ofNat (n % 256) ≠ UInt8.ofNat k := by decide +kernel
          have h2 : b ≤ 335 := hr.2
          have h1 : 320 ≤ b := hr.1
          exact this b (by omega) h1 k hk (h.trans e)
        · cases h
    · intro e; exact absurd e hne
  · rename_i hb
    injection h with h
    subst h
    have hk256 : k < 256 := by
      simp only [panicKeys, List.mem_cons, List.not_mem_nil, or_false] at hk
      omega
    constructor
    · intro e
      have := congrArg UInt8.toNat e
      simp at this
      omega
    · intro e; rw [e]

/-- One raw event: the panic variables keep their meaning. -/
theorem panic_step {r : AbsRange} {prev d : DevEvent} {ev : InputEvent} {ret : Bool} {p : Panic} {evs : List InputEvent}
    (hread : readEvent r prev ev = .ok (d, ret)) (hled : ev.type ≠ EVDEV.LED)
    (hval : ev.type = EVDEV.KEY → ev.value = 0 ∨ ev.value = 1 ∨ ev.value = 2)
    (ha : Applied p prev) (hm : PanicMeans p evs) :
    (ret = true → PanicMeans (panicCheck p d.code d.pressed).1 (evs ++ [ev]) ∧ Applied (panicCheck p d.code d.pressed).1 d) ∧
    (ret = false → PanicMeans p (evs ++ [ev]) ∧ Applied p d) := by
  by_cases hk : ev.type = EVDEV.KEY
  · have hu : readEvent r prev ev = (if ev.value = 2 then .ok (prev, false)
      else match translateCode ev.code with
      | none => .ok (prev, false)
      | some c => .ok ({ prev with type := .key, code := c, pressed := UInt8.ofNat (ev.value % 256).toNat }, true)) := by
      unfold readEvent
      rw [if_neg (by rw [hk]; decide), if_neg (by rw [hk]; decide), if_pos hk]
      rfl
    rw [hu] at hread
    split at hread
    · rename_i h2
      injection hread with hread
      injection hread with e1 e2
      subst e1; subst e2
      refine ⟨fun h => (by cases h), fun _ => ⟨?_, ha⟩⟩
      unfold PanicMeans at *
      simp only [physDown_snoc, h2, ne_eq, not_true_eq_false, and_false, if_false]
      exact hm
    · rename_i hv2
      split at hread
      · rename_i htr
        injection hread with hread
        injection hread with e1 e2
        subst e1; subst e2
        refine ⟨fun h => (by cases h), fun _ => ⟨?_, ha⟩⟩
        have big : ev.code ≥ 256 := by
          unfold translateCode at htr
          split at htr
          · assumption
          · cases htr
        unfold PanicMeans at *
        simp only [physDown_snoc]
        rw [if_neg (by omega), if_neg (by omega), if_neg (by omega)]
        exact hm
      · rename_i c htr
        injection hread with hread
        injection hread with e1 e2
        subst e1; subst e2
        refine ⟨fun _ => ⟨?_, applied_check _ _ _⟩, fun h => (by cases h)⟩
        have t14 := translateCode_panic ev.code c htr 14 (by decide)
        have t28 := translateCode_panic ev.code c htr 28 (by decide)
        have t1 := translateCode_panic ev.code c htr 1 (by decide)
        have hon : decide (UInt8.ofNat (ev.value % 256).toNat ≠ 0) = decide (ev.value = 1) := by
          rcases hval hk with e | e | e
          · rw [e]; rfl
          · rw [e]; rfl
          · exact absurd e hv2
        unfold PanicMeans at *
        simp only [physDown_snoc, hk, true_and, hv2, ne_eq, not_false_eq_true, and_true]
        unfold panicCheck
        dsimp only
        rw [hon]
        by_cases h28 : ev.code = 28
        · have : c = KEYD.ENTER := t28.2 h28
          simp [this, h28, hm.1, hm.2.2]
        · have n28 : c ≠ KEYD.ENTER := fun e => h28 (t28.1 e)
          by_cases h14 : ev.code = 14
          · have : c = KEYD.BACKSPACE := t14.2 h14
            have hd : KEYD.BACKSPACE ≠ KEYD.ENTER := by decide
            simp [this, h14, hm.2.1, hm.2.2, hd]
          · have n14 : c ≠ KEYD.BACKSPACE := fun e => h14 (t14.1 e)
            by_cases h1 : ev.code = 1
            · have : c = KEYD.ESC := t1.2 h1
              have hd : KEYD.ESC ≠ KEYD.ENTER := by decide
              have hd' : KEYD.ESC ≠ KEYD.BACKSPACE := by decide
              simp [this, h1, hm.1, hm.2.1, hd, hd']
            · have n1 : c ≠ KEYD.ESC := fun e => h1 (t1.1 e)
              simp [n28, n14, n1, h28, h14, h1, hm.1, hm.2.1, hm.2.2]
  · have hcode : d.code = prev.code ∧ d.pressed = prev.pressed := by
      unfold readEvent at hread
      split at hread
      · split at hread
        · injection hread with hread; injection hread with e1 e2; subst e1; exact ⟨rfl, rfl⟩
        · split at hread
          · injection hread with hread; injection hread with e1 e2; subst e1; exact ⟨rfl, rfl⟩
          · split at hread
            · injection hread with hread; injection hread with e1 e2; subst e1; exact ⟨rfl, rfl⟩
            · split at hread
              · injection hread with hread; injection hread with e1 e2; subst e1; exact ⟨rfl, rfl⟩
              · injection hread with hread; injection hread with e1 e2; subst e1; exact ⟨rfl, rfl⟩
      · split at hread
        · split at hread
          · obtain ⟨x, -, hread⟩ := bind_eq_ok.1 hread
            injection hread with hread; injection hread with e1 e2; subst e1; exact ⟨rfl, rfl⟩
          · split at hread
            · obtain ⟨x, -, hread⟩ := bind_eq_ok.1 hread
              injection hread with hread; injection hread with e1 e2; subst e1; exact ⟨rfl, rfl⟩
            · injection hread with hread; injection hread with e1 e2; subst e1; exact ⟨rfl, rfl⟩
        · injection hread with hread; injection hread with e1 e2; subst e1; exact ⟨rfl, rfl⟩
    have hm' : PanicMeans p (evs ++ [ev]) := by
      unfold PanicMeans at *
      simp only [physDown_snoc, hk, false_and, if_false]
      exact hm
    have hc : panicCheck p d.code d.pressed = panicCheck p prev.code prev.pressed := by rw [hcode.1, hcode.2]
    have ha' : (panicCheck p d.code d.pressed).1 = p := by rw [hc]; exact ha
    exact ⟨fun _ => by rw [ha']; exact ⟨hm', ha'⟩, fun _ => ⟨hm', ha'⟩⟩

theorem panicCheck_dies (p : Panic) (c : Code) (v : UInt8) :
    (panicCheck p c v).2 = ((panicCheck p c v).1.backspace && (panicCheck p c v).1.enter && (panicCheck p c v).1.escape) := rfl

theorem allThree_iff {p : Panic} {evs : List InputEvent} (h : PanicMeans p evs) :
    (p.backspace && p.enter && p.escape) = true ↔ AllThree evs := by
  obtain ⟨h1, h2, h3⟩ := h
  unfold AllThree panicKeys
  simp [h1, h2, h3, and_assoc]

theorem panic_run : ∀ (evs : List (AbsRange × InputEvent)) (prev : DevEvent) (p : Panic) (past : List InputEvent)
    (ds : List DevEvent), delivered evs prev = .ok ds →
    (∀ e ∈ evs, e.2.type ≠ EVDEV.LED ∧ (e.2.type = EVDEV.KEY → e.2.value = 0 ∨ e.2.value = 1 ∨ e.2.value = 2)) →
    Applied p prev → PanicMeans p past → ¬ AllThree past →
    (panicFold p ds = none ↔ ∃ q, q <+: evs.map Prod.snd ∧ AllThree (past ++ q))
  | [], prev, p, past, ds, h, _, _, _, hn => by
    unfold delivered at h
    injection h with h; subst h
    constructor
    · intro h; cases h
    · rintro ⟨q, hq, ha⟩
      have : q = [] := by simpa using hq
      rw [this, List.append_nil] at ha
      exact absurd ha hn
  | (r, ev) :: es, prev, p, past, ds, h, hok, ha, hm, hn => by
    unfold delivered at h
    obtain ⟨⟨d, ret⟩, hread, h⟩ := bind_eq_ok.1 h
    obtain ⟨ds', hds, h⟩ := bind_eq_ok.1 h
    injection h with h; subst h
    have hok0 := hok (r, ev) (by simp)
    have hstep := panic_step hread hok0.1 hok0.2 ha hm
    have hok' : ∀ e ∈ es, e.2.type ≠ EVDEV.LED ∧ (e.2.type = EVDEV.KEY → e.2.value = 0 ∨ e.2.value = 1 ∨ e.2.value = 2) :=
      fun e he => hok e (by simp [he])
    -- prefixes of the longer sequence
    have split : (∃ q, q <+: ((r, ev) :: es).map Prod.snd ∧ AllThree (past ++ q)) ↔
        AllThree (past ++ [ev]) ∨ ∃ q, q <+: es.map Prod.snd ∧ AllThree ((past ++ [ev]) ++ q) := by
      constructor
      · rintro ⟨q, hq, hA⟩
        cases q with
        | nil => rw [List.append_nil] at hA; exact absurd hA hn
        | cons a q =>
          rw [List.map_cons, List.cons_prefix_cons] at hq
          obtain ⟨rfl, hq⟩ := hq
          right
          exact ⟨q, hq, by rw [List.append_assoc]; exact hA⟩
      · rintro (hA | ⟨q, hq, hA⟩)
        · exact ⟨[ev], by simp, hA⟩
        · refine ⟨ev :: q, by simpa using hq, ?_⟩
          rw [List.append_assoc] at hA
          exact hA
    rw [split]
    cases ret with
    | false =>
      obtain ⟨hm', ha'⟩ := hstep.2 rfl
      have hn' : ¬ AllThree (past ++ [ev]) := by
        rw [← allThree_iff hm', allThree_iff hm]; exact hn
      simp only [Bool.false_eq_true, if_false]
      rw [panic_run es d p (past ++ [ev]) ds' hds hok' ha' hm' hn']
      constructor
      · exact Or.inr
      · rintro (h | h)
        · exact absurd h hn'
        · exact h
    | true =>
      obtain ⟨hm', ha'⟩ := hstep.1 rfl
      simp only [if_true]
      unfold panicFold
      rw [panicCheck_dies]
      by_cases hA : AllThree (past ++ [ev])
      · rw [(allThree_iff hm').2 hA]
        simp only [if_true]
        exact ⟨fun _ => Or.inl hA, fun _ => trivial⟩
      · have : ((panicCheck p d.code d.pressed).1.backspace && (panicCheck p d.code d.pressed).1.enter &&
            (panicCheck p d.code d.pressed).1.escape) = false := by
          rw [← Bool.not_eq_true, allThree_iff hm']; exact hA
        rw [this]
        simp only [Bool.false_eq_true, if_false]
        rw [panic_run es d _ (past ++ [ev]) ds' hds hok' ha' hm' hA]
        constructor
        · exact Or.inr
        · rintro (h | h)
          · exact absurd h hA
          · exact h

/-- C38, for histories without LED events: the daemon terminates exactly when, at some
point, backspace, enter and escape are all held. Missing: LED events, for which the claim
is false (`C38_fails_led`). -/
theorem C38_panic_partial (evs : List (AbsRange × InputEvent)) (ds : List DevEvent)
    (hread : delivered evs {} = .ok ds)
    (hled : ∀ e ∈ evs, e.2.type ≠ EVDEV.LED)
    (hval : ∀ e ∈ evs, e.2.type = EVDEV.KEY → e.2.value = 0 ∨ e.2.value = 1 ∨ e.2.value = 2) :
    panicFold {} ds = none ↔ ∃ q, q <+: evs.map Prod.snd ∧ AllThree q := by
  have := panic_run evs {} {} [] ds hread (fun e he => ⟨hled e he, hval e he⟩) rfl ⟨rfl, rfl, rfl⟩
    (fun h => by have := h 14 (by decide); cases this)
  simpa using this

/-- Finding: the caps lock LED counts as the escape key. With backspace and enter held and
escape never touched, switching caps lock on (LED 1 of the virtual keyboard) terminates
the daemon. -/
theorem C38_fails_led : ∃ ds,
    delivered [({}, ⟨EVDEV.KEY, 14, 1⟩), ({}, ⟨EVDEV.KEY, 28, 1⟩), ({}, ⟨EVDEV.LED, EVDEV.LED_CAPSL, 1⟩)] {} = .ok ds ∧
    panicFold {} ds = none := ⟨_, rfl, by decide +kernel⟩

/-- And with all three held but an LED event for caps lock off in between, it does not. -/
theorem C38_misses_led : ∃ ds,
    delivered [({}, ⟨EVDEV.KEY, 14, 1⟩), ({}, ⟨EVDEV.KEY, 1, 1⟩), ({}, ⟨EVDEV.LED, EVDEV.LED_CAPSL, 0⟩),
      ({}, ⟨EVDEV.KEY, 28, 1⟩)] {} = .ok ds ∧
    panicFold {} ds ≠ none := ⟨_, rfl, by decide +kernel⟩

/-- A concrete case of C38: mouse motion and other keys in between do not matter. -/
theorem C38_example : ∃ ds,
    delivered [({}, ⟨EVDEV.KEY, 14, 1⟩), ({}, ⟨EVDEV.REL, 0, 5⟩), ({}, ⟨EVDEV.KEY, 1, 1⟩), ({}, ⟨EVDEV.KEY, 30, 1⟩),
      ({}, ⟨EVDEV.KEY, 28, 1⟩)] {} = .ok ds ∧
    panicFold {} ds = none := ⟨_, rfl, by decide +kernel⟩

end Keyd
