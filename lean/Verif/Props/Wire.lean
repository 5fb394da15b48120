import Verif.Model.Uinput
import Verif.Props.Remap
import Verif.Props.Discovery

/-
  C71: what keyd writes to its virtual devices are events they are set up for.
  C72: from the raw events of the devices to the raw events of the virtual devices.
-/

set_option autoImplicit false

namespace Keyd

attribute [local irreducible] configInit

/-! ### C71: specification -/

/-- The host gets the event: the kernel discards events a virtual device has not been set up for. -/
def Arrives (p : VDev × InputEvent) : Prop := p.1.announces p.2 = true

instance (p : VDev × InputEvent) : Decidable (Arrives p) := inferInstanceAs (Decidable (_ = true))

/-! ### C71 -/

theorem arrives_keys : (allCodes.all fun c => decide ((Arrives ((uinputTarget c).1, ⟨EVDEV.KEY, (uinputTarget c).2, 0⟩) ↔
    (((keycodeTable[c.toNat]?).bind (·.name)).isSome ∧ c ≠ KEYD.VOICECOMMAND)))) = true := by decide +kernel

theorem arrives_value (d : VDev) (c : Nat) (v v' : Int) : Arrives (d, ⟨EVDEV.KEY, c, v⟩) ↔ Arrives (d, ⟨EVDEV.KEY, c, v'⟩) := by
  unfold Arrives VDev.announces
  cases d <;> exact Iff.rfl

theorem syn_arrives (d : VDev) : Arrives (d, ⟨EVDEV.SYN, 0, 0⟩) := by cases d <;> rfl

/-- C71. A key arrives at the host exactly if it has a name in keyd's table, `voicecommand` excepted. -/
theorem C71_keys_partial (c : Code) (v : Int) :
    (∀ p ∈ writeKeyEvent c v, Arrives p) ↔ ((keycodeTable[c.toNat]?).bind (·.name)).isSome ∧ c ≠ KEYD.VOICECOMMAND := by
  have h := List.all_eq_true.1 arrives_keys c (mem_allCodes c)
  simp only [decide_eq_true_eq] at h
  rw [← h, arrives_value _ _ 0 v]
  unfold writeKeyEvent
  constructor
  · intro hall
    exact hall _ (by simp)
  · intro h p hp
    rcases List.mem_cons.1 hp with rfl | hp
    · exact h
    · rw [List.mem_singleton.1 hp]
      exact syn_arrives _

theorem names_arrive : (keyNames.all fun e => decide (e.2.1 = KEYD.VOICECOMMAND) || decide (((keycodeTable[e.2.1.toNat]?).bind (·.name)).isSome)) = true := by
  decide +kernel

/-- C71. Every key that can be named in a configuration file, except `voicecommand`, arrives at the host when it is sent. -/
theorem C71_names (name : Str) (c : Code) (shifted : Bool) (h : (name, c, shifted) ∈ keyNames) (hv : c ≠ KEYD.VOICECOMMAND) (v : Int) :
    ∀ p ∈ writeKeyEvent c v, Arrives p := by
  have := List.all_eq_true.1 names_arrive _ h
  rw [C71_keys_partial]
  simp only [Bool.or_eq_true, decide_eq_true_eq] at this
  rcases this with e | e
  · exact absurd e hv
  · exact ⟨e, hv⟩

/-- The limit of C71: `voicecommand`, which has a name and can be read from a device, never arrives. -/
theorem C71_fails_voicecommand : (b!"voicecommand", KEYD.VOICECOMMAND, false) ∈ keyNames ∧
    translateCode EVDEV.KEY_VOICECOMMAND = some KEYD.VOICECOMMAND ∧ ¬ Arrives (.keyboard, ⟨EVDEV.KEY, EVDEV.KEY_VOICECOMMAND, 1⟩) ∧
    (.keyboard, ⟨EVDEV.KEY, EVDEV.KEY_VOICECOMMAND, 1⟩) ∈ writeKeyEvent KEYD.VOICECOMMAND 1 := by decide +kernel

/-- C71. Whatever is written for the pointer and the wheel arrives. -/
theorem C71_pointer (x y : Int) : (∀ p ∈ uinputMouseMove x y, Arrives p) ∧ (∀ p ∈ uinputMouseMoveAbs x y, Arrives p) ∧
    (∀ p ∈ uinputMouseScroll x y, Arrives p) := by
  have ite_mem : ∀ {c : Prop} [Decidable c] {a p : VDev × InputEvent}, p ∈ (if c then [a] else []) → p = a := by
    intro c _ a p h
    split at h
    · exact List.mem_singleton.1 h
    · cases h
  refine ⟨fun p hp => ?_, fun p hp => ?_, fun p hp => ?_⟩
  · unfold uinputMouseMove at hp
    rcases List.mem_append.1 hp with hp | hp
    · rcases List.mem_append.1 hp with hp | hp
      · rw [ite_mem hp]; rfl
      · rw [ite_mem hp]; rfl
    · rw [List.mem_singleton.1 hp]; rfl
  · unfold uinputMouseMoveAbs at hp
    rcases List.mem_append.1 hp with hp | hp
    · rcases List.mem_append.1 hp with hp | hp
      · rw [ite_mem hp]; rfl
      · rw [ite_mem hp]; rfl
    · rw [List.mem_singleton.1 hp]; rfl
  · unfold uinputMouseScroll at hp
    simp only [List.mem_cons, List.not_mem_nil, or_false] at hp
    rcases hp with rfl | rfl | rfl <;> rfl

/-- The limit of absolute positions: a coordinate 0 is not written at all, so the pointer cannot be sent back to an edge. -/
theorem C71_fails_edge (y : Int) : ∀ p ∈ uinputMouseMoveAbs 0 y, ¬ (p.2.type = EVDEV.ABS ∧ p.2.code = EVDEV.ABS_X) := by
  intro p hp
  unfold uinputMouseMoveAbs at hp
  rw [if_neg (by simp), List.nil_append] at hp
  rcases List.mem_append.1 hp with hp | hp
  · split at hp
    · rw [List.mem_singleton.1 hp]
      exact fun h => absurd h.2 (by decide : EVDEV.ABS_Y ≠ EVDEV.ABS_X)
    · cases hp
  · rw [List.mem_singleton.1 hp]; decide

/-! ### C72: specification -/

/-- A key or button going down or up, or the pointer moving. -/
def InputEvent.plain (ev : InputEvent) : Prop :=
  (ev.type = EVDEV.KEY ∧ (ev.value = 0 ∨ ev.value = 1)) ∨ (ev.type = EVDEV.REL ∧ (ev.code = EVDEV.REL_X ∨ ev.code = EVDEV.REL_Y))

/-- `Wired d raws d'`: from `d` to `d'` the daemon has read the raw events `raws` from its devices (from any of them, at any times), and
has handled any other events without keys or motion, such as wakeups and devices coming and going, but no requests of clients. -/
inductive Wired (d : Daemon) : List InputEvent → Daemon → Prop
  | start : Wired d [] d
  | raw (env : Env) {raws : List InputEvent} {d1 : Daemon} (i : Nat) (dev : Device) (r : AbsRange) (prev e : DevEvent) (ev : InputEvent) (t : Int)
      {d2 : Daemon} {w : Int} (h : Wired d raws d1) (plain : ev.plain) (hdev : d1.devices[i]? = some dev) (managed : dev.data.isSome)
      (read : readEvent r prev ev = .ok (e, true)) (run : eventHandler env d1 (.dev i e) t = .ok (d2, w)) : Wired d (raws ++ [ev]) d2
  | unknown {raws : List InputEvent} {d1 : Daemon} (r : AbsRange) (prev e : DevEvent) (ev : InputEvent) (h : Wired d raws d1)
      (ht : ev.type = EVDEV.KEY) (hv : ev.value = 0 ∨ ev.value = 1) (read : readEvent r prev ev = .ok (e, false)) : Wired d (raws ++ [ev]) d1
  | other (env : Env) {raws : List InputEvent} {d1 : Daemon} (ev : LoopEvent) (t : Int) {d2 : Daemon} {w : Int} (h : Wired d raws d1)
      (run : eventHandler env d1 ev t = .ok (d2, w)) (fresh : ∀ dev, ev = .devAdd dev → dev.data = none)
      (nc : ∀ con msg, ev ≠ .client con msg) (nokey : ∀ e ∈ amounts d1 t ev, e.code = 0) (nomove : pointer d1 ev = []) : Wired d raws d2
  | remove {raws : List InputEvent} {d1 : Daemon} (h : Wired d raws d1) (removed : List Nat) :
      Wired d raws { d1 with devices := (d1.devices.zipIdx.filter fun p => decide (p.2 ∉ removed)).map Prod.fst }

/-- What the host has got from the virtual devices, in order. -/
def Daemon.delivered (d : Daemon) : List (VDev × InputEvent) := (d.vout.reverse.flatMap uinputWrite).filter (fun p => Arrives p)

/-- A key or button that is not a modifier. -/
def keyRaw (p : VDev × InputEvent) : Bool := decide (p.2.type = EVDEV.KEY) && !decide (p.1 = .keyboard ∧ p.2.code ∈ modifierKeys.map (·.2.toNat))

/-- Motion of the pointer. -/
def moveRaw (p : VDev × InputEvent) : Bool := decide (p.2.type = EVDEV.REL ∧ (p.2.code = EVDEV.REL_X ∨ p.2.code = EVDEV.REL_Y))

/-- The key of a raw event, in keyd's numbering. -/
def rawKey (ev : InputEvent) : Option (Code × Bool) :=
  if ev.type = EVDEV.KEY then (translateCode ev.code).map (fun c => (c, decide (ev.value = 1))) else none

/-- The key events of raw events (the times do not matter). -/
def rawKeys (raws : List InputEvent) : List KeyEvent := raws.filterMap (fun ev => (rawKey ev).map fun p => ⟨p.1, p.2, 0⟩)

/-- What a raw event should come out as, by the lines of a configuration file. -/
def rawOut (rs : List (Remap × Code)) (ev : InputEvent) : Option (VDev × InputEvent) :=
  (rawKey ev).bind fun p => match remapped rs p.1 with
    | .key y => some ((uinputTarget y).1, ⟨EVDEV.KEY, (uinputTarget y).2, ev.value⟩)
    | .hold _ => none

/-- The key is an ordinary one: it arrives at the host, and is not one of the scroll keys. -/
def Ordinary (y : Code) : Prop :=
  Arrives ((uinputTarget y).1, ⟨EVDEV.KEY, (uinputTarget y).2, 0⟩) ∧ y ∉ [KEYD.SCROLL_UP, KEYD.SCROLL_DOWN, KEYD.SCROLL_LEFT, KEYD.SCROLL_RIGHT] ∧ RealKey y

/-! ### C72: proofs -/

/-- The times removed. -/
def untimed (es : List KeyEvent) : List KeyEvent := es.map fun e => { e with ts := 0 }

theorem read_key {r : AbsRange} {prev e : DevEvent} {ev : InputEvent} (ht : ev.type = EVDEV.KEY) (hv : ev.value = 0 ∨ ev.value = 1)
    (read : readEvent r prev ev = .ok (e, true)) : e.type = .key ∧ rawKey ev = some (e.code, decide (e.pressed ≠ 0)) := by
  unfold readEvent at read
  rw [if_neg (by rw [ht]; decide), if_neg (by rw [ht]; decide), if_pos ht, if_neg (by rcases hv with h | h <;> rw [h] <;> decide)] at read
  unfold rawKey
  rw [if_pos ht]
  split at read
  · injection read with read
    have := congrArg Prod.snd read
    cases this
  · rename_i c hc
    injection read with read
    have := congrArg Prod.fst read
    dsimp only at this
    subst this
    refine ⟨rfl, ?_⟩
    rw [hc]
    rcases hv with h | h <;> rw [h] <;> rfl

theorem read_unknown {r : AbsRange} {prev e : DevEvent} {ev : InputEvent} (ht : ev.type = EVDEV.KEY) (hv : ev.value = 0 ∨ ev.value = 1)
    (read : readEvent r prev ev = .ok (e, false)) : rawKey ev = none := by
  unfold readEvent at read
  rw [if_neg (by rw [ht]; decide), if_neg (by rw [ht]; decide), if_pos ht, if_neg (by rcases hv with h | h <;> rw [h] <;> decide)] at read
  unfold rawKey
  rw [if_pos ht]
  split at read
  · rename_i hc
    rw [hc]
    rfl
  · injection read with read
    have := congrArg Prod.snd read
    cases this

theorem read_move {r : AbsRange} {prev e : DevEvent} {ev : InputEvent} (ht : ev.type = EVDEV.REL) (hc : ev.code = EVDEV.REL_X ∨ ev.code = EVDEV.REL_Y)
    (read : readEvent r prev ev = .ok (e, true)) : e.type = .mouseMove ∧ rawKey ev = none ∧
      uinputMouseMove e.x e.y = (if ev.value ≠ 0 then [(.pointer, ev)] else []) ++ [(.pointer, ⟨EVDEV.SYN, 0, 0⟩)] := by
  obtain ⟨ty, co, v⟩ := ev
  dsimp only at ht hc ⊢
  subst ht
  have hk : ∀ co, rawKey ⟨EVDEV.REL, co, v⟩ = none := fun _ => rfl
  refine ⟨?_, hk co, ?_⟩
  · rcases hc with rfl | rfl
    · have e2 : readEvent r prev ⟨EVDEV.REL, EVDEV.REL_X, v⟩ = .ok ({ prev with type := .mouseMove, x := v, y := 0 }, true) := rfl
      rw [read] at e2
      have := congrArg Prod.fst (Except.ok.inj e2)
      dsimp only at this
      rw [this]
    · have e2 : readEvent r prev ⟨EVDEV.REL, EVDEV.REL_Y, v⟩ = .ok ({ prev with type := .mouseMove, y := v, x := 0 }, true) := rfl
      rw [read] at e2
      have := congrArg Prod.fst (Except.ok.inj e2)
      dsimp only at this
      rw [this]
  · rcases hc with rfl | rfl
    · have e2 : readEvent r prev ⟨EVDEV.REL, EVDEV.REL_X, v⟩ = .ok ({ prev with type := .mouseMove, x := v, y := 0 }, true) := rfl
      rw [read] at e2
      have := congrArg Prod.fst (Except.ok.inj e2)
      dsimp only at this
      rw [this]
      unfold uinputMouseMove
      simp
    · have e2 : readEvent r prev ⟨EVDEV.REL, EVDEV.REL_Y, v⟩ = .ok ({ prev with type := .mouseMove, y := v, x := 0 }, true) := rfl
      rw [read] at e2
      have := congrArg Prod.fst (Except.ok.inj e2)
      dsimp only at this
      rw [this]
      unfold uinputMouseMove
      simp

/-- The key events of the raw events. -/
theorem wired_session {d d' : Daemon} {raws : List InputEvent} (h : Wired d raws d') :
    ∃ es, Session d es d' ∧ untimed (keysOnly es) = keysOnly (rawKeys raws) := by
  induction h with
  | start => exact ⟨[], .start, rfl⟩
  | @raw env raws d1 i dev r prev e ev t d2 w h plain hdev managed read run ih =>
    obtain ⟨es, s, hs⟩ := ih
    refine ⟨_, .event env (.dev i e) t s run (fun _ h => (by cases h)) (fun _ _ h => (by cases h)), ?_⟩
    obtain ⟨a, ha⟩ := Option.isSome_iff_exists.1 managed
    unfold keysOnly at hs ⊢
    unfold untimed rawKeys at hs ⊢
    rw [List.filter_append, List.map_append, hs, List.filterMap_append, List.filter_append]
    congr 1
    rcases plain with ⟨ht, hv⟩ | ⟨ht, hc⟩
    · obtain ⟨h1, h2⟩ := read_key ht hv read
      have : amounts d1 t (.dev i e) = [⟨e.code, decide (e.pressed ≠ 0), t⟩] := by
        unfold amounts routed
        dsimp only
        rw [hdev]
        dsimp only
        rw [ha]
        dsimp only
        rw [h1]
      rw [this, List.filterMap_cons, h2]
      by_cases h0 : e.code = 0
      · simp [h0]
      · simp [h0]
    · obtain ⟨h1, h2, _⟩ := read_move ht hc read
      have : amounts d1 t (.dev i e) = [] := by
        unfold amounts routed
        dsimp only
        rw [hdev]
        dsimp only
        rw [ha]
        dsimp only
        rw [h1]
      rw [this, List.filterMap_cons, h2]
      rfl
  | unknown r prev e ev h ht hv read ih =>
    obtain ⟨es, s, hs⟩ := ih
    refine ⟨es, s, ?_⟩
    rw [hs]
    unfold rawKeys
    rw [List.filterMap_append, List.filterMap_cons, read_unknown ht hv read]
    simp
  | @other env raws d1 ev t d2 w h run fresh nc nokey nomove ih =>
    obtain ⟨es, s, hs⟩ := ih
    refine ⟨_, .event env ev t s run fresh nc, ?_⟩
    rw [← hs]
    unfold keysOnly
    rw [List.filter_append]
    have : List.filter (fun e => decide (e.code ≠ 0)) (amounts d1 t ev) = [] := by
      rw [List.filter_eq_nil_iff]
      intro e he
      simpa using nokey e he
    rw [this, List.append_nil]
  | remove h removed ih =>
    obtain ⟨es, s, hs⟩ := ih
    exact ⟨es, .remove s removed, hs⟩

theorem typing_untimed : ∀ (es es' : List KeyEvent) (ks : List Code), untimed es = untimed es' → Typing ks es' → Typing ks es
  | [], _, _, _, _ => trivial
  | _ :: _, [], _, h, _ => by cases h
  | e :: es, e' :: es', ks, h, ht => by
    unfold untimed at h
    rw [List.map_cons, List.map_cons, List.cons.injEq] at h
    obtain ⟨h1, h2⟩ := h
    injection h1 with hc hp
    unfold Typing at ht ⊢
    rw [hc, hp]
    by_cases hb : e'.pressed = true
    · rw [if_pos hb] at ht ⊢
      exact ⟨ht.1, ht.2.1, typing_untimed es es' _ h2 ht.2.2⟩
    · rw [if_neg hb] at ht ⊢
      exact ⟨ht.1, typing_untimed es es' _ h2 ht.2⟩

theorem remainHeld_untimed : ∀ (es es' : List KeyEvent) (ks : List Code), untimed es = untimed es' → remainHeld ks es = remainHeld ks es'
  | [], [], _, _ => rfl
  | [], _ :: _, _, h => by cases h
  | _ :: _, [], _, h => by cases h
  | e :: es, e' :: es', ks, h => by
    unfold untimed at h
    rw [List.map_cons, List.map_cons, List.cons.injEq] at h
    obtain ⟨h1, h2⟩ := h
    injection h1 with hc hp
    unfold remainHeld
    rw [List.foldl_cons, List.foldl_cons, hc, hp]
    exact remainHeld_untimed es es' _ h2

theorem routed_pointer {d : Daemon} {t : Int} {ev : LoopEvent} {p : Nat × List KeyEvent} (h : routed d t ev = some p) : pointer d ev = [] := by
  cases ev with
  | dev i e =>
    unfold routed at h
    unfold pointer
    dsimp only at h ⊢
    cases hd : d.devices[i]? with
    | none => rfl
    | some dev =>
      rw [hd] at h
      dsimp only at h ⊢
      cases ha : dev.data with
      | none => rfl
      | some a =>
        rw [ha] at h
        dsimp only at h ⊢
        cases ht : e.type <;> rw [ht] at h <;> first | rfl | cases h
  | timeout => rfl
  | devAdd dev => rfl
  | devRemove => rfl
  | client c m => rfl

/-- The motion passed on for an event. -/
theorem plays_motion {env : Env} {c : Config} {a : Nat} {m : Machine} {d d' : Daemon} {ev : LoopEvent} {t w : Int}
    (h : Plays c a m d) (run : eventHandler env d ev t = .ok (d', w)) (nc : ∀ con msg, ev ≠ .client con msg) :
    d'.vout.reverse.filter VOut.motion = d.vout.reverse.filter VOut.motion ++ pointer d ev := by
  obtain ⟨k, hk, he, hr, hv⟩ := h.kbd
  cases hrt : routed d t ev with
  | none =>
    have hs : ¬ scrolling d ev := by
      intro hs
      cases ev with
      | dev i e =>
        obtain ⟨_, dev, b, k1, _, _, hk1, hact⟩ := hs
        by_cases hb : b = a
        · subst hb
          rw [hk] at hk1
          injection hk1 with hk1
          subst hk1
          rw [he.inert.scroll] at hact
          cases hact
        · rw [h.only b hb] at hk1; cases hk1
      | _ => exact hs
    obtain ⟨e1, e2⟩ := not_routed run hrt nc hs
    rw [e2, List.reverse_append, List.reverse_reverse, List.filter_append]
    have : (pointer d ev).filter VOut.motion = pointer d ev := by
      unfold pointer
      repeat' split
      all_goals rfl
    rw [this]
  | some p =>
    obtain ⟨b, evs⟩ := p
    obtain ⟨k1, k2, g1, g2, g3, g4⟩ := feeds_event h.hist run hrt
    rw [g4, List.reverse_append, List.reverse_reverse, List.filter_append, routed_pointer hrt, List.append_nil]
    have : ∀ os : List Out, (os.filterMap hostOut).filter VOut.motion = [] := by
      intro os
      rw [List.filter_eq_nil_iff]
      intro v hv
      obtain ⟨o, _, ho⟩ := List.mem_filterMap.1 hv
      unfold hostOut at ho
      repeat' split at ho
      all_goals first | (cases ho; done) | (injection ho with ho; subst ho; decide) | (injection ho with ho; subst ho; rintro ⟨⟩)
    rw [this, List.append_nil]

/-- The calls for the motion of raw events. -/
theorem wired_motion {c : Config} (hc : Typewriter c) {a : Nat} {d d' : Daemon} {raws : List InputEvent} (h0 : Plays c a {} d)
    (h : Wired d raws d') (hev : ∀ e ∈ rawKeys raws, Physical e.code) (m0 : d.vout.reverse.filter VOut.motion = []) :
    (∃ m, Plays c a m d') ∧
    (d'.vout.reverse.filter VOut.motion).flatMap (fun v => (uinputWrite v).filter moveRaw) =
      raws.filterMap (fun ev => if ev.type = EVDEV.REL ∧ ev.value ≠ 0 then some (VDev.pointer, ev) else none) := by
  induction h with
  | start => exact ⟨⟨{}, h0⟩, by rw [m0]; rfl⟩
  | @raw env raws d1 i dev r prev e ev t d2 w h plain hdev managed read run ih =>
    have hsub : ∀ e ∈ rawKeys raws, Physical e.code := by
      intro e he
      refine hev e ?_
      unfold rawKeys
      rw [List.filterMap_append]
      exact List.mem_append_left _ he
    obtain ⟨⟨m, hp⟩, ih⟩ := ih hsub
    obtain ⟨b, hb⟩ := Option.isSome_iff_exists.1 managed
    have mot := plays_motion hp run (fun _ _ h => (by cases h))
    have hpt : ∀ ty, e.type = ty → pointer d1 (.dev i e) = (match ty with
        | .mouseMove => [.move e.x e.y]
        | .mouseMoveAbs => [.moveAbs e.x e.y]
        | _ => []) := by
      intro ty hty
      unfold pointer
      dsimp only
      rw [hdev]
      dsimp only
      rw [if_pos managed, hty]
      rfl
    refine ⟨⟨_, plays_event hc hp run (fun _ h => (by cases h)) (fun _ _ h => (by cases h)) ?_⟩, ?_⟩
    · intro x hx
      unfold amounts routed at hx
      dsimp only at hx
      rw [hdev] at hx
      dsimp only at hx
      rw [hb] at hx
      dsimp only at hx
      rcases plain with ⟨ht, hv⟩ | ⟨ht, hco⟩
      · obtain ⟨h1, h2⟩ := read_key ht hv read
        rw [h1] at hx
        dsimp only at hx
        rw [List.mem_singleton.1 hx]
        refine .inr (hev ⟨e.code, decide (e.pressed ≠ 0), 0⟩ ?_)
        unfold rawKeys
        rw [List.filterMap_append]
        refine List.mem_append_right _ ?_
        rw [List.filterMap_cons, h2]
        simp
      · obtain ⟨h1, h2, _⟩ := read_move ht hco read
        rw [h1] at hx
        cases hx
    · rw [mot, List.flatMap_append, ih, List.filterMap_append]
      congr 1
      rcases plain with ⟨ht, hv⟩ | ⟨ht, hco⟩
      · obtain ⟨h1, h2⟩ := read_key ht hv read
        rw [hpt _ h1, List.filterMap_cons, if_neg (by rw [ht]; exact fun h => absurd h.1 (by decide))]
        rfl
      · obtain ⟨h1, h2, h3⟩ := read_move ht hco read
        rw [hpt _ h1]
        dsimp only
        rw [List.flatMap_cons, List.flatMap_nil, List.append_nil, List.filterMap_cons]
        show (uinputMouseMove e.x e.y).filter moveRaw = _
        rw [h3]
        have hm : moveRaw (.pointer, ev) = true := by
          unfold moveRaw
          rw [decide_eq_true_eq]
          exact ⟨ht, hco⟩
        by_cases hz : ev.value = 0
        · rw [if_neg (by simpa using hz), if_neg (fun h => h.2 hz)]
          rfl
        · rw [if_pos hz, if_pos ⟨ht, hz⟩, List.filter_append, List.filter_cons, if_pos hm]
          rfl
  | unknown r prev e ev h ht hv read ih =>
    rename_i raws d1
    have hsub : ∀ e ∈ rawKeys raws, Physical e.code := by
      intro e he
      refine hev e ?_
      unfold rawKeys
      rw [List.filterMap_append]
      exact List.mem_append_left _ he
    obtain ⟨hm, ih⟩ := ih hsub
    refine ⟨hm, ?_⟩
    rw [ih, List.filterMap_append, List.filterMap_cons, if_neg (by rw [ht]; exact fun h => absurd h.1 (by decide))]
    simp
  | @other env raws d1 ev t d2 w h run fresh nc nokey nomove ih =>
    obtain ⟨⟨m, hp⟩, ih⟩ := ih hev
    refine ⟨⟨_, plays_event hc hp run fresh nc (fun e he => .inl (nokey e he))⟩, ?_⟩
    rw [plays_motion hp run nc, nomove, List.append_nil, ih]
  | remove h removed ih =>
    obtain ⟨⟨m, hp⟩, ih⟩ := ih hev
    exact ⟨⟨m, .remove _ removed hp.hist, hp.kbd, hp.only, hp.active⟩, ih⟩

theorem filter_flatMap {α β : Type} (p : β → Bool) (f : α → List β) : ∀ l : List α, (l.flatMap f).filter p = l.flatMap (fun x => (f x).filter p)
  | [] => rfl
  | x :: l => by rw [List.flatMap_cons, List.flatMap_cons, List.filter_append, filter_flatMap p f l]

theorem flatMap_filter {α β : Type} (p : α → Bool) (f : α → List β) (h : ∀ x, p x = false → f x = []) : ∀ l : List α, l.flatMap f = (l.filter p).flatMap f
  | [] => rfl
  | x :: l => by
    rw [List.flatMap_cons, List.filter_cons, flatMap_filter p f h l]
    cases hp : p x with
    | true => rw [if_pos rfl, List.flatMap_cons]
    | false => rw [h x hp]; rfl

theorem move_arrives (v : VOut) (hm : v.motion = false) : (uinputWrite v).filter moveRaw = [] := by
  cases v with
  | key c b =>
    show (writeKeyEvent c _).filter moveRaw = []
    unfold writeKeyEvent
    rfl
  | scroll x y => rfl
  | move x y => cases hm
  | moveAbs x y => cases hm

theorem write_arrives_move (v : VOut) : ((uinputWrite v).filter (fun p => Arrives p)).filter moveRaw = (uinputWrite v).filter moveRaw := by
  cases v with
  | key c b =>
    rw [move_arrives _ rfl, List.filter_eq_nil_iff]
    intro p hp
    have := (List.filter_eq_nil_iff.1 (move_arrives (.key c b) rfl)) p (List.mem_filter.1 hp).1
    exact this
  | scroll x y =>
    have : (uinputWrite (.scroll x y)).filter (fun p => decide (Arrives p)) = uinputWrite (.scroll x y) :=
      List.filter_eq_self.2 (fun p hp => by simpa using (C71_pointer x y).2.2 p hp)
    rw [this]
  | move x y =>
    have : (uinputWrite (.move x y)).filter (fun p => decide (Arrives p)) = uinputWrite (.move x y) :=
      List.filter_eq_self.2 (fun p hp => by simpa using (C71_pointer x y).1 p hp)
    rw [this]
  | moveAbs x y =>
    have : (uinputWrite (.moveAbs x y)).filter (fun p => decide (Arrives p)) = uinputWrite (.moveAbs x y) :=
      List.filter_eq_self.2 (fun p hp => by simpa using (C71_pointer x y).2.1 p hp)
    rw [this]

/-- Which calls are about keys that are not modifiers. -/
theorem key_raw : (allCodes.all fun c => keyRaw ((uinputTarget c).1, ⟨EVDEV.KEY, (uinputTarget c).2, 0⟩) == !isModifierKey c) = true := by
  decide +kernel

theorem write_key_raw (c : Code) (v : Int) : (writeKeyEvent c v).filter (fun p => Arrives p && keyRaw p) =
    if Arrives ((uinputTarget c).1, ⟨EVDEV.KEY, (uinputTarget c).2, 0⟩) ∧ isModifierKey c = false then
      [((uinputTarget c).1, ⟨EVDEV.KEY, (uinputTarget c).2, v⟩)] else [] := by
  have h := List.all_eq_true.1 key_raw c (mem_allCodes c)
  rw [beq_iff_eq] at h
  have hv : keyRaw ((uinputTarget c).1, ⟨EVDEV.KEY, (uinputTarget c).2, v⟩) = !isModifierKey c := h
  unfold writeKeyEvent
  dsimp only
  rw [List.filter_cons, List.filter_cons, List.filter_nil]
  have hs : keyRaw ((uinputTarget c).1, ⟨EVDEV.SYN, 0, 0⟩) = false := rfl
  rw [hv, hs]
  simp only [Bool.and_false, Bool.false_eq_true, if_false, Bool.and_eq_true, decide_eq_true_eq, Bool.not_eq_true', arrives_value _ _ v 0]

theorem write_types (v : VOut) (h : v.types = false) : (uinputWrite v).filter (fun p => Arrives p && keyRaw p) = [] := by
  cases v with
  | key c b =>
    have hm : isModifierKey c = true := by simpa [VOut.types] using h
    show (writeKeyEvent c _).filter _ = _
    rw [write_key_raw, if_neg (by rw [hm]; simp)]
  | scroll x y => cases h
  | move x y =>
    rw [List.filter_eq_nil_iff]
    intro p hp
    have hk : keyRaw p = false := by
      have hp : p ∈ uinputMouseMove x y := hp
      unfold uinputMouseMove at hp
      rcases List.mem_append.1 hp with hp | hp
      · rcases List.mem_append.1 hp with hp | hp <;> split at hp <;> first | (cases hp; done) | (rw [List.mem_singleton.1 hp]; rfl)
      · rw [List.mem_singleton.1 hp]; rfl
    rw [hk]; simp
  | moveAbs x y =>
    rw [List.filter_eq_nil_iff]
    intro p hp
    have hk : keyRaw p = false := by
      have hp : p ∈ uinputMouseMoveAbs x y := hp
      unfold uinputMouseMoveAbs at hp
      rcases List.mem_append.1 hp with hp | hp
      · rcases List.mem_append.1 hp with hp | hp <;> split at hp <;> first | (cases hp; done) | (rw [List.mem_singleton.1 hp]; rfl)
      · rw [List.mem_singleton.1 hp]; rfl
    rw [hk]; simp

theorem wired_plain {d d' : Daemon} {raws : List InputEvent} (h : Wired d raws d') : ∀ ev ∈ raws, ev.plain := by
  induction h with
  | start => exact fun ev he => (by cases he)
  | raw env i dev r prev e ev t h plain hdev managed read run ih =>
    intro x hx
    rcases List.mem_append.1 hx with hx | hx
    · exact ih x hx
    · rw [List.mem_singleton.1 hx]; exact plain
  | unknown r prev e ev h ht hv read ih =>
    intro x hx
    rcases List.mem_append.1 hx with hx | hx
    · exact ih x hx
    · rw [List.mem_singleton.1 hx]; exact .inl ⟨ht, hv⟩
  | other env ev t h run fresh nc nokey nomove ih => exact ih
  | remove h removed ih => exact ih

theorem rawKey_value {ev : InputEvent} {p : Code × Bool} (hp : ev.plain) (h : rawKey ev = some p) : (if p.2 = true then (1 : Int) else 0) = ev.value := by
  unfold rawKey at h
  split at h
  · rename_i ht
    obtain ⟨c, _, hc⟩ := Option.map_eq_some_iff.1 h
    rw [← hc]
    rcases hp with ⟨_, hv | hv⟩ | ⟨h2, _⟩
    · rw [hv]; rfl
    · rw [hv]; rfl
    · rw [ht] at h2; exact absurd h2 (by decide)
  · cases h

/-- Starting up tells the host nothing. -/
theorem reload_silent {env : Env} {d : Daemon} {text : Str} {c : Config} (confs : env.confs = [text])
    (hp : configParse text = .ok (some c)) (run : reload env {} = .ok d) : d.vout = [] := by
  unfold reload at run
  rw [confs] at run
  obtain ⟨d1, h1, run⟩ := dbind_eq_ok.1 run
  have h1 : (do loadConfigs [] (← loadConfig (freeConfigs {}) text)) = Except.ok d1 := h1
  obtain ⟨d2, h2, h3⟩ := dbind_eq_ok.1 h1
  have h3 := Except.ok.inj h3
  subst h3
  unfold loadConfig at h2
  rw [hp] at h2
  have h2 : Except.ok _ = Except.ok d2 := h2
  have h2 := Except.ok.inj h2
  have run := Except.ok.inj run
  rw [clearVkbd_up (by rw [← h2]; rfl)] at run
  rw [← run, ← h2]
  rfl

/-! ### C72 -/

/-- C72. From wire to wire: the daemon is started with a file of remaps (C70), and reads raw events from its devices, any number of them.
The host gets from the virtual devices exactly the keys and buttons read (apart from modifiers), each as the key
the file says, with the same value and in the same order; and exactly the motion read, unchanged. -/
theorem C72_wire {env : Env} {d0 d : Daemon} {raws : List InputEvent} (ids : List Str) (rs : List (Remap × Code))
    (hnl : ∀ l ∈ ids, (10 : UInt8) ∉ l) (hids : ∀ l ∈ ids, ∀ n, classifyLine l ≠ .section n) (hilen : ids.length ≤ 64)
    (hlen : rs.length ≤ 1024) (hok : ∀ r ∈ rs, r.1.Ok r.2)
    (confs : env.confs = [remapText ids (rs.map (·.1))]) (start : reload env {} = .ok d0)
    (h : Wired d0 raws d) (ht : Typing [] (rawKeys raws))
    (hev : ∀ e ∈ rawKeys raws, Physical e.code ∧ ∀ y, remapped rs e.code = .key y → Ordinary y)
    (inj : ∀ e ∈ rawKeys raws, ∀ e' ∈ rawKeys raws, ∀ y, remapped rs e.code = .key y → remapped rs e'.code = .key y → e.code = e'.code) :
    d.delivered.filter keyRaw = raws.filterMap (rawOut rs) ∧
    d.delivered.filter moveRaw = raws.filterMap (fun ev => if ev.type = EVDEV.REL ∧ ev.value ≠ 0 then some (VDev.pointer, ev) else none) := by
  have hk0 : keysOnly (rawKeys raws) = rawKeys raws := List.filter_eq_self.2 (fun e he => by simpa using (hev e he).1.1)
  obtain ⟨es, s, hs⟩ := wired_session h
  rw [hk0] at hs
  have hu : untimed (keysOnly es) = untimed (rawKeys raws) := by
    have : untimed (untimed (keysOnly es)) = untimed (keysOnly es) := by
      unfold untimed
      rw [List.map_map]
      rfl
    rw [← this, hs]
  have mem : ∀ e ∈ keysOnly es, ∃ e' ∈ rawKeys raws, e'.code = e.code := by
    intro e he
    have : ({ e with ts := 0 } : KeyEvent) ∈ rawKeys raws := by
      rw [← hs]
      exact List.mem_map_of_mem he
    exact ⟨_, this, rfl⟩
  refine ⟨?_, ?_⟩
  · obtain ⟨a, _⟩ := C70_typing ids rs hnl hids hilen hlen hok confs start s (typing_untimed _ _ _ hu ht)
      (by
        intro e he
        obtain ⟨e', he', hc⟩ := mem e he
        rw [← hc]
        exact ⟨(hev e' he').1, fun y hy => ((hev e' he').2 y hy).2.2⟩)
      (by
        intro e he e' he' y h1 h2
        obtain ⟨f, hf, hc⟩ := mem e he
        obtain ⟨f', hf', hc'⟩ := mem e' he'
        rw [← hc] at h1 ⊢
        rw [← hc'] at h2 ⊢
        exact inj f hf f' hf' y h1 h2)
    unfold Daemon.delivered
    rw [List.filter_filter, show (fun x : VDev × InputEvent => keyRaw x && decide (Arrives x)) = (fun p => Arrives p && keyRaw p) from
        funext fun p => Bool.and_comm .., filter_flatMap, flatMap_filter VOut.types _ write_types, a]
    have e1 : (keysOnly es).filterMap (remapOut rs) = (rawKeys raws).filterMap (remapOut rs) := by
      rw [← hs]
      unfold untimed
      rw [List.filterMap_map]
      rfl
    rw [e1]
    have hpl := wired_plain h
    clear e1 a mem hu hs hk0 s ht inj h
    unfold rawKeys at hev ⊢
    induction raws with
    | nil => rfl
    | cons ev raws ih =>
      rw [List.filterMap_cons] at hev
      rw [List.filterMap_cons, List.filterMap_cons]
      cases hr : rawKey ev with
      | none =>
        rw [hr] at hev
        have : rawOut rs ev = none := by unfold rawOut; rw [hr]; rfl
        rw [this]
        exact ih hev (fun e he => hpl e (List.mem_cons_of_mem _ he))
      | some p =>
        rw [hr] at hev
        have hrw : rawOut rs ev = (match remapped rs p.1 with
          | .key y => some ((uinputTarget y).1, (⟨EVDEV.KEY, (uinputTarget y).2, ev.value⟩ : InputEvent))
          | .hold _ => none) := by unfold rawOut; rw [hr]; rfl
        rw [hrw]
        dsimp only [Option.map_some] at hev ⊢
        have hev' := hev ⟨p.1, p.2, 0⟩ (by simp)
        have ih := ih (fun e he => hev e (by simp [he])) (fun e he => hpl e (List.mem_cons_of_mem _ he))
        rw [List.filterMap_cons]
        have hro : remapOut rs ⟨p.1, p.2, 0⟩ = (match remapped rs p.1 with | .key y => asHost (y, p.2) | .hold _ => none) := rfl
        rw [hro]
        cases hm : remapped rs p.1 with
        | hold l => exact ih
        | key y =>
          obtain ⟨o1, o2, o3⟩ := hev'.2 y hm
          dsimp only
          have hh : asHost (y, p.2) = some (.key y p.2) := by
            simp only [List.mem_cons, List.not_mem_nil, or_false, not_or] at o2
            unfold asHost hostOut
            dsimp only
            rw [if_neg o2.2.1, if_neg o2.1, if_neg o2.2.2.2, if_neg o2.2.2.1]
          rw [hh]
          dsimp only
          rw [List.flatMap_cons]
          show (writeKeyEvent y (if p.2 = true then 1 else 0)).filter _ ++ _ = _
          have hmod : isModifierKey y = false := by
            have := remapped_ok rs p.1
            rw [hm] at this
            simpa using this
          rw [write_key_raw, if_pos ⟨o1, hmod⟩, List.singleton_append]
          have hval : (if p.2 = true then (1 : Int) else 0) = ev.value := by
            exact rawKey_value (hpl ev (by simp)) hr
          rw [hval]
          congr 1
  · obtain ⟨c, p1, p2, _⟩ := C70_remap_file ids rs hnl hids hilen hlen hok
    have hp := plays_start p2 confs p1 start
    have m0 : d0.vout.reverse.filter VOut.motion = [] := by
      rw [reload_silent confs p1 start]
      rfl
    obtain ⟨_, hmv⟩ := wired_motion p2 hp h (fun e he => (hev e he).1) m0
    rw [← hmv]
    unfold Daemon.delivered
    rw [filter_flatMap, filter_flatMap]
    rw [flatMap_filter VOut.motion _ (fun v hv => by rw [write_arrives_move]; exact move_arrives v hv)]
    congr 1
    funext v
    exact write_arrives_move v

/-! ### Example -/

/-- Read raw events from devices, and handle them. -/
def wiredOf (env : Env) : List (Nat × InputEvent × Int) → Daemon → Option Daemon
  | [], d => some d
  | (i, ev, t) :: rest, d =>
    match d.devices[i]?, readEvent ⟨0, 0, 0, 0⟩ { type := .key, code := 0, pressed := 0, x := 0, y := 0 } ev with
    | some dev, .ok (e, true) =>
      if dev.data.isSome then
        match eventHandler env d (.dev i e) t with
        | .ok (d2, _) => wiredOf env rest d2
        | .error _ => none
      else none
    | _, .ok (_, false) => if ev.type = EVDEV.KEY ∧ (ev.value = 0 ∨ ev.value = 1) then wiredOf env rest d else none
    | _, _ => none

theorem wiredOf_wired {env : Env} {d0 : Daemon} : ∀ (evs : List (Nat × InputEvent × Int)) {d d' : Daemon} {raws : List InputEvent},
    Wired d0 raws d → (∀ p ∈ evs, p.2.1.plain) → wiredOf env evs d = some d' → Wired d0 (raws ++ evs.map (·.2.1)) d'
  | [], d, d', raws, h, _, run => by
    have run := Option.some.inj run
    subst run
    rw [List.map_nil, List.append_nil]
    exact h
  | (i, ev, t) :: rest, d, d', raws, h, hp, run => by
    have hp' : ∀ p ∈ rest, p.2.1.plain := fun p hm => hp p (List.mem_cons_of_mem _ hm)
    have hpe := hp (i, ev, t) (by simp)
    rw [List.map_cons, ← List.singleton_append, ← List.append_assoc]
    unfold wiredOf at run
    split at run
    · rename_i dev e hd hr
      split at run
      · rename_i hm
        split at run
        · rename_i d2 w he
          exact wiredOf_wired rest (.raw env i dev _ _ e ev t h hpe hd hm hr he) hp' run
        · cases run
      · cases run
    · rename_i e hr
      split at run
      · rename_i hc
        exact wiredOf_wired rest (.unknown _ _ e ev h hc.1 hc.2 hr) hp' run
      · cases run
    · cases run

/-- Two devices come; capslock, esc and tab are used (swapped, and control, by `swapRemaps`), an unknown key is struck, and the pointer moves. -/
def wireEvents : List (Nat × InputEvent × Int) :=
  [(0, ⟨EVDEV.KEY, 58, 1⟩, 10), (1, ⟨EVDEV.REL, EVDEV.REL_X, -3⟩, 11), (1, ⟨EVDEV.KEY, 1, 1⟩, 12), (0, ⟨EVDEV.KEY, 15, 1⟩, 13),
   (0, ⟨EVDEV.KEY, 700, 1⟩, 13), (0, ⟨EVDEV.KEY, 58, 0⟩, 14), (1, ⟨EVDEV.REL, EVDEV.REL_Y, 0⟩, 15), (0, ⟨EVDEV.KEY, 54, 1⟩, 16)]

def wireCheck (env : Env) (p : Daemon → Bool) : Bool :=
  match reload env {} with
  | .ok d0 => match eventHandler env d0 (.devAdd { id := b!"0001:0001", capabilities := CAP_KEYBOARD }) 1 with
    | .ok (d1, _) => match eventHandler env d1 (.devAdd { id := b!"0002:0002", capabilities := CAP_KEYBOARD ||| CAP_MOUSE }) 2 with
      | .ok (d2, _) => match wiredOf env wireEvents d2 with
        | some d => p d
        | none => false
      | .error _ => false
    | .error _ => false
  | .error _ => false

def wireEnv : Env := { confs := [remapText [b!"*"] (swapRemaps.map (·.1))] }

theorem wire_run : wireCheck wireEnv (fun d => decide (d.delivered.filter keyRaw =
    [(.keyboard, ⟨EVDEV.KEY, 1, 1⟩), (.keyboard, ⟨EVDEV.KEY, 58, 1⟩), (.keyboard, ⟨EVDEV.KEY, 1, 0⟩), (.keyboard, ⟨EVDEV.KEY, 45, 1⟩)]) &&
    decide (d.delivered.filter moveRaw = [(.pointer, ⟨EVDEV.REL, EVDEV.REL_X, -3⟩)])) = true := by
  set_option maxRecDepth 100000 in decide +kernel

/-- The hypotheses of `C72_wire` about the session are met. -/
theorem C72_example : ∃ d0 d, reload wireEnv {} = .ok d0 ∧ Wired d0 (wireEvents.map (·.2.1)) d ∧ Typing [] (rawKeys (wireEvents.map (·.2.1))) ∧
    (∀ e ∈ rawKeys (wireEvents.map (·.2.1)), Physical e.code ∧ ∀ y, remapped swapRemaps e.code = .key y → Ordinary y) ∧
    (∀ e ∈ rawKeys (wireEvents.map (·.2.1)), ∀ e' ∈ rawKeys (wireEvents.map (·.2.1)), ∀ y,
      remapped swapRemaps e.code = .key y → remapped swapRemaps e'.code = .key y → e.code = e'.code) ∧
    d.delivered.filter keyRaw = [(.keyboard, ⟨EVDEV.KEY, 1, 1⟩), (.keyboard, ⟨EVDEV.KEY, 58, 1⟩), (.keyboard, ⟨EVDEV.KEY, 1, 0⟩), (.keyboard, ⟨EVDEV.KEY, 45, 1⟩)] ∧
    d.delivered.filter moveRaw = [(.pointer, ⟨EVDEV.REL, EVDEV.REL_X, -3⟩)] := by
  have hrun := wire_run
  unfold wireCheck at hrun
  split at hrun
  case h_2 => cases hrun
  rename_i d0 h0
  split at hrun
  case h_2 => cases hrun
  rename_i d1 w1 h1
  split at hrun
  case h_2 => cases hrun
  rename_i d2 w2 h2
  split at hrun
  case h_2 => cases hrun
  rename_i d h3
  rw [Bool.and_eq_true, decide_eq_true_eq, decide_eq_true_eq] at hrun
  have s1 : Wired d0 [] d1 := .other wireEnv _ _ .start h1 (fun dev e => by injection e with e; rw [← e]) (fun _ _ e => by cases e)
    (fun e he => by cases he) rfl
  have s2 : Wired d0 [] d2 := .other wireEnv _ _ s1 h2 (fun dev e => by injection e with e; rw [← e]) (fun _ _ e => by cases e)
    (fun e he => by cases he) rfl
  have hpl : ∀ p ∈ wireEvents, p.2.1.plain := by
    unfold InputEvent.plain
    decide
  have s3 := wiredOf_wired wireEvents s2 hpl h3
  have roles : remapped swapRemaps 58 = .key 1 ∧ remapped swapRemaps 1 = .key 58 ∧ remapped swapRemaps 15 = .hold 1 ∧ remapped swapRemaps 54 = .key 45 := by
    decide +kernel
  obtain ⟨r1, r2, r3, r4⟩ := roles
  have hk : rawKeys (wireEvents.map (·.2.1)) = [⟨58, true, 0⟩, ⟨1, true, 0⟩, ⟨15, true, 0⟩, ⟨58, false, 0⟩, ⟨54, true, 0⟩] := by decide +kernel
  refine ⟨d0, d, h0, s3, ?_, ?_, ?_, hrun.1, hrun.2⟩
  · rw [hk]; simp [Typing]
  · rw [hk]
    intro ev he
    have ord : Ordinary 1 ∧ Ordinary 58 ∧ Ordinary 45 := by
      unfold Ordinary RealKey
      decide +kernel
    simp only [List.mem_cons, List.not_mem_nil, or_false] at he
    rcases he with rfl | rfl | rfl | rfl | rfl
    all_goals refine ⟨by unfold Physical; decide, fun y e => ?_⟩
    · rw [r1] at e; injection e with e; subst e; exact ord.1
    · rw [r2] at e; injection e with e; subst e; exact ord.2.1
    · rw [r3] at e; cases e
    · rw [r1] at e; injection e with e; subst e; exact ord.1
    · rw [r4] at e; injection e with e; subst e; exact ord.2.2
  · rw [hk]
    intro e he e' he' y h1 h2
    simp only [List.mem_cons, List.not_mem_nil, or_false] at he he'
    rcases he with rfl | rfl | rfl | rfl | rfl <;> rcases he' with rfl | rfl | rfl | rfl | rfl <;>
      simp only [r1, r2, r3, r4, Role.key.injEq, reduceCtorEq] at h1 h2 ⊢ <;> (subst h1; exact absurd h2 (by decide))

end Keyd
