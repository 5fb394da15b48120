import Verif.Props.Routing
import Verif.Props.Typewriter

/-
  C69: the whole daemon, from the events of the devices to the calls of the virtual keyboard, is a remapping machine if its
  configuration only remaps keys.
-/

set_option autoImplicit false

namespace Keyd

attribute [local irreducible] configInit

/-! ### Specification -/

/-- The key events an event of the main loop amounts to (see `routed`), whichever keyboard they are for. -/
def amounts (d : Daemon) (t : Int) (ev : LoopEvent) : List KeyEvent :=
  match routed d t ev with
  | some (_, evs) => evs
  | none => []

/-- `Session d es d'`: from `d` to `d'` the daemon handled any events but requests of clients, in any environment, and devices came and
went; `es` are the key events all this amounts to, in order. -/
inductive Session (d : Daemon) : List KeyEvent → Daemon → Prop
  | start : Session d [] d
  | event (env : Env) {es : List KeyEvent} {d1 : Daemon} (ev : LoopEvent) (t : Int) {d2 : Daemon} {w : Int} (h : Session d es d1)
      (run : eventHandler env d1 ev t = .ok (d2, w)) (fresh : ∀ dev, ev = .devAdd dev → dev.data = none)
      (nc : ∀ con msg, ev ≠ .client con msg) : Session d (es ++ amounts d1 t ev) d2
  | remove {es : List KeyEvent} {d1 : Daemon} (h : Session d es d1) (removed : List Nat) :
      Session d es { d1 with devices := (d1.devices.zipIdx.filter fun p => decide (p.2 ∉ removed)).map Prod.fst }

/-- The call moves the pointer. -/
def VOut.motion : VOut → Bool
  | .move _ _ | .moveAbs _ _ => true
  | _ => false

/-- The call strikes a key that is not a modifier, or turns the wheel. -/
def VOut.types : VOut → Bool
  | .key c _ => !isModifierKey c
  | .scroll _ _ => true
  | _ => false

/-- The call for a key going down or up: the scroll keys turn the wheel when they go down. -/
def asHost (p : Code × Bool) : Option VOut := hostOut (.key p.1 p.2)

/-! ### Proofs -/

theorem types_host : ∀ (os : List Out), (os.filterMap hostOut).filter VOut.types = (os.filterMap typedKey).filterMap asHost
  | [] => rfl
  | .layer _ _ :: os => types_host os
  | .command _ :: os => types_host os
  | .sleep _ :: os => types_host os
  | .key c b :: os => by
    rw [List.filterMap_cons, List.filterMap_cons (f := typedKey)]
    by_cases hm : isModifierKey c = true
    · have e : typedKey (.key c b) = none := if_pos hm
      have e2 : hostOut (.key c b) = some (.key c b) := by
        have : c ∈ ([56, 100, 42, 125, 29] : List Code) := by simpa [isModifierKey] using hm
        unfold hostOut
        have h1 : c ≠ KEYD.SCROLL_DOWN := by rintro rfl; revert this; decide
        have h2 : c ≠ KEYD.SCROLL_UP := by rintro rfl; revert this; decide
        have h3 : c ≠ KEYD.SCROLL_RIGHT := by rintro rfl; revert this; decide
        have h4 : c ≠ KEYD.SCROLL_LEFT := by rintro rfl; revert this; decide
        dsimp only
        rw [if_neg h1, if_neg h2, if_neg h3, if_neg h4]
      rw [e, e2]
      dsimp only
      rw [List.filter_cons_of_neg (by simp [VOut.types, hm])]
      exact types_host os
    · have hm : isModifierKey c = false := by simpa using hm
      have e : typedKey (.key c b) = some (c, b) := if_neg (by rw [hm]; decide)
      rw [e]
      dsimp only
      rw [List.filterMap_cons (f := asHost)]
      rw [show asHost (c, b) = hostOut (.key c b) from rfl]
      cases ho : hostOut (.key c b) with
      | none => exact types_host os
      | some v =>
        have : v.types = true := by
          unfold hostOut at ho
          dsimp only at ho
          repeat' split at ho
          all_goals first
            | (cases ho; done)
            | (injection ho with ho; subst ho; first | rfl | simp [VOut.types, hm])
        dsimp only
        rw [List.filter_cons_of_pos this, types_host os]

theorem feed_emul {c : Config} (hc : Typewriter c) {fuel : Nat} : ∀ (evs : List KeyEvent) {m : Machine} {k k' : Kbd}, Emul c m k →
    (∀ ev ∈ evs, ev.code = 0 ∨ Physical ev.code) → feedEach fuel k evs = .ok k' →
    Emul c (evs.foldl (Machine.step c) m) k' ∧ ∃ os, k'.trace = os ++ k.trace
  | [], m, k, k', h, _, run => by
    injection run with run
    subst run
    exact ⟨h, [], rfl⟩
  | ev :: evs, m, k, k', h, hev, run => by
    unfold feedEach at run
    obtain ⟨⟨k1, w⟩, h1, h2⟩ := bind_eq_ok.1 run
    obtain ⟨os1, g1⟩ := events_grow h1
    rw [kbdProcessEvents_single] at h1
    cases fuel with
    | zero => cases h1
    | succ n =>
      obtain ⟨k2, e2, h3⟩ := processEvent_emul hc h (hev ev List.mem_cons_self) n
      rw [e2] at h1
      have : k2 = k1 := congrArg Prod.fst (Except.ok.inj h1)
      subst this
      obtain ⟨g3, os2, g4⟩ := feed_emul hc evs h3 (fun e he => hev e (List.mem_cons_of_mem _ he)) h2
      exact ⟨g3, os2 ++ os1, by rw [g4, g1, List.append_assoc]⟩

theorem feed_reach {cfg : Config → Prop} {fuel : Nat} : ∀ (evs : List KeyEvent) {k k' : Kbd}, Reach cfg k → feedEach fuel k evs = .ok k' → Reach cfg k'
  | [], k, k', h, run => by
    injection run with run
    subst run
    exact h
  | ev :: evs, k, k', h, run => by
    unfold feedEach at run
    obtain ⟨⟨k1, w⟩, h1, h2⟩ := bind_eq_ok.1 run
    exact feed_reach evs (.events fuel k [ev] k1 w h h1) h2

/-- The daemon has one keyboard, at address `a`, which is the machine's. -/
structure Plays (c : Config) (a : Nat) (m : Machine) (d : Daemon) : Prop where
  hist : DHistory d
  kbd : ∃ k, d.heap a = some k ∧ Emul c m k ∧ Reach (fun c' => c' = c) k ∧
    d.vout.reverse.filter (fun v => !v.motion) = k.outputs.filterMap hostOut
  only : ∀ b, b ≠ a → d.heap b = none
  active : d.active = none ∨ d.active = some a

theorem Plays.device {c : Config} {a : Nat} {m : Machine} {d : Daemon} (h : Plays c a m d) {dev : Device} (hm : dev ∈ d.devices) {b : Nat}
    (hb : dev.data = some b) : b = a := by
  by_contra hn
  exact (dinv_history h.hist).device_live hm hb (h.only b hn)

theorem Plays.used {env : Env} {c : Config} {a : Nat} {m : Machine} {d d' : Daemon} {ev : LoopEvent} {t w : Int}
    (h : Plays c a m d) (run : eventHandler env d ev t = .ok (d', w)) : d'.active = none ∨ d'.active = some a := by
  rw [C66_used_last h.hist run]
  unfold usedLast
  split
  · split
    · exact h.active
    · rename_i i _ dev hdev
      split
      · cases hb : dev.data with
        | none => exact .inl rfl
        | some b => exact .inr (by rw [h.device (List.mem_of_getElem? hdev) hb])
      · exact h.active
  · exact h.active

theorem motion_host (os : List Out) : (os.filterMap hostOut).filter (fun v => !v.motion) = os.filterMap hostOut := by
  rw [List.filter_eq_self]
  intro v hv
  obtain ⟨o, _, ho⟩ := List.mem_filterMap.1 hv
  cases o with
  | key c b =>
    unfold hostOut at ho
    dsimp only at ho
    repeat' split at ho
    all_goals first
      | (cases ho; done)
      | (injection ho with ho; subst ho; rfl)
  | layer => cases ho
  | command => cases ho
  | sleep => cases ho

theorem plays_event {env : Env} {c : Config} (hc : Typewriter c) {a : Nat} {m : Machine} {d d' : Daemon} {ev : LoopEvent} {t w : Int}
    (h : Plays c a m d) (run : eventHandler env d ev t = .ok (d', w)) (fresh : ∀ dev, ev = .devAdd dev → dev.data = none)
    (nc : ∀ con msg, ev ≠ .client con msg) (hev : ∀ e ∈ amounts d t ev, e.code = 0 ∨ Physical e.code) :
    Plays c a ((amounts d t ev).foldl (Machine.step c) m) d' := by
  obtain ⟨k, hk, he, hr, hv⟩ := h.kbd
  have hist : DHistory d' := .event env d ev t d' w h.hist run fresh
  unfold amounts at hev ⊢
  cases hrt : routed d t ev with
  | none =>
    have hs : ¬ scrolling d ev := by
      intro hs
      cases ev with
      | dev i e =>
        obtain ⟨_, dev, b, k1, _, _, hk1, hact⟩ := hs
        by_cases hb : b = a
        · subst hb
          rw [hk] at hk1
          injection hk1 with hk1
          subst hk1
          rw [he.inert.scroll] at hact
          cases hact
        · rw [h.only b hb] at hk1; cases hk1
      | _ => exact hs
    obtain ⟨e1, e2⟩ := not_routed run hrt nc hs
    refine ⟨hist, ⟨k, by rw [e1]; exact hk, he, hr, ?_⟩, fun b hb => by rw [e1]; exact h.only b hb, h.used run⟩
    rw [e2, List.reverse_append, List.reverse_reverse, List.filter_append, hv]
    have : (pointer d ev).filter (fun v => !v.motion) = [] := by
      unfold pointer
      repeat' split
      all_goals rfl
    rw [this, List.append_nil]
  | some p =>
    obtain ⟨b, evs⟩ := p
    rw [hrt] at hev
    obtain ⟨k1, k2, g1, g2, g3, g4⟩ := feeds_event h.hist run hrt
    have hb : b = a := by
      by_contra hb
      rw [h.only b hb] at g1
      cases g1
    subst hb
    rw [hk] at g1
    injection g1 with g1
    subst g1
    obtain ⟨f1, os, f2⟩ := feed_emul hc evs he hev g2
    refine ⟨hist, ⟨k2, by rw [g3, upd_same], f1, feed_reach evs hr g2, ?_⟩, fun b' hb' => by rw [g3, upd_other _ _ hb']; exact h.only b' hb', h.used run⟩
    rw [g4, List.reverse_append, List.reverse_reverse, List.filter_append, hv, motion_host, since_eq f2]
    unfold Kbd.outputs
    rw [f2, List.reverse_append, List.filterMap_append]

theorem plays_session {c : Config} (hc : Typewriter c) {a : Nat} {d d' : Daemon} {es : List KeyEvent} {m : Machine} (h : Plays c a m d)
    (s : Session d es d') (hev : ∀ e ∈ es, e.code = 0 ∨ Physical e.code) : Plays c a (es.foldl (Machine.step c) m) d' := by
  induction s with
  | start => exact h
  | event env ev t _ run fresh nc ih =>
    rw [List.foldl_append]
    exact plays_event hc (ih (fun e he => hev e (List.mem_append_left _ he))) run fresh nc (fun e he => hev e (List.mem_append_right _ he))
  | remove _ removed ih =>
    have ih := ih hev
    exact ⟨.remove _ removed ih.hist, ih.kbd, ih.only, ih.active⟩

theorem clearVkbd_up {d : Daemon} (h : d.keystate = fun _ => false) : clearVkbd d = d := by
  unfold clearVkbd
  generalize codes256 = l
  induction l with
  | nil => rfl
  | cons c l ih =>
    rw [List.foldl_cons]
    have : clearStep d c = d := by
      unfold clearStep
      rw [if_neg (by rw [h]; exact fun e => by cases e)]
    rw [this]
    exact ih

theorem plays_start {env : Env} {d : Daemon} {text : Str} {c : Config} (hc : Typewriter c) (confs : env.confs = [text])
    (hp : configParse text = .ok (some c)) (run : reload env {} = .ok d) : Plays c 0 {} d := by
  have hist : DHistory d := .start env d run
  unfold reload at run
  rw [confs] at run
  obtain ⟨d1, h1, run⟩ := dbind_eq_ok.1 run
  have h1 : (do loadConfigs [] (← loadConfig (freeConfigs {}) text)) = Except.ok d1 := h1
  obtain ⟨d2, h2, h3⟩ := dbind_eq_ok.1 h1
  have h3 := Except.ok.inj h3
  subst h3
  unfold loadConfig at h2
  rw [hp] at h2
  have h2 : Except.ok _ = Except.ok d2 := h2
  have h2 := Except.ok.inj h2
  have run := Except.ok.inj run
  rw [clearVkbd_up (by rw [← h2]; rfl)] at run
  have eh : d.heap = upd (fun _ => none) 0 (some (newKeyboard c)) := by
    rw [← run, ← h2]
    rfl
  refine ⟨hist, ⟨newKeyboard c, by rw [eh, upd_same], emul_start hc, .init c rfl, ?_⟩, fun b hb => by rw [eh, upd_other _ _ hb], ?_⟩
  · rw [← run, ← h2]
    rfl
  · rw [← run, ← h2]
    exact .inl rfl

/-! ### Modifiers at the host -/

/-- The state a call says a key is in. -/
def VOut.says (x : Code) : VOut → Option Bool
  | .key c b => if c = x then some b else none
  | _ => none

theorem downAtVkbd_last (x : Code) : ∀ (vs : List VOut), DownAtVkbd x vs = true ↔ (vs.reverse.filterMap (VOut.says x)).getLast? = some true
  | [] => by constructor <;> intro h <;> cases h
  | v :: vs => by
    rw [List.reverse_cons, List.filterMap_append]
    cases v with
    | key c b =>
      by_cases hc : c = x
      · have e : [VOut.key c b].filterMap (VOut.says x) = [b] := by
          simp [VOut.says, hc]
        rw [e, List.getLast?_concat]
        unfold DownAtVkbd
        rw [if_pos hc]
        simp
      · have e : [VOut.key c b].filterMap (VOut.says x) = [] := by
          simp [VOut.says, hc]
        rw [e, List.append_nil]
        unfold DownAtVkbd
        rw [if_neg hc]
        exact downAtVkbd_last x vs
    | scroll a b => rw [show [VOut.scroll a b].filterMap (VOut.says x) = [] from rfl, List.append_nil]; exact downAtVkbd_last x vs
    | move a b => rw [show [VOut.move a b].filterMap (VOut.says x) = [] from rfl, List.append_nil]; exact downAtVkbd_last x vs
    | moveAbs a b => rw [show [VOut.moveAbs a b].filterMap (VOut.says x) = [] from rfl, List.append_nil]; exact downAtVkbd_last x vs

theorem says_still (x : Code) : ∀ (vs : List VOut), (vs.filter (fun v => !v.motion)).filterMap (VOut.says x) = vs.filterMap (VOut.says x)
  | [] => rfl
  | v :: vs => by
    cases v with
    | key c b =>
      rw [List.filter_cons_of_pos (by rfl), List.filterMap_cons, List.filterMap_cons, says_still x vs]
    | scroll a b =>
      rw [List.filter_cons_of_pos (by rfl), List.filterMap_cons, List.filterMap_cons, says_still x vs]
    | move a b =>
      rw [List.filter_cons_of_neg (by exact fun h => by cases h), says_still x vs]
      rfl
    | moveAbs a b =>
      rw [List.filter_cons_of_neg (by exact fun h => by cases h), says_still x vs]
      rfl

theorem says_host {x : Code} (hx : isModifierKey x = true) : ∀ (os : List Out),
    (os.filterMap hostOut).filterMap (VOut.says x) = keyHistory x os
  | [] => rfl
  | .layer _ _ :: os => says_host hx os
  | .command _ :: os => says_host hx os
  | .sleep _ :: os => says_host hx os
  | .key c b :: os => by
    have ih := says_host hx os
    unfold keyHistory at ih ⊢
    rw [List.filterMap_cons, List.filterMap_cons (l := os)]
    have hm : x ∈ ([56, 100, 42, 125, 29] : List Code) := by simpa [isModifierKey] using hx
    by_cases hc : c = x
    · subst hc
      have e2 : hostOut (.key c b) = some (.key c b) := by
        unfold hostOut
        have h1 : c ≠ KEYD.SCROLL_DOWN := by rintro rfl; revert hm; decide
        have h2 : c ≠ KEYD.SCROLL_UP := by rintro rfl; revert hm; decide
        have h3 : c ≠ KEYD.SCROLL_RIGHT := by rintro rfl; revert hm; decide
        have h4 : c ≠ KEYD.SCROLL_LEFT := by rintro rfl; revert hm; decide
        dsimp only
        rw [if_neg h1, if_neg h2, if_neg h3, if_neg h4]
      rw [e2]
      dsimp only
      rw [List.filterMap_cons]
      rw [show VOut.says c (.key c b) = some b from if_pos rfl]
      dsimp only
      rw [if_pos rfl, ih]
    · dsimp only
      rw [if_neg hc, ← ih]
      dsimp only
      cases ho : hostOut (.key c b) with
      | none => rfl
      | some v =>
        dsimp only
        rw [List.filterMap_cons]
        have : v.says x = none := by
          unfold hostOut at ho
          dsimp only at ho
          repeat' split at ho
          all_goals first
            | (cases ho; done)
            | (injection ho with ho; subst ho; first | rfl | exact if_neg hc)
        rw [this]

theorem Reach.weaken {cfg cfg' : Config → Prop} (hh : ∀ c, cfg c → cfg' c) {k : Kbd} (h : Reach cfg k) : Reach cfg' k := by
  induction h with
  | init c hc => exact .init c (hh c hc)
  | events n k evs k' w _ run ih => exact .events n k evs k' w ih run
  | bind k e k' ok _ run hc ih => exact .bind k e k' ok ih run (hh _ hc)
  | scroll k s _ ih => exact .scroll k s ih

/-! ### The theorems -/

/-- C69. A daemon that is started with one configuration file that only remaps keys and holds modifier layers is, from the events of
its devices to the calls of the virtual keyboard, the remapping machine of C07: whatever events it handles and whichever devices come and
go, what is struck on the virtual keyboard (apart from modifiers) is what the machine types when given the keys of all managed devices in
the order in which they come; and a modifier is down on the virtual keyboard exactly when a key holding a layer with that modifier is held. -/
theorem C69_remaps {env : Env} {d0 d : Daemon} {text : Str} {c : Config} {es : List KeyEvent} (hc : Typewriter c)
    (confs : env.confs = [text]) (hp : configParse text = .ok (some c)) (start : reload env {} = .ok d0)
    (s : Session d0 es d) (hev : ∀ e ∈ es, e.code = 0 ∨ Physical e.code) :
    d.vout.reverse.filter VOut.types = (Machine.run c es).out.filterMap asHost ∧
    ∀ mask key, (mask, key) ∈ modifierKeys → NotInMacros key c →
      (DownAtVkbd key d.vout = true ↔ (Machine.run c es).wants c mask) := by
  obtain ⟨_, ⟨k, hk, he, hr, hv⟩, _⟩ := plays_session hc (plays_start hc confs hp start) s hev
  constructor
  · have e : d.vout.reverse.filter VOut.types = (d.vout.reverse.filter (fun v => !v.motion)).filter VOut.types := by
      rw [List.filter_filter]
      congr 1
      funext v
      cases v <;> simp [VOut.types, VOut.motion]
    rw [e, hv, types_host]
    have := he.types.out
    unfold Kbd.typed at this
    rw [this]
    rfl
  · intro mask key hm hn
    have hmod : isModifierKey key = true := by
      revert hm
      unfold modifierKeys
      intro hm
      simp only [List.mem_cons, List.not_mem_nil, or_false, Prod.mk.injEq] at hm
      rcases hm with ⟨_, rfl⟩ | ⟨_, rfl⟩ | ⟨_, rfl⟩ | ⟨_, rfl⟩ | ⟨_, rfl⟩ <;> decide
    have hr2 : Reach (NotInMacros key) k := hr.weaken (fun c' e => by rw [e]; exact hn)
    rw [downAtVkbd_last, ← says_still, hv, says_host hmod]
    rw [show (keyHistory key k.outputs).getLast? = some true ↔ k.keystate key = true from (C01_keystate_is_host_state key k hr2).symm]
    exact he.mods mask key hm

/-- C69. In particular, typing on keys that stand for themselves and on keys that hold modifier layers, on any number of keyboards:
the host gets exactly the keys typed, in order. -/
theorem C69_passthrough {env : Env} {d0 d : Daemon} {text : Str} {c : Config} {es : List KeyEvent} (hc : Typewriter c)
    (confs : env.confs = [text]) (hp : configParse text = .ok (some c)) (start : reload env {} = .ok d0)
    (s : Session d0 es d) (ht : Typing [] es)
    (hev : ∀ ev ∈ es, Physical ev.code ∧ RealKey ev.code ∧
      (c.role ev.code = some (.key ev.code) ∨ ∃ l, c.role ev.code = some (.hold l))) :
    d.vout.reverse.filter VOut.types =
      (es.filter (fun ev => c.role ev.code = some (.key ev.code))).filterMap (fun ev => asHost (ev.code, ev.pressed)) := by
  rw [(C69_remaps hc confs hp start s (fun e he => .inr (hev e he).1)).1]
  unfold Machine.run
  rw [echo_run es [] {} ⟨rfl, fun p hp => (by cases hp), fun x => by simp⟩ ht (fun ev he => ⟨(hev ev he).1.1, (hev ev he).2⟩)]
  show (([] : List (Code × Bool)) ++ _).filterMap asHost = _
  rw [List.nil_append, List.filterMap_filterMap, List.filterMap_filter]
  congr 1
  funext ev
  by_cases h : c.role ev.code = some (.key ev.code)
  · simp [h]
  · simp [h]

/-! ### It never stops -/

/-- The keyboard at this address is in a state of the machine. -/
def Ready (c : Config) (a : Nat) (d : Daemon) : Prop := ∃ k m, d.heap a = some k ∧ Emul c m k

theorem kbdRun_ready {env : Env} {c : Config} (hc : Typewriter c) {a : Nat} {d : Daemon} (h : Ready c a d) (hf : 0 < env.fuel) {ev : KeyEvent}
    (hev : ev.code = 0 ∨ Physical ev.code) : ∃ d' w, kbdRun env d a [ev] = .ok (d', w) ∧ Ready c a d' := by
  obtain ⟨k, m, hk, he⟩ := h
  obtain ⟨n, hn⟩ : ∃ n, env.fuel = n + 1 := ⟨env.fuel - 1, by omega⟩
  obtain ⟨k', e1, e2⟩ := processEvent_emul hc he hev n
  unfold kbdRun
  rw [hk]
  dsimp only
  rw [kbdProcessEvents_single, hn, e1]
  refine ⟨_, _, rfl, k', m.step c ev, ?_, e2⟩
  dsimp only
  rw [(keeps_applyOuts env a k.config _ _ _).1.heap]
  show upd d.heap a (some k') a = some k'
  rw [upd_same]

theorem keypress_ready {env : Env} {c : Config} (hc : Typewriter c) {a : Nat} {d : Daemon} (h : Ready c a d) (hf : 0 < env.fuel) {code : Code}
    (hev : Physical code) (t : Int) : ∃ d' w, processKeypress env d a code t = .ok (d', w) ∧ Ready c a d' := by
  unfold processKeypress
  obtain ⟨d1, w1, e1, h1⟩ := kbdRun_ready hc h hf (ev := ⟨code, true, t⟩) (.inr hev)
  obtain ⟨d2, w2, e2, h2⟩ := kbdRun_ready hc h1 hf (ev := ⟨code, false, t⟩) (.inr hev)
  refine ⟨d2, w2, ?_, h2⟩
  rw [e1]
  exact e2

theorem repeat_ready {env : Env} {c : Config} (hc : Typewriter c) {a : Nat} (hf : 0 < env.fuel) {code : Code}
    (hev : Physical code) (t : Int) : ∀ (n : Nat) {d : Daemon}, Ready c a d → ∃ d', repeatKeypress env a code t n d = .ok d' ∧ Ready c a d'
  | 0, d, h => ⟨d, rfl, h⟩
  | n+1, d, h => by
    obtain ⟨d1, w1, e1, h1⟩ := keypress_ready hc h hf hev t
    obtain ⟨d2, e2, h2⟩ := repeat_ready hc hf hev t n (d := { d1 with timeout := w1 }) h1
    refine ⟨d2, ?_, h2⟩
    unfold repeatKeypress
    rw [e1]
    exact e2

/-- C69. Such a daemon never stops: whatever it has been through, it handles any next event (other than a client's request). -/
theorem C69_survives {env env' : Env} {d0 d : Daemon} {text : Str} {c : Config} {es : List KeyEvent} (hc : Typewriter c)
    (confs : env.confs = [text]) (hp : configParse text = .ok (some c)) (start : reload env {} = .ok d0)
    (s : Session d0 es d) (hev : ∀ e ∈ es, e.code = 0 ∨ Physical e.code) (hf : 0 < env'.fuel) (ev : LoopEvent) (t : Int)
    (nc : ∀ con msg, ev ≠ .client con msg) (hk : ∀ e ∈ amounts d t ev, e.code = 0 ∨ Physical e.code) :
    ∃ r, eventHandler env' d ev t = .ok r := by
  have pl := plays_session hc (plays_start hc confs hp start) s hev
  obtain ⟨k, hk0, he, _, _⟩ := pl.kbd
  have ready : Ready c 0 (tick d t) := ⟨k, _, hk0, he⟩
  cases ev with
  | client con msg => exact absurd rfl (nc con msg)
  | devAdd dev => exact ⟨_, rfl⟩
  | devRemove => exact ⟨_, rfl⟩
  | timeout =>
    unfold eventHandler
    dsimp only
    rcases pl.active with ha | ha
    · rw [show (tick d t).active = none from ha]
      exact ⟨_, rfl⟩
    · rw [show (tick d t).active = some 0 from ha]
      obtain ⟨d1, w1, e1, _⟩ := kbdRun_ready hc ready hf (ev := ⟨0, false, t⟩) (.inl rfl)
      dsimp only
      rw [e1]
      exact ⟨_, rfl⟩
  | dev i e =>
    unfold eventHandler
    dsimp only
    rw [show (tick d t).devices = d.devices from rfl]
    cases hdev : d.devices[i]? with
    | none => exact ⟨_, rfl⟩
    | some dev =>
      have fin : (∃ d', deviceEvent env' (tick d t) dev e t = .ok d') →
          ∃ r, (do let d ← deviceEvent env' (tick d t) dev e t; Except.ok (d, d.timeout) : DRes (Daemon × Int)) = .ok r := by
        rintro ⟨d', e'⟩
        rw [e']
        exact ⟨_, rfl⟩
      refine fin ?_
      unfold amounts routed at hk
      dsimp only at hk
      rw [hdev] at hk
      dsimp only at hk
      unfold deviceEvent
      cases hd : dev.data with
      | some b =>
        have hb : b = 0 := pl.device (List.mem_of_getElem? hdev) hd
        subst hb
        rw [hd] at hk
        dsimp only at hk ⊢
        unfold managedEvent
        dsimp only
        have ready : Ready c 0 { tick d t with active := some 0 } := ready
        cases hty : e.type with
        | key =>
          rw [hty] at hk
          dsimp only at hk ⊢
          obtain ⟨d1, w1, e1, _⟩ := kbdRun_ready hc ready hf (ev := ⟨e.code, decide (e.pressed ≠ 0), t⟩) (hk _ List.mem_cons_self)
          rw [e1]
          exact ⟨_, rfl⟩
        | mouseMove =>
          dsimp only
          rw [show (tick d t).heap 0 = some k from hk0]
          exact ⟨_, rfl⟩
        | mouseMoveAbs => exact ⟨_, rfl⟩
        | mouseScroll =>
          dsimp only
          obtain ⟨d1, e1, h1⟩ := repeat_ready hc (a := 0) hf (code := KEYD.SCROLL_RIGHT) (by unfold Physical; decide) t e.x.toNat ready
          obtain ⟨d2, e2, h2⟩ := repeat_ready hc (a := 0) hf (code := KEYD.SCROLL_LEFT) (by unfold Physical; decide) t (-e.x).toNat h1
          obtain ⟨d3, e3, h3⟩ := repeat_ready hc (a := 0) hf (code := KEYD.SCROLL_UP) (by unfold Physical; decide) t e.y.toNat h2
          obtain ⟨d4, e4, h4⟩ := repeat_ready hc (a := 0) hf (code := KEYD.SCROLL_DOWN) (by unfold Physical; decide) t (-e.y).toNat h3
          refine ⟨d4, ?_⟩
          rw [e1]
          show (do let d ← repeatKeypress env' 0 KEYD.SCROLL_LEFT t (-e.x).toNat d1; _) = _
          rw [e2]
          show (do let d ← repeatKeypress env' 0 KEYD.SCROLL_UP t e.y.toNat d2; _) = _
          rw [e3]
          exact e4
        | led => exact ⟨_, rfl⟩
        | removed => exact ⟨_, rfl⟩
      | none =>
        dsimp only
        split
        · rcases pl.active with ha | ha
          · rw [show (tick d t).active = none from ha]
            exact ⟨_, rfl⟩
          · rw [show (tick d t).active = some 0 from ha]
            dsimp only
            split
            · obtain ⟨d1, w1, e1, _⟩ := keypress_ready hc ready hf (code := KEYD.EXTERNAL_MOUSE_BUTTON) (by unfold Physical; decide) t
              rw [e1]
              exact ⟨_, rfl⟩
            · exact ⟨_, rfl⟩
        · split
          · exact ⟨_, rfl⟩
          · exact ⟨_, rfl⟩

/-! ### Examples -/

/-- The events of a session, with the key events they amount to. -/
def sessionOf (env : Env) : List (LoopEvent × Int) → Daemon → List KeyEvent → DRes (Daemon × List KeyEvent)
  | [], d, es => .ok (d, es)
  | (ev, t) :: evs, d, es => do
    let r ← eventHandler env d ev t
    sessionOf env evs r.1 (es ++ amounts d t ev)

def LoopEvent.plainB : LoopEvent → Bool
  | .client _ _ => false
  | .devAdd x => x.data.isNone
  | _ => true

theorem sessionOf_session {env : Env} {d0 : Daemon} : ∀ (evs : List (LoopEvent × Int)) {d d' : Daemon} {es es' : List KeyEvent},
    Session d0 es d → evs.all (fun p => p.1.plainB) = true → sessionOf env evs d es = .ok (d', es') → Session d0 es' d'
  | [], d, d', es, es', h, _, run => by
    have e := Except.ok.inj run
    have e1 : d = d' := congrArg Prod.fst e
    have e2 : es = es' := congrArg Prod.snd e
    subst e1 e2
    exact h
  | (ev, t) :: evs, d, d', es, es', h, hp, run => by
    unfold sessionOf at run
    obtain ⟨⟨d1, w⟩, h1, h2⟩ := dbind_eq_ok.1 run
    rw [List.all_cons, Bool.and_eq_true] at hp
    refine sessionOf_session evs (.event env ev t h h1 ?_ ?_) hp.2 h2
    · intro dev e
      rw [e] at hp
      exact Option.isNone_iff_eq_none.1 hp.1
    · intro con msg e
      rw [e] at hp
      cases hp.1

/-- A check of a session of a daemon with one configuration file. -/
def sessionCheck (text : Str) (evs : List (LoopEvent × Int)) (p : Config → Daemon → List KeyEvent → Bool) : Bool :=
  match textConfig text with
  | some c =>
    match reload { confs := [text] } {} with
    | .ok d0 =>
      match sessionOf { confs := [text] } evs d0 [] with
      | .ok (d, es) => evs.all (fun p => p.1.plainB) && p c d es
      | .error _ => false
    | .error _ => false
  | none => false

theorem session_of_check {text : Str} {evs : List (LoopEvent × Int)} {p : Config → Daemon → List KeyEvent → Bool}
    (h : sessionCheck text evs p = true) : ∃ c d0 d es, configParse text = .ok (some c) ∧
      reload { confs := [text] } {} = .ok d0 ∧ Session d0 es d ∧ p c d es = true := by
  unfold sessionCheck at h
  split at h
  · rename_i c hc
    split at h
    · rename_i d0 h0
      split at h
      · rename_i d es hd
        rw [Bool.and_eq_true] at h
        refine ⟨c, d0, d, es, ?_, h0, sessionOf_session evs .start h.1 hd, h.2⟩
        unfold textConfig at hc
        split at hc
        · rename_i c' e
          injection hc with hc
          rw [← hc]
          exact e
        · cases hc
      · cases h
    · cases h
  · cases h

/-- Two keyboards (one of them with a wheel) that share a configuration, and a mouse without one: `a` is typed on the first, control
held on the second, `b` struck on the first; the wheel is turned, the mouse clicked, and the pointer moved in between. -/
def transparentEvents : List (LoopEvent × Int) :=
  [(.devAdd { id := b!"0001:0001", capabilities := CAP_KEYBOARD ||| CAP_MOUSE }, 1),
   (.devAdd { id := b!"0002:0002", capabilities := CAP_KEYBOARD }, 2),
   (.devAdd { id := b!"0003:0003", capabilities := CAP_MOUSE }, 3),
   (routingKey 0 30 1, 10), (routingKey 1 29 1, 11), (.dev 0 { type := .mouseMove, x := 3, y := 4 }, 12), (routingKey 0 30 0, 13),
   (routingKey 0 48 1, 14), (.dev 0 { type := .mouseScroll, x := 0, y := -1 }, 15), (.timeout, 16), (routingKey 2 115 1, 17)]

theorem C69_example_run : sessionCheck b!"[ids]\n*\n[main]\nb = c\n" transparentEvents
    (fun c d es => typewriterB c && es.all (fun e => decide (e.code = 0 ∨ (e.code ≠ 0 ∧ ¬ (KEYD.CHORD_1 ≤ e.code ∧ e.code ≤ KEYD.CHORD_MAX)))) &&
      decide (es.length = 9) && decide (d.vout.reverse.filter VOut.types = [.key 30 true, .key 30 false, .key 46 true, .scroll 0 (-1)]) &&
      DownAtVkbd 29 d.vout && decide (c.macros = [])) = true := by
  set_option maxRecDepth 100000 in decide +kernel

/-- The hypotheses of the theorems are met by this session. -/
theorem C69_example : ∃ c d0 d es, Typewriter c ∧ configParse b!"[ids]\n*\n[main]\nb = c\n" = .ok (some c) ∧
    reload { confs := [b!"[ids]\n*\n[main]\nb = c\n"] } {} = .ok d0 ∧ Session d0 es d ∧ (∀ e ∈ es, e.code = 0 ∨ Physical e.code) ∧
    (∀ key, NotInMacros key c) ∧ d.vout.reverse.filter VOut.types = [.key 30 true, .key 30 false, .key 46 true, .scroll 0 (-1)] := by
  obtain ⟨c, d0, d, es, h1, h2, h3, h4⟩ := session_of_check C69_example_run
  simp only [Bool.and_eq_true, decide_eq_true_eq, List.all_eq_true] at h4
  obtain ⟨⟨⟨⟨⟨a1, a2⟩, _⟩, a4⟩, _⟩, a6⟩ := h4
  refine ⟨c, d0, d, es, typewriter_of_check a1, h1, h2, h3, fun e he => ?_, fun key m hm => ?_, a4⟩
  · exact a2 e he
  · rw [a6] at hm; cases hm

end Keyd
