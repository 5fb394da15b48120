import Verif.Props.Transparent
import Verif.Props.Board

/-
  C74: the whole daemon, from the events of the devices to the calls of the virtual keyboard, is the machine of `Verif.Spec.Board`.
-/

set_option autoImplicit false

namespace Keyd

attribute [local irreducible] configInit

/-! ### Specification -/

/-- The keys down at the virtual keyboard. -/
def vkbdAfter (h : Code → Bool) : List VOut → Code → Bool
  | [] => h
  | .key c d :: vs => vkbdAfter (fun x => if x = c then d else h x) vs
  | _ :: vs => vkbdAfter h vs

/-- Every key other than a modifier that goes down or up at the virtual keyboard and every turn of its wheel, with the modifiers down at that
moment. -/
def vkbdEvents (h : Code → Bool) : List VOut → List (VOut × List Code)
  | [] => []
  | .key c d :: vs => (if isModifierKey c then [] else [(.key c d, modKeys.filter h)]) ++ vkbdEvents (fun x => if x = c then d else h x) vs
  | .scroll x y :: vs => (.scroll x y, modKeys.filter h) :: vkbdEvents h vs
  | _ :: vs => vkbdEvents h vs

/-! ### One keyboard -/

/-- The daemon has one keyboard, at address `a`; it got the events `es`, and all the virtual devices were told besides motions is its output. -/
structure Feeding (c : Config) (a : Nat) (es : List KeyEvent) (d : Daemon) : Prop where
  hist : DHistory d
  kbd : ∃ k, d.heap a = some k ∧ Fed (fun c' => c' = c) es k ∧ d.vout.reverse.filter (fun v => !v.motion) = k.outputs.filterMap hostOut
  only : ∀ b, b ≠ a → d.heap b = none
  active : d.active = none ∨ d.active = some a

theorem Feeding.device {c : Config} {a : Nat} {es : List KeyEvent} {d : Daemon} (h : Feeding c a es d) {dev : Device} (hm : dev ∈ d.devices) {b : Nat}
    (hb : dev.data = some b) : b = a := by
  by_contra hn
  exact (dinv_history h.hist).device_live hm hb (h.only b hn)

theorem Feeding.used {env : Env} {c : Config} {a : Nat} {es : List KeyEvent} {d d' : Daemon} {ev : LoopEvent} {t w : Int}
    (h : Feeding c a es d) (run : eventHandler env d ev t = .ok (d', w)) : d'.active = none ∨ d'.active = some a := by
  rw [C66_used_last h.hist run]
  unfold usedLast
  split
  · split
    · exact h.active
    · rename_i i _ dev hdev
      cases hd : dev.data with
      | none => simp [hd]; exact h.active
      | some b =>
        have := h.device (List.mem_of_getElem? hdev) hd
        subst this
        simp [hd]
  · exact h.active

theorem feed_fed {cfg : Config → Prop} {fuel : Nat} : ∀ (evs : List KeyEvent) {before : List KeyEvent} {k k' : Kbd}, Fed cfg before k → feedEach fuel k evs = .ok k' →
    Fed cfg (before ++ evs) k' ∧ ∃ os, k'.trace = os ++ k.trace
  | [], before, k, k', h, run => by
    injection run with run
    subst run
    rw [List.append_nil]
    exact ⟨h, [], rfl⟩
  | ev :: evs, before, k, k', h, run => by
    unfold feedEach at run
    obtain ⟨⟨k1, w⟩, h1, h2⟩ := bind_eq_ok.1 run
    obtain ⟨os1, g1⟩ := events_grow h1
    obtain ⟨g3, os2, g4⟩ := feed_fed evs (.events fuel k before [ev] k1 w h h1) h2
    rw [List.append_assoc] at g3
    exact ⟨g3, os2 ++ os1, by rw [g4, g1, List.append_assoc]⟩

/-- No events turn scrolling on. -/
def NoScrolling (c : Config) : Prop :=
  ∀ es k, Fed (fun c' => c' = c) es k → (∀ e ∈ es, e.code = 0 ∨ Physical e.code) → k.scroll.active = false

theorem feeding_event {env : Env} {c : Config} (hq : NoScrolling c) {a : Nat} {es : List KeyEvent} {d d' : Daemon} {ev : LoopEvent} {t w : Int}
    (h : Feeding c a es d) (run : eventHandler env d ev t = .ok (d', w)) (fresh : ∀ dev, ev = .devAdd dev → dev.data = none)
    (nc : ∀ con msg, ev ≠ .client con msg) (hes : ∀ e ∈ es, e.code = 0 ∨ Physical e.code) :
    Feeding c a (es ++ amounts d t ev) d' := by
  obtain ⟨k, hk, hf, hv⟩ := h.kbd
  have hist : DHistory d' := .event env d ev t d' w h.hist run fresh
  unfold amounts
  cases hrt : routed d t ev with
  | none =>
    have hs : ¬ scrolling d ev := by
      intro hs
      cases ev with
      | dev i e =>
        obtain ⟨_, dev, b, k1, _, _, hk1, hact⟩ := hs
        by_cases hb : b = a
        · subst hb
          rw [hk] at hk1
          injection hk1 with hk1
          subst hk1
          rw [hq _ _ hf hes] at hact
          cases hact
        · rw [h.only b hb] at hk1; cases hk1
      | _ => exact hs
    obtain ⟨e1, e2⟩ := not_routed run hrt nc hs
    dsimp only
    rw [List.append_nil]
    refine ⟨hist, ⟨k, by rw [e1]; exact hk, hf, ?_⟩, fun b hb => by rw [e1]; exact h.only b hb, h.used run⟩
    rw [e2, List.reverse_append, List.reverse_reverse, List.filter_append, hv]
    have : (pointer d ev).filter (fun v => !v.motion) = [] := by
      unfold pointer
      repeat' split
      all_goals rfl
    rw [this, List.append_nil]
  | some p =>
    obtain ⟨b, evs⟩ := p
    obtain ⟨k1, k2, g1, g2, g3, g4⟩ := feeds_event h.hist run hrt
    have hb : b = a := by
      by_contra hb
      rw [h.only b hb] at g1
      cases g1
    subst hb
    rw [hk] at g1
    injection g1 with g1
    subst g1
    obtain ⟨f1, os, f2⟩ := feed_fed evs hf g2
    refine ⟨hist, ⟨k2, by rw [g3, upd_same], f1, ?_⟩, fun b' hb' => by rw [g3, upd_other _ _ hb']; exact h.only b' hb', h.used run⟩
    rw [g4, List.reverse_append, List.reverse_reverse, List.filter_append, hv, motion_host, since_eq f2]
    unfold Kbd.outputs
    rw [f2, List.reverse_append, List.filterMap_append]

theorem feeding_session {c : Config} (hq : NoScrolling c) {a : Nat} {d d' : Daemon} {es0 es : List KeyEvent} (h : Feeding c a es0 d)
    (s : Session d es d') (h0 : ∀ e ∈ es0, e.code = 0 ∨ Physical e.code) (hev : ∀ e ∈ es, e.code = 0 ∨ Physical e.code) : Feeding c a (es0 ++ es) d' := by
  induction s with
  | start => rw [List.append_nil]; exact h
  | event env ev t _ run fresh nc ih =>
    rename_i es1 d1 d2 w _
    have ih := ih (fun e he => hev e (List.mem_append_left _ he))
    rw [← List.append_assoc]
    refine feeding_event hq ih run fresh nc (fun e he => ?_)
    rcases List.mem_append.1 he with he | he
    · exact h0 e he
    · exact hev e (List.mem_append_left _ he)
  | remove _ removed ih =>
    have ih := ih hev
    exact ⟨.remove _ removed ih.hist, ih.kbd, ih.only, ih.active⟩

theorem feeding_start {env : Env} {d : Daemon} {text : Str} {c : Config} (confs : env.confs = [text])
    (hp : configParse text = .ok (some c)) (run : reload env {} = .ok d) : Feeding c 0 [] d := by
  have hist : DHistory d := .start env d run
  unfold reload at run
  rw [confs] at run
  obtain ⟨d1, h1, run⟩ := dbind_eq_ok.1 run
  have h1 : (do loadConfigs [] (← loadConfig (freeConfigs {}) text)) = Except.ok d1 := h1
  obtain ⟨d2, h2, h3⟩ := dbind_eq_ok.1 h1
  have h3 := Except.ok.inj h3
  subst h3
  unfold loadConfig at h2
  rw [hp] at h2
  have h2 : Except.ok _ = Except.ok d2 := h2
  have h2 := Except.ok.inj h2
  have run := Except.ok.inj run
  rw [clearVkbd_up (by rw [← h2]; rfl)] at run
  have eh : d.heap = upd (fun _ => none) 0 (some (newKeyboard c)) := by
    rw [← run, ← h2]
    rfl
  refine ⟨hist, ⟨newKeyboard c, by rw [eh, upd_same], .init c rfl, ?_⟩, fun b hb => by rw [eh, upd_other _ _ hb], ?_⟩
  · rw [← run, ← h2]
    rfl
  · rw [← run, ← h2]
    exact .inl rfl

/-! ### The virtual keyboard -/

theorem vkbd_still : ∀ (vs : List VOut) (h : Code → Bool),
    vkbdEvents h vs = vkbdEvents h (vs.filter fun v => !v.motion) ∧ vkbdAfter h vs = vkbdAfter h (vs.filter fun v => !v.motion)
  | [], h => ⟨rfl, rfl⟩
  | .key c d :: vs, h => by
    rw [List.filter_cons_of_pos (by rfl)]
    obtain ⟨i1, i2⟩ := vkbd_still vs (fun x => if x = c then d else h x)
    exact ⟨congrArg (List.append _) i1, i2⟩
  | .scroll x y :: vs, h => by
    rw [List.filter_cons_of_pos (by rfl)]
    obtain ⟨i1, i2⟩ := vkbd_still vs h
    exact ⟨congrArg (List.cons _) i1, i2⟩
  | .move x y :: vs, h => by
    rw [List.filter_cons_of_neg (by simp [VOut.motion])]
    exact vkbd_still vs h
  | .moveAbs x y :: vs, h => by
    rw [List.filter_cons_of_neg (by simp [VOut.motion])]
    exact vkbd_still vs h

/-- A key of the wheel. -/
def isWheel (c : Code) : Bool := decide (c = KEYD.SCROLL_DOWN ∨ c = KEYD.SCROLL_UP ∨ c = KEYD.SCROLL_RIGHT ∨ c = KEYD.SCROLL_LEFT)

theorem hostOut_key {c : Code} {d : Bool} (h : isWheel c = false) : hostOut (.key c d) = some (.key c d) := by
  unfold isWheel at h
  rw [decide_eq_false_iff_not] at h
  unfold hostOut
  dsimp only
  rw [if_neg (fun e => h (.inl e)), if_neg (fun e => h (.inr (.inl e))), if_neg (fun e => h (.inr (.inr (.inl e)))), if_neg (fun e => h (.inr (.inr (.inr e))))]

theorem hostOut_wheel {c : Code} (d : Bool) (h : isWheel c = true) :
    (hostOut (.key c d) = none ∨ ∃ x y, hostOut (.key c d) = some (.scroll x y)) ∧ isModifierKey c = false ∧ c ∉ modKeys := by
  unfold isWheel at h
  rw [decide_eq_true_eq] at h
  rcases h with rfl | rfl | rfl | rfl <;> cases d <;>
    first
    | exact ⟨.inl rfl, by decide, by decide⟩
    | exact ⟨.inr ⟨_, _, rfl⟩, by decide, by decide⟩

theorem modKeys_congr {h h' : Code → Bool} (e : ∀ x, isWheel x = false → h x = h' x) : modKeys.filter h = modKeys.filter h' := by
  apply List.filter_congr
  intro x hx
  exact e x ((by decide : ∀ x ∈ modKeys, isWheel x = false) x hx)

theorem vkbd_host : ∀ (os : List Out) (h h' : Code → Bool), (∀ x, isWheel x = false → h x = h' x) →
    vkbdEvents h (os.filterMap hostOut) = (hostEvents h' os).filterMap (fun p => (asHost (p.1, p.2.1)).map (·, p.2.2)) ∧
    ∀ x, isWheel x = false → vkbdAfter h (os.filterMap hostOut) x = hostAfter h' os x
  | [], h, h', e => ⟨rfl, e⟩
  | .layer _ _ :: os, h, h', e => vkbd_host os h h' e
  | .command _ :: os, h, h', e => vkbd_host os h h' e
  | .sleep _ :: os, h, h', e => vkbd_host os h h' e
  | .key c d :: os, h, h', e => by
    have hm := modKeys_congr e
    have hh : hostEvents h' (.key c d :: os) = (if isModifierKey c then [] else [(c, d, modKeys.filter h')]) ++ hostEvents (upd h' c d) os := rfl
    rw [hh, List.filterMap_append]
    cases hw : isWheel c with
    | false =>
      rw [List.filterMap_cons, hostOut_key hw]
      dsimp only
      obtain ⟨i1, i2⟩ := vkbd_host os (fun x => if x = c then d else h x) (upd h' c d) (by
        intro x hx
        rw [upd_apply]
        split
        · rfl
        · exact e x hx)
      refine ⟨?_, i2⟩
      show (if isModifierKey c then [] else [(VOut.key c d, modKeys.filter h)]) ++ _ = _
      rw [i1]
      congr 1
      split
      · rfl
      · rw [List.filterMap_cons]
        have : asHost (c, d) = some (.key c d) := hostOut_key hw
        dsimp only
        rw [this, hm]
        rfl
    | true =>
      obtain ⟨g1, g2, g3⟩ := hostOut_wheel d hw
      have e' : ∀ x, isWheel x = false → h x = upd h' c d x := by
        intro x hx
        rw [upd_apply, if_neg (by rintro rfl; rw [hw] at hx; cases hx)]
        exact e x hx
      obtain ⟨i1, i2⟩ := vkbd_host os h (upd h' c d) e'
      rw [if_neg (by rw [g2]; decide)]
      rcases g1 with g1 | ⟨x, y, g1⟩
      · rw [List.filterMap_cons, g1]
        dsimp only
        refine ⟨?_, i2⟩
        rw [i1, List.filterMap_cons]
        have : asHost (c, d) = none := g1
        dsimp only
        rw [this]
        rfl
      · rw [List.filterMap_cons, g1]
        dsimp only
        refine ⟨?_, i2⟩
        show (VOut.scroll x y, modKeys.filter h) :: _ = _
        rw [i1, List.filterMap_cons]
        have : asHost (c, d) = some (.scroll x y) := g1
        dsimp only
        rw [this, hm]
        rfl

/-! ### The theorem -/

theorem simple_noScrolling {c : Config} (hc : Simple c) : NoScrolling c := fun _ _ h hev => (follows_fed hc h hev).scroll

/-- C74. Let the daemon run with one configuration file, of the actions of the machine of C73, and let keyboards and mice come and go, keys
be struck on any of them, wheels be turned and pointers moved, and time pass, in any order (no client sends a request). Then what the
virtual devices are told besides pointer motion is what the machine says for the key events that all this amounts to: every key that goes down or
up and every turn of the wheel, each with the modifiers down at that moment; and so are the modifiers down afterwards, and the other keys
(those that stand for the wheel are never down). -/
theorem C74_daemon {env : Env} {d0 d : Daemon} {text : Str} {c : Config} {es : List KeyEvent} (hc : Simple c)
    (confs : env.confs = [text]) (hp : configParse text = .ok (some c)) (start : reload env {} = .ok d0)
    (s : Session d0 es d) (hev : ∀ e ∈ es, e.code = 0 ∨ Physical e.code) :
    vkbdEvents (fun _ => false) d.vout.reverse = (Board.run c es).out.filterMap (fun p => (asHost (p.1, p.2.1)).map (·, p.2.2)) ∧
    modKeys.filter (vkbdAfter (fun _ => false) d.vout.reverse) = (Board.run c es).mods ∧
    ∀ x, isModifierKey x = false → isWheel x = false → vkbdAfter (fun _ => false) d.vout.reverse x = (Board.run c es).down x := by
  have f := feeding_session (simple_noScrolling hc) (feeding_start confs hp start) s (by simp) hev
  rw [List.nil_append] at f
  obtain ⟨k, hk, hf, hv⟩ := f.kbd
  obtain ⟨m1, m2, m3, m4⟩ := C73_machine hc hf hev
  obtain ⟨v1, v2⟩ := vkbd_still d.vout.reverse (fun _ => false)
  obtain ⟨w1, w2⟩ := vkbd_host k.outputs (fun _ => false) (fun _ => false) (fun _ _ => rfl)
  rw [v1, v2, hv, w1, m1]
  refine ⟨rfl, ?_, fun x hx hw => ?_⟩
  · rw [← m4]
    exact modKeys_congr w2
  · rw [← m3 x hx]
    exact w2 x hw

/-- Two keyboards and a mouse with the recommended configuration: capslock is tapped, then held on one keyboard while `a` is struck on the other; shift is tapped
before `b`; the wheel is turned. -/
def boardSession : List (LoopEvent × Int) :=
  [(.devAdd { id := b!"0001:0001", capabilities := CAP_KEYBOARD ||| CAP_MOUSE }, 1),
   (.devAdd { id := b!"0002:0002", capabilities := CAP_KEYBOARD }, 2),
   (routingKey 0 58 1, 10), (routingKey 0 58 0, 11), (.dev 0 { type := .mouseMove, x := 3, y := 4 }, 12), (routingKey 0 58 1, 13),
   (routingKey 1 30 1, 14), (routingKey 1 30 0, 15), (routingKey 0 58 0, 16), (routingKey 1 42 1, 20), (routingKey 1 42 0, 21), (routingKey 0 48 1, 22),
   (.dev 0 { type := .mouseScroll, x := 0, y := -1 }, 25), (.timeout, 26), (routingKey 0 110 1, 27)]

theorem C74_example : sessionCheck recommendedText boardSession
    (fun c d es => simpleB c && es.all (fun e => decide (e.code = 0 ∨ (e.code ≠ 0 ∧ ¬ (KEYD.CHORD_1 ≤ e.code ∧ e.code ≤ KEYD.CHORD_MAX)))) &&
      decide (vkbdEvents (fun _ => false) d.vout.reverse = [(.key 1 true, []), (.key 1 false, []), (.key 30 true, [29]), (.key 30 false, [29]),
        (.key 48 true, [42]), (.scroll 0 (-1), []), (.key 110 true, [42])])) = true := by
  set_option maxRecDepth 100000 in decide +kernel

end Keyd
