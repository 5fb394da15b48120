import Verif.Props.Listeners
import Verif.Props.Reload
import Verif.Spec.Waiting
import Verif.Proofs.LayerOps

/-
  C66: events reach the keyboard they are meant for, and no other; what its engine sends reaches the host.
-/

set_option autoImplicit false

namespace Keyd

attribute [local irreducible] configInit

/-! ### Specification -/

/-- `n` presses and releases of a key. -/
def taps (c : Code) (n : Nat) (t : Int) : List KeyEvent := (List.replicate n [⟨c, true, t⟩, ⟨c, false, t⟩]).flatten

/-- The key events an event of the main loop amounts to, and the keyboard they are for (its address). Keys of a device are for
the keyboard the device belongs to; a step of its wheel is a tap of a scroll key; a click or a step of the wheel of a mouse
that belongs to no keyboard is a tap of the key `external mouse button` on the keyboard used last; a wakeup is for the
keyboard used last. -/
def routed (d : Daemon) (t : Int) : LoopEvent → Option (Nat × List KeyEvent)
  | .timeout => d.active.map fun a => (a, [⟨0, false, t⟩])
  | .dev i e =>
    match d.devices[i]? with
    | none => none
    | some dev =>
      match dev.data with
      | some a =>
        match e.type with
        | .key => some (a, [⟨e.code, decide (e.pressed ≠ 0), t⟩])
        | .mouseScroll => some (a,
            (if 0 < e.x then taps KEYD.SCROLL_RIGHT e.x.toNat t else taps KEYD.SCROLL_LEFT (-e.x).toNat t) ++
            (if 0 < e.y then taps KEYD.SCROLL_UP e.y.toNat t else taps KEYD.SCROLL_DOWN (-e.y).toNat t))
        | _ => none
      | none =>
        if dev.isVirtual = false ∧ dev.capabilities &&& CAP_MOUSE ≠ 0 ∧ (e.type = .key ∨ e.type = .mouseScroll) then
          d.active.map fun a => (a, taps KEYD.EXTERNAL_MOUSE_BUTTON 1 t)
        else none
  | _ => none

/-- What the host is sent for an output of the engine: the key event, or for a scroll key a step of the wheel when it is
pressed. -/
def hostOut : Out → Option VOut
  | .key c down =>
    if c = KEYD.SCROLL_DOWN then (if down then some (.scroll 0 (-1)) else none)
    else if c = KEYD.SCROLL_UP then (if down then some (.scroll 0 1) else none)
    else if c = KEYD.SCROLL_RIGHT then (if down then some (.scroll 1 0) else none)
    else if c = KEYD.SCROLL_LEFT then (if down then some (.scroll (-1) 0) else none)
    else some (.key c down)
  | _ => none

/-- The calls made to the virtual keyboard since. -/
def Daemon.hostSince (d d' : Daemon) : List VOut := d'.vout.reverse.drop d.vout.length

/-- The pointer motion an event is passed on as. -/
def pointer (d : Daemon) : LoopEvent → List VOut
  | .dev i e =>
    match d.devices[i]? with
    | none => []
    | some dev =>
      if dev.data.isSome then
        match e.type with
        | .mouseMove => [.move e.x e.y]
        | .mouseMoveAbs => [.moveAbs e.x e.y]
        | _ => []
      else []
  | _ => []

/-- The device moved while its keyboard emulates scrolling (C44 says what happens then). -/
def scrolling (d : Daemon) : LoopEvent → Prop
  | .dev i e => e.type = .mouseMove ∧ ∃ dev a k, d.devices[i]? = some dev ∧ dev.data = some a ∧ d.heap a = some k ∧ k.scroll.active = true
  | _ => False

/-- The keyboard used last, after the event. -/
def usedLast (d : Daemon) : LoopEvent → Option Nat
  | .dev i _ =>
    match d.devices[i]? with
    | none => d.active
    | some dev => if dev.data.isSome then dev.data else d.active
  | _ => d.active

/-! ### Proofs -/

theorem applyOuts_vout (env : Env) (a : Nat) (c : Config) : ∀ (os : List Out) (d : Daemon) (n : Nat → Nat),
    (applyOuts env a c d n os).vout = (os.filterMap hostOut).reverse ++ d.vout
  | [], d, n => rfl
  | .key x b :: os, d, n => by
    show (applyOuts env a c (daemonSendKey d x b) n os).vout = _
    rw [applyOuts_vout env a c os, List.filterMap_cons]
    unfold hostOut daemonSendKey
    dsimp only
    repeat' split
    all_goals simp_all [Daemon.vscroll, Daemon.vkey]
  | .command x :: os, d, n => by
    show (applyOuts env a c d n os).vout = _
    rw [applyOuts_vout env a c os]
    rfl
  | .sleep x :: os, d, n => by
    show (applyOuts env a c d n os).vout = _
    rw [applyOuts_vout env a c os]
    rfl
  | .layer i b :: os, d, n => by
    show (applyOuts env a c (onLayerChange env d a c _ i b) _ os).vout = _
    rw [applyOuts_vout env a c os]
    have : ∀ m, (onLayerChange env d a c m i b).vout = d.vout := by
      intro m
      unfold onLayerChange
      dsimp only
      repeat' split
      all_goals rfl
    rw [this]
    rfl

/-- The engine of the keyboard was given the events, and the host what it sent. -/
def Feeds (env : Env) (d : Daemon) (a : Nat) (evs : List KeyEvent) (d' : Daemon) : Prop :=
  ∃ k k', d.heap a = some k ∧ feedEach env.fuel k evs = .ok k' ∧ d'.heap = upd d.heap a (some k') ∧ Later k k' ∧
    d'.vout = ((k.since k').filterMap hostOut).reverse ++ d.vout ∧ d'.active = d.active

theorem since_trans {k k' k2 : Kbd} (h : Later k k') (h' : Later k' k2) : k.since k2 = k.since k' ++ k'.since k2 := by
  obtain ⟨os, e⟩ := h.grows
  obtain ⟨os', e'⟩ := h'.grows
  rw [since_eq e, since_eq e', since_eq (show k2.trace = (os' ++ os) ++ k.trace by rw [e', e, List.append_assoc]), List.reverse_append]

theorem Feeds.nil {env : Env} {d : Daemon} {a : Nat} {k : Kbd} (h : d.heap a = some k) : Feeds env d a [] d := by
  refine ⟨k, k, h, rfl, ?_, .now, ?_, rfl⟩
  · rw [← h, upd_eta]
  · rw [since_eq (os := []) rfl]
    rfl

theorem feedEach_append (n : Nat) : ∀ (evs evs' : List KeyEvent) {k k' k2 : Kbd}, feedEach n k evs = .ok k' → feedEach n k' evs' = .ok k2 →
    feedEach n k (evs ++ evs') = .ok k2
  | [], evs', k, k', k2, h, h' => by
    injection h with h
    rw [h]
    exact h'
  | ev :: evs, evs', k, k', k2, h, h' => by
    unfold feedEach at h
    obtain ⟨r, h1, h⟩ := bind_eq_ok.1 h
    show (kbdProcessEvents n k [ev] >>= fun r => feedEach n r.1 (evs ++ evs')) = _
    rw [h1]
    exact feedEach_append n evs evs' h h'

theorem Later.trans {k k' k2 : Kbd} (h : Later k k') (h' : Later k' k2) : Later k k2 := by
  induction h' with
  | now => exact h
  | events n k1 evs k2 w _ run ih => exact .events n k1 evs k2 w ih run
  | bind k1 exp k2 ok _ run ih => exact .bind k1 exp k2 ok ih run
  | scroll k1 s _ ih => exact .scroll k1 s ih

theorem Feeds.append {env : Env} {d d' d2 : Daemon} {a : Nat} {evs evs' : List KeyEvent} (h : Feeds env d a evs d')
    (h' : Feeds env d' a evs' d2) : Feeds env d a (evs ++ evs') d2 := by
  obtain ⟨k, k', hk, hf, hh, hl, hv, ha⟩ := h
  obtain ⟨k1, k2, hk1, hf', hh', hl', hv', ha'⟩ := h'
  rw [hh, upd_same] at hk1
  injection hk1 with hk1
  subst hk1
  refine ⟨k, k2, hk, feedEach_append _ _ _ hf hf', by rw [hh', hh, upd_upd], hl.trans hl', ?_, ha'.trans ha⟩
  rw [hv', hv, since_trans hl hl', List.filterMap_append, List.reverse_append, List.append_assoc]

/-- Nothing else that `Feeds` looks at. -/
theorem Feeds.same {env : Env} {d d' d2 : Daemon} {a : Nat} {evs : List KeyEvent} (h : Feeds env d a evs d') (e1 : d2.heap = d'.heap)
    (e2 : d2.vout = d'.vout) (e3 : d2.active = d'.active) : Feeds env d a evs d2 := by
  obtain ⟨k, k', hk, hf, hh, hl, hv, ha⟩ := h
  exact ⟨k, k', hk, hf, e1.trans hh, hl, e2.trans hv, e3.trans ha⟩

theorem feeds_run {env : Env} {d d' : Daemon} {a : Nat} {ev : KeyEvent} {w : Int} (run : kbdRun env d a [ev] = .ok (d', w)) :
    Feeds env d a [ev] d' := by
  unfold kbdRun at run
  cases hk : d.heap a with
  | none => rw [hk] at run; cases run
  | some k =>
  rw [hk] at run
  dsimp only at run
  obtain ⟨⟨k', w'⟩, h1, h2⟩ := dbind_eq_ok.1 run
  have h1 := lift_ok.1 h1
  have e1 := congrArg Prod.fst (Except.ok.inj h2)
  dsimp only at e1
  obtain ⟨os, hos⟩ := events_grow h1
  have hnew : (k'.trace.take (k'.trace.length - k.trace.length)).reverse = k.since k' := by
    rw [since_eq hos, hos]
    congr 1
    rw [List.length_append, Nat.add_sub_cancel, List.take_left' rfl]
  rw [hnew] at e1
  refine ⟨k, k', hk, ?_, ?_, .events _ _ _ _ _ .now h1, ?_, ?_⟩
  · unfold feedEach
    rw [h1]
    rfl
  · rw [← e1, (keeps_applyOuts env a k.config _ _ _).1.heap]
  · rw [← e1, applyOuts_vout]
  · rw [← e1, (keeps_applyOuts env a k.config _ _ _).1.active]

theorem feeds_keypress {env : Env} {d d' : Daemon} {a : Nat} {c : Code} {t w : Int} (run : processKeypress env d a c t = .ok (d', w)) :
    Feeds env d a (taps c 1 t) d' := by
  unfold processKeypress at run
  obtain ⟨⟨d1, w1⟩, h1, h2⟩ := dbind_eq_ok.1 run
  exact (feeds_run h1).append (feeds_run h2)

theorem feeds_repeat {env : Env} {a : Nat} {c : Code} {t : Int} : ∀ (n : Nat) {d d' : Daemon}, d.heap a ≠ none →
    repeatKeypress env a c t n d = .ok d' → Feeds env d a (taps c n t) d'
  | 0, d, d', hl, run => by
    injection run with run
    subst run
    cases hk : d.heap a with
    | none => exact absurd hk hl
    | some k => exact Feeds.nil hk
  | n+1, d, d', hl, run => by
    unfold repeatKeypress at run
    obtain ⟨⟨d1, w⟩, h1, h2⟩ := dbind_eq_ok.1 run
    dsimp only at h2
    have f1 := feeds_keypress h1
    have f1' : Feeds env d a (taps c 1 t) { d1 with timeout := w } := f1.same rfl rfl rfl
    have hl' : ({ d1 with timeout := w } : Daemon).heap a ≠ none := by
      obtain ⟨k, k', _, _, hh, _⟩ := f1'
      rw [hh, upd_same]
      exact fun h => by cases h
    have := f1'.append (feeds_repeat n hl' h2)
    exact this

theorem hostSince_eq {d d' : Daemon} {vs : List VOut} (h : d'.vout = vs.reverse ++ d.vout) : d.hostSince d' = vs := by
  unfold Daemon.hostSince
  rw [h, List.reverse_append, List.reverse_reverse, List.drop_left' (by simp)]

theorem feeds_wheel {env : Env} {d d1 d2 : Daemon} {a : Nat} {x y : Code} {z t : Int} (hl : d.heap a ≠ none)
    (h1 : repeatKeypress env a x t z.toNat d = .ok d1) (h2 : repeatKeypress env a y t (-z).toNat d1 = .ok d2) :
    Feeds env d a (if 0 < z then taps x z.toNat t else taps y (-z).toNat t) d2 := by
  split
  · rename_i hz
    have e : (-z).toNat = 0 := by omega
    rw [e] at h2
    injection h2 with h2
    subst h2
    exact feeds_repeat _ hl h1
  · rename_i hz
    have e : z.toNat = 0 := by omega
    rw [e] at h1
    injection h1 with h1
    subst h1
    exact feeds_repeat _ hl h2

theorem Feeds.live {env : Env} {d d' : Daemon} {a : Nat} {evs : List KeyEvent} (h : Feeds env d a evs d') : d'.heap a ≠ none := by
  obtain ⟨k, k', _, _, hh, _⟩ := h
  rw [hh, upd_same]
  exact fun h => by cases h

theorem feeds_event {env : Env} {d d' : Daemon} {ev : LoopEvent} {t w : Int} (hd : DHistory d)
    (run : eventHandler env d ev t = .ok (d', w)) {a : Nat} {evs : List KeyEvent} (hr : routed d t ev = some (a, evs)) :
    ∃ k k', d.heap a = some k ∧ feedEach env.fuel k evs = .ok k' ∧ d'.heap = upd d.heap a (some k') ∧
      d'.vout = ((k.since k').filterMap hostOut).reverse ++ d.vout := by
  have fin : ∀ {d0 : Daemon}, d0.heap = d.heap → d0.vout = d.vout → Feeds env d0 a evs d' →
      ∃ k k', d.heap a = some k ∧ feedEach env.fuel k evs = .ok k' ∧ d'.heap = upd d.heap a (some k') ∧
      d'.vout = ((k.since k').filterMap hostOut).reverse ++ d.vout := by
    rintro d0 e1 e2 ⟨k, k', hk, hf, hh, _, hv, _⟩
    rw [e1] at hk hh
    rw [e2] at hv
    exact ⟨k, k', hk, hf, hh, hv⟩
  unfold routed at hr
  cases ev with
  | devAdd dev => cases hr
  | devRemove => cases hr
  | client c m => cases hr
  | timeout =>
    dsimp only at hr
    cases ha : d.active with
    | none => rw [ha] at hr; cases hr
    | some b =>
      rw [ha] at hr
      injection hr with hr
      injection hr with e1 e2
      subst e1
      subst e2
      unfold eventHandler at run
      dsimp only at run
      rw [show (tick d t).active = some b from ha] at run
      obtain ⟨⟨d1, w1⟩, h1, h2⟩ := dbind_eq_ok.1 run
      have e := congrArg Prod.fst (Except.ok.inj h2)
      dsimp only at e
      exact fin (d0 := tick d t) rfl rfl ((feeds_run h1).same (by rw [← e]) (by rw [← e]) (by rw [← e]))
  | dev i e =>
    dsimp only at hr
    unfold eventHandler at run
    dsimp only at run
    change (match d.devices[i]? with | none => _ | some dev => _) = _ at run
    cases hdev : d.devices[i]? with
    | none => rw [hdev] at hr; cases hr
    | some dev =>
      rw [hdev] at hr run
      dsimp only at hr run
      obtain ⟨d1, h1, h2⟩ := dbind_eq_ok.1 run
      have e1 : d1 = d' := congrArg Prod.fst (Except.ok.inj h2)
      subst e1
      unfold deviceEvent at h1
      cases hdat : dev.data with
      | some b =>
        rw [hdat] at hr h1
        dsimp only at hr h1
        have hl : d.heap b ≠ none := (dinv_history hd).device_live (List.mem_of_getElem? hdev) hdat
        unfold managedEvent at h1
        dsimp only at h1
        cases hty : e.type with
        | key =>
          rw [hty] at hr h1
          dsimp only at hr h1
          injection hr with hr
          injection hr with e1 e2
          subst e1
          subst e2
          obtain ⟨⟨d2, w1⟩, h3, h4⟩ := dbind_eq_ok.1 h1
          have e := Except.ok.inj h4
          dsimp only at e
          exact fin (d0 := { tick d t with active := some b }) rfl rfl ((feeds_run h3).same (by rw [← e]) (by rw [← e]) (by rw [← e]))
        | mouseScroll =>
          rw [hty] at hr h1
          dsimp only at hr h1
          injection hr with hr
          injection hr with e1 e2
          subst e1
          subst e2
          obtain ⟨d2, h3, h1⟩ := dbind_eq_ok.1 h1
          obtain ⟨d3, h4, h1⟩ := dbind_eq_ok.1 h1
          obtain ⟨d4, h5, h1⟩ := dbind_eq_ok.1 h1
          have f1 := feeds_wheel (d := { tick d t with active := some b }) hl h3 h4
          exact fin (d0 := { tick d t with active := some b }) rfl rfl (f1.append (feeds_wheel f1.live h5 h1))
        | _ => rw [hty] at hr; cases hr
      | none =>
        rw [hdat] at hr h1
        dsimp only at hr h1
        split at hr
        · rename_i hc
          rw [if_pos ⟨hc.1, hc.2.1⟩] at h1
          cases ha : d.active with
          | none => rw [ha] at hr; cases hr
          | some b =>
            rw [ha] at hr
            injection hr with hr
            injection hr with e1 e2
            subst e1
            subst e2
            rw [show (tick d t).active = some b from ha] at h1
            dsimp only at h1
            rw [if_pos hc.2.2] at h1
            obtain ⟨⟨d2, w1⟩, h3, h4⟩ := dbind_eq_ok.1 h1
            have e := Except.ok.inj h4
            dsimp only at e
            exact fin (d0 := tick d t) rfl rfl ((feeds_keypress h3).same (by rw [← e]) (by rw [← e]) (by rw [← e]))
        · cases hr

/-- C66. The engine of the keyboard an event is for is given exactly the key events it amounts to, one at a time; no other
keyboard changes; and the host is sent exactly what this engine sends. -/
theorem C66_routed {env : Env} {d d' : Daemon} {ev : LoopEvent} {t w : Int} (hd : DHistory d)
    (run : eventHandler env d ev t = .ok (d', w)) {a : Nat} {evs : List KeyEvent} (hr : routed d t ev = some (a, evs)) :
    ∃ k k', d.heap a = some k ∧ feedEach env.fuel k evs = .ok k' ∧ d'.heap a = some k' ∧ (∀ b, b ≠ a → d'.heap b = d.heap b) ∧
      d.hostSince d' = (k.since k').filterMap hostOut := by
  obtain ⟨k, k', hk, hf, hh, hv⟩ := feeds_event hd run hr
  exact ⟨k, k', hk, hf, by rw [hh, upd_same], fun b hb => by rw [hh, upd_other _ _ hb], hostSince_eq hv⟩

theorem not_routed {env : Env} {d d' : Daemon} {ev : LoopEvent} {t w : Int}
    (run : eventHandler env d ev t = .ok (d', w)) (hr : routed d t ev = none) (hc : ∀ con msg, ev ≠ .client con msg)
    (hs : ¬ scrolling d ev) : d'.heap = d.heap ∧ d'.vout = (pointer d ev).reverse ++ d.vout := by
  have same : ∀ {d' : Daemon}, d'.heap = d.heap → d'.vout = d.vout → d'.heap = d.heap ∧ d'.vout = ([] : List VOut).reverse ++ d.vout :=
    fun h1 h2 => ⟨h1, h2⟩
  cases ev with
  | client c m => exact absurd rfl (hc c m)
  | devAdd dev =>
    have e := congrArg Prod.fst (Except.ok.inj run)
    dsimp only at e
    rw [← e]
    exact same rfl rfl
  | devRemove =>
    have e := congrArg Prod.fst (Except.ok.inj run)
    dsimp only at e
    rw [← e]
    exact same rfl rfl
  | timeout =>
    unfold routed at hr
    dsimp only at hr
    cases ha : d.active with
    | some b => rw [ha] at hr; cases hr
    | none =>
      unfold eventHandler at run
      dsimp only at run
      rw [show (tick d t).active = none from ha] at run
      have e := congrArg Prod.fst (Except.ok.inj run)
      dsimp only at e
      rw [← e]
      exact same rfl rfl
  | dev i e =>
    unfold routed at hr
    dsimp only at hr
    unfold eventHandler at run
    dsimp only at run
    change (match d.devices[i]? with | none => _ | some dev => _) = _ at run
    unfold pointer
    dsimp only
    cases hdev : d.devices[i]? with
    | none =>
      rw [hdev] at run
      have e := congrArg Prod.fst (Except.ok.inj run)
      dsimp only at e
      rw [← e]
      exact same rfl rfl
    | some dev =>
      rw [hdev] at hr run
      dsimp only at hr run
      obtain ⟨d1, h1, h2⟩ := dbind_eq_ok.1 run
      have e1 : d1 = d' := congrArg Prod.fst (Except.ok.inj h2)
      subst e1
      unfold deviceEvent at h1
      cases hdat : dev.data with
      | some b =>
        rw [hdat] at hr h1
        dsimp only at hr h1 ⊢
        rw [if_pos (show dev.data.isSome = true by rw [hdat]; rfl)]
        unfold managedEvent at h1
        dsimp only at h1
        cases hty : e.type with
        | key => rw [hty] at hr; cases hr
        | mouseScroll => rw [hty] at hr; cases hr
        | mouseMove =>
          rw [hty] at h1
          dsimp only at h1
          split at h1
          · cases h1
          · rename_i k hk
            rw [if_neg (fun h => hs ⟨hty, dev, b, k, hdev, hdat, hk, h⟩)] at h1
            have e := Except.ok.inj h1
            rw [← e]
            exact ⟨rfl, rfl⟩
        | mouseMoveAbs =>
          rw [hty] at h1
          have e := Except.ok.inj h1
          rw [← e]
          exact ⟨rfl, rfl⟩
        | led =>
          rw [hty] at h1
          have e := Except.ok.inj h1
          rw [← e]
          exact same rfl rfl
        | removed =>
          rw [hty] at h1
          have e := Except.ok.inj h1
          rw [← e]
          exact same rfl rfl
      | none =>
        rw [hdat] at hr h1
        dsimp only at hr h1 ⊢
        rw [if_neg (show ¬ dev.data.isSome = true by rw [hdat]; exact fun h => by cases h)]
        split at h1
        · rename_i hm
          split at h1
          · rename_i b hb
            split at h1
            · rename_i hty
              have hb : d.active = some b := hb
              rw [if_pos ⟨hm.1, hm.2, hty⟩, hb] at hr
              cases hr
            · have e := Except.ok.inj h1
              rw [← e]
              exact same rfl rfl
          · have e := Except.ok.inj h1
            rw [← e]
            exact same rfl rfl
        · split at h1
          · have e := Except.ok.inj h1
            rw [← e]
            exact same rfl rfl
          · have e := Except.ok.inj h1
            rw [← e]
            exact same rfl rfl

/-- C66. Everything else (but clients) leaves the keyboards alone, and is passed on to the host exactly if it is the motion of
a pointing device that belongs to a keyboard. -/
theorem C66_not_routed {env : Env} {d d' : Daemon} {ev : LoopEvent} {t w : Int}
    (run : eventHandler env d ev t = .ok (d', w)) (hr : routed d t ev = none) (hc : ∀ con msg, ev ≠ .client con msg)
    (hs : ¬ scrolling d ev) : d'.heap = d.heap ∧ d.hostSince d' = pointer d ev :=
  have h := not_routed run hr hc hs
  ⟨h.1, hostSince_eq h.2⟩

theorem handleClient_active {env : Env} {d d' : Daemon} {con : Nat} {msg : Msg} (hd : DInv d)
    (run : handleClient env d con msg = .ok d') : d'.active = d.active := by
  have stop : ∀ {d d' : Daemon} {r : Reply}, (.ok (d.reply con r) : DRes Daemon) = .ok d' → d'.active = d.active := by
    intro d d' r h
    have h := Except.ok.inj h
    rw [← h]
    rfl
  unfold handleClient at run
  split at run
  · exact stop run
  split at run
  · exact stop run
  dsimp only at run
  split at run
  · obtain ⟨o, _, run⟩ := dbind_eq_ok.1 run
    cases o with
    | none => exact stop run
    | some m => exact (stop run).trans (execMacro_keeps _ d).1.active
  · obtain ⟨⟨d1, ok⟩, h1, run⟩ := dbind_eq_ok.1 run
    exact (stop run).trans ((inputLoop_sat _ _ d hd.tracked).of_ok h1).1.active
  · obtain ⟨d1, h1, run⟩ := dbind_eq_ok.1 run
    exact (stop run).trans ((reload_sat hd).of_ok h1).2.2.1
  · unfold addListener at run
    split at run
    · rw [← Except.ok.inj run]
    · split at run
      · rw [← Except.ok.inj run]
      · split at run
        · cases run
        · split at run
          all_goals rw [← Except.ok.inj run]
  · obtain ⟨⟨d1, ok⟩, h1, run⟩ := dbind_eq_ok.1 run
    exact (stop run).trans ((bindAll_sat _ _ d hd (fun e he => he)).of_ok h1).2.1.active
  · exact stop run

/-- C66. The keyboard used last is the one the last event of a device that belongs to a keyboard was for; nothing else
changes it. -/
theorem C66_used_last {env : Env} {d d' : Daemon} {ev : LoopEvent} {t w : Int} (hd : DHistory d)
    (run : eventHandler env d ev t = .ok (d', w)) : d'.active = usedLast d ev := by
  have hinv := (dinv_history hd).tick t
  unfold usedLast
  cases ev with
  | client c m =>
    obtain ⟨d1, h1, h2⟩ := dbind_eq_ok.1 run
    have e : d1 = d' := congrArg Prod.fst (Except.ok.inj h2)
    subst e
    exact (handleClient_active hinv h1 : d1.active = (tick d t).active)
  | devAdd dev =>
    have e := congrArg Prod.fst (Except.ok.inj run)
    dsimp only at e
    rw [← e]
    rfl
  | devRemove =>
    have e := congrArg Prod.fst (Except.ok.inj run)
    dsimp only at e
    rw [← e]
    rfl
  | timeout =>
    unfold eventHandler at run
    dsimp only at run ⊢
    split at run
    · have e := congrArg Prod.fst (Except.ok.inj run)
      dsimp only at e
      rw [← e]
      rfl
    · obtain ⟨⟨d1, w1⟩, h1, h2⟩ := dbind_eq_ok.1 run
      have e := congrArg Prod.fst (Except.ok.inj h2)
      dsimp only at e
      rw [← e]
      obtain ⟨_, _, _, _, _, _, _, ha⟩ := feeds_run h1
      exact ha
  | dev i e =>
    unfold eventHandler at run
    dsimp only at run ⊢
    change (match d.devices[i]? with | none => _ | some dev => _) = _ at run
    cases hdev : d.devices[i]? with
    | none =>
      rw [hdev] at run
      have e := congrArg Prod.fst (Except.ok.inj run)
      dsimp only at e
      rw [← e]
      rfl
    | some dev =>
      rw [hdev] at run
      dsimp only at run ⊢
      obtain ⟨d1, h1, h2⟩ := dbind_eq_ok.1 run
      have e1 : d1 = d' := congrArg Prod.fst (Except.ok.inj h2)
      subst e1
      unfold deviceEvent at h1
      cases hdat : dev.data with
      | some b =>
        rw [hdat] at h1
        dsimp only [Option.isSome] at h1 ⊢
        rw [if_pos rfl]
        exact ((managedEvent_sat hinv (hinv.device_live (List.mem_of_getElem? hdev) hdat)).of_ok h1).2.1
      | none =>
        rw [hdat] at h1
        dsimp only [Option.isSome] at h1 ⊢
        rw [if_neg (fun h => by cases h)]
        split at h1
        · split at h1
          · split at h1
            · obtain ⟨⟨d2, w1⟩, h3, h4⟩ := dbind_eq_ok.1 h1
              have e := Except.ok.inj h4
              dsimp only at e
              rw [← e]
              obtain ⟨_, _, _, _, _, _, _, ha⟩ := feeds_keypress h3
              exact ha
            · rw [← Except.ok.inj h1]
              rfl
          · rw [← Except.ok.inj h1]
            rfl
        · split at h1
          · rw [← Except.ok.inj h1]
            rfl
          · rw [← Except.ok.inj h1]
            rfl

/-! ### Examples -/

def routingEnv : Env := { confs := [b!"[ids]
0001:0001
[main]
capslock = oneshot(nav)
scrolldown = b
[nav]
x = z
", b!"[ids]
0002:0002
[main]
x = y
"] }

def routingRun (es : List (LoopEvent × Int)) (p : Daemon → Bool) : Bool :=
  match reload routingEnv {} with
  | .ok d => match daemonRun routingEnv es d with
    | .ok d => p d
    | .error _ => false
  | .error _ => false

/-- Two keyboards with different configs and a mouse that belongs to none. -/
def routingDevices : List (LoopEvent × Int) :=
  [(.devAdd { id := b!"0001:0001", capabilities := CAP_KEYBOARD ||| CAP_MOUSE }, 1),
   (.devAdd { id := b!"0002:0002", capabilities := CAP_KEYBOARD }, 2),
   (.devAdd { id := b!"0003:0003", capabilities := CAP_MOUSE }, 3)]

def routingKey (i : Nat) (c : Code) (v : UInt8) : LoopEvent := .dev i { type := .key, code := c, pressed := v, x := 0, y := 0 }

/-- The one-shot layer of the first keyboard is not used by the second ... -/
theorem C66_witness_keyboards : routingRun (routingDevices ++ [(routingKey 0 58 1, 10), (routingKey 0 58 0, 11), (routingKey 1 45 1, 12),
    (routingKey 1 45 0, 13), (routingKey 0 45 1, 14)]) (fun d => decide (d.vout.reverse = [.key 21 true, .key 21 false, .key 44 true])) = true := by
  set_option maxRecDepth 100000 in decide +kernel

/-- ... but it is by a click of the other mouse. -/
theorem C66_witness_click : routingRun (routingDevices ++ [(routingKey 0 58 1, 10), (routingKey 0 58 0, 11), (routingKey 2 115 1, 12),
    (routingKey 0 45 1, 14)]) (fun d => decide (d.vout.reverse = [.key 45 true])) = true := by
  set_option maxRecDepth 100000 in decide +kernel

/-- The wheel of the first keyboard: two steps down, which are bound to `b`, and one to the right. -/
theorem C66_witness_wheel : routingRun (routingDevices ++ [(.dev 0 { type := .mouseScroll, x := 1, y := -2 }, 10)])
    (fun d => decide (d.vout.reverse = [.scroll 1 0, .key 48 true, .key 48 false, .key 48 true, .key 48 false] ∧
      routed d 10 (.dev 0 { type := .mouseScroll, x := 1, y := -2 }) = some (0, taps 203 1 10 ++ taps 148 2 10))) = true := by
  set_option maxRecDepth 100000 in decide +kernel

end Keyd
