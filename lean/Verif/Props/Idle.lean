import Verif.Proofs.Idle
import Verif.Props.Overload

/-
  C58: `overloadi(<action 1>, <action 2>, <timeout>)` chooses by the time since the last symbol.
-/

set_option autoImplicit false

namespace Keyd

attribute [local irreducible] configInit

theorem idleInv_reach {cfg : Config → Prop} {k : Kbd} (h : Reach cfg k) : IdleInv k := by
  induction h with
  | init c _ =>
    intro t ht
    injection ht with ht
  | events n k evs k' w _ run ih => exact (kbdProcessEvents_sat idle_engineInv n k evs ih).of_ok run
  | bind k e k' a _ run _ ih =>
    have e := kbdEval_frame run
    rw [e]; exact ih
  | scroll k s _ ih => exact ih

theorem find_modifyFirst {p : CacheEntry → Bool} {f : CacheEntry → CacheEntry} (hp : ∀ e, p (f e) = p e) :
    ∀ l : List CacheEntry, (modifyFirst p f l).find? p = (l.find? p).map f
  | [] => rfl
  | e :: l => by
    unfold modifyFirst
    cases he : p e with
    | true => simp [hp, he]
    | false => simp [he, find_modifyFirst hp l]

/-- C58, the choice. A key bound to `overloadi(a, b, T)` is pressed at time `t`; the latest key that
typed a symbol was pressed or released at `t0`. If less than `T` ms have passed the key is pressed
with action `a`, otherwise with action `b`, and that is the action it is held with. -/
theorem C58_choice {cfg : Config → Prop} {k k' : Kbd} (h : Reach cfg k) {code : Code} {a b T dl : Nat} (hc : code ≠ 0)
    (hd : Direct k code) (hf : Fresh k code) (fuel : Nat) (t t0 w : Int)
    (hl : lookupDescriptor { k with layerState := afterExpiry k t } code = (.overloadIdle a b T, dl))
    (hlast : lastSymbol k.steps = some t0)
    (run : kbdProcessEvents (fuel + 1) k [⟨code, true, t⟩] = .ok (k', w)) :
    (cacheGet k' code).map (·.d) = some (k.config.desc (if t - t0 < T then a else b)) ∧
    ∃ n k2 k3, Arrived k code true t (.overloadIdle a b T) dl k2 ∧
      processDescriptor n k2 code (k.config.desc (if t - t0 < T then a else b)) dl true t = .ok k3 ∧
      k' = { k3 with cache := k'.cache, timeouts := k'.timeouts, lastPressedCode := code } := by
  have h' : Reach cfg k' := .events _ _ _ _ _ h run
  obtain ⟨d, dl', k2, k3, hl', ha, hp, hr⟩ := direct_press hd hc hf run
  rw [hl] at hl'
  injection hl' with e1 e2
  subst e1 e2
  unfold processDescriptor descBudget at hp
  change (pdOverloadIdle _ k2 code a b T dl t >>= fun k => (.ok { k with lastPressedCode := code } : Res Kbd)) = .ok k3 at hp
  rw [bind_eq_ok] at hp
  obtain ⟨k4, h4, hp⟩ := hp
  unfold pdOverloadIdle at h4
  dsimp only at h4
  rw [bind_eq_ok] at h4
  obtain ⟨k5, h5, h4⟩ := h4
  have hact : idleAction k2 a b T t = k.config.desc (if t - t0 < T then a else b) := by
    unfold idleAction
    rw [ha.struck, idleInv_reach h t0 hlast, ha.config]
    by_cases hlt : t - t0 < T
    · rw [if_neg (by omega), if_pos hlt]
    · rw [if_pos (by omega), if_neg hlt]
  rw [hact] at h5 h4
  injection hp with hp
  injection h4 with h4
  have hk' : k' = (calculateMainLoopTimeout _ t).1 := congrArg Prod.fst hr
  have hst : k'.steps = k2.steps := by
    rw [hk', ← hp, ← h4]
    exact ((struck_descriptor _ _ _ _ _ _ _).of_ok h5).1
  have hca : k'.cache = modifyFirst (fun e => e.code = code)
      (fun e => { e with d := k.config.desc (if t - t0 < T then a else b) }) k5.cache := by
    rw [hk', ← hp, ← h4]; rfl
  constructor
  · obtain ⟨ce, hce, _⟩ := C02_still_held h' code hc (.overloadIdle a b T) dl (by
      rw [hst, ha.steps]; simp [lastUse])
    unfold cacheGet at hce ⊢
    rw [hca] at hce ⊢
    have hfm := find_modifyFirst (p := fun e : CacheEntry => decide (e.code = code))
      (f := fun e : CacheEntry => { e with d := k.config.desc (if t - t0 < T then a else b) }) (fun _ => rfl) k5.cache
    rw [hfm] at hce ⊢
    cases hx : k5.cache.find? (fun e => decide (e.code = code)) with
    | none => rw [hx] at hce; cases hce
    | some e => rfl
  · refine ⟨_, k2, k5, ha, h5, ?_⟩
    rw [hk', ← hp, ← h4]
    rfl

/-- C58, a key chosen. The action chosen is the key `x` (not a modifier key): `x` is pressed. -/
theorem C58_types {cfg : Config → Prop} {k k' : Kbd} (h : Reach cfg k) {code : Code} {a b T dl : Nat} (hc : code ≠ 0)
    (hd : Direct k code) (hf : Fresh k code) (fuel : Nat) (t t0 w : Int)
    (hl : lookupDescriptor { k with layerState := afterExpiry k t } code = (.overloadIdle a b T, dl))
    (hlast : lastSymbol k.steps = some t0)
    (run : kbdProcessEvents (fuel + 1) k [⟨code, true, t⟩] = .ok (k', w)) (x : Code) (m : UInt8)
    (hx : k.config.desc (if t - t0 < T then a else b) = .keyseq x m) (hr : RealKey x) (hm : isModifierKey x = false) :
    k'.typed = k.typed ++ (if k.keystate x then [(x, false)] else []) ++ [(x, true)] := by
  obtain ⟨_, n, k2, k3, ha, hp, e⟩ := C58_choice h hc hd hf fuel t t0 w hl hlast run
  rw [hx] at hp
  cases n with
  | zero => cases hp
  | succ n =>
    unfold processDescriptor at hp
    change (pdKeyseq k2 x m dl true t >>= fun k => (.ok { k with lastPressedCode := code } : Res Kbd)) = .ok k3 at hp
    rw [bind_eq_ok] at hp
    obtain ⟨k4, h4, hp⟩ := hp
    injection hp with hp
    rw [e, ← hp]
    show k4.typed = _
    rw [(typed_pdKeyseq_press hr hm h4).1, ha.typed, ha.keys x hm]

/-- C58, a layer chosen. The action chosen is `layer(l)`: the layer is entered, and nothing typed. -/
theorem C58_layer {cfg : Config → Prop} {k k' : Kbd} (h : Reach cfg k) {code : Code} {a b T dl : Nat} (hc : code ≠ 0)
    (hd : Direct k code) (hf : Fresh k code) (fuel : Nat) (t t0 w : Int)
    (hl : lookupDescriptor { k with layerState := afterExpiry k t } code = (.overloadIdle a b T, dl))
    (hlast : lastSymbol k.steps = some t0)
    (run : kbdProcessEvents (fuel + 1) k [⟨code, true, t⟩] = .ok (k', w)) (l : Nat)
    (hx : k.config.desc (if t - t0 < T then a else b) = .layer l) :
    (k'.layerState l).active = (afterExpiry k t l).active + 1 ∧ (∀ i, i ≠ l → k'.layerState i = afterExpiry k t i) ∧
    k'.typed = k.typed := by
  obtain ⟨_, n, k2, k3, ha, hp, e⟩ := C58_choice h hc hd hf fuel t t0 w hl hlast run
  rw [hx] at hp
  cases n with
  | zero => cases hp
  | succ n =>
    unfold processDescriptor at hp
    change (pdLayer k2 code l true >>= fun k => (.ok { k with lastPressedCode := code } : Res Kbd)) = .ok k3 at hp
    rw [bind_eq_ok] at hp
    obtain ⟨k4, h4, hp⟩ := hp
    injection hp with hp
    unfold pdLayer at h4
    rw [if_pos rfl, bind_eq_ok] at h4
    obtain ⟨k5, h5, h4⟩ := h4
    have hty := typed_activateLayer h5
    obtain ⟨cache', h5⟩ := activateLayer_ok h5
    have h6 : k4.layerState = k5.layerState ∧ k4.typed = k5.typed := by
      split at h4
      · injection h4 with h4
        rw [← h4]
        exact ⟨(KeyFrame.updateMods _ _ _).layerState, typed_updateMods _ _ _⟩
      · injection h4 with h4
        rw [← h4]
        exact ⟨(KeyFrame.updateMods _ _ _).layerState, typed_updateMods _ _ _⟩
    have hls5 : k5.layerState = upd k2.layerState l { k2.layerState l with active := (k2.layerState l).active + 1, activationTime := k2.clock } := by
      rw [h5]
    have hls : k'.layerState = k5.layerState := by rw [e, ← hp]; exact h6.1
    refine ⟨?_, ?_, ?_⟩
    · rw [hls, hls5, upd_same, ha.layers]
    · intro i hi
      rw [hls, hls5, upd_other _ _ hi, ha.layers]
    · rw [e, ← hp]
      show k4.typed = _
      rw [h6.2, hty, ha.typed]

/-- C58, a decision postponed. The action chosen is `overloadt2(l, x, T2)`, as in `lettermod`: the key
waits for its decision until `t + T2`, and nothing is typed and no layer entered so far. -/
theorem C58_waits {cfg : Config → Prop} {k k' : Kbd} (h : Reach cfg k) {code : Code} {a b T dl : Nat} (hc : code ≠ 0)
    (hd : Direct k code) (hf : Fresh k code) (fuel : Nat) (t t0 w : Int)
    (hl : lookupDescriptor { k with layerState := afterExpiry k t } code = (.overloadIdle a b T, dl))
    (hlast : lastSymbol k.steps = some t0)
    (run : kbdProcessEvents (fuel + 1) k [⟨code, true, t⟩] = .ok (k', w)) (l x T2 : Nat)
    (hx : k.config.desc (if t - t0 < T then a else b) = .overloadTimeoutTap l x T2) :
    k'.pending.code = code ∧ k'.pending.behaviour = .uninterruptibleTapAction2 ∧ k'.pending.expire = t + T2 ∧
    k'.pending.action1 = k.config.desc x ∧ k'.pending.action2 = .layer l ∧
    k'.layerState = afterExpiry k t ∧ k'.typed = k.typed := by
  obtain ⟨_, n, k2, k3, ha, hp, e⟩ := C58_choice h hc hd hf fuel t t0 w hl hlast run
  rw [hx] at hp
  cases n with
  | zero => cases hp
  | succ n =>
    unfold processDescriptor at hp
    change (pdOverloadTimeout k2 code true l x T2 dl t >>= fun k => (.ok { k with lastPressedCode := code } : Res Kbd)) = .ok k3 at hp
    rw [bind_eq_ok] at hp
    obtain ⟨k4, h4, hp⟩ := hp
    injection hp with hp
    unfold pdOverloadTimeout scheduleTimeout at h4
    dsimp only at h4
    split at h4
    · injection h4 with h4
      rw [e, ← hp, ← h4]
      refine ⟨rfl, rfl, rfl, ?_, rfl, ha.layers, ha.typed⟩
      show k2.config.desc x = _
      rw [ha.config]
    · cases h4

/-! Concrete cases. -/

def idleText : Str :=
  b!"[main]\na = overloadi(a, layer(nav), 150)\nd = overloadi(d, overloadt2(nav, d, 200), 150)\n[nav]\nx = y\n"

/-- In the middle of typing the key is a letter … -/
theorem C58_witness_typing : runText idleText [press 48 1000, release 48 1010, press 30 1159, release 30 1170]
    = some [.key 48 true, .key 48 false, .key 30 true, .key 30 false] := by
  set_option maxRecDepth 100000 in decide +kernel

/-- … and a millisecond later it is a layer key. -/
theorem C58_witness_idle : runText idleText [press 48 1000, release 48 1010, press 30 1160, release 30 1170]
    = some [.key 48 true, .key 48 false, .layer 6 true, .layer 6 false] := by
  set_option maxRecDepth 100000 in decide +kernel

/-- It is the release that counts: the key before was struck eight seconds ago, but released only just
now. -/
theorem C58_release_counts : runText idleText [press 48 1000, release 48 9000, press 30 9100, release 30 9110]
    = some [.key 48 true, .key 48 false, .key 30 true, .key 30 false] := by
  set_option maxRecDepth 100000 in decide +kernel

theorem idleWitness : checkRun idleText [press 48 1000, release 48 1010] (fun _ => true)
    (fun k => directCheck k 30 && freshCheck k 30 && directCheck k 32 && freshCheck k 32 && decide (k.oneshotTimeout = 0) &&
      decide (lookupDescriptor k 30 = (.overloadIdle 1 0 150, 0)) && decide (lookupDescriptor k 32 = (.overloadIdle 4 3 150, 0)) &&
      decide (lastSymbol k.steps = some 1010) && decide (k.config.desc 1 = .keyseq 30 0) && decide (k.config.desc 0 = .layer 6) &&
      decide (k.config.desc 3 = .overloadTimeoutTap 6 2 200)) = true := by
  set_option maxRecDepth 100000 in decide +kernel

/-- The hypotheses of `C58_choice`, `C58_types`, `C58_layer` and `C58_waits` are met: key 30 pressed at
1100 is a letter, at 1200 a layer key, and key 32 pressed at 1200 waits. -/
theorem C58_witness : ∃ k, Reach (fun _ => True) k ∧ Direct k 30 ∧ Fresh k 30 ∧ Direct k 32 ∧ Fresh k 32 ∧
    (∀ t, lookupDescriptor { k with layerState := afterExpiry k t } 30 = (.overloadIdle 1 0 150, 0)) ∧
    (∀ t, lookupDescriptor { k with layerState := afterExpiry k t } 32 = (.overloadIdle 4 3 150, 0)) ∧
    lastSymbol k.steps = some 1010 ∧ k.config.desc (if (1100 : Int) - 1010 < 150 then 1 else 0) = .keyseq 30 0 ∧
    k.config.desc (if (1200 : Int) - 1010 < 150 then 1 else 0) = .layer 6 ∧
    k.config.desc (if (1200 : Int) - 1010 < 150 then 4 else 3) = .overloadTimeoutTap 6 2 200 := by
  obtain ⟨k, h1, h2⟩ := checkRun_reach (cfg := fun _ => True) idleWitness (fun _ _ => trivial)
  simp only [Bool.and_eq_true, decide_eq_true_eq] at h2
  obtain ⟨⟨⟨⟨⟨⟨⟨⟨⟨⟨a1, a2⟩, a3⟩, a4⟩, a5⟩, a6⟩, a7⟩, a8⟩, a9⟩, a10⟩, a11⟩ := h2
  have he : ∀ t, afterExpiry k t = k.layerState := by
    intro t
    unfold afterExpiry
    rw [if_neg (fun h => h.1 a5)]
  refine ⟨k, h1, direct_of_check a1, fresh_of_check a2, direct_of_check a3, fresh_of_check a4, ?_, ?_, a8, a9, a10, a11⟩
  · intro t; rw [he]; exact a6
  · intro t; rw [he]; exact a7

def nestedIdleText : Str := b!"[main]\na = overloadi(b, overloadi(c, layer(nav), 100), 150)\n[nav]\nx = y\n"

/-- An `overloadi` inside an `overloadi` is not released: its key is held with the inner `overloadi`,
whose release does nothing. Here the layer stays after the key is up: the `x` pressed a second later
is still the layer's. -/
theorem C58_fails_nested : runText nestedIdleText [press 30 1000, release 30 1010, press 45 2000]
    = some [.layer 6 true, .key 21 true] := by
  set_option maxRecDepth 100000 in decide +kernel

end Keyd
