import Verif.Proofs.DirectSteps
import Verif.Props.Release

/-
  C16: overload keys.
-/

set_option autoImplicit false

namespace Keyd

attribute [local irreducible] configInit

theorem newestPress_between {code : Code} {u : Desc × Nat} {t0 : Int} {earlier : List Step} : ∀ (between : List Step),
    (∀ s ∈ between, s.about code = false) →
    (newestPress (between ++ .key code true t0 (some u) :: earlier) = code ↔ ∀ s ∈ between, s.isPress = false)
  | [], _ => by simp [newestPress]
  | s :: l, h => by
    have hs := h s List.mem_cons_self
    have ih := newestPress_between (u := u) (t0 := t0) (earlier := earlier) l (fun s hs => h s (List.mem_cons_of_mem _ hs))
    rw [List.cons_append, List.forall_mem_cons]
    match s, hs with
    | .key c true t (some (d, dl)), hs =>
      have : c ≠ code := by simpa [Step.about] using hs
      constructor
      · intro e; exact absurd e this
      · intro e; exact absurd e.1 (by simp [Step.isPress])
    | .resolve c d dl _, hs =>
      have : c ≠ code := by simpa [Step.about] using hs
      constructor
      · intro e; exact absurd e this
      · intro e; exact absurd e.1 (by simp [Step.isPress])
    | .key _ false _ (some _), _ => exact ih.trans ⟨fun e => ⟨rfl, e⟩, fun e => e.2⟩
    | .key _ true _ none, _ => exact ih.trans ⟨fun e => ⟨rfl, e⟩, fun e => e.2⟩
    | .key _ false _ none, _ => exact ih.trans ⟨fun e => ⟨rfl, e⟩, fun e => e.2⟩
    | .passed _, _ => exact ih.trans ⟨fun e => ⟨rfl, e⟩, fun e => e.2⟩
    | .swallowed _, _ => exact ih.trans ⟨fun e => ⟨rfl, e⟩, fun e => e.2⟩

theorem openOverload_between {code : Code} {l a dl : Nat} {t0 : Int} {earlier : List Step} : ∀ (between : List Step),
    (∀ s ∈ between, s.about code = false) → (∀ s ∈ between, s.isPress = false) →
    openOverload (between ++ .key code true t0 (some (.overload l a, dl)) :: earlier) = some (code, t0)
  | [], _, _ => rfl
  | s :: l', h, hp => by
    have hs := h s List.mem_cons_self
    have hps := hp s List.mem_cons_self
    have ih := openOverload_between (l := l) (a := a) (dl := dl) (t0 := t0) (earlier := earlier) l'
      (fun s hs => h s (List.mem_cons_of_mem _ hs)) (fun s hs => hp s (List.mem_cons_of_mem _ hs))
    rw [List.cons_append]
    match s, hs, hps with
    | .key c true t (some (d, dl)), hs, hps => simp [Step.isPress] at hps
    | .resolve c d dl _, hs, hps => simp [Step.isPress] at hps
    | .key c false _ (some _), hs, _ =>
      have hc : c ≠ code := by simpa [Step.about] using hs
      rw [openOverload, ih]
      dsimp only
      rw [if_neg (Ne.symm hc)]
    | .key _ true _ none, _, _ => exact ih
    | .key _ false _ none, _, _ => exact ih
    | .passed _, _, _ => exact ih
    | .swallowed _, _, _ => exact ih

/-- C16, press. Pressing a key whose binding is `overload(l, a)` activates layer `l` and changes no
other layer; nothing is typed. -/
theorem C16_press {k k' : Kbd} {code : Code} {l a dl : Nat} (hd : Direct k code) (hc : code ≠ 0) (hf : Fresh k code)
    (fuel : Nat) (t w : Int) (hl : lookupDescriptor { k with layerState := afterExpiry k t } code = (.overload l a, dl))
    (run : kbdProcessEvents (fuel + 1) k [⟨code, true, t⟩] = .ok (k', w)) :
    (k'.layerState l).active = (afterExpiry k t l).active + 1 ∧
    (∀ i, i ≠ l → k'.layerState i = afterExpiry k t i) ∧
    k'.typed = k.typed ∧
    k'.steps = .key code true t (some (.overload l a, dl)) :: .passed ⟨code, true, t⟩ :: k.steps ∧
    lastUse code k'.steps = some (.pressed (.overload l a) dl) := by
  obtain ⟨d, dl', k2, k3, hl', ha, hp, hr⟩ := direct_press hd hc hf run
  rw [hl] at hl'
  injection hl' with e1 e2
  subst e1 e2
  unfold processDescriptor descBudget at hp
  change (pdOverloadPress k2 code l t >>= fun k => (.ok { k with lastPressedCode := code } : Res Kbd)) = .ok k3 at hp
  rw [bind_eq_ok] at hp
  obtain ⟨k4, h4, hp⟩ := hp
  unfold pdOverloadPress at h4
  rw [bind_eq_ok] at h4
  obtain ⟨k5, h5, h4⟩ := h4
  injection hp with hp
  injection h4 with h4
  have hty := typed_activateLayer h5
  obtain ⟨cache', h5⟩ := activateLayer_ok h5
  have hfr := KeyFrame.updateMods k5 none 0
  have hk' : k' = (calculateMainLoopTimeout _ t).1 := congrArg Prod.fst hr
  have hls : k'.layerState = k5.layerState := by
    rw [hk', ← hp, ← h4]; exact hfr.layerState
  have hst : k'.steps = k5.steps := by
    rw [hk', ← hp, ← h4]; exact hfr.steps
  have hty' : k'.typed = k5.typed := by
    rw [hk', ← hp, ← h4]; exact typed_updateMods _ _ _
  have hls5 : k5.layerState = upd k2.layerState l { k2.layerState l with active := (k2.layerState l).active + 1, activationTime := k2.clock } := by
    rw [h5]
  have hst5 : k5.steps = k2.steps := by rw [h5]
  refine ⟨?_, ?_, ?_, ?_, ?_⟩
  · rw [hls, hls5, upd_same, ha.layers]
  · intro i hi
    rw [hls, hls5, upd_other _ _ hi, ha.layers]
  · rw [hty', hty]; exact ha.typed
  · rw [hst, hst5, ha.steps]
  · rw [hst, hst5, ha.steps]
    simp [lastUse]

/-- What follows from leaving layer `l`: the state in which it is decided whether there was a tap. -/
structure LeftLayer (k : Kbd) (t : Int) (l : Nat) (k2 : Kbd) : Prop where
  config : k2.config = k.config
  was : 0 < (afterExpiry k t l).active
  layer : (k2.layerState l).active = (afterExpiry k t l).active - 1
  others : ∀ i, i ≠ l → k2.layerState i = afterExpiry k t i
  typed : k2.typed = k.typed
  pending : k2.pending = k.pending

/-- The tap condition of an overload key: no other key was pressed after it, and the key was not held
for too long. -/
def Tapped (c : Config) (between : List Step) (t0 t : Int) : Prop :=
  (∀ s ∈ between, s.isPress = false) ∧ (c.overloadTapTimeout = 0 ∨ t - t0 < c.overloadTapTimeout)

/-- C16, release. A key was pressed at time `t0` with binding `overload(l, a)` and is released at `t`.
Layer `l` is left. If the key was not tapped, nothing else happens. If it was tapped, the action is
performed: pressed and released, or, if it is a macro, executed. -/
theorem C16_release {cfg : Config → Prop} {k k' : Kbd} (h : Reach cfg k) {code : Code} {l a dl : Nat} (hc : code ≠ 0)
    (hd : Direct k code) (between earlier : List Step) (t0 : Int)
    (hlog : k.steps = between ++ .key code true t0 (some (.overload l a, dl)) :: earlier)
    (hbetween : ∀ s ∈ between, s.about code = false)
    (hkeep : (cacheGet k code).map (·.d) = some (.overload l a)) (fuel : Nat) (t w : Int)
    (run : kbdProcessEvents (fuel + 1) k [⟨code, false, t⟩] = .ok (k', w)) :
    ∃ k2, LeftLayer k t l k2 ∧
      (¬ Tapped k.config between t0 t → k' = { k2 with timeouts := k'.timeouts }) ∧
      (Tapped k.config between t0 t →
        (∀ m, k.config.desc a = .macro m →
          k' = { executeMacro k2 dl (k.config.mac m) with timeouts := k'.timeouts }) ∧
        ((∀ m, k.config.desc a ≠ .macro m) → ∃ n k3 k4,
          processDescriptor n k2 code (k.config.desc a) dl true t = .ok k3 ∧
          processDescriptor n k3 code (k.config.desc a) dl false t = .ok k4 ∧
          k' = { k4 with timeouts := k'.timeouts })) := by
  have hm := memInv_reach h
  cases hg : cacheGet k code with
  | none => rw [hg] at hkeep; cases hkeep
  | some ce =>
    rw [hg] at hkeep
    have hced : ce.d = .overload l a := by simpa using hkeep
    have hdl : ce.dl = dl := by
      obtain ⟨ce', h1, h2, _⟩ := C02_still_held h code hc (.overload l a) dl (by
        rw [hlog, lastUse_skip _ _ hbetween]; simp [lastUse])
      rw [hg] at h1
      cases h1
      exact h2
    obtain ⟨k1, k6, ha, hp, hr⟩ := direct_release hd hc hg run
    rw [hced, hdl] at ha hp
    have hk' : k' = (calculateMainLoopTimeout _ t).1 := congrArg Prod.fst hr
    have hkt : k' = { k6 with timeouts := k'.timeouts } := by rw [hk']; rfl
    unfold processDescriptor descBudget at hp
    change (pdOverloadRelease _ k1 code l a dl t >>= fun k => (.ok k : Res Kbd)) = .ok k6 at hp
    rw [bind_eq_ok] at hp
    obtain ⟨k7, hp, h7⟩ := hp
    injection h7 with h7
    subst h7
    unfold pdOverloadRelease at hp
    dsimp only at hp
    rw [bind_eq_ok] at hp
    obtain ⟨k8, h8, hp⟩ := hp
    have hty := typed_deactivateLayer h8
    obtain ⟨hpos, h8⟩ := deactivateLayer_ok.1 h8
    have hfr := KeyFrame.updateMods k8 none 0
    have hcfg : (updateMods k8 none 0).config = k.config := by rw [hfr.config, h8]; exact ha.config
    have hlast : (updateMods k8 none 0).lastPressedCode = newestPress k.steps := by
      rw [hfr.lastPressedCode, h8, ← hm.last]; exact ha.last
    have hstart : (updateMods k8 none 0).overloadStartTime = k.overloadStartTime := by
      rw [hfr.overloadStartTime, h8]; exact ha.start
    have htap : isTap (updateMods k8 none 0) code t = true ↔ Tapped k.config between t0 t := by
      unfold isTap Tapped
      rw [decide_eq_true_eq, hcfg, hlast, hstart, hlog, newestPress_between between hbetween]
      refine and_congr_right (fun hb => ?_)
      have := hm.start code t0 (by rw [hlog]; exact openOverload_between between hbetween hb)
      rw [this]
    have hact : k1.config.desc a = k.config.desc a := by rw [ha.config]
    rw [hact] at hp
    refine ⟨updateMods k8 none 0, ⟨hcfg, ?_, ?_, ?_, ?_, ?_⟩, ?_, ?_⟩
    · rw [← ha.layers]; exact hpos
    · rw [hfr.layerState, h8]
      show ((upd k1.layerState l _) l).active = _
      rw [upd_same, ha.layers]
    · intro i hi
      rw [hfr.layerState, h8]
      show (upd k1.layerState l _) i = _
      rw [upd_other _ _ hi, ha.layers]
    · rw [typed_updateMods, hty, ha.typed]
    · rw [hfr.pending, h8]; exact ha.pending
    · intro hnt
      rw [if_neg (fun e => hnt (htap.1 e))] at hp
      injection hp with hp
      rw [hp]; exact hkt
    · intro ht
      rw [if_pos (htap.2 ht)] at hp
      constructor
      · intro m hm
        rw [hm] at hp
        dsimp only at hp
        injection hp with hp
        rw [hcfg] at hp
        rw [hp]; exact hkt
      · intro hnm
        have hp' : (do let kk ← processDescriptor (k1.config.descriptors.length + 1) (updateMods k8 none 0) code (k.config.desc a) dl true t
                       processDescriptor (k1.config.descriptors.length + 1) kk code (k.config.desc a) dl false t : Res Kbd) = .ok k7 := by
          revert hp
          cases hda : k.config.desc a with
          | «macro» m => exact absurd hda (hnm m)
          | _ => exact fun h => h
        rw [bind_eq_ok] at hp'
        obtain ⟨k9, h9, h10⟩ := hp'
        exact ⟨_, k9, k7, h9, h10, hkt⟩

/-- C16, a hold: if another key was pressed in between, or the key was held for too long, the release
types nothing. -/
theorem C16_hold {cfg : Config → Prop} {k k' : Kbd} (h : Reach cfg k) {code : Code} {l a dl : Nat} (hc : code ≠ 0)
    (hd : Direct k code) (between earlier : List Step) (t0 : Int)
    (hlog : k.steps = between ++ .key code true t0 (some (.overload l a, dl)) :: earlier)
    (hbetween : ∀ s ∈ between, s.about code = false)
    (hkeep : (cacheGet k code).map (·.d) = some (.overload l a)) (fuel : Nat) (t w : Int)
    (run : kbdProcessEvents (fuel + 1) k [⟨code, false, t⟩] = .ok (k', w))
    (hhold : (∃ s ∈ between, s.isPress = true) ∨
      (k.config.overloadTapTimeout ≠ 0 ∧ k.config.overloadTapTimeout ≤ t - t0)) :
    k'.typed = k.typed ∧ (k'.layerState l).active = (afterExpiry k t l).active - 1 := by
  obtain ⟨k2, h2, h3, _⟩ := C16_release h hc hd between earlier t0 hlog hbetween hkeep fuel t w run
  have hnt : ¬ Tapped k.config between t0 t := by
    rintro ⟨h4, h5⟩
    rcases hhold with ⟨s, hs, e⟩ | ⟨e1, e2⟩
    · rw [h4 s hs] at e; cases e
    · rcases h5 with h5 | h5
      · exact e1 h5
      · omega
  have e := h3 hnt
  constructor
  · rw [e]; exact h2.typed
  · rw [e]; exact h2.layer

/-- C16, a tap: if no other key was pressed in between, the key was not held for too long, and the
action is the key `x` (which is not a modifier key), then `x` is pressed and released. -/
theorem C16_tap {cfg : Config → Prop} {k k' : Kbd} (h : Reach cfg k) {code : Code} {l a dl : Nat} (hc : code ≠ 0)
    (hd : Direct k code) (between earlier : List Step) (t0 : Int)
    (hlog : k.steps = between ++ .key code true t0 (some (.overload l a, dl)) :: earlier)
    (hbetween : ∀ s ∈ between, s.about code = false)
    (hkeep : (cacheGet k code).map (·.d) = some (.overload l a)) (fuel : Nat) (t w : Int)
    (run : kbdProcessEvents (fuel + 1) k [⟨code, false, t⟩] = .ok (k', w))
    (hpress : ∀ s ∈ between, s.isPress = false)
    (htime : k.config.overloadTapTimeout = 0 ∨ t - t0 < k.config.overloadTapTimeout)
    (x : Code) (m : UInt8) (ha : k.config.desc a = .keyseq x m) (hr : RealKey x) (hx : isModifierKey x = false) :
    ∃ up, k'.typed = k.typed ++ up ++ [(x, true), (x, false)] ∧ (up = [] ∨ up = [(x, false)]) := by
  obtain ⟨k2, h2, _, h3⟩ := C16_release h hc hd between earlier t0 hlog hbetween hkeep fuel t w run
  obtain ⟨n, k3, k4, h4, h5, h6⟩ := (h3 ⟨hpress, htime⟩).2 (by intro m; rw [ha]; intro e; cases e)
  rw [ha] at h4 h5
  cases n with
  | zero => cases h4
  | succ n =>
    unfold processDescriptor at h4 h5
    change (pdKeyseq k2 x m dl true t >>= fun k => (.ok { k with lastPressedCode := code } : Res Kbd)) = .ok k3 at h4
    change (pdKeyseq k3 x m dl false t >>= fun k => (.ok k : Res Kbd)) = .ok k4 at h5
    rw [bind_eq_ok] at h4 h5
    obtain ⟨k5, h4, h4'⟩ := h4
    obtain ⟨k7, h5, h5'⟩ := h5
    injection h4' with h4'
    injection h5' with h5'
    obtain ⟨e1, e2⟩ := typed_pdKeyseq_press hr hx h4
    have e3 := typed_pdKeyseq_release hr hx h5
    have e4 : k3.keystate x = true := by rw [← h4']; exact e2
    have e5 : k3.typed = k5.typed := by rw [← h4']; rfl
    rw [e4, e5, e1, h2.typed] at e3
    refine ⟨if k2.keystate x then [(x, false)] else [], ?_, ?_⟩
    · rw [h6]
      show k4.typed = _
      rw [← h5', e3]
      simp
    · split
      · exact .inr rfl
      · exact .inl rfl

/-! Concrete cases. -/

def overloadText : Str := b!"[global]\noverload_tap_timeout = 200\n[main]\na = overload(nav, b)\n[nav]\nx = y\n"

theorem C16_witness_tap : runText overloadText [press 30 1000, release 30 1100]
    = some [.layer 6 true, .layer 6 false, .key 48 true, .key 48 false] := by
  set_option maxRecDepth 100000 in decide +kernel

theorem C16_witness_late : runText overloadText [press 30 1000, release 30 1200]
    = some [.layer 6 true, .layer 6 false] := by
  set_option maxRecDepth 100000 in decide +kernel

theorem C16_witness_interrupted : runText overloadText [press 30 1000, press 45 1010, release 45 1020, release 30 1100]
    = some [.layer 6 true, .key 21 true, .key 21 false, .layer 6 false] := by
  set_option maxRecDepth 100000 in decide +kernel

theorem overloadWitness : checkRun overloadText [press 30 1000] (fun _ => true)
    (fun k => directCheck k 30 && decide (k.steps = [] ++ .key 30 true 1000 (some (.overload 6 0, 0)) :: [.passed ⟨30, true, 1000⟩]) &&
      decide ((cacheGet k 30).map (·.d) = some (.overload 6 0)) && decide (k.config.desc 0 = .keyseq 48 0) &&
      decide (k.config.overloadTapTimeout = 200)) = true := by
  set_option maxRecDepth 100000 in decide +kernel

/-- The hypotheses of `C16_release` and `C16_tap` are met. -/
theorem C16_witness : ∃ k, Reach (fun _ => True) k ∧ Direct k 30 ∧
    (∃ between earlier, k.steps = between ++ .key 30 true 1000 (some (.overload 6 0, 0)) :: earlier ∧
      (∀ s ∈ between, s.about 30 = false) ∧ ∀ s ∈ between, s.isPress = false) ∧
    (cacheGet k 30).map (·.d) = some (.overload 6 0) ∧ k.config.desc 0 = .keyseq 48 0 ∧ k.config.overloadTapTimeout = 200 := by
  obtain ⟨k, h1, h2⟩ := checkRun_reach (cfg := fun _ => True) overloadWitness (fun _ _ => trivial)
  simp only [Bool.and_eq_true, decide_eq_true_eq] at h2
  exact ⟨k, h1, direct_of_check h2.1.1.1.1, ⟨_, _, h2.1.1.1.2, by simp, by simp⟩, h2.1.1.2, h2.1.2, h2.2⟩

theorem overloadHeldWitness : checkRun overloadText [press 30 1000, press 45 1010, release 45 1020] (fun _ => true)
    (fun k => directCheck k 30 && decide (k.steps = [.key 45 false 1020 (some (.keyseq 21 0, 6)), .passed ⟨45, false, 1020⟩,
        .key 45 true 1010 (some (.keyseq 21 0, 6)), .passed ⟨45, true, 1010⟩] ++
        .key 30 true 1000 (some (.overload 6 0, 0)) :: [.passed ⟨30, true, 1000⟩]) &&
      decide ((cacheGet k 30).map (·.d) = some (.overload 6 0))) = true := by
  set_option maxRecDepth 100000 in decide +kernel

/-- The hypotheses of `C16_hold` are met. -/
theorem C16_hold_witness : ∃ k, Reach (fun _ => True) k ∧ Direct k 30 ∧
    (∃ between earlier, k.steps = between ++ .key 30 true 1000 (some (.overload 6 0, 0)) :: earlier ∧
      (∀ s ∈ between, s.about 30 = false) ∧ ∃ s ∈ between, s.isPress = true) ∧
    (cacheGet k 30).map (·.d) = some (.overload 6 0) := by
  obtain ⟨k, h1, h2⟩ := checkRun_reach (cfg := fun _ => True) overloadHeldWitness (fun _ _ => trivial)
  simp only [Bool.and_eq_true, decide_eq_true_eq] at h2
  exact ⟨k, h1, direct_of_check h2.1.1, ⟨_, _, h2.1.2, by decide, by decide⟩, h2.2⟩

theorem overloadPressWitness : checkRun overloadText [] (fun _ => true)
    (fun k => directCheck k 30 && freshCheck k 30 && decide (k.oneshotTimeout = 0) &&
      decide ((lookupDescriptor k 30) = (.overload 6 0, 0))) = true := by
  set_option maxRecDepth 100000 in decide +kernel

/-- The hypotheses of `C16_press` are met. -/
theorem C16_press_witness : ∃ k, Reach (fun _ => True) k ∧ Direct k 30 ∧ Fresh k 30 ∧
    lookupDescriptor { k with layerState := afterExpiry k 1000 } 30 = (.overload 6 0, 0) := by
  obtain ⟨k, h1, h2⟩ := checkRun_reach (cfg := fun _ => True) overloadPressWitness (fun _ _ => trivial)
  simp only [Bool.and_eq_true, decide_eq_true_eq] at h2
  refine ⟨k, h1, direct_of_check h2.1.1.1, fresh_of_check h2.1.1.2, ?_⟩
  have : afterExpiry k 1000 = k.layerState := by
    unfold afterExpiry
    rw [if_neg (fun h => h.1 h2.1.2)]
  rw [this]
  exact h2.2

end Keyd
