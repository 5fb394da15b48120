import Verif.Proofs.Memory
import Verif.Proofs.Direct
import Verif.Spec.Witness

/-
  C02: a key is released with the binding it was pressed with.
-/

set_option autoImplicit false

namespace Keyd

attribute [local irreducible] configInit

theorem newKeyboard_mem (c : Config) : MemInv (newKeyboard c) := by
  have hcache : (newKeyboard c).cache = List.replicate 16 {} := rfl
  have hz : ∀ e ∈ (newKeyboard c).cache, e.code = 0 := by
    intro e he
    rw [hcache] at he
    rw [List.eq_of_mem_replicate he]
  refine ⟨?_, rfl, fun c t h => (by cases h), fun code hc e he h => hc (by rw [← h]; exact hz e he), fun h => absurd rfl h, rfl, trivial⟩
  rw [hcache]
  unfold Uniq
  rw [List.pairwise_replicate]
  exact .inr (fun _ => rfl)

/-- The invariant holds in every state the daemon can produce, whatever the configuration. -/
theorem memInv_reach {cfg : Config → Prop} {k : Kbd} (h : Reach cfg k) : MemInv k := by
  induction h with
  | init c _ => exact newKeyboard_mem c
  | events n k evs k' w _ run ih => exact (kbdProcessEvents_sat mem_engineInv n k evs ih).of_ok run
  | bind k e k' a _ run _ ih =>
    have e := kbdEval_frame run
    exact ih.quiet (by rw [e]) (by rw [e]) (by rw [e]) (by rw [e]) (by rw [e]) (by rw [e])
  | scroll k s _ ih => exact ih.quiet rfl rfl rfl rfl rfl rfl

theorem LogOk.suffix : ∀ {pre : List Step} {s : Step} {rest : List Step}, LogOk (pre ++ s :: rest) → StepOk s rest
  | [], _, _, h => h.1
  | _ :: pre, _, _, h => LogOk.suffix (pre := pre) h.2

theorem lastUse_skip {code : Code} : ∀ (l rest : List Step), (∀ s ∈ l, s.about code = false) →
    lastUse code (l ++ rest) = lastUse code rest
  | [], _, _ => rfl
  | s :: l, rest, h => by
    have hs := h s List.mem_cons_self
    have ih := lastUse_skip l rest (fun s hs => h s (List.mem_cons_of_mem _ hs))
    rw [List.cons_append]
    match s, hs with
    | .key c true t (some (d, dl)), hs =>
      have : c ≠ code := by simpa [Step.about] using hs
      show (if c = code then _ else _) = _
      rw [if_neg this]; exact ih
    | .key c false t (some (d, dl)), hs =>
      have : c ≠ code := by simpa [Step.about] using hs
      show (if c = code then _ else _) = _
      rw [if_neg this]; exact ih
    | .resolve c d dl _, hs =>
      have : c ≠ code := by simpa [Step.about] using hs
      show (if c = code then _ else _) = _
      rw [if_neg this]; exact ih
    | .key _ true _ none, _ => exact ih
    | .key _ false _ none, _ => exact ih
    | .passed _, _ => exact ih
    | .swallowed _, _ => exact ih

/-- C02. In the history of any keyboard (the log has the newest step first): if key `code` was
pressed and the binding found was the key sequence `x` with modifiers `m` of layer `dl`, then the
next thing that happens to the key is its release, and it is released with that same binding:
whatever other keys were pressed or released meanwhile, whatever layers changed, and whatever `bind`
commands were executed. -/
theorem C02_released_as_pressed {cfg : Config → Prop} {k : Kbd} (h : Reach cfg k) (later between earlier : List Step)
    (code x : Code) (m : UInt8) (dl : Nat) (t : Int) (s : Step)
    (hlog : k.steps = later ++ s :: (between ++ .key code true t (some (.keyseq x m, dl)) :: earlier))
    (hbetween : ∀ s ∈ between, s.about code = false) (hs : s.about code = true) :
    ∃ t', s = .key code false t' (some (.keyseq x m, dl)) := by
  have hl := (memInv_reach h).log
  rw [hlog] at hl
  have hok := hl.suffix
  have hu : lastUse code (between ++ .key code true t (some (.keyseq x m, dl)) :: earlier) = some (.pressed (.keyseq x m) dl) := by
    rw [lastUse_skip _ _ hbetween]
    simp [lastUse]
  match s, hs, hok with
  | .key c true t' (some u), hs, hok =>
    have hc : c = code := by simpa [Step.about] using hs
    subst hc
    exact absurd hu (hok _ _)
  | .key c false t' none, hs, hok =>
    have hc : c = code := by simpa [Step.about] using hs
    subst hc
    exact absurd hu (hok _ _)
  | .key c false t' (some (d, dl')), hs, hok =>
    have hc : c = code := by simpa [Step.about] using hs
    subst hc
    obtain ⟨d0, dl0, h1, h2, h3⟩ := hok
    rw [hu] at h1
    rcases h1 with h1 | h1
    · cases h1
      rw [h2, h3 rfl]
      exact ⟨t', rfl⟩
    · cases h1
  | .resolve c d dl' _, hs, hok =>
    have hc : c = code := by simpa [Step.about] using hs
    subst hc
    exact absurd (hok _ _ (.inl hu)) (by simp [Desc.steady])

/-- C02, for a key whose action was decided late (`overloadt` and so on): if it was decided that key
`code` is the key sequence `x` then, when it is released with a binding, it is with that one. -/
theorem C02_released_as_decided {cfg : Config → Prop} {k : Kbd} (h : Reach cfg k) (later between earlier : List Step)
    (code x : Code) (m : UInt8) (dl dl' : Nat) (t' tr : Int) (d : Desc)
    (hlog : k.steps = later ++ .key code false t' (some (d, dl')) :: (between ++ .resolve code (.keyseq x m) dl tr :: earlier))
    (hbetween : ∀ s ∈ between, s.about code = false) : d = .keyseq x m ∧ dl' = dl := by
  have hl := (memInv_reach h).log
  rw [hlog] at hl
  obtain ⟨d0, dl0, h1, h2, h3⟩ := hl.suffix
  have hu : lastUse code (between ++ .resolve code (.keyseq x m) dl tr :: earlier) = some (.decided (.keyseq x m) dl) := by
    rw [lastUse_skip _ _ hbetween]
    simp [lastUse]
  rw [hu] at h1
  rcases h1 with h1 | h1
  · cases h1
  · cases h1
    exact ⟨h3 rfl, h2⟩

/-- A key never loses its place: when it was pressed and has not been released, it is in the table
of held keys. In particular the release is not ignored. The same holds for any binding; only the
layer-holding ones can be changed by a swap. -/
theorem C02_still_held {cfg : Config → Prop} {k : Kbd} (h : Reach cfg k) (code : Code) (hc : code ≠ 0) (d : Desc) (dl : Nat)
    (hu : lastUse code k.steps = some (.pressed d dl)) :
    ∃ ce, cacheGet k code = some ce ∧ ce.dl = dl ∧ (d.steady = true → ce.d = d) := by
  have hm := memInv_reach h
  have hh := hm.held code hc
  rw [hu] at hh
  obtain ⟨e, he, h1, h2, h3⟩ := hh
  cases hg : cacheGet k code with
  | none => exact absurd h1 (cacheGet_none.1 hg e he)
  | some ce =>
    have hmem : ce ∈ k.cache := List.mem_of_find?_eq_some hg
    have hcc : ce.code = code := by simpa using List.find?_some hg
    have := hm.uniq.eq he hmem (h1.trans hcc.symm) (by rw [h1]; exact hc)
    subst this
    exact ⟨e, rfl, h2, fun hs => (h3 hs).1⟩

/-- C02, effect. When the release of a key that was pressed as key sequence `x` is handled, `x` goes
up (if it is down), and then the modifiers are set to those of the active layers; nothing else
happens to the output, except for the deadlines of one-shot layers and macros that are dealt with
first. -/
theorem C02_effect {cfg : Config → Prop} {k k' : Kbd} (h : Reach cfg k) (code : Code) (hc : code ≠ 0) (x : Code) (m : UInt8)
    (dl : Nat) (hu : lastUse code k.steps = some (.pressed (.keyseq x m) dl)) (hd : Direct k code) (fuel : Nat) (t w : Int)
    (run : kbdProcessEvents (fuel + 1) k [⟨code, false, t⟩] = .ok (k', w)) :
    ∃ k1, stepTimers (directEntry k code false t) code t = .ok k1 ∧
      ∃ k2, k2.outputs = k1.outputs ∧ k2.keystate = k1.keystate ∧ k2.layerState = k1.layerState ∧ k2.config = k1.config ∧
        k2.lastPressedOutputCode = k1.lastPressedOutputCode ∧ k2.inhibitModifierGuard = k1.inhibitModifierGuard ∧
        k'.outputs = (updateMods (sendKey k2 x false) none 0).outputs ∧
        k'.keystate = (updateMods (sendKey k2 x false) none 0).keystate ∧
        k'.steps = .key code false t (some (.keyseq x m, dl)) :: .passed ⟨code, false, t⟩ :: k.steps ∧
        cacheGet k' code = none := by
  rw [kbdProcessEvents_single, processEvent_direct hd, bind_eq_ok] at run
  obtain ⟨k1, h1, run⟩ := run
  refine ⟨k1, h1, ?_⟩
  rw [bind_eq_ok] at run
  obtain ⟨k3, h3, run⟩ := run
  have hg := (Gentle.stepTimers (x := 0) (directEntry k code false t) code t).of_ok h1
  have hm1 : MemInv k1 := by
    refine MemInv.gentle ?_ hg
    unfold directEntry
    simp only [if_neg hc]
    exact ((memInv_reach h).log_other (s := .passed ⟨code, false, t⟩) trivial (fun _ _ => rfl) (fun _ => rfl)
      (fun _ => rfl)).quiet rfl rfl rfl rfl rfl rfl
  have hst1 : k1.steps = .passed ⟨code, false, t⟩ :: k.steps := by
    rw [hg.steps]
    unfold directEntry
    simp only [if_neg hc]
  have hh := hm1.held code hc
  have hlu : lastUse code k1.steps = some (.pressed (.keyseq x m) dl) := by rw [hst1]; exact hu
  rw [hlu] at hh
  obtain ⟨e, he, e1, e2, e3⟩ := hh
  have hcg : ∃ ce, cacheGet k1 code = some ce ∧ ce.d = .keyseq x m ∧ ce.dl = dl := by
    cases hgc : cacheGet k1 code with
    | none => exact absurd e1 (cacheGet_none.1 hgc e he)
    | some ce =>
      have hmem : ce ∈ k1.cache := List.mem_of_find?_eq_some hgc
      have hcc : ce.code = code := by simpa using List.find?_some hgc
      have := hm1.uniq.eq he hmem (e1.trans hcc.symm) (by rw [e1]; exact hc)
      subst this
      exact ⟨e, rfl, (e3 rfl).1, e2⟩
  obtain ⟨⟨cc, cd, cdl, cl⟩, g1, g2, g3⟩ := hcg
  dsimp only at g2 g3
  subst g2 g3
  unfold stepKey at h3
  rw [if_neg hc, if_neg (by simp), g1] at h3
  dsimp only at h3
  obtain ⟨pre, post, c1, c2, c3, c4⟩ := cacheSet_none_split g1
  rw [c4] at h3
  dsimp only [Option.getD_some] at h3
  dsimp only at c2
  refine ⟨({ k1 with cache := pre ++ ⟨0, .keyseq x m, cdl, cl⟩ :: post } : Kbd).log (.key code false t (some (.keyseq x m, cdl))),
    rfl, rfl, rfl, rfl, rfl, rfl, ?_⟩
  generalize hk2 : ({ k1 with cache := pre ++ ⟨0, .keyseq x m, cdl, cl⟩ :: post } : Kbd).log (.key code false t (some (.keyseq x m, cdl))) = k2 at h3 ⊢
  have hs2 : k2.steps = .key code false t (some (.keyseq x m, cdl)) :: k1.steps := by rw [← hk2]; rfl
  have hc2 : k2.cache = pre ++ ⟨0, .keyseq x m, cdl, cl⟩ :: post := by rw [← hk2]; rfl
  unfold processDescriptor descBudget at h3
  change (pdKeyseq k2 x m cdl false t >>= fun k => (.ok k : Res Kbd)) = .ok k3 at h3
  unfold pdKeyseq at h3
  rw [if_neg (by simp), bind_ok, bind_ok] at h3
  injection h3 with h3
  injection run with run
  have run1 := congrArg Prod.fst run
  dsimp only at run1
  have ho : k'.outputs = k3.outputs := by rw [← run1]; rfl
  have hk : k'.keystate = k3.keystate := by rw [← run1]; rfl
  have hs : k'.steps = k3.steps := by rw [← run1]; rfl
  have hca : k'.cache = k3.cache := by rw [← run1]; rfl
  have hf : KeyFrame k2 (updateMods (sendKey k2 x false) none 0) := (KeyFrame.send _ _ _).trans (.updateMods _ _ _)
  refine ⟨?_, ?_, ?_, ?_⟩
  · rw [ho, ← h3]
    split <;> rfl
  · rw [hk, ← h3]
    split <;> rfl
  · rw [hs, ← hst1, ← hs2, ← hf.steps, ← h3]
    split <;> rfl
  · have : k3.cache = k2.cache := by
      rw [← hf.cache, ← h3]
      split <;> rfl
    rw [cacheGet_none, hca, this, hc2]
    have hu := hm1.uniq
    rw [c1] at hu
    unfold Uniq at hu
    rw [List.pairwise_append, List.pairwise_cons] at hu
    obtain ⟨_, ⟨h5, _⟩, h6⟩ := hu
    intro e he hec
    rw [List.mem_append, List.mem_cons] at he
    rcases he with he | he | he
    · exact c3 e he hec
    · rw [he] at hec; exact hc hec.symm
    · exact hc (by rw [← c2]; exact h5 e he (c2.trans hec.symm))

/-! Concrete cases. -/

def releaseText : Str := b!"[main]\na = b\ncapslock = layer(nav)\n[nav]\na = c\n"

/-- `a` is pressed as `b`, then the layer that rebinds it to `c` is activated, then `a` is released:
`b` goes up. -/
theorem C02_witness_outputs :
    runText releaseText [press 30 1000, press 58 1010, release 30 1020]
      = some [.key 48 true, .layer 6 true, .key 48 false] := by
  set_option maxRecDepth 100000 in decide +kernel

theorem releaseWitness : checkRun releaseText [press 30 1000, press 58 1010] (fun _ => true)
    (fun k => directCheck k 30 && decide (lastUse 30 k.steps = some (.pressed (.keyseq 48 0) 0)) &&
      decide ((lookupDescriptor k 30).1 = .keyseq 46 0)) = true := by
  set_option maxRecDepth 100000 in decide +kernel

/-- The hypotheses of `C02_effect` and `C02_still_held` are met in a state where a fresh press of the
same key would find a different binding. -/
theorem C02_witness : ∃ k, Reach (fun _ => True) k ∧ Direct k 30 ∧
    lastUse 30 k.steps = some (.pressed (.keyseq 48 0) 0) ∧ (lookupDescriptor k 30).1 = .keyseq 46 0 := by
  obtain ⟨k, h1, h2⟩ := checkRun_reach (cfg := fun _ => True) releaseWitness (fun _ _ => trivial)
  simp only [Bool.and_eq_true, decide_eq_true_eq] at h2
  exact ⟨k, h1, direct_of_check h2.1.1, h2.1.2, h2.2⟩

theorem releaseLogWitness : checkRun releaseText [press 30 1000, press 58 1010, release 30 1020] (fun _ => true)
    (fun k => decide (k.steps = [] ++ .key 30 false 1020 (some (.keyseq 48 0, 0)) ::
      ([.passed ⟨30, false, 1020⟩, .key 58 true 1010 (some (.layer 6, 0)), .passed ⟨58, true, 1010⟩] ++
        .key 30 true 1000 (some (.keyseq 48 0, 0)) :: [.passed ⟨30, true, 1000⟩]))) = true := by
  set_option maxRecDepth 100000 in decide +kernel

/-- A log of the form `C02_released_as_pressed` speaks of. -/
theorem C02_log_witness : ∃ k, Reach (fun _ => True) k ∧ ∃ later between earlier s,
    k.steps = later ++ s :: (between ++ .key 30 true 1000 (some (.keyseq 48 0, 0)) :: earlier) ∧
    (∀ s ∈ between, s.about 30 = false) ∧ s.about 30 = true := by
  obtain ⟨k, h1, h2⟩ := checkRun_reach (cfg := fun _ => True) releaseLogWitness (fun _ _ => trivial)
  rw [decide_eq_true_eq] at h2
  exact ⟨k, h1, _, _, _, _, h2, by decide, rfl⟩

theorem decidedLogWitness : checkRun b!"[main]\na = overloadt(nav, b, 200)\n[nav]\na = c\n"
    [press 30 1000, release 30 1020] (fun _ => true)
    (fun k => decide (k.steps = [] ++ .key 30 false 1020 (some (.keyseq 48 0, 0)) ::
      ([.passed ⟨30, false, 1020⟩] ++
        .resolve 30 (.keyseq 48 0) 0 1020 :: [.passed ⟨30, false, 1020⟩, .key 30 true 1000 (some (.overloadTimeout 6 0 200, 0)),
          .passed ⟨30, true, 1000⟩]))) = true := by
  set_option maxRecDepth 100000 in decide +kernel

/-- A log of the form `C02_released_as_decided` speaks of: a tap of an `overloadt` key. -/
theorem C02_decided_witness : ∃ k, Reach (fun _ => True) k ∧ ∃ later between earlier d dl',
    k.steps = later ++ .key 30 false 1020 (some (d, dl')) :: (between ++ .resolve 30 (.keyseq 48 0) 0 1020 :: earlier) ∧
    (∀ s ∈ between, s.about 30 = false) := by
  obtain ⟨k, h1, h2⟩ := checkRun_reach (cfg := fun _ => True) decidedLogWitness (fun _ _ => trivial)
  rw [decide_eq_true_eq] at h2
  exact ⟨k, h1, _, _, _, _, _, h2, by decide⟩

end Keyd
