import Verif.Props.Repeat
import Verif.Proofs.Idle
import Verif.Proofs.Typed
import Verif.Proofs.Memory
import Verif.Proofs.Shifts

/-
  What handling one key event amounts to, when no chord and no undecided key is concerned: timers,
  then the action found for the key.
-/

set_option autoImplicit false

namespace Keyd

/-- The state in which the action of a key is processed: only the held-key table, the log and the
timers' effects differ from the state before the event. -/
structure Arrived (k : Kbd) (code : Code) (pressed : Bool) (t : Int) (d : Desc) (dl : Nat) (k2 : Kbd) : Prop where
  config : k2.config = k.config
  layers : k2.layerState = afterExpiry k t
  typed : k2.typed = k.typed
  keys : ∀ x, isModifierKey x = false → k2.keystate x = k.keystate x
  last : k2.lastPressedCode = k.lastPressedCode
  start : k2.overloadStartTime = k.overloadStartTime
  struck : k2.lastSimpleKeyTime = k.lastSimpleKeyTime
  pending : k2.pending = k.pending
  chords : k2.activeChords = k.activeChords
  steps : k2.steps = .key code pressed t (some (d, dl)) :: .passed ⟨code, pressed, t⟩ :: k.steps
  held : pressed = true → ∃ e ∈ k2.cache, e.code = code
  /-- only modifier keys have been sent -/
  shifts : Shifts k k2
  /-- unless a one-shot expires or a repeating macro stops, nothing at all has been sent -/
  still : ¬(k.oneshotTimeout ≠ 0 ∧ k.oneshotTimeout ≤ t) → k.activeMacro = none →
    k2.outputs = k.outputs ∧ k2.keystate = k.keystate

theorem stepTimers_idle {k k' : Kbd} {code : Code} {t : Int} (h1 : ¬(k.oneshotTimeout ≠ 0 ∧ k.oneshotTimeout ≤ t))
    (h2 : k.activeMacro = none) (h : stepTimers k code t = .ok k') : k' = k := by
  unfold stepTimers at h
  rw [if_neg h1, bind_ok, h2] at h
  injection h with h
  exact h.symm

theorem timers_facts {k k1 : Kbd} {code : Code} {pressed : Bool} {t : Int} (hc : code ≠ 0)
    (h : stepTimers (directEntry k code pressed t) code t = .ok k1) :
    k1.config = k.config ∧ k1.layerState = afterExpiry k t ∧ k1.typed = k.typed ∧ k1.lastPressedCode = k.lastPressedCode ∧
      k1.overloadStartTime = k.overloadStartTime ∧ k1.pending = k.pending ∧ k1.activeChords = k.activeChords ∧
      k1.steps = .passed ⟨code, pressed, t⟩ :: k.steps ∧ k1.cache.map CacheEntry.strip = k.cache.map CacheEntry.strip ∧
      (¬(k.oneshotTimeout ≠ 0 ∧ k.oneshotTimeout ≤ t) → k.activeMacro = none →
        k1.outputs = k.outputs ∧ k1.keystate = k.keystate) ∧ k1.lastSimpleKeyTime = k.lastSimpleKeyTime ∧ Shifts k k1 := by
  have hg := (Gentle.stepTimers (x := 0) (directEntry k code pressed t) code t).of_ok h
  have hcl := (Calm.stepTimers (directEntry k code pressed t) code t).of_ok h
  have hl := stepTimers_layers h
  have ht := typed_stepTimers hc h
  refine ⟨hg.config, hl, ht, hg.last, hg.start, hg.pending, hcl.activeChords, ?_,
    hcl.cache, ?_, ((Unstruck.stepTimers (directEntry k code pressed t) code t).of_ok h).time,
    (Shifts.same (k := k) (k' := directEntry k code pressed t) rfl rfl).trans (Shifts.stepTimers hc h)⟩
  · rw [hg.steps]
    unfold directEntry
    simp only [if_neg hc]
  · intro h1 h2
    have := stepTimers_idle (k := directEntry k code pressed t) h1 h2 h
    subst this
    exact ⟨rfl, rfl⟩

/-- Releasing a held key. -/
theorem direct_release {k k' : Kbd} {code : Code} {ce : CacheEntry} {fuel : Nat} {t w : Int} (hd : Direct k code) (hc : code ≠ 0)
    (hce : cacheGet k code = some ce)
    (run : kbdProcessEvents (fuel + 1) k [⟨code, false, t⟩] = .ok (k', w)) :
    ∃ k2 k3, Arrived k code false t ce.d ce.dl k2 ∧
      processDescriptor (descBudget k2) k2 code ce.d ce.dl false t = .ok k3 ∧ (k', w) = calculateMainLoopTimeout k3 t := by
  rw [kbdProcessEvents_single, processEvent_direct hd, bind_eq_ok] at run
  obtain ⟨k1, h1, run⟩ := run
  rw [bind_eq_ok] at run
  obtain ⟨k3, h3, run⟩ := run
  obtain ⟨f1, f2, f3, f4, f5, f6, f7, f8, f9, f10, f11, f12⟩ := timers_facts hc h1
  obtain ⟨⟨cc, cd, cdl, cl⟩, g1, g2, g3⟩ := cacheGet_strip (k' := k1) f9 hce
  dsimp only at g2 g3
  subst g2 g3
  unfold stepKey at h3
  rw [if_neg hc, if_neg (by simp), g1] at h3
  dsimp only at h3
  obtain ⟨pre, post, c1, c2, c3, c4⟩ := cacheSet_none_split g1
  rw [c4] at h3
  dsimp only [Option.getD_some] at h3
  injection run with run
  refine ⟨_, k3, ?_, h3, run.symm⟩
  exact ⟨f1, f2, f3, fun x hx => keystate_stepTimers hc h1 hx, f4, f5, f11, f6, f7, by rw [← f8]; rfl,
    fun e => (by cases e), f12.trans (.same rfl rfl), fun a b => f10 a b⟩

/-- Pressing a key that is up. -/
theorem direct_press {k k' : Kbd} {code : Code} {fuel : Nat} {t w : Int} (hd : Direct k code) (hc : code ≠ 0)
    (hf : Fresh k code) (run : kbdProcessEvents (fuel + 1) k [⟨code, true, t⟩] = .ok (k', w)) :
    ∃ d dl k2 k3, lookupDescriptor { k with layerState := afterExpiry k t } code = (d, dl) ∧ Arrived k code true t d dl k2 ∧
      processDescriptor (descBudget k2) k2 code d dl true t = .ok k3 ∧ (k', w) = calculateMainLoopTimeout k3 t := by
  rw [kbdProcessEvents_single, processEvent_direct hd, bind_eq_ok] at run
  obtain ⟨k1, h1, run⟩ := run
  rw [bind_eq_ok] at run
  obtain ⟨k3, h3, run⟩ := run
  obtain ⟨f1, f2, f3, f4, f5, f6, f7, f8, f9, f10, f11, f12⟩ := timers_facts hc h1
  have hl : lookupDescriptor k1 code = lookupDescriptor { k with layerState := afterExpiry k t } code :=
    lookupDescriptor_congr (k := { k with layerState := afterExpiry k t }) f2 f1 f7 code
  have hcodes : k1.cache.map (·.code) = k.cache.map (·.code) := by
    have := congrArg (List.map (·.code)) f9
    simpa [List.map_map, CacheEntry.strip, Function.comp_def] using this
  have hmem : ∀ c : Code, (∃ e ∈ k1.cache, e.code = c) ↔ ∃ e ∈ k.cache, e.code = c := by
    intro c
    have h1 : c ∈ k1.cache.map (·.code) ↔ c ∈ k.cache.map (·.code) := by rw [hcodes]
    simpa [List.mem_map] using h1
  have hf1 : cacheGet k1 code = none := by
    rw [cacheGet_none]
    intro e he hec
    obtain ⟨e', he', hec'⟩ := (hmem code).1 ⟨e, he, hec⟩
    exact cacheGet_none.1 hf.1 e' he' hec'
  have hf2 : ∃ e ∈ k1.cache, e.code = 0 := (hmem 0).2 hf.2
  unfold stepKey at h3
  rw [if_neg hc, if_pos rfl, hf1] at h3
  simp only [Option.isSome_none, Bool.false_eq_true, if_false] at h3
  obtain ⟨s, hs⟩ := cacheSlot_some (code := code) k1.cache 0 none hf2
  cases hcs : cacheSet k1 code (some { d := (lookupDescriptor k1 code).1, dl := (lookupDescriptor k1 code).2, layer := 0 }) with
  | none =>
    unfold cacheSet at hcs
    rw [hs] at hcs
    cases hcs
  | some kc =>
    rw [hcs] at h3
    dsimp only at h3
    obtain ⟨pre, x, post, c1, c2, c3⟩ := cacheSet_some_split hcs
    subst c2
    injection run with run
    refine ⟨_, _, _, k3, hl.symm, ?_, h3, run.symm⟩
    exact ⟨f1, f2, f3, fun x hx => keystate_stepTimers hc h1 hx, f4, f5, f11, f6, f7, by rw [← f8]; rfl,
      fun _ => ⟨_, List.mem_append_right _ List.mem_cons_self, rfl⟩, f12.trans (.same rfl rfl), fun a b => f10 a b⟩

end Keyd
