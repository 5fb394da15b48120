import Verif.Proofs.Potential
import Verif.Proofs.FuelMono
import Verif.Props.Bindings
import Verif.Spec.Witness

/-
  C24: handling events always comes to an end.

  The model's `process_event` takes a bound on the depth of its recursion and reports
  `Err.fuel` when the bound is reached; nothing else reports it. Termination therefore is:
  for every state and batch of events there is a bound that is not reached, and the outcome
  does not depend on it.
-/

set_option autoImplicit false

namespace Keyd

attribute [local irreducible] configInit

theorem WF.termCfg {c : Config} (hw : WF c) : TermCfg c := by
  refine ⟨hw.nestWF, fun l i x hx => ?_⟩
  unfold Config.layer at hx
  rcases getD_mem_or c.layers l {} with hl | hl
  · rcases getD_mem_or (c.layers.getD l {}).chords i ⟨[], .none⟩ with hc | hc
    · exact ((hw.chords _ hl _ hc).2.2 x hx).2
    · rw [hc] at hx; cases hx
  · rw [hl] at hx
    simp at hx

theorem kbdProcessEvents_paid {c : Config} (hc : TermCfg c) {k : Kbd} (h : TermInv c k) (evs : List KeyEvent) {n : Nat}
    (hn : 2 * (pot k + evsWeight c evs) + 2 ≤ n) :
    Sat (kbdProcessEvents n k evs) (fun r => TermInv c r.1) RealErr := by
  refine (loop_paid (processEvent_paid hc n) evs k 0 0 h ?_).imp (fun r hr => hr.1)
  have : modeCost k ≤ 1 := by unfold modeCost; split <;> omega
  omega

/-- What the argument needs holds in every state. -/
theorem termInv_reach {k : Kbd} (h : Reach Bound k) : TermInv k.config k := by
  induction h with
  | init c hc =>
    have e : (newKeyboard c).activeChords = List.replicate 3 {} := rfl
    refine ⟨rfl, by rw [e]; decide, fun a ha x hx => ?_⟩
    rw [e] at ha
    rw [List.eq_of_mem_replicate ha] at hx
    cases hx
  | events fuel k evs k' w hr run ih =>
    have hc : TermCfg k.config := (C27_reachable k hr).termCfg
    have hp := kbdProcessEvents_paid hc ih evs (n := max fuel (2 * (pot k + evsWeight k.config evs) + 2)) (Nat.le_max_right _ _)
    rcases kbdProcessEvents_le (Nat.le_max_left fuel (2 * (pot k + evsWeight k.config evs) + 2)) k evs with e | e
    · rw [run] at e; cases e
    · have h1 := hp.of_ok (e.trans run)
      exact ⟨rfl, h1.2, h1.3⟩
  | bind k e k' ok hr run hc ih =>
    rw [kbdEval_frame run]
    exact ⟨rfl, ih.2, ih.3⟩
  | scroll k s hr ih => exact ⟨ih.1, ih.2, ih.3⟩

/-- C24. From every state a keyboard can be in, handling any batch of events comes to an
end: there is a recursion depth that is not exceeded, and the outcome, which is not the
marker for exceeding it, is the same for every larger depth. -/
theorem C24_terminates (k : Kbd) (h : Reach Bound k) (evs : List KeyEvent) :
    ∃ (depth : Nat) (r : Res (Kbd × Int)), r ≠ .error .fuel ∧ ∀ n, depth ≤ n → kbdProcessEvents n k evs = r := by
  have hc : TermCfg k.config := (C27_reachable k h).termCfg
  have hp := kbdProcessEvents_paid hc (termInv_reach h) evs (Nat.le_refl _)
  refine ⟨2 * (pot k + evsWeight k.config evs) + 2, _, noFuel_of_sat hp, fun n hn => ?_⟩
  rcases kbdProcessEvents_le hn k evs with e | e
  · exact absurd e (noFuel_of_sat hp)
  · exact e

/-- C24. The outcome is a function of the state and the events only: any two sufficient
depths give the same one. -/
theorem C24_deterministic (k : Kbd) (evs : List KeyEvent) (n m : Nat)
    (hn : kbdProcessEvents n k evs ≠ .error .fuel) (hm : kbdProcessEvents m k evs ≠ .error .fuel) :
    kbdProcessEvents n k evs = kbdProcessEvents m k evs := by
  rcases Nat.le_total n m with h | h
  · rcases kbdProcessEvents_le h k evs with e | e
    · exact absurd e hn
    · exact e.symm
  · rcases kbdProcessEvents_le h k evs with e | e
    · exact absurd e hm
    · exact e

theorem evWeight_le (c : Config) (x : Code) : evWeight c x ≤ 2 * nestMax c + 1 := by
  unfold evWeight
  split
  · omega
  · split <;> omega

theorem evsWeight_le (c : Config) : ∀ l, evsWeight c l ≤ (2 * nestMax c + 1) * l.length
  | [] => by simp [evsWeight]
  | e :: l => by
    have h1 := evWeight_le c e.code
    have h2 := evsWeight_le c l
    rw [List.length_cons, Nat.mul_add, Nat.mul_one]
    show evWeight c e.code + evsWeight c l ≤ _
    omega

/-- C24. The depth depends only on the size of the binding tables and on the number of
events: those in the batch and those held back by a pending key or chord. -/
theorem C24_depth (k : Kbd) (h : Reach Bound k) (evs : List KeyEvent) (n : Nat)
    (hn : 2 * ((2 * (k.config.descriptors.length + 1) + 1) * (k.pending.queue.length + k.chord.queue.length + evs.length) +
      4 * (k.config.descriptors.length + 1) + 1) + 2 ≤ n) :
    kbdProcessEvents n k evs ≠ .error .fuel := by
  have hc : TermCfg k.config := (C27_reachable k h).termCfg
  have hi := termInv_reach h
  refine noFuel_of_sat (kbdProcessEvents_paid hc hi evs (Nat.le_trans ?_ hn))
  have h1 : pendCredit k ≤ nestMax k.config + 1 := by
    unfold pendCredit nestMax
    have := nestRank_le k.config k.pending.action1
    have := nestRank_le k.config k.pending.action2
    split <;> omega
  have h2 := evsWeight_le k.config k.pending.queue
  have h3 := evsWeight_le k.config k.chord.queue
  have h4 := evsWeight_le k.config evs
  have h5 : nestMax k.config * freeSlots k.activeChords ≤ nestMax k.config * 3 := by
    refine Nat.mul_le_mul_left _ ?_
    have := List.length_filter_le (fun a : ActiveChord => !a.active) k.activeChords
    have := hi.slots
    unfold freeSlots
    omega
  have h6 : pot k ≤ basePot k + evsWeight k.config k.chord.queue := by
    unfold pot
    split <;> omega
  unfold basePot at h6
  have h7 : nestMax k.config = k.config.descriptors.length + 1 := rfl
  rw [← h7]
  generalize hm : nestMax k.config = m at *
  have h8 : (2 * m + 1) * (k.pending.queue.length + k.chord.queue.length + evs.length) =
      (2 * m + 1) * k.pending.queue.length + (2 * m + 1) * k.chord.queue.length + (2 * m + 1) * evs.length := by
    rw [Nat.mul_add, Nat.mul_add]
  omega

/-! ### The theorems are not vacuous -/

/-- Keys `a` and `b` form a chord, `c` is a hold-tap key nested in another. -/
def nestedText : Str := b!"[main]\na+b = x\nc = timeout(overloadt2(shift, y, 200), 100, z)\n"

def ranOut {α : Type} : Res α → Bool
  | .error .fuel => true
  | _ => false

/-- A state in which both a chord and a hold-tap key are undecided. -/
def nestedCheck (k : Kbd) : Bool :=
  k.pending.code == 46 && k.pending.queue.length == 1 && waiting k.chord.state &&
    ranOut (kbdProcessEvents 2 k [press 30 1081, wakeup 2000]) &&
    !ranOut (kbdProcessEvents 3 k [press 30 1081, wakeup 2000])

/-- Such a state is reachable, and there the events that follow are resolved by nested
calls: depth 2 does not suffice, depth 3 does. -/
theorem C24_witness : ∃ k, Reach Bound k ∧ nestedCheck k = true := by
  have h : checkRun nestedText [press 46 1000, press 30 1010, wakeup 1070, press 48 1080] (fun _ => true) nestedCheck = true := by
    set_option maxRecDepth 100000 in decide +kernel
  obtain ⟨c, k, hb, _, _, hq, hr, _⟩ := checkRun_history h
  exact ⟨k, runConfig_reach hr hb, hq⟩

end Keyd
