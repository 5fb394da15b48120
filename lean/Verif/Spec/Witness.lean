import Verif.Props.Bindings
import Verif.Spec.Run

/-
  Concrete histories for the examples next to the theorems.
-/

set_option autoImplicit false

namespace Keyd

attribute [local irreducible] configInit

/-- A successful check exhibits a configuration parsed from a text, and a state in
a history of it. -/
theorem checkRun_history {text : Str} {evs : List KeyEvent} {p : Config → Bool} {q : Kbd → Bool}
    (h : checkRun text evs p q = true) :
    ∃ c k, Bound c ∧ HistoryOf c k ∧ p c = true ∧ q k = true ∧ runConfig c evs = some k ∧ textConfig text = some c := by
  unfold checkRun at h
  split at h
  · rename_i c hc
    rw [Bool.and_eq_true] at h
    obtain ⟨h1, h2⟩ := h
    split at h2
    · rename_i k hk
      refine ⟨c, k, ?_, ?_, h1, h2, hk, hc⟩
      · unfold textConfig at hc
        split at hc
        · rename_i c' hp
          cases hc
          exact .parsed text _ hp
        · cases hc
      · unfold runConfig at hk
        split at hk
        · rename_i k' w heq
          cases hk
          exact .events 40 _ evs _ w .start heq
        · cases hk
    · cases h2
  · cases h

end Keyd
