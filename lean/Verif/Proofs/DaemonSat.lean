import Verif.Model.Daemon
import Verif.Proofs.Sat

/-
  Working with `DRes`.
-/

set_option autoImplicit false

namespace Keyd

theorem lift_ok {α : Type} {r : Res α} {a : α} : lift r = .ok a ↔ r = .ok a := by
  cases r with
  | ok b => simp [lift]
  | error e => simp [lift]

theorem lift_freed {α : Type} {r : Res α} {w : String} : lift r ≠ .error (.freed w) := by
  cases r with
  | ok b => simp [lift]
  | error e => simp [lift]

theorem dbind_eq_ok {α β : Type} {r : DRes α} {f : α → DRes β} {b : β} :
    (r >>= f) = .ok b ↔ ∃ a, r = .ok a ∧ f a = .ok b := by
  cases r with
  | ok a => exact ⟨fun h => ⟨a, rfl, h⟩, fun ⟨_, h, h'⟩ => by cases h; exact h'⟩
  | error e =>
    constructor
    · intro h; cases h
    · rintro ⟨_, h, _⟩; cases h

theorem dbind_eq_error {α β : Type} {r : DRes α} {f : α → DRes β} {e : DErr} :
    (r >>= f) = .error e ↔ r = .error e ∨ ∃ a, r = .ok a ∧ f a = .error e := by
  cases r with
  | ok a => exact ⟨fun h => .inr ⟨a, rfl, h⟩, fun h => by
      rcases h with h | ⟨_, h, h'⟩
      · cases h
      · cases h; exact h'⟩
  | error x => exact ⟨fun h => .inl (by cases h; rfl), fun h => by
      rcases h with h | ⟨_, h, _⟩
      · cases h; rfl
      · cases h⟩

/-- Every result satisfies `Q`, and the step does not use a freed keyboard if `safe`. -/
def DSat {α : Type} (r : DRes α) (Q : α → Prop) (E : DErr → Prop) : Prop :=
  match r with
  | .ok a => Q a
  | .error e => E e

@[simp] theorem DSat_ok {α : Type} {a : α} {Q : α → Prop} {E : DErr → Prop} : DSat (.ok a : DRes α) Q E = Q a := rfl
@[simp] theorem DSat_error {α : Type} {e : DErr} {Q : α → Prop} {E : DErr → Prop} :
    DSat (.error e : DRes α) Q E = E e := rfl

theorem DSat.bind {α β : Type} {r : DRes α} {f : α → DRes β} {Q : α → Prop} {R : β → Prop} {E : DErr → Prop}
    (h : DSat r Q E) (hf : ∀ a, r = .ok a → Q a → DSat (f a) R E) : DSat (r >>= f) R E := by
  cases r with
  | ok a => exact hf a rfl h
  | error e => exact h

theorem DSat.imp {α : Type} {r : DRes α} {Q Q' : α → Prop} {E : DErr → Prop} (h : DSat r Q E)
    (hq : ∀ a, Q a → Q' a) : DSat r Q' E := by
  cases r with
  | ok a => exact hq a h
  | error e => exact h

theorem DSat.of_ok {α : Type} {r : DRes α} {Q : α → Prop} {E : DErr → Prop} {a : α} (h : DSat r Q E)
    (hr : r = .ok a) : Q a := by
  rw [hr] at h; exact h

theorem DSat.of_err {α : Type} {r : DRes α} {Q : α → Prop} {E : DErr → Prop} {e : DErr} (h : DSat r Q E)
    (hr : r = .error e) : E e := by
  rw [hr] at h; exact h

/-- The outcome is not the use of a freed keyboard. -/
def NotFreed (e : DErr) : Prop := ∀ w, e ≠ .freed w

theorem DSat.lift {α : Type} {r : Res α} {Q : α → Prop} (h : ∀ a, r = .ok a → Q a) : DSat (lift r) Q NotFreed := by
  cases r with
  | ok a => exact h a rfl
  | error e => intro w hw; cases hw

end Keyd
