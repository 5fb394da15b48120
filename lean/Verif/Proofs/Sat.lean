import Verif.Model.Keyboard

/-
  A small Hoare logic for `Res`: `Sat r Q E` says that `r` is a value
  satisfying `Q` or an error satisfying `E`.
-/

namespace Keyd

instance decEqExcept {ε α : Type} [DecidableEq ε] [DecidableEq α] : DecidableEq (Except ε α)
  | .ok a, .ok b => if h : a = b then isTrue (by rw [h]) else isFalse (by intro h'; cases h'; exact h rfl)
  | .error a, .error b => if h : a = b then isTrue (by rw [h]) else isFalse (by intro h'; cases h'; exact h rfl)
  | .ok _, .error _ => isFalse (by intro h; cases h)
  | .error _, .ok _ => isFalse (by intro h; cases h)

def Sat {α : Type} (r : Res α) (Q : α → Prop) (E : Err → Prop) : Prop :=
  match r with
  | .ok a => Q a
  | .error e => E e

theorem Sat.ok {α : Type} {a : α} {Q : α → Prop} {E : Err → Prop} (h : Q a) :
    Sat (.ok a) Q E := h

theorem Sat.err {α : Type} {e : Err} {Q : α → Prop} {E : Err → Prop} (h : E e) :
    Sat (.error e : Res α) Q E := h

@[simp] theorem Sat_ok {α : Type} {a : α} {Q : α → Prop} {E : Err → Prop} :
    Sat (.ok a) Q E ↔ Q a := Iff.rfl

@[simp] theorem Sat_error {α : Type} {e : Err} {Q : α → Prop} {E : Err → Prop} :
    Sat (.error e : Res α) Q E ↔ E e := Iff.rfl

theorem Sat.bind {α β : Type} {r : Res α} {f : α → Res β} {Q : α → Prop} {R : β → Prop}
    {E : Err → Prop} (h : Sat r Q E) (hf : ∀ a, Q a → Sat (f a) R E) :
    Sat (r >>= f) R E := by
  cases r with
  | ok a => exact hf a h
  | error e => exact h

theorem Sat.bind_eq {α β : Type} {r : Res α} {f : α → Res β} {Q : α → Prop} {R : β → Prop}
    {E : Err → Prop} (h : Sat r Q E) (hf : ∀ a, r = .ok a → Q a → Sat (f a) R E) :
    Sat (r >>= f) R E := by
  cases r with
  | ok a => exact hf a rfl h
  | error e => exact h

theorem Sat.ite {α : Type} {p : Prop} [Decidable p] {a b : Res α} {Q : α → Prop} {E : Err → Prop}
    (h : p → Sat a Q E) (h' : ¬ p → Sat b Q E) : Sat (if p then a else b) Q E := by
  by_cases hp : p
  · rw [if_pos hp]; exact h hp
  · rw [if_neg hp]; exact h' hp

theorem Sat.mono {α : Type} {r : Res α} {Q Q' : α → Prop} {E E' : Err → Prop}
    (h : Sat r Q E) (hq : ∀ a, Q a → Q' a) (he : ∀ e, E e → E' e) : Sat r Q' E' := by
  cases r with
  | ok a => exact hq a h
  | error e => exact he e h

theorem Sat.imp {α : Type} {r : Res α} {Q Q' : α → Prop} {E : Err → Prop}
    (h : Sat r Q E) (hq : ∀ a, Q a → Q' a) : Sat r Q' E := h.mono hq (fun _ h => h)

theorem Sat.and {α : Type} {r : Res α} {Q Q' : α → Prop} {E : Err → Prop}
    (h : Sat r Q E) (h' : Sat r Q' E) : Sat r (fun a => Q a ∧ Q' a) E := by
  cases r with
  | ok a => exact ⟨h, h'⟩
  | error e => exact h

theorem Sat.of_ok {α : Type} {r : Res α} {Q : α → Prop} {E : Err → Prop} {a : α}
    (h : Sat r Q E) (e : r = .ok a) : Q a := by subst e; exact h

theorem Sat.of_err {α : Type} {r : Res α} {Q : α → Prop} {E : Err → Prop} {x : Err}
    (h : Sat r Q E) (e : r = .error x) : E x := by subst e; exact h

/-- Partial correctness: nothing is said about errors. -/
theorem Sat.intro {α : Type} {r : Res α} {Q : α → Prop}
    (h : ∀ a, r = .ok a → Q a) : Sat r Q (fun _ => True) := by
  cases r with
  | ok a => exact h a rfl
  | error e => trivial

@[simp] theorem bind_ok {α β : Type} (a : α) (f : α → Res β) : ((.ok a : Res α) >>= f) = f a := rfl
@[simp] theorem bind_error {α β : Type} (e : Err) (f : α → Res β) :
    ((.error e : Res α) >>= f) = .error e := rfl

/-- Inversion of a successful sequence. -/
theorem bind_eq_ok {α β : Type} {r : Res α} {f : α → Res β} {b : β} :
    (r >>= f) = .ok b ↔ ∃ a, r = .ok a ∧ f a = .ok b := by
  cases r with
  | ok a => simp
  | error e => simp

/-- Errors are not restricted. -/
abbrev AnyErr : Err → Prop := fun _ => True

theorem Sat.and_any {α : Type} {r : Res α} {Q Q' : α → Prop} {E : Err → Prop}
    (h : Sat r Q E) (h' : Sat r Q' AnyErr) : Sat r (fun a => Q a ∧ Q' a) E := by
  cases r with
  | ok a => exact ⟨h, h'⟩
  | error e => exact h

end Keyd
