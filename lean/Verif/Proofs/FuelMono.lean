import Verif.Proofs.Sat

/-
  More fuel does not change a result that was obtained without running out of it.
-/

set_option autoImplicit false

namespace Keyd

/-- `r'` is what `r` would have been with more fuel. -/
def Refines {α : Type} (r r' : Res α) : Prop := r = .error .fuel ∨ r' = r

theorem Refines.refl {α : Type} (r : Res α) : Refines r r := Or.inr rfl

theorem Refines.bind {α β : Type} {r r' : Res α} {f f' : α → Res β} (h : Refines r r')
    (hf : ∀ a, Refines (f a) (f' a)) : Refines (r >>= f) (r' >>= f') := by
  rcases h with rfl | rfl
  · exact Or.inl rfl
  · cases r' with
    | ok a => exact hf a
    | error e => exact Or.inr rfl

theorem Refines.bind' {α β : Type} (r : Res α) {f f' : α → Res β}
    (hf : ∀ a, Refines (f a) (f' a)) : Refines (r >>= f) (r >>= f') := (Refines.refl r).bind hf

theorem Refines.ite {α : Type} {p : Prop} [Decidable p] {a b a' b' : Res α} (h : Refines a a') (h' : Refines b b') :
    Refines (if p then a else b) (if p then a' else b') := by
  split
  · exact h
  · exact h'

/-- `pe'` has at least as much fuel as `pe`. -/
def PeLe (pe pe' : PE) : Prop := ∀ k c p t, Refines (pe k c p t) (pe' k c p t)

section
variable {pe pe' : PE} (h : PeLe pe pe')
include h

theorem catchUp_le : ∀ n k to ts lim, Refines (catchUp pe n k to ts lim) (catchUp pe' n k to ts lim)
  | 0, _, _, _, _ => .refl _
  | n+1, k, to, ts, lim => by
    unfold catchUp
    exact Refines.ite ((h _ _ _ _).bind (fun r => catchUp_le n _ _ _ _)) (.refl _)

theorem loop_le : ∀ evs k to ts, Refines (processEventsLoop pe evs k to ts) (processEventsLoop pe' evs k to ts)
  | [], _, _, _ => .refl _
  | ev :: rest, k, to, ts => by
    unfold processEventsLoop
    exact (catchUp_le h _ _ _ _ _).bind (fun r => (h _ _ _ _).bind (fun r => loop_le rest _ _ _))

theorem resolveChord_le (k : Kbd) : Refines (resolveChord pe k) (resolveChord pe' k) := by
  unfold resolveChord
  dsimp only
  refine Refines.bind ?_ (fun r => Refines.ite (.refl _) ((loop_le h _ _ _ _).bind (fun _ => .refl _)))
  split
  · exact .refl _
  · exact Refines.bind' _ (fun r => (h _ _ _ _).bind (fun _ => .refl _))

theorem abortChord_le (k : Kbd) : Refines (abortChord pe k) (abortChord pe' k) := resolveChord_le h _

theorem chordDecide_le (k : Kbd) (t : Int) {f f' : Kbd → Res (Kbd × Bool)} (hf : ∀ k, Refines (f k) (f' k)) :
    Refines (chordDecide pe k t f) (chordDecide pe' k t f') := by
  unfold chordDecide
  split
  · exact hf _
  · dsimp only
    exact Refines.ite (.refl _) ((resolveChord_le h _).bind (fun _ => .refl _))
  · exact .refl _

theorem chordMachine_le (k : Kbd) (c : Code) (p : Bool) (t : Int) :
    Refines (chordMachine pe k c p t) (chordMachine pe' k c p t) := by
  unfold chordMachine
  split
  · exact .refl _
  · dsimp only
    exact Refines.bind' _ (fun k => chordDecide_le h _ _ (fun _ => .refl _))
  · refine Refines.ite (Refines.ite (Refines.ite ?_ ?_) (.refl _)) ?_
    · dsimp only
      exact Refines.ite (.refl _) ((resolveChord_le h _).bind (fun _ => .refl _))
    · exact (abortChord_le h _).bind (fun _ => .refl _)
    · refine Refines.bind' _ (fun k => Refines.ite ((abortChord_le h _).bind (fun _ => .refl _)) ?_)
      exact chordDecide_le h _ _ (fun k => (abortChord_le h _).bind (fun _ => .refl _))
  · refine Refines.ite (Refines.ite ((resolveChord_le h _).bind (fun _ => .refl _)) (.refl _)) ?_
    refine Refines.bind' _ (fun k => Refines.ite ?_ (.refl _))
    split
    · exact .refl _
    · exact Refines.ite ((abortChord_le h _).bind (fun _ => .refl _)) (.refl _)

theorem handleChord_le (k : Kbd) (c : Code) (p : Bool) (t : Int) :
    Refines (handleChord pe k c p t) (handleChord pe' k c p t) := by
  unfold handleChord
  split
  · refine Refines.bind ?_ (fun _ => .refl _)
    unfold strikeChord
    dsimp only
    exact Refines.ite ((h _ _ _ _).bind (fun _ => .refl _)) (.refl _)
  · exact chordMachine_le h _ _ _ _

theorem handlePendingKey_le (k : Kbd) (c : Code) (p : Bool) (t : Int) :
    Refines (handlePendingKey pe k c p t) (handlePendingKey pe' k c p t) := by
  unfold handlePendingKey
  refine Refines.ite (.refl _) (Refines.bind' _ (fun o => ?_))
  split
  · exact .refl _
  · dsimp only
    exact Refines.ite (.refl _) (Refines.bind' _ (fun r => (loop_le h _ _ _ _).bind (fun _ => .refl _)))

theorem processEventBody_le : PeLe (processEventBody pe) (processEventBody pe') := by
  intro k c p t
  unfold processEventBody
  refine (handleChord_le h k c p t).bind (fun r => Refines.bind ?_ (fun _ => .refl _))
  exact Refines.ite (.refl _) ((handlePendingKey_le h _ _ _ _).bind (fun r => .refl _))

end

theorem processEvent_le : ∀ n m, n ≤ m → PeLe (processEvent n) (processEvent m)
  | 0, _, _ => fun _ _ _ _ => Or.inl rfl
  | n+1, 0, h => by omega
  | n+1, m+1, h => processEventBody_le (processEvent_le n m (by omega))

theorem kbdProcessEvents_le {n m : Nat} (h : n ≤ m) (k : Kbd) (evs : List KeyEvent) :
    Refines (kbdProcessEvents n k evs) (kbdProcessEvents m k evs) := loop_le (processEvent_le n m h) _ _ _ _

end Keyd
