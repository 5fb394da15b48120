import Verif.Proofs.Stored
import Verif.Spec.WellFormed

/-
  The action handlers never run out of fuel: nested actions have smaller indices than the
  action that contains them, so the nesting budget suffices.
-/

set_option autoImplicit false

namespace Keyd

/-- The error is not a model artefact. -/
def RealErr (e : Err) : Prop := e ≠ .fuel

def NoFuel {α : Type} (r : Res α) : Prop := r ≠ .error .fuel

theorem NoFuel.ok {α : Type} (a : α) : NoFuel (.ok a) := by intro h; cases h

theorem NoFuel.bind {α β : Type} {r : Res α} {f : α → Res β} (h : NoFuel r) (hf : ∀ a, r = .ok a → NoFuel (f a)) :
    NoFuel (r >>= f) := by
  cases r with
  | ok a => exact hf a rfl
  | error e => intro he; apply h; cases he; rfl

theorem NoFuel.ite {α : Type} {p : Prop} [Decidable p] {a b : Res α} (h : p → NoFuel a) (h' : ¬ p → NoFuel b) :
    NoFuel (if p then a else b) := by
  by_cases hp : p
  · rw [if_pos hp]; exact h hp
  · rw [if_neg hp]; exact h' hp

theorem NoFuel.sat {α : Type} {r : Res α} {Q : α → Prop} {E : Err → Prop} (h : NoFuel r) (hq : Sat r Q E) :
    Sat r Q RealErr := by
  cases r with
  | ok a => exact hq
  | error e => exact fun he => h (by rw [he])

theorem noFuel_of_sat {α : Type} {r : Res α} {Q : α → Prop} (h : Sat r Q RealErr) : NoFuel r := by
  intro he
  rw [he] at h
  exact h rfl

namespace NoFuel

theorem deactivate (k : Kbd) (i : Nat) : NoFuel (deactivateLayer k i) := by
  unfold deactivateLayer
  dsimp only
  split
  · intro h; cases h
  · exact .ok _

theorem activate (k : Kbd) (c : Code) (i : Nat) : NoFuel (activateLayer k c i) := by
  unfold activateLayer
  dsimp only
  split
  · intro h; cases h
  · exact .ok _

theorem clearOneshotLayer (i : Nat) : ∀ (n : Nat) (k : Kbd), NoFuel (clearOneshotLayer i n k)
  | 0, k => .ok _
  | n+1, k => (deactivate k i).bind (fun _ _ => clearOneshotLayer i n _)

theorem clearOneshotLayers : ∀ (l : List Nat) (k : Kbd), NoFuel (clearOneshotLayers l k)
  | [], k => .ok _
  | i :: l, k => (clearOneshotLayer i _ k).bind (fun _ _ => clearOneshotLayers l _)

theorem clearOneshot (k : Kbd) : NoFuel (clearOneshot k) :=
  (clearOneshotLayers _ k).bind (fun _ _ => .ok _)

theorem clearToggled : ∀ (l : List Nat) (k : Kbd), NoFuel (clearToggled l k)
  | [], k => .ok _
  | i :: l, k => by
    unfold Keyd.clearToggled
    split
    · exact (deactivate _ i).bind (fun _ _ => clearToggled l _)
    · exact clearToggled l k

theorem clear (k : Kbd) : NoFuel (clear k) :=
  (clearOneshot k).bind (fun _ _ => (clearToggled _ _).bind (fun _ _ => .ok _))

theorem setlayout (k : Kbd) (i : Nat) : NoFuel (setlayout k i) :=
  (clear k).bind (fun _ _ => .ok _)

theorem schedule (k : Kbd) (t : Int) : NoFuel (scheduleTimeout k t) := by
  unfold scheduleTimeout
  split
  · exact .ok _
  · intro h; cases h

theorem pdKeyseq (k : Kbd) (c : Code) (m : UInt8) (dl : Nat) (p : Bool) (t : Int) : NoFuel (pdKeyseq k c m dl p t) := by
  unfold Keyd.pdKeyseq
  refine NoFuel.bind ?_ (fun _ _ => .ok _)
  split
  · exact clearOneshot _
  · exact .ok _

theorem pdLayer (k : Kbd) (c : Code) (l : Nat) (p : Bool) : NoFuel (pdLayer k c l p) := by
  unfold Keyd.pdLayer
  refine NoFuel.bind ?_ (fun k1 _ => ?_)
  · split
    · exact activate _ _ _
    · exact deactivate _ _
  · split <;> exact .ok _

theorem pdOneshot (k : Kbd) (c : Code) (l dl : Nat) (p : Bool) (t : Int) : NoFuel (pdOneshot k c l dl p t) := by
  unfold Keyd.pdOneshot
  split
  · exact (activate _ _ _).bind (fun _ _ => .ok _)
  · split
    · dsimp only
      split
      · intro h; cases h
      · split
        · exact schedule _ _
        · exact .ok _
    · exact (deactivate _ _).bind (fun _ _ => .ok _)

theorem pdMacro (k : Kbd) (m : Nat) (tm iv : Int) (dl : Nat) (t : Int) : NoFuel (pdMacro k m tm iv dl t) := by
  unfold Keyd.pdMacro
  exact (clearOneshot _).bind (fun _ _ => schedule _ _)

theorem pdToggle (k : Kbd) (c : Code) (l : Nat) : NoFuel (pdToggle k c l) := by
  unfold Keyd.pdToggle
  refine NoFuel.bind ?_ (fun _ _ => clearOneshot _)
  split
  · exact activate _ _ _
  · exact deactivate _ _

theorem pdCommand (k : Kbd) (c : Nat) : NoFuel (pdCommand k c) := by
  unfold Keyd.pdCommand
  exact (clearOneshot _).bind (fun _ _ => .ok _)

theorem pdOverloadPress (k : Kbd) (c : Code) (l : Nat) (t : Int) : NoFuel (pdOverloadPress k c l t) := by
  unfold Keyd.pdOverloadPress
  exact (activate _ _ _).bind (fun _ _ => .ok _)

theorem pdSwap (k : Kbd) (l : Nat) (m : Option Macro) (dl : Nat) (p : Bool) : NoFuel (pdSwap k l m dl p) := by
  unfold Keyd.pdSwap
  split
  · refine NoFuel.bind ?_ (fun _ _ => .ok _)
    unfold pdSwapLayer
    split
    · exact (deactivate _ _).bind (fun _ _ => (activate _ _ _).bind (fun _ _ => .ok _))
    · split
      · exact (deactivate _ _).bind (fun _ _ => (activate _ _ _).bind (fun _ _ => .ok _))
      · split
        · exact .ok _
        · exact (deactivate _ _).bind (fun _ _ => (activate _ _ _).bind (fun _ _ => .ok _))
  · exact .ok _

theorem stepTimers (k : Kbd) (c : Code) (t : Int) : NoFuel (stepTimers k c t) := by
  unfold Keyd.stepTimers
  refine NoFuel.bind ?_ (fun k1 _ => ?_)
  · split
    · exact (clearOneshot _).bind (fun _ _ => .ok _)
    · exact .ok _
  · split
    · exact .ok _
    · split
      · exact .ok _
      · split
        · exact schedule _ _
        · exact .ok _

end NoFuel

/-! ### Nesting of actions -/

/-- The indices of the actions nested directly in an action. -/
def nestedOf : Desc → List Nat
  | .overload _ a => [a]
  | .overloadTimeout _ a _ => [a]
  | .overloadTimeoutTap _ a _ => [a]
  | .overloadIdle a b _ => [a, b]
  | .timeout a _ b => [a, b]
  | _ => []

/-- A bound on the nesting depth of an action. -/
def nestRank (c : Config) (d : Desc) : Nat :=
  (nestedOf d).foldr (fun j m => max (min j c.descriptors.length + 1) m) 0

theorem nestRank_le (c : Config) (d : Desc) : nestRank c d ≤ c.descriptors.length + 1 := by
  unfold nestRank
  generalize nestedOf d = l
  induction l with
  | nil => simp
  | cons j l ih => simp only [List.foldr_cons]; omega

theorem nestRank_mem {c : Config} {d : Desc} {j : Nat} (h : j ∈ nestedOf d) :
    min j c.descriptors.length + 1 ≤ nestRank c d := by
  unfold nestRank
  revert h
  generalize nestedOf d = l
  induction l with
  | nil => intro h; cases h
  | cons i l ih =>
    intro h
    simp only [List.foldr_cons]
    rcases List.mem_cons.1 h with h | h
    · subst h; omega
    · have := ih h; omega

/-- Stored actions only contain actions stored before them. -/
def NestWF (c : Config) : Prop := ∀ j, nestRank c (c.desc j) ≤ min j c.descriptors.length

theorem nestRank_of_lt {c : Config} {d : Desc} {b : Nat} (h : ∀ j ∈ nestedOf d, j < b) : nestRank c d ≤ b := by
  unfold nestRank
  revert h
  generalize nestedOf d = l
  induction l with
  | nil => intro _; simp
  | cons i l ih =>
    intro h
    simp only [List.foldr_cons]
    have := ih (fun j hj => h j (List.mem_cons_of_mem _ hj))
    have := h i List.mem_cons_self
    omega

theorem WF.nestWF {c : Config} (h : WF c) : NestWF c := by
  intro j
  unfold Config.desc
  by_cases hj : j < c.descriptors.length
  · have he : c.descriptors[j]? = some c.descriptors[j] := List.getElem?_eq_getElem hj
    have hd := h.nested j _ he
    rw [Nat.min_eq_left (Nat.le_of_lt hj), List.getD_eq_getElem?_getD, he]
    show nestRank c c.descriptors[j] ≤ j
    apply nestRank_of_lt
    revert hd
    generalize c.descriptors[j] = d
    intro hd i hi
    cases d <;> simp only [nestedOf, List.mem_cons, List.not_mem_nil, or_false, DescOK] at hi hd
    · omega
    · omega
    · omega
    · rcases hi with hi | hi <;> omega
    · rcases hi with hi | hi <;> omega
  · rw [List.getD_eq_getElem?_getD, List.getElem?_eq_none (by omega)]
    exact Nat.zero_le _

theorem NestWF.nested {c : Config} (h : NestWF c) {d : Desc} {j : Nat} (hj : j ∈ nestedOf d) :
    nestRank c (c.desc j) + 1 ≤ nestRank c d := by
  have := h j
  have := nestRank_mem (c := c) hj
  omega

end Keyd
