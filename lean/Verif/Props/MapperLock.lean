import Verif.Model.MapperLock
import Mathlib.Data.List.Induction

/-
  C106: one application mapper at a time.
-/

set_option autoImplicit false

namespace Keyd

/-! ### Specification -/

/-- The phases of a process that is, or is about to be, the mapper. -/
def MapPhase.mapper : MapPhase → Bool
  | .locked _ | .child | .running => true
  | _ => false

/-- The phases of processes that keep the lock: the mapper, one that is just leaving it to its child, and one that is about to execute a program. -/
def MapPhase.keeps : MapPhase → Bool
  | .locked _ | .child | .running | .leaving | .forked => true
  | _ => false

def IsMapper (s : MapSys) (p : Nat) : Prop := ∃ ph, s.phase p = some ph ∧ ph.mapper = true

def KeepsLock (s : MapSys) (p : Nat) : Prop := ∃ ph, s.phase p = some ph ∧ ph.keeps = true

/-! ### Proofs -/

structure MapInv (s : MapSys) : Prop where
  holders : ∀ p, p ∈ s.lock ↔ KeepsLock s p
  single : ∀ p q, IsMapper s p → IsMapper s q → p = q

theorem map_at_same (s : MapSys) (p : Nat) (ph : MapPhase) : (s.at p ph).phase p = some ph := Function.update_self ..

theorem map_at_other (s : MapSys) {p q : Nat} (ph : MapPhase) (h : q ≠ p) : (s.at p ph).phase q = s.phase q := Function.update_of_ne h ..

theorem isMapper_keeps {s : MapSys} {p : Nat} (h : IsMapper s p) : KeepsLock s p := by
  obtain ⟨ph, h1, h2⟩ := h
  refine ⟨ph, h1, ?_⟩
  cases ph <;> first | rfl | cases h2

/-- One process changes its phase. -/
theorem MapInv.move {s s' : MapSys} {p : Nat} {ph : MapPhase} (h : MapInv s) (hp : s'.phase = (s.at p ph).phase)
    (hl : ∀ q, q ∈ s'.lock ↔ (q = p ∧ ph.keeps = true) ∨ (q ≠ p ∧ q ∈ s.lock)) (hd : ph.mapper = true → ∀ q, IsMapper s q → q = p) : MapInv s' := by
  have same : s'.phase p = some ph := by rw [hp]; exact map_at_same s p ph
  have other : ∀ q, q ≠ p → s'.phase q = s.phase q := fun q hq => by rw [hp]; exact map_at_other s ph hq
  constructor
  · intro q
    rw [hl q]
    by_cases hq : q = p
    · subst hq
      unfold KeepsLock
      rw [same]
      simp
    · have : KeepsLock s' q ↔ KeepsLock s q := by unfold KeepsLock; rw [other q hq]
      rw [this, ← h.holders q]
      simp [hq]
  · have key : ∀ q, IsMapper s' q → (q = p ∧ ph.mapper = true) ∨ (q ≠ p ∧ IsMapper s q) := by
      intro q hq
      by_cases e : q = p
      · subst e
        obtain ⟨x, h1, h2⟩ := hq
        rw [same] at h1
        cases h1
        exact .inl ⟨rfl, h2⟩
      · refine .inr ⟨e, ?_⟩
        obtain ⟨x, h1, h2⟩ := hq
        exact ⟨x, by rw [← other q e]; exact h1, h2⟩
    intro q r hq hr
    rcases key q hq with ⟨e1, d1⟩ | ⟨n1, d1⟩ <;> rcases key r hr with ⟨e2, d2⟩ | ⟨n2, d2⟩
    · rw [e1, e2]
    · exact absurd (hd d1 r d2) n2
    · exact absurd (hd d2 q d1) n1
    · exact h.single q r d1 d2

theorem not_held {s : MapSys} (h : MapInv s) {p : Nat} (hp : ∀ ph, s.phase p = some ph → ph.keeps = false) : p ∉ s.lock := by
  rw [h.holders p]
  rintro ⟨ph, h1, h2⟩
  rw [hp ph h1] at h2
  cases h2

theorem held {s : MapSys} (h : MapInv s) {p : Nat} {ph : MapPhase} (hp : s.phase p = some ph) (hk : ph.keeps = true) : p ∈ s.lock := (h.holders p).2 ⟨ph, hp, hk⟩

/-- A process hands over to a new one. -/
theorem MapInv.fork {s : MapSys} {p q : Nat} {ph ph' : MapPhase} (h : MapInv s) (hq : s.phase q = none) (hpq : p ≠ q) (hp : s.phase p = some ph) (hm : ph.mapper = true)
    (hm' : ph'.mapper = true) : MapInv { (s.at p .leaving).at q ph' with lock := q :: s.lock } := by
  have hk : p ∈ s.lock := (h.holders p).2 (isMapper_keeps ⟨ph, hp, hm⟩)
  have h1 : MapInv (s.at p .leaving) := by
    refine h.move (p := p) (ph := .leaving) rfl ?_ (fun h => by cases h)
    intro r
    show r ∈ s.lock ↔ _
    by_cases hr : r = p
    · subst hr; simp [hk, MapPhase.keeps]
    · simp [hr]
  have hq1 : (s.at p .leaving).phase q = none := by rw [map_at_other s _ (Ne.symm hpq)]; exact hq
  refine h1.move (p := q) (ph := ph') rfl ?_ ?_
  · intro r
    show r ∈ q :: s.lock ↔ _ ∨ (_ ∧ r ∈ s.lock)
    have hk' : ph'.keeps = true := by cases ph' <;> first | rfl | cases hm'
    by_cases hr : r = q
    · subst hr; simp [hk']
    · simp [hr]
  · intro _ r hr
    exfalso
    obtain ⟨x, e1, e2⟩ := hr
    by_cases hrp : r = p
    · subst hrp
      rw [map_at_same] at e1
      cases e1
      cases e2
    · rw [map_at_other s _ hrp] at e1
      exact hrp (h.single r p ⟨x, e1, e2⟩ ⟨ph, hp, hm⟩)

theorem mapInv_step {s : MapSys} (h : MapInv s) (e : MapEvent) : MapInv (mapStep s e) := by
  cases e with
  | starts p d =>
    dsimp only [mapStep]
    split
    · rename_i hp
      refine h.move (p := p) (ph := .opened d) rfl ?_ (fun h => by cases h)
      intro q
      show q ∈ s.lock ↔ _
      by_cases hq : q = p
      · subst hq
        simp [not_held h (p := q) (fun ph hx => by rw [hp] at hx; cases hx), MapPhase.keeps]
      · simp [hq]
    · exact h
  | locks p =>
    dsimp only [mapStep]
    split
    · rename_i d hp
      split
      · rename_i hl
        refine h.move (p := p) (ph := .locked d) rfl ?_ ?_
        · intro q
          simp [hl, MapPhase.keeps]
        · intro _ q hq
          have := (h.holders q).2 (isMapper_keeps hq)
          rw [hl] at this
          cases this
      · refine h.move (p := p) (ph := .ended) rfl ?_ (fun h => by cases h)
        intro q
        show q ∈ s.lock ↔ _
        by_cases hq : q = p
        · subst hq
          simp [not_held h (p := q) (fun ph hx => by rw [hp] at hx; cases hx; rfl), MapPhase.keeps]
        · simp [hq]
    · exact h
  | forks p q =>
    dsimp only [mapStep]
    split
    · rename_i hq
      split
      · rename_i hp
        exact h.fork hq.1 hq.2 hp rfl rfl
      · split
        · rename_i hp
          exact h.fork hq.1 hq.2 hp rfl rfl
        · exact h
    · exact h
  | runs p =>
    dsimp only [mapStep]
    split
    · rename_i hp
      refine h.move (p := p) (ph := .running) rfl ?_ ?_
      · intro q
        show q ∈ s.lock ↔ _
        by_cases hq : q = p
        · subst hq; simp [held h hp rfl, MapPhase.keeps]
        · simp [hq]
      · intro _ q hq
        exact h.single q p hq ⟨_, hp, rfl⟩
    · exact h
  | spawns p q =>
    dsimp only [mapStep]
    split
    · refine h.move (p := q) (ph := .forked) rfl ?_ (fun h => by cases h)
      intro r
      show r ∈ q :: s.lock ↔ _
      by_cases hr : r = q
      · subst hr; simp [MapPhase.keeps]
      · simp [hr]
    · exact h
  | execs q =>
    dsimp only [mapStep]
    split
    · refine h.move (p := q) (ph := .program) rfl ?_ (fun h => by cases h)
      intro r
      show r ∈ s.lock.filter _ ↔ _
      by_cases hr : r = q
      · subst hr; simp [MapPhase.keeps]
      · simp [hr]
    · exact h
  | ends p =>
    dsimp only [mapStep]
    split
    · exact h
    · refine h.move (p := p) (ph := .ended) rfl ?_ (fun h => by cases h)
      intro r
      show r ∈ s.lock.filter _ ↔ _
      by_cases hr : r = p
      · subst hr; simp [MapPhase.keeps]
      · simp [hr]

theorem mapInv_run (evs : List MapEvent) : MapInv (mapRun evs) := by
  induction evs using List.reverseRecOn with
  | nil => exact ⟨fun p => ⟨(fun h => by cases h), (fun ⟨_, h, _⟩ => by cases h)⟩, (fun p q ⟨_, h, _⟩ => by cases h)⟩
  | append_singleton evs e ih =>
    unfold mapRun
    rw [List.foldl_append]
    exact mapInv_step ih e

/-- C106. However many application mappers are started, in the background or not, and whenever any of the processes ends: there is never more than one. -/
theorem C106_one (evs : List MapEvent) (p q : Nat) (hp : IsMapper (mapRun evs) p) (hq : IsMapper (mapRun evs) q) : p = q := (mapInv_run evs).single p q hp hq

/-- C106. A new mapper becomes the mapper exactly when there is no other, and no process of an earlier one is left that runs the script; programs that an earlier one has
started do not stand in the way. If there is one, the new one ends. -/
theorem C106_starts (evs : List MapEvent) (p : Nat) (d : Bool) (h : (mapRun evs).phase p = some (.opened d)) :
    ((∀ q, ¬ KeepsLock (mapRun evs) q) → IsMapper (mapRun (evs ++ [.locks p])) p) ∧
    ((∃ q, KeepsLock (mapRun evs) q) → (mapRun (evs ++ [.locks p])).phase p = some .ended) := by
  have hi := mapInv_run evs
  have e : mapRun (evs ++ [.locks p]) = mapStep (mapRun evs) (.locks p) := by
    unfold mapRun
    rw [List.foldl_append]
    rfl
  rw [e]
  dsimp only [mapStep]
  rw [h]
  dsimp only
  constructor
  · intro hno
    have hl : (mapRun evs).lock = [] := List.eq_nil_iff_forall_not_mem.2 fun q hq => hno q ((hi.holders q).1 hq)
    rw [if_pos hl]
    exact ⟨_, map_at_same _ _ _, rfl⟩
  · rintro ⟨q, hq⟩
    have hl : (mapRun evs).lock ≠ [] := fun hl => by
      have := (hi.holders q).2 hq
      rw [hl] at this
      cases this
    rw [if_neg hl]
    exact map_at_same _ _ _

/-- Who keeps the lock without being the mapper only needs to run on to let go of it: one that is leaving ends, one that is about to execute a program executes it. -/
theorem C106_lets_go (evs : List MapEvent) (q : Nat) (h : KeepsLock (mapRun evs) q) (hm : ¬ IsMapper (mapRun evs) q) :
    ((mapRun evs).phase q = some .leaving ∧ ¬ KeepsLock (mapRun (evs ++ [.ends q])) q) ∨
    ((mapRun evs).phase q = some .forked ∧ (mapRun (evs ++ [.execs q])).phase q = some .program ∧ ¬ KeepsLock (mapRun (evs ++ [.execs q])) q) := by
  have e : ∀ x, mapRun (evs ++ [x]) = mapStep (mapRun evs) x := by
    intro x
    unfold mapRun
    rw [List.foldl_append]
    rfl
  obtain ⟨ph, h1, h2⟩ := h
  cases ph with
  | leaving =>
    refine .inl ⟨h1, ?_⟩
    rw [e]
    dsimp only [mapStep]
    rw [h1]
    rintro ⟨x, h3, h4⟩
    change ((mapRun evs).at q .ended).phase q = _ at h3
    rw [map_at_same] at h3
    cases h3
    cases h4
  | forked =>
    refine .inr ⟨h1, ?_⟩
    rw [e]
    dsimp only [mapStep]
    rw [if_pos h1]
    have h5 : ((mapRun evs).at q .program).phase q = some .program := map_at_same _ _ _
    refine ⟨h5, ?_⟩
    rintro ⟨x, h3, h4⟩
    change ((mapRun evs).at q .program).phase q = _ at h3
    rw [h5] at h3
    cases h3
    cases h4
  | locked d => exact absurd ⟨_, h1, rfl⟩ hm
  | child => exact absurd ⟨_, h1, rfl⟩ hm
  | running => exact absurd ⟨_, h1, rfl⟩ hm
  | opened d => cases h2
  | program => cases h2
  | ended => cases h2

/-- A mapper goes to the background, a second one is turned away meanwhile, and so is a third; the mapper runs a program and ends; a fourth starts while the program still runs. -/
def mapDemo : List MapEvent := [.starts 1 true, .locks 1, .starts 2 false, .forks 1 11, .locks 2, .ends 1, .starts 3 false, .forks 11 12, .ends 11, .locks 3, .spawns 12 20, .execs 20,
  .ends 12, .starts 4 false]

theorem C106_example : (mapRun (mapDemo.take 12)).phase 12 = some .running ∧ (mapRun mapDemo).phase 2 = some .ended ∧ (mapRun mapDemo).phase 3 = some .ended ∧
    (mapRun mapDemo).phase 20 = some .program ∧ (mapRun mapDemo).phase 4 = some (.opened false) ∧ (mapRun mapDemo).lock = [] ∧
    (mapRun (mapDemo ++ [.locks 4, .runs 4])).phase 4 = some .running := by decide +kernel

end Keyd
