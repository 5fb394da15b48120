import Verif.Proofs.Idle

/-
  The log tells which commands are run and what scroll emulation is set to.
-/

set_option autoImplicit false

namespace Keyd

/-- Since `k0` the steps `new` were logged, and they performed the actions that made the difference. -/
def Since (k0 k : Kbd) : Prop :=
  ∃ new as, k.steps = new ++ k0.steps ∧ LogPerforms k0.config k0.memo new as k.memo ∧ Done k0 as k

theorem Since.refl (k : Kbd) : Since k k := ⟨[], [], rfl, .nil, .nil (.refl k)⟩

theorem Since.un {k0 k k' : Kbd} (h : Since k0 k) (h' : Unstruck k k') : Since k0 k' := by
  obtain ⟨new, as, h1, h2, h3⟩ := h
  exact ⟨new, as, h'.steps.trans h1, h'.memo ▸ h2, by simpa using h3.append (.nil h')⟩

theorem Since.config {k0 k : Kbd} (h : Since k0 k) : k.config = k0.config := by
  obtain ⟨new, as, h1, h2, h3⟩ := h
  exact h3.config

theorem Since.log {k0 k k' : Kbd} {s : Step} {bs : List Act} (h : Since k0 k) (hs : k'.steps = s :: k.steps)
    (hp : s.performs k.config k.memo bs k'.memo) (hd : Done k bs k') : Since k0 k' := by
  have hc := h.config
  obtain ⟨new, as, h1, h2, h3⟩ := h
  exact ⟨s :: new, as ++ bs, by rw [hs, h1]; rfl, h2.step (hc ▸ hp), h3.append hd⟩

theorem since_engineInv (k0 : Kbd) : EngineInv (Since k0) AnyErr where
  errs _ _ := trivial
  chord _ _ h := h.un (.same rfl rfl rfl rfl rfl)
  timeouts _ _ h := h.un (.same rfl rfl rfl rfl rfl)
  passed k e h := h.log (s := .passed e) (bs := []) rfl ⟨rfl, rfl⟩ ⟨rfl, rfl, rfl⟩
  swallowed k evs h := by
    have : ∀ (l : List KeyEvent), Since k0 { k with steps := l.map Step.swallowed ++ k.steps } := by
      intro l
      induction l with
      | nil => exact h
      | cons e l ih => exact ih.log (s := .swallowed e) (bs := []) rfl ⟨rfl, rfl⟩ ⟨rfl, rfl, rfl⟩
    have h2 := this evs.reverse
    rw [List.map_reverse] at h2
    exact h2
  install k p h := by
    unfold installChord
    dsimp only
    cases freeChordSlot k.activeChords 0 with
    | none => trivial
    | some i => exact h.un (.same rfl rfl rfl rfl rfl)
  strike _ _ _ _ h := h.un (.same rfl rfl rfl rfl rfl)
  enqueue _ _ h _ := h.un (.same rfl rfl rfl rfl rfl)
  resolve k a t h hp _ _ := by
    unfold resolvePendingStep
    dsimp only
    have ex : ∀ k1 : Kbd, Unstruck k k1 →
        Sat (processDescriptor (descBudget (k1.log (.resolve k.pending.code a k.pending.dl t))) (k1.log (.resolve k.pending.code a k.pending.dl t))
          k.pending.code a k.pending.dl true t >>= fun k1 => (.ok (k1, k.pending.queue) : Res _)) (fun r => Since k0 r.1) AnyErr := by
      intro k1 h1
      refine (struck_descriptor _ _ _ _ _ _ _).bind (fun k2 g => ?_)
      obtain ⟨as, g1, g2⟩ := g.done
      exact (h.un h1).log (s := .resolve k.pending.code a k.pending.dl t) (bs := as) g.steps g1 ⟨g2.config, g2.ran, g2.scroll⟩
    cases hcs : cacheSet { k with pending := { k.pending with code := 0, queue := [], tapExpiry := 0 } } k.pending.code
        (some { d := a, dl := k.pending.dl, layer := 0 }) with
    | none => exact ex _ (.same rfl rfl rfl rfl rfl)
    | some k1 =>
      obtain ⟨l, rfl⟩ := cacheSet_frame hcs
      exact ex _ (.same rfl rfl rfl rfl rfl)
  timers k c t h := (Unstruck.stepTimers k c t).imp (fun k' g => h.un g)
  key k c p t h hp := by
    have ex : ∀ (k1 : Kbd) (d : Desc) (dl : Nat) (p : Bool), Unstruck k k1 →
        Sat (processDescriptor (descBudget (k1.log (.key c p t (some (d, dl))))) (k1.log (.key c p t (some (d, dl)))) c d dl p t)
          (Since k0) AnyErr := by
      intro k1 d dl p h1
      refine (struck_descriptor _ _ _ _ _ _ _).imp (fun k2 g => ?_)
      obtain ⟨as, g1, g2⟩ := g.done
      exact (h.un h1).log (s := .key c p t (some (d, dl))) (bs := as) g.steps g1 ⟨g2.config, g2.ran, g2.scroll⟩
    unfold stepKey
    split
    · exact h
    · split
      · split
        · exact h.log (s := .key c _ t none) (bs := []) rfl ⟨rfl, rfl⟩ ⟨rfl, rfl, rfl⟩
        · dsimp only
          split
          · exact h.log (s := .key c _ t none) (bs := []) rfl ⟨rfl, rfl⟩ ⟨rfl, rfl, rfl⟩
          · rename_i k1 hcs
            obtain ⟨l, rfl⟩ := cacheSet_frame hcs
            exact ex _ _ _ _ (.same rfl rfl rfl rfl rfl)
      · split
        · exact h.log (s := .key c _ t none) (bs := []) rfl ⟨rfl, rfl⟩ ⟨rfl, rfl, rfl⟩
        · dsimp only
          cases hcs : cacheSet k c none with
          | none => exact ex _ _ _ _ (.refl k)
          | some k1 =>
            obtain ⟨l, rfl⟩ := cacheSet_frame hcs
            exact ex _ _ _ _ (.same rfl rfl rfl rfl rfl)

/-- The actions performed, and what is remembered afterwards, are determined by the action pressed or released and by what
is remembered before. -/
theorem performs_unique {c : Config} {code : Code} {t : Int} {m m1 : Memo} {d : Desc} {p : Bool} {as : List Act}
    (h : Performs c code t m d p as m1) : ∀ {bs : List Act} {m2 : Memo}, Performs c code t m d p bs m2 → as = bs ∧ m1 = m2 := by
  induction h with
  | @itself m d p h h' =>
    intro bs m2 g
    cases g with
    | itself _ _ => exact ⟨rfl, rfl⟩
    | idle _ => exact absurd rfl (h _ _ _)
    | hold _ => exact absurd rfl (h' _ _)
    | tapMacro _ _ => exact absurd rfl (h' _ _)
    | tap _ _ _ _ => exact absurd rfl (h' _ _)
  | idle h ih =>
    intro bs m2 g
    cases g with
    | itself h _ => exact absurd rfl (h _ _ _)
    | idle g => exact ih g
  | hold h =>
    intro bs m2 g
    cases g with
    | itself _ h' => exact absurd rfl (h' _ _)
    | hold _ => exact ⟨rfl, rfl⟩
    | tapMacro g _ => exact absurd g h
    | tap g _ _ _ => exact absurd g h
  | tapMacro h hi =>
    intro bs m2 g
    cases g with
    | itself _ h' => exact absurd rfl (h' _ _)
    | hold g => exact absurd h g
    | tapMacro _ _ => exact ⟨rfl, rfl⟩
    | tap _ g _ _ => exact absurd hi (g _)
  | tap h hi h1 h2 ih1 ih2 =>
    intro bs m2 g
    cases g with
    | itself _ h' => exact absurd rfl (h' _ _)
    | hold g => exact absurd h g
    | tapMacro _ g => exact absurd g (hi _)
    | tap _ _ g1 g2 =>
      obtain ⟨rfl, rfl⟩ := ih1 g1
      obtain ⟨rfl, rfl⟩ := ih2 g2
      exact ⟨rfl, rfl⟩

theorem step_performs_unique {c : Config} {s : Step} {m m1 m2 : Memo} {bs cs : List Act} (h1 : s.performs c m bs m1)
    (h2 : s.performs c m cs m2) : bs = cs ∧ m1 = m2 := by
  unfold Step.performs at h1 h2
  split at h1
  · exact performs_unique h1 h2
  · exact performs_unique h1 h2
  · rename_i hn1 hn2
    split at h2
    · exact absurd rfl (hn1 _ _ _ _ _)
    · exact absurd rfl (hn2 _ _ _ _)
    · exact ⟨h1.1.trans h2.1.symm, h1.2.trans h2.2.symm⟩

theorem logPerforms_unique {c : Config} {m0 : Memo} {log : List Step} {as : List Act} {m : Memo} (h : LogPerforms c m0 log as m) :
    ∀ {bs : List Act} {m' : Memo}, LogPerforms c m0 log bs m' → as = bs ∧ m = m' := by
  induction h with
  | nil =>
    intro bs m' g
    cases g
    exact ⟨rfl, rfl⟩
  | @step s log as bs m m' h hs ih =>
    intro cs m2 g
    cases g with
    | step g gs =>
      obtain ⟨rfl, rfl⟩ := ih g
      obtain ⟨rfl, rfl⟩ := step_performs_unique hs gs
      exact ⟨rfl, rfl⟩

end Keyd
