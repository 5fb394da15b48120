import Verif.Props.Release

/-
  While no key is undecided, nothing is queued behind one.
-/

set_option autoImplicit false

namespace Keyd

attribute [local irreducible] configInit

/-- Nothing waits behind an undecided key unless there is one. -/
def NoneBehind (k : Kbd) : Prop := k.pending.code = 0 → k.pending.queue = []

theorem NoneBehind.of {k k' : Kbd} {code : Code} (h : NoneBehind k) (hc : code ≠ 0)
    (hp : k'.pending = k.pending ∨ k'.pending.code = code) : NoneBehind k' := by
  intro h0
  rcases hp with hp | hp
  · rw [hp] at h0 ⊢; exact h h0
  · rw [hp] at h0; exact absurd h0 hc

theorem Acts.target {code : Code} {d : Desc} {p : Bool} {t : Int} {k k' : Kbd} (h : Acts code d p t k k') :
    k'.pending = k.pending ∨ k'.pending.code = code := by
  rcases h.pending with h | h
  · exact .inl h
  · exact .inr h.2.1

theorem stepKey_noneBehind {k : Kbd} {code : Code} {p : Bool} {t : Int} (hm : MemInv k) (h : NoneBehind k) :
    Sat (stepKey k code p t) NoneBehind AnyErr := by
  unfold stepKey
  refine Sat.ite (fun _ => h) (fun hc => ?_)
  cases p with
  | true =>
    rw [if_pos rfl]
    refine Sat.ite (fun _ => h) (fun hn => ?_)
    cases hlk : lookupDescriptor k code with
    | mk d dl =>
      dsimp only
      cases hs : cacheSet k code (some { d := d, dl := dl, layer := 0 }) with
      | none => exact h
      | some k1 =>
        dsimp only
        obtain ⟨e1, e2, _⟩ := cacheSet_entry hm.uniq hc hs
        refine (acts_descriptor _ (k1.log _) code d dl true t e2 (fun h => (by cases h))).imp ?_
        rintro k2 ⟨ha, _⟩
        refine NoneBehind.of h hc ?_
        have := ha.target
        have hp : (k1.log (.key code true t (some (d, dl)))).pending = k.pending := by rw [e1]; rfl
        rw [hp] at this
        exact this
  | false =>
    rw [if_neg (by simp)]
    cases hg : cacheGet k code with
    | none => exact h
    | some ce =>
      obtain ⟨pre, post, c1, c2, c3, c4⟩ := cacheSet_none_split hg
      rw [c4]
      dsimp only [Option.getD_some]
      have hu := hm.uniq
      rw [c1] at hu
      have hown : ∀ e ∈ pre ++ { ce with code := 0 } :: post, e.code ≠ code := by
        intro e he hec
        rw [List.mem_append, List.mem_cons] at he
        unfold Uniq at hu
        rw [List.pairwise_append, List.pairwise_cons] at hu
        obtain ⟨_, ⟨h5, _⟩, h6⟩ := hu
        rcases he with he | he | he
        · exact c3 e he hec
        · rw [he] at hec; exact hc hec.symm
        · exact hc (by rw [← c2]; exact h5 e he (c2.trans hec.symm))
      refine (acts_descriptor _ _ code ce.d ce.dl false t (uniq_replace hu (.inr (.inl rfl))) (fun _ => hown)).imp ?_
      rintro k2 ⟨ha, _⟩
      exact NoneBehind.of h hc ha.target

theorem resolve_noneBehind {k : Kbd} {a : Desc} {t : Int} (hm : MemInv k) (hp : k.pending.code ≠ 0) :
    Sat (resolvePendingStep k a t) (fun r => NoneBehind r.1) AnyErr := by
  unfold resolvePendingStep
  dsimp only
  generalize hk0 : ({ k with pending := { k.pending with code := 0, queue := [], tapExpiry := 0 } } : Kbd) = k0
  have h0 : NoneBehind k0 := by rw [← hk0]; intro _; rfl
  have hu0 : Uniq k0.cache := by rw [← hk0]; exact hm.uniq
  generalize hcode : k.pending.code = code at *
  generalize k.pending.dl = dl at *
  cases hs : cacheSet k0 code (some { d := a, dl := dl, layer := 0 }) with
  | none =>
    dsimp only [Option.getD_none]
    refine Sat.bind (acts_descriptor _ (k0.log (.resolve code a dl t)) code a dl true t hu0 (fun h => (by cases h))) ?_
    rintro k2 ⟨ha, hl⟩
    exact NoneBehind.of h0 hp ha.target
  | some k1 =>
    obtain ⟨e1, e2, _⟩ := cacheSet_entry hu0 hp hs
    dsimp only [Option.getD_some]
    refine Sat.bind (acts_descriptor _ (k1.log (.resolve code a dl t)) code a dl true t e2 (fun h => (by cases h))) ?_
    rintro k2 ⟨ha, hl⟩
    refine NoneBehind.of h0 hp ?_
    have := ha.target
    have hp : (k1.log (.resolve code a dl t)).pending = k0.pending := by rw [e1]; rfl
    rw [hp] at this
    exact this

theorem noneBehind_engineInv : EngineInv (fun k => MemInv k ∧ NoneBehind k) AnyErr where
  errs _ _ := trivial
  chord k c h := ⟨mem_engineInv.chord k c h.1, h.2⟩
  timeouts k c h := ⟨mem_engineInv.timeouts k c h.1, h.2⟩
  passed k c h := ⟨mem_engineInv.passed k c h.1, h.2⟩
  swallowed k c h := ⟨mem_engineInv.swallowed k c h.1, h.2⟩
  install k p h := by
    refine (mem_engineInv.install k p h.1).and (?_ : Sat _ (fun r => NoneBehind r.1) AnyErr) |>.imp (fun _ h => h)
    unfold installChord
    dsimp only
    cases freeChordSlot k.activeChords 0 with
    | none => trivial
    | some i => exact h.2
  strike k i keys a h := ⟨mem_engineInv.strike k i keys a h.1, h.2⟩
  enqueue k q h hp := ⟨mem_engineInv.enqueue k q h.1 hp, fun h0 => absurd h0 hp⟩
  resolve k a t h hp h1 h2 := (mem_engineInv.resolve k a t h.1 hp h1 h2).and (resolve_noneBehind h.1 hp)
  timers k c t h := by
    refine ((Gentle.stepTimers (x := 0) k c t)).imp (fun k' g => ⟨h.1.gentle g, ?_⟩)
    intro h0
    rw [g.pending] at h0 ⊢
    exact h.2 h0
  key k c p t h hp := (h.1.key c p t hp).and (stepKey_noneBehind h.1 h.2)

theorem noneBehind_reach {cfg : Config → Prop} {k : Kbd} (h : Reach cfg k) : NoneBehind k := by
  suffices MemInv k ∧ NoneBehind k from this.2
  induction h with
  | init c _ => exact ⟨newKeyboard_mem c, fun _ => rfl⟩
  | events n k evs k' w _ run ih => exact (kbdProcessEvents_sat noneBehind_engineInv n k evs ih).of_ok run
  | bind k e k' a _ run _ ih =>
    have e := kbdEval_frame run
    refine ⟨ih.1.quiet (by rw [e]) (by rw [e]) (by rw [e]) (by rw [e]) (by rw [e]) (by rw [e]), ?_⟩
    rw [e]; exact ih.2
  | scroll k s _ ih => exact ⟨ih.1.quiet rfl rfl rfl rfl rfl rfl, ih.2⟩

end Keyd
