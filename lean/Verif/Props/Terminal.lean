import Verif.Model.Terminal

/-
  C105: `keyd monitor` gives the terminal back.
-/

set_option autoImplicit false

namespace Keyd

/-- `keyd monitor` is started at a terminal (or not) in any state. -/
def monitorAt (tty0 tty1 : Bool) (t : Tty) : MonSys := { tty0 := tty0, tty1 := tty1, t := t }

/-- What is known at each point, of a terminal that was `t0` at the start. -/
structure MonInv (a b : Bool) (t0 : Tty) (s : MonSys) : Prop where
  in0 : s.tty0 = a
  out1 : s.tty1 = b
  canon : s.pc ∈ [.start, .hushed, .looping, .clean1] → s.t.canon = t0.canon
  echo0 : s.pc = .start → s.t.echo = t0.echo
  echo1 : s.pc ∈ [.hushed, .looping, .clean1, .clean2, .drain, .clean4] → s.t.echo = (if a && b then false else t0.echo)
  canon1 : s.pc ∈ [.clean2, .drain, .clean4] → s.t.canon = (if a then false else t0.canon)
  block0 : s.pc ∈ [.start, .hushed, .looping, .clean1, .clean2] → s.t.nonblock = t0.nonblock
  block1 : s.pc ∈ [.drain, .clean4] → s.t.nonblock = true

theorem monInv_run (a b : Bool) (t0 : Tty) : ∀ (es : List TtyEvent) (s : MonSys), MonInv a b t0 s → MonInv a b t0 (monRun s es)
  | [], s, h => h
  | e :: es, s, h => by
    refine monInv_run a b t0 es _ ?_
    obtain ⟨h1, h2, h3, h4, h5, h6, h7, h8⟩ := h
    obtain ⟨x, y, ⟨c, ec, nb, q⟩, pc⟩ := s
    dsimp only at h1 h2 h3 h4 h5 h6 h7 h8
    subst h1
    subst h2
    cases e with
    | typed u => cases pc <;> (constructor <;> simp_all [ttyEvent])
    | kill => constructor <;> simp [ttyEvent]
    | stop => cases pc <;> (constructor <;> simp_all [ttyEvent, monExit])
    | step =>
      cases pc
      case drain =>
        unfold ttyEvent monNext
        dsimp only
        split <;> (constructor <;> simp_all)
      all_goals (constructor <;> simp_all [ttyEvent, monNext, setTflags] <;> (cases x <;> cases y <;> simp_all))

theorem monInv_start (a b : Bool) (t0 : Tty) : MonInv a b t0 (monitorAt a b t0) := by
  constructor <;> simp [monitorAt]

/-- The terminal reads lines and echoes. -/
def Tty.sane (t : Tty) : Prop := t.canon = true ∧ t.echo = true

/-- C105, exactly when. `keyd monitor` was started at a sane terminal, and anything may have happened. If it ends now, the terminal is sane if and only if: the cleanup has
just been completed; or the process had not yet done anything; or it was not to print to a terminal and had not begun to clean up. -/
theorem C105_exact (b : Bool) (t0 : Tty) (h0 : t0.sane) (es : List TtyEvent) (e : TtyEvent) (h1 : (monRun (monitorAt true b t0) es).pc ≠ .ended)
    (h2 : (monRun (monitorAt true b t0) (es ++ [e])).pc = .ended) :
    (monRun (monitorAt true b t0) (es ++ [e])).t.sane ↔
      (monRun (monitorAt true b t0) es).pc = .clean4 ∧ e = .step ∨ (monRun (monitorAt true b t0) es).pc = .start ∨
      b = false ∧ (monRun (monitorAt true b t0) es).pc ∈ [.hushed, .looping, .clean1] := by
  have hi := monInv_run true b t0 es _ (monInv_start true b t0)
  unfold monRun at h2 ⊢
  rw [List.foldl_append, List.foldl_cons, List.foldl_nil] at h2 ⊢
  change (ttyEvent (monRun _ es) e).pc = _ at h2
  change (ttyEvent (monRun _ es) e).t.sane ↔ (monRun _ es).pc = _ ∧ _ ∨ (monRun _ es).pc = _ ∨ _ ∧ (monRun _ es).pc ∈ _
  generalize monRun (monitorAt true b t0) es = s at *
  obtain ⟨i1, i2, i3, i4, i5, i6, i7, i8⟩ := hi
  obtain ⟨g1, g2⟩ := h0
  obtain ⟨x, y, ⟨c, ec, nb, q⟩, pc⟩ := s
  dsimp only at *
  subst i1
  subst i2
  unfold Tty.sane
  cases e with
  | typed u => cases pc <;> simp_all [ttyEvent]
  | kill => cases pc <;> simp_all [ttyEvent]
  | stop => cases pc <;> simp_all [ttyEvent, monExit]
  | step =>
    cases pc
    case drain =>
      unfold ttyEvent monNext at h2
      dsimp only at h2
      split at h2 <;> cases h2
    all_goals simp_all [ttyEvent, monNext, setTflags]

theorem clean_ends : ∀ (n : Nat) (s : MonSys), s.t.queue.length ≤ n → s.pc = .drain → (s.tty0 = true → s.t.canon = false) →
    ∃ m, (monRun s (List.replicate m .step)).pc = .ended ∧ (monRun s (List.replicate m .step)).t.queue = []
  | n, s, hn, hp, hc => by
    have hr : s.t.readable s.tty0 = s.t.queue.length := by
      unfold Tty.readable
      rw [if_neg]
      cases ht : s.tty0 with
      | false => simp
      | true => simp [hc ht]
    cases hq : s.t.queue with
    | nil =>
      refine ⟨2, ?_⟩
      have e1 : ttyEvent s .step = { s with pc := .clean4 } := by
        show monNext s = _
        unfold monNext
        rw [hp]
        dsimp only
        rw [if_pos (by rw [hr, hq]; rfl)]
      show (ttyEvent (ttyEvent s .step) .step).pc = _ ∧ (ttyEvent (ttyEvent s .step) .step).t.queue = _
      rw [e1]
      simp only [ttyEvent, monNext, setTflags]
      refine ⟨trivial, ?_⟩
      split <;> exact hq
    | cons u q =>
      cases n with
      | zero => rw [hq] at hn; cases hn
      | succ n =>
        have e1 : ttyEvent s .step = { s with t := { s.t with queue := s.t.queue.drop (min 4096 s.t.queue.length) } } := by
          show monNext s = _
          unfold monNext
          rw [hp]
          dsimp only
          rw [if_neg (by rw [hr, hq]; simp), hr]
        obtain ⟨m, h⟩ := clean_ends n (ttyEvent s .step) (by
          rw [e1]
          dsimp only
          rw [List.length_drop]
          rw [hq] at hn ⊢
          rw [List.length_cons] at hn ⊢
          omega) (by rw [e1]; exact hp) (by rw [e1]; exact hc)
        refine ⟨m + 1, ?_⟩
        rw [List.replicate_succ]
        exact h

/-- C105. `keyd monitor` is in its event loop and is asked to end (once). Left alone, it ends, nothing that was typed is left for the next program, and if standard input is a
terminal, it reads lines and echoes, whatever has happened before. -/
theorem C105_restored_partial (a b : Bool) (t0 : Tty) (es : List TtyEvent) (h : (monRun (monitorAt a b t0) es).pc = .looping) :
    ∃ m, let s := monRun (monitorAt a b t0) (es ++ .stop :: List.replicate m .step)
      s.pc = .ended ∧ s.t.queue = [] ∧ (a = true → s.t.sane) ∧ (a = false → s.t.canon = t0.canon ∧ s.t.echo = t0.echo) := by
  have hi := monInv_run a b t0 es _ (monInv_start a b t0)
  let s := monRun (monitorAt a b t0) es
  have hs : monRun (monitorAt a b t0) es = s := rfl
  rw [hs] at h hi
  let s3 := ttyEvent (ttyEvent (ttyEvent s .stop) .step) .step
  have hi3 : MonInv a b t0 s3 := monInv_run a b t0 [.stop, .step, .step] s hi
  have hpc : s3.pc = .drain := by
    show (ttyEvent (ttyEvent (ttyEvent s .stop) .step) .step).pc = _
    simp only [ttyEvent, h, monExit]
    simp [monNext]
  obtain ⟨m, hm, hq⟩ := clean_ends _ s3 (Nat.le_refl _) hpc (fun ha => by
    rw [hi3.in0] at ha
    rw [hi3.canon1 (by rw [hpc]; simp), ha]
    rfl)
  refine ⟨m + 2, ?_⟩
  dsimp only
  have e : monRun (monitorAt a b t0) (es ++ .stop :: List.replicate (m + 2) .step) = monRun s3 (List.replicate m .step) := by
    unfold monRun
    rw [List.foldl_append]
    rfl
  rw [e]
  have hend : ∀ (n : Nat) (x : MonSys), MonInv a b t0 x → x.pc ∈ [.drain, .clean4] ∨ x.pc = .ended ∧ (a = true → x.t.sane) ∧ (a = false → x.t.canon = t0.canon ∧ x.t.echo = t0.echo) →
      (monRun x (List.replicate n .step)).pc = .ended → (a = true → (monRun x (List.replicate n .step)).t.sane) ∧
        (a = false → (monRun x (List.replicate n .step)).t.canon = t0.canon ∧ (monRun x (List.replicate n .step)).t.echo = t0.echo) := by
    intro n
    induction n with
    | zero =>
      intro x hx hp he
      rcases hp with hp | hp
      · change x.pc = .ended at he
        rw [he] at hp
        simp at hp
      · exact hp.2
    | succ n ih =>
      intro x hx hp he
      refine ih (ttyEvent x .step) (monInv_run a b t0 [.step] x hx) ?_ he
      obtain ⟨i1, i2, i3, i4, i5, i6, i7, i8⟩ := hx
      obtain ⟨p, q, ⟨c, ec, nb, qu⟩, pc⟩ := x
      dsimp only at *
      subst i1
      subst i2
      cases pc
      case drain =>
        left
        unfold ttyEvent monNext
        dsimp only
        split <;> simp
      case clean4 =>
        right
        simp [ttyEvent, monNext, setTflags, Tty.sane] at *
        cases p <;> simp_all
      case ended => right; simpa [ttyEvent, monNext] using hp
      all_goals simp at hp
  refine ⟨hm, hq, hend m s3 hi3 (.inl (by rw [hpc]; simp)) hm⟩

/-- While `keyd monitor` runs at a terminal, what is typed is not echoed; and at any time a standard input that is no terminal is read as it was. -/
theorem C105_hushed (a b : Bool) (t0 : Tty) (es : List TtyEvent) (h : (monRun (monitorAt a b t0) es).pc = .looping) :
    (monRun (monitorAt a b t0) es).t.echo = (if a && b then false else t0.echo) ∧ (monRun (monitorAt a b t0) es).t.canon = t0.canon := by
  have hi := monInv_run a b t0 es _ (monInv_start a b t0)
  exact ⟨hi.echo1 (by rw [h]; simp), hi.canon (by rw [h]; simp)⟩

/-! ### Examples and what is missing -/

def monHello : List TtyEvent := [.step, .step, .typed 104, .typed 105]

/-- Two keys are typed, and the monitor is asked to end. -/
theorem C105_example : (monRun (monitorAt true true {}) monHello).pc = .looping ∧ (monRun (monitorAt true true {}) monHello).t = { echo := false, queue := [104, 105] } ∧
    (monRun (monitorAt true true {}) (monHello ++ .stop :: List.replicate 5 .step)).pc = .ended ∧
    (monRun (monitorAt true true {}) (monHello ++ .stop :: List.replicate 5 .step)).t = { nonblock := true } := by decide +kernel

/-- Killed, it leaves a terminal that does not echo. -/
theorem C105_fails_killed : (monRun (monitorAt true true {}) (monHello ++ [.kill])).t.echo = false := by decide +kernel

/-- Asked twice, it leaves a terminal that neither echoes nor reads lines. -/
theorem C105_fails_twice : (monRun (monitorAt true true {}) (monHello ++ [.stop, .step, .stop])) =
    { tty0 := true, tty1 := true, t := { canon := false, echo := false, queue := [104, 105] }, pc := .ended } := by decide +kernel

/-- Asked between switching off the echo and registering the cleanup, it leaves a terminal that does not echo. -/
theorem C105_fails_early : (monRun (monitorAt true true {}) [.step, .stop]) = { tty0 := true, tty1 := true, t := { echo := false }, pc := .ended } := by decide +kernel

/-- It does not give back the terminal as it was: the open file (which it shares with the shell) is left non-blocking, and a terminal that did not echo before does so afterwards. -/
theorem C105_fails_same : (monRun (monitorAt true true { echo := false }) (monHello ++ .stop :: List.replicate 5 .step)) =
    { tty0 := true, tty1 := true, t := { echo := true, nonblock := true }, pc := .ended } := by decide +kernel

end Keyd
