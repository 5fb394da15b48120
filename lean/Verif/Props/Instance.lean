import Verif.Model.Instance
import Mathlib.Tactic.Tauto
import Mathlib.Data.List.Induction

/-
  C91: one daemon at a time. C92: a new one can start when the old one has ended.
-/

set_option autoImplicit false

namespace Keyd

/-! ### Specification -/

/-- The process has come past the lock and has not ended: it is, or is about to be, the daemon. -/
def IsDaemon (s : Sys) (p : Nat) : Prop :=
  s.phase p = some .locked ∨ s.phase p = some .unlinked ∨ s.phase p = some .bound ∨ s.phase p = some .running

/-- The process is a program that some daemon has started with a `command` action and that still runs. -/
def IsProgram (s : Sys) (p : Nat) : Prop := ∃ parent, s.phase p = some (.program parent)

/-- The shell can always be executed. -/
def ShellRuns (evs : List SysEvent) : Prop := ∀ p q, .misfires p q ∉ evs

/-! ### Proofs -/

structure SysInv (s : Sys) : Prop where
  holders : ∀ p, p ∈ s.lock ↔ IsDaemon s p ∨ IsProgram s p
  single : ∀ p q, IsDaemon s p → IsDaemon s q → p = q
  named : ∀ p, s.phase p = some .bound ∨ s.phase p = some .running → s.path = some p
  open' : ∀ p, s.phase p = some .unlinked → s.path = none

theorem at_same (s : Sys) (p : Nat) (ph : Phase) : (s.at p ph).phase p = some ph := Function.update_self ..

theorem at_other (s : Sys) {p q : Nat} (ph : Phase) (h : q ≠ p) : (s.at p ph).phase q = s.phase q := Function.update_of_ne h ..

def Phase.daemon : Phase → Prop
  | .locked | .unlinked | .bound | .running => True
  | _ => False

theorem isDaemon_iff (s : Sys) (p : Nat) : IsDaemon s p ↔ ∃ ph, s.phase p = some ph ∧ ph.daemon := by
  unfold IsDaemon
  cases h : s.phase p with
  | none => simp
  | some ph => cases ph <;> simp [Phase.daemon]

/-- A process in one phase or another that counts the same moves on within the daemon phases, or from a phase that does not count to another. -/
theorem SysInv.step {s s' : Sys} {p : Nat} {ph : Phase} (h : SysInv s) (hp : s'.phase = (s.at p ph).phase)
    (hl : ∀ q, q ∈ s'.lock ↔ (q = p ∧ (ph.daemon ∨ ∃ r, ph = .program r)) ∨ (q ≠ p ∧ q ∈ s.lock))
    (hd : ph.daemon → ∀ q, IsDaemon s q → q = p)
    (hn : ∀ q, s'.phase q = some .bound ∨ s'.phase q = some .running → s'.path = some q)
    (ho : ∀ q, s'.phase q = some .unlinked → s'.path = none) : SysInv s' := by
  have same : s'.phase p = some ph := by rw [hp]; exact at_same s p ph
  have other : ∀ q, q ≠ p → s'.phase q = s.phase q := fun q hq => by rw [hp]; exact at_other s ph hq
  refine ⟨?_, ?_, hn, ho⟩
  · intro q
    rw [hl q]
    by_cases hq : q = p
    · subst hq
      rw [isDaemon_iff, IsProgram, same]
      simp
    · have e1 : IsDaemon s' q ↔ IsDaemon s q := by unfold IsDaemon; rw [other q hq]
      have e2 : IsProgram s' q ↔ IsProgram s q := by unfold IsProgram; rw [other q hq]
      rw [e1, e2, ← h.holders q]
      simp [hq]
  · intro q r hq hr
    have key : ∀ q, IsDaemon s' q → (q = p ∧ ph.daemon) ∨ (q ≠ p ∧ IsDaemon s q) := by
      intro q hq
      by_cases e : q = p
      · subst e
        rw [isDaemon_iff, same] at hq
        obtain ⟨x, hx, hh⟩ := hq
        rw [← Option.some.inj hx] at hh
        exact .inl ⟨rfl, hh⟩
      · right
        refine ⟨e, ?_⟩
        unfold IsDaemon at hq ⊢
        rwa [other q e] at hq
    rcases key q hq with ⟨e1, d1⟩ | ⟨n1, d1⟩ <;> rcases key r hr with ⟨e2, d2⟩ | ⟨n2, d2⟩
    · rw [e1, e2]
    · exact absurd (hd d1 r d2) n2
    · exact absurd (hd d2 q d1) n1
    · exact h.single q r d1 d2

theorem daemon_of {s : Sys} {p : Nat} {ph : Phase} (h : s.phase p = some ph) (hd : ph.daemon) : IsDaemon s p :=
  (isDaemon_iff s p).2 ⟨ph, h, hd⟩

theorem not_in {s : Sys} (h : SysInv s) {p : Nat} {ph : Phase} (hp : s.phase p = some ph) (hd : ¬ ph.daemon) (hr : ∀ r, ph ≠ .program r) : p ∉ s.lock := by
  rw [h.holders p, isDaemon_iff, IsProgram, hp]
  rintro (⟨x, hx, hh⟩ | ⟨r, hx⟩)
  · rw [← Option.some.inj hx] at hh; exact hd hh
  · exact hr r (Option.some.inj hx)

theorem not_in_none {s : Sys} (h : SysInv s) {p : Nat} (hp : s.phase p = none) : p ∉ s.lock := by
  rw [h.holders p, isDaemon_iff, IsProgram, hp]
  rintro (⟨x, hx, _⟩ | ⟨r, hx⟩) <;> cases hx

theorem sysInv_step {s : Sys} (h : SysInv s) (e : SysEvent) (hm : ∀ p q, e ≠ .misfires p q) : SysInv (sysStep s e) := by
  have nd : ∀ {p : Nat} {ph : Phase}, s.phase p = some ph → ph.daemon → ∀ q, IsDaemon s q → q = p :=
    fun hp hd q hq => h.single q _ hq (daemon_of hp hd)
  -- the path is kept and nobody gets it
  have keep : ∀ (s' : Sys) (p : Nat) (ph : Phase), s'.phase = (s.at p ph).phase → s'.path = s.path →
      (ph = .bound ∨ ph = .running → s.path = some p) → (ph = .unlinked → s.path = none) →
      (∀ q, s'.phase q = some .bound ∨ s'.phase q = some .running → s'.path = some q) ∧ (∀ q, s'.phase q = some .unlinked → s'.path = none) := by
    intro s' p ph hp hpath h1 h2
    refine ⟨?_, ?_⟩ <;> intro q hq
    · rw [hpath]
      by_cases e : q = p
      · subst e
        rw [hp, at_same] at hq
        simp only [Option.some.injEq] at hq
        exact h1 hq
      · rw [hp, at_other s ph e] at hq
        exact h.named q hq
    · rw [hpath]
      by_cases e : q = p
      · subst e
        rw [hp, at_same] at hq
        simp only [Option.some.injEq] at hq
        exact h2 hq
      · rw [hp, at_other s ph e] at hq
        exact h.open' q hq
  cases e with
  | misfires p q => exact absurd rfl (hm p q)
  | starts p =>
    dsimp only [sysStep]
    split
    · rename_i hp
      obtain ⟨k1, k2⟩ := keep (s.at p .opened) p .opened rfl rfl (by simp) (by simp)
      refine h.step rfl ?_ (by simp [Phase.daemon]) k1 k2
      intro q
      have : (s.at p .opened).lock = s.lock := rfl
      rw [this]
      by_cases e : q = p
      · subst e; simp [not_in_none h hp, Phase.daemon]
      · simp [e]
    · exact h
  | locks p =>
    dsimp only [sysStep]
    split
    · rename_i hp
      have hnl := not_in h hp (by simp [Phase.daemon]) (by simp)
      split
      · rename_i hl
        obtain ⟨k1, k2⟩ := keep { s.at p .locked with lock := [p] } p .locked rfl rfl (by simp) (by simp)
        refine h.step rfl ?_ ?_ k1 k2
        · intro q
          show q ∈ [p] ↔ _
          rw [hl]
          simp [Phase.daemon]
        · intro _ q hq
          have := (h.holders q).2 (.inl hq)
          rw [hl] at this
          cases this
      · obtain ⟨k1, k2⟩ := keep (s.at p .ended) p .ended rfl rfl (by simp) (by simp)
        refine h.step rfl ?_ (by simp [Phase.daemon]) k1 k2
        intro q
        have : (s.at p .ended).lock = s.lock := rfl
        rw [this]
        by_cases e : q = p
        · subst e; simp [hnl, Phase.daemon]
        · simp [e]
    · exact h
  | unlinks p =>
    dsimp only [sysStep]
    split
    · rename_i hp
      have hin := (h.holders p).2 (.inl (daemon_of hp trivial))
      refine h.step (p := p) (ph := .unlinked) rfl ?_ (fun _ => nd hp trivial) ?_ ?_
      · intro q
        show q ∈ s.lock ↔ _
        by_cases e : q = p
        · subst e; simp [hin, Phase.daemon]
        · simp [e]
      · intro q hq
        exfalso
        by_cases e : q = p
        · subst e
          have : (s.at q .unlinked).phase q = some .bound ∨ (s.at q .unlinked).phase q = some .running := hq
          rw [at_same] at this
          simp at this
        · have : (s.at p .unlinked).phase q = some .bound ∨ (s.at p .unlinked).phase q = some .running := hq
          rw [at_other s _ e] at this
          exact e (nd hp trivial q (by rcases this with h | h <;> exact daemon_of h trivial))
      · intro _ _; rfl
    · exact h
  | binds p =>
    dsimp only [sysStep]
    split
    · rename_i hp
      have hin := (h.holders p).2 (.inl (daemon_of hp trivial))
      rw [if_pos (h.open' p hp)]
      refine h.step (p := p) (ph := .bound) rfl ?_ (fun _ => nd hp trivial) ?_ ?_
      · intro q
        show q ∈ s.lock ↔ _
        by_cases e : q = p
        · subst e; simp [hin, Phase.daemon]
        · simp [e]
      · intro q hq
        by_cases e : q = p
        · subst e; rfl
        · have : (s.at p .bound).phase q = some .bound ∨ (s.at p .bound).phase q = some .running := hq
          rw [at_other s _ e] at this
          exact absurd (nd hp trivial q (by rcases this with h | h <;> exact daemon_of h trivial)) e
      · intro q hq
        exfalso
        have hq : (s.at p .bound).phase q = some .unlinked := hq
        by_cases e : q = p
        · subst e
          rw [at_same] at hq
          simp at hq
        · rw [at_other s _ e] at hq
          exact e (nd hp trivial q (daemon_of hq trivial))
    · exact h
  | listens p =>
    dsimp only [sysStep]
    split
    · rename_i hp
      have hin := (h.holders p).2 (.inl (daemon_of hp trivial))
      obtain ⟨k1, k2⟩ := keep (s.at p .running) p .running rfl rfl (fun _ => h.named p (.inl hp)) (by simp)
      refine h.step (p := p) (ph := .running) rfl ?_ (fun _ => nd hp trivial) k1 k2
      intro q
      show q ∈ s.lock ↔ _
      by_cases e : q = p
      · subst e; simp [hin, Phase.daemon]
      · simp [e]
    · exact h
  | commands p q =>
    dsimp only [sysStep]
    split
    · rename_i hp
      obtain ⟨k1, k2⟩ := keep { s.at q (.program p) with lock := q :: s.lock } q (.program p) rfl rfl (by simp) (by simp)
      refine h.step (p := q) (ph := .program p) rfl ?_ (by simp [Phase.daemon]) k1 k2
      intro r
      show r ∈ q :: s.lock ↔ _
      by_cases e : r = q
      · subst e; simp
      · simp [e]
    · exact h
  | ends p =>
    dsimp only [sysStep]
    split
    · exact h
    · obtain ⟨k1, k2⟩ := keep { s.at p .ended with lock := s.lock.filter (· ≠ p) } p .ended rfl rfl (by simp) (by simp)
      refine h.step (p := p) (ph := .ended) rfl ?_ (by simp [Phase.daemon]) k1 k2
      intro q
      show q ∈ s.lock.filter (· ≠ p) ↔ _
      simp [Phase.daemon, and_comm]

theorem sysInv_run (evs : List SysEvent) (hm : ShellRuns evs) : SysInv (sysRun evs) := by
  have : ∀ s, SysInv s → SysInv (evs.foldl sysStep s) := by
    induction evs with
    | nil => exact fun s h => h
    | cons e es ih =>
      exact fun s h => ih (fun p q hh => hm p q (List.mem_cons_of_mem _ hh)) _
        (sysInv_step h e (fun p q hh => hm p q (hh ▸ List.mem_cons_self)))
  refine this {} ⟨?_, ?_, ?_, ?_⟩
  · intro p
    rw [isDaemon_iff, IsProgram]
    simp
  · intro p q hp
    rw [isDaemon_iff] at hp
    obtain ⟨_, hp, _⟩ := hp
    cases hp
  · intro p hp
    rcases hp with h | h <;> cases h
  · intro _ _; rfl

/-! ### C91 -/

/-- C91. Provided the shell can be executed: however processes start, go on, and end: at most one is the daemon at any time. -/
theorem C91_single (evs : List SysEvent) (hm : ShellRuns evs) (p q : Nat) (hp : IsDaemon (sysRun evs) p) (hq : IsDaemon (sysRun evs) q) : p = q :=
  (sysInv_run evs hm).single p q hp hq

/-- C91. The name of the socket belongs to the daemon that runs, whatever other processes tried in the meantime. -/
theorem C91_socket (evs : List SysEvent) (hm : ShellRuns evs) (p : Nat) (hp : (sysRun evs).phase p = some .running) :
    (sysRun evs).path = some p ∧ (sysRun evs).connects p :=
  ⟨(sysInv_run evs hm).named p (.inr hp), (sysInv_run evs hm).named p (.inr hp), .inl hp⟩

/-- C92, in part. A `keyd` that starts gets the lock just when there is no daemon and no program left that a daemon has started; otherwise it ends at once. -/
theorem C92_starts_partial (evs : List SysEvent) (hm : ShellRuns evs) (p : Nat) (hp : (sysRun evs).phase p = some .opened) :
    ((∀ q, ¬ IsDaemon (sysRun evs) q ∧ ¬ IsProgram (sysRun evs) q) → (sysRun (evs ++ [.locks p])).phase p = some .locked) ∧
    ((∃ q, IsDaemon (sysRun evs) q ∨ IsProgram (sysRun evs) q) → (sysRun (evs ++ [.locks p])).phase p = some .ended) := by
  have e : sysRun (evs ++ [.locks p]) = sysStep (sysRun evs) (.locks p) := by unfold sysRun; rw [List.foldl_append]; rfl
  rw [e]
  have hi := sysInv_run evs hm
  unfold sysStep
  dsimp only
  rw [if_pos hp]
  constructor
  · intro hn
    have hl : (sysRun evs).lock = [] := by
      rw [List.eq_nil_iff_forall_not_mem]
      intro q hq
      rcases (hi.holders q).1 hq with h | h
      · exact (hn q).1 h
      · exact (hn q).2 h
    rw [if_pos hl]
    exact at_same _ p _
  · rintro ⟨q, hq⟩
    rw [if_neg]
    · exact at_same _ p _
    · intro hl
      have := (hi.holders q).2 hq
      rw [hl] at this
      cases this

/-- The process that does something. -/
def SysEvent.by : SysEvent → Nat
  | .starts p | .locks p | .unlinks p | .binds p | .listens p | .commands p _ | .misfires p _ | .ends p => p

theorem sysRun_snoc (evs : List SysEvent) (e : SysEvent) : sysRun (evs ++ [e]) = sysStep (sysRun evs) e := by
  unfold sysRun
  rw [List.foldl_append]
  rfl

/-- C91. What other processes do - also their attempts to start, their failures and crashes - takes from a daemon neither its progress nor the name of its socket. -/
theorem C91_undisturbed (evs : List SysEvent) (p : Nat) (hp : IsDaemon (sysRun evs) p) (others : List SysEvent) (hm : ShellRuns (evs ++ others)) (ho : ∀ e ∈ others, e.by ≠ p) :
    (sysRun (evs ++ others)).phase p = (sysRun evs).phase p ∧ (sysRun (evs ++ others)).path = (sysRun evs).path := by
  induction others using List.reverseRecOn with
  | nil => rw [List.append_nil]; exact ⟨rfl, rfl⟩
  | append_singleton es e ih =>
    obtain ⟨ih1, ih2⟩ := ih (fun p q hh => hm p q (by rw [← List.append_assoc]; exact List.mem_append_left _ hh)) (fun x hx => ho x (List.mem_append_left _ hx))
    have he : e.by ≠ p := ho e (by simp)
    rw [← List.append_assoc, sysRun_snoc, ← ih1, ← ih2]
    have hi := sysInv_run (evs ++ es) (fun p q hh => hm p q (by rw [← List.append_assoc]; exact List.mem_append_left _ hh))
    have hd : IsDaemon (sysRun (evs ++ es)) p := by unfold IsDaemon at hp ⊢; rw [ih1]; exact hp
    generalize sysRun (evs ++ es) = s at hi hd
    have hne : s.phase p ≠ none := by
      rw [isDaemon_iff] at hd
      obtain ⟨ph, h, _⟩ := hd
      rw [h]
      simp
    have alone : ∀ q ph, q ≠ p → s.phase q = some ph → ¬ ph.daemon := fun q ph hq h hh => hq (hi.single q p (daemon_of h hh) hd)
    cases e with
    | starts q => dsimp only [sysStep]; split <;> exact ⟨by first | exact at_other s _ (Ne.symm he) | rfl, rfl⟩
    | locks q =>
      dsimp only [sysStep]
      split
      · split <;> exact ⟨at_other s _ (Ne.symm he), rfl⟩
      · exact ⟨rfl, rfl⟩
    | unlinks q =>
      dsimp only [sysStep]
      rw [if_neg (fun h => alone q .locked he h trivial)]
      exact ⟨rfl, rfl⟩
    | binds q =>
      dsimp only [sysStep]
      rw [if_neg (fun h => alone q .unlinked he h trivial)]
      exact ⟨rfl, rfl⟩
    | listens q =>
      dsimp only [sysStep]
      rw [if_neg (fun h => alone q .bound he h trivial)]
      exact ⟨rfl, rfl⟩
    | commands q r =>
      dsimp only [sysStep]
      rw [if_neg (fun h => alone q .running he h.1 trivial)]
      exact ⟨rfl, rfl⟩
    | misfires q r => exact absurd (by simp) (hm q r)
    | ends q =>
      dsimp only [sysStep]
      split
      · exact ⟨rfl, rfl⟩
      · exact ⟨at_other s _ (Ne.symm he), rfl⟩

/-- C91. A process that got the lock comes to serve, whatever the others do in between. -/
theorem C91_comes_up (evs : List SysEvent) (p : Nat) (hp : (sysRun evs).phase p = some .locked) (o1 o2 o3 : List SysEvent)
    (hm : ShellRuns (evs ++ o1 ++ [.unlinks p] ++ o2 ++ [.binds p] ++ o3 ++ [.listens p]))
    (h1 : ∀ e ∈ o1, e.by ≠ p) (h2 : ∀ e ∈ o2, e.by ≠ p) (h3 : ∀ e ∈ o3, e.by ≠ p) :
    (sysRun (evs ++ o1 ++ [.unlinks p] ++ o2 ++ [.binds p] ++ o3 ++ [.listens p])).phase p = some .running := by
  have a1 := (C91_undisturbed evs p (daemon_of hp trivial) o1 (fun a b hh => hm a b (by simp only [List.mem_append] at hh ⊢; tauto)) h1).1
  rw [hp] at a1
  have b1 : (sysRun (evs ++ o1 ++ [.unlinks p])).phase p = some .unlinked := by
    rw [sysRun_snoc]; dsimp only [sysStep]; rw [if_pos a1]; exact at_same _ p _
  have a2 := (C91_undisturbed _ p (daemon_of b1 trivial) o2 (fun a b hh => hm a b (by simp only [List.mem_append] at hh ⊢; tauto)) h2).1
  rw [b1] at a2
  have b2 : (sysRun (evs ++ o1 ++ [.unlinks p] ++ o2 ++ [.binds p])).phase p = some .bound := by
    rw [sysRun_snoc]; dsimp only [sysStep]; rw [if_pos a2, if_pos ((sysInv_run _ (fun a b hh => hm a b (by simp only [List.mem_append] at hh ⊢; tauto))).open' p a2)]; exact at_same _ p _
  have a3 := (C91_undisturbed _ p (daemon_of b2 trivial) o3 (fun a b hh => hm a b (by simp only [List.mem_append] at hh ⊢; tauto)) h3).1
  rw [b2] at a3
  rw [sysRun_snoc]; dsimp only [sysStep]; rw [if_pos a3]; exact at_same _ p _

/-! Concrete cases. -/

/-- A daemon starts while another one tries to, starts a program, and ends; a new daemon starts. -/
def handover : List SysEvent :=
  [.starts 1, .starts 2, .locks 1, .locks 2, .unlinks 1, .binds 1, .listens 1, .commands 1 5, .ends 1]

/-- The hypotheses are met: 1 becomes the daemon and 2 is refused; when 1 and its program have ended, 3 becomes the daemon though the old socket is still there. -/
theorem C91_witness : (sysRun (handover.take 7)).phase 1 = some .running ∧ (sysRun (handover.take 7)).phase 2 = some .ended ∧
    (sysRun (handover ++ [.ends 5, .starts 3])).path = some 1 ∧
    (sysRun (handover ++ [.ends 5, .starts 3, .locks 3, .unlinks 3, .binds 3, .listens 3])).phase 3 = some .running := by
  refine ⟨?_, ?_, ?_, ?_⟩ <;> decide +kernel

/-- C92 fails in full: after the daemon has ended, a program it has started keeps the lock, so that no new daemon can start; and clients still connect, to nobody. -/
theorem C92_fails_restart : (∀ q, ¬ IsDaemon (sysRun (handover ++ [.starts 3, .locks 3])) q) ∧
    (sysRun (handover ++ [.starts 3, .locks 3])).phase 3 = some .ended ∧ (sysRun handover).connects 1 := by
  refine ⟨?_, by decide +kernel, by decide +kernel, .inr ⟨5, by decide +kernel⟩⟩
  intro q hq
  have hl := (sysInv_run (handover ++ [.starts 3, .locks 3]) (fun a b => by simp [handover])).holders q
  have e : (sysRun (handover ++ [.starts 3, .locks 3])).lock = [5] := by decide +kernel
  rw [e] at hl
  have := hl.2 (.inl hq)
  rw [List.mem_singleton] at this
  subst this
  rw [isDaemon_iff] at hq
  obtain ⟨ph, h, hd⟩ := hq
  have e5 : (sysRun (handover ++ [.starts 3, .locks 3])).phase 5 = some (.program 1) := by decide +kernel
  rw [e5] at h
  rw [← Option.some.inj h] at hd
  exact hd

/-- Without that provision C91 fails: where the shell cannot be executed, a `command` action makes a second daemon. -/
theorem C91_fails_exec : IsDaemon (sysRun (handover.take 7 ++ [.misfires 1 6])) 1 ∧ IsDaemon (sysRun (handover.take 7 ++ [.misfires 1 6])) 6 :=
  ⟨.inr (.inr (.inr (by decide +kernel))), .inr (.inr (.inr (by decide +kernel)))⟩

end Keyd
