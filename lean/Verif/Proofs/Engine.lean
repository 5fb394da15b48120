import Verif.Proofs.Calm
import Mathlib.Tactic.Tauto

/-
  Generic invariant principle for the engine: a predicate preserved by the
  elementary steps is preserved by `process_event` and `kbd_process_events`
  for every recursion bound.
-/

set_option autoImplicit false

namespace Keyd

/-- The errors that the chord/pending/timeouts bookkeeping itself can raise. -/
def InfraErr (e : Err) : Prop :=
  e = .fuel ∨ e = .assertFail "chord.queue_sz < ARRAY_SIZE(chord.queue)" ∨
  e = .assertFail "pending_key.queue_sz < ARRAY_SIZE(pending_key.queue)" ∨
  e = .assertFail "nr_timeouts < ARRAY_SIZE(timeouts)" ∨
  e = .assertFail "resolve_chord: code" ∨
  e = .oob "chord.queue + queue_offset" ∨ e = .nullDeref "chord.match"

/-- When an event gets past the pending-key stage: no key is undecided, or it is a
wakeup, or the release of another key. -/
def PassesPending (k : Kbd) (c : Code) (p : Bool) : Prop :=
  c = 0 ∨ k.pending.code = 0 ∨ (p = false ∧ c ≠ k.pending.code)

/-- Preservation of `P` by the elementary steps of the engine. -/
structure EngineInv (P : Kbd → Prop) (E : Err → Prop) : Prop where
  errs : ∀ e, InfraErr e → E e
  chord : ∀ k ch, P k → P { k with chord := ch }
  timeouts : ∀ k ts, P k → P { k with timeouts := ts }
  passed : ∀ k ev, P k → P (k.log (.passed ev))
  swallowed : ∀ k evs, P k → P (k.logSwallowed evs)
  install : ∀ k p, P k → Sat (installChord k p) (fun r => P r.1) E
  strike : ∀ k i keys a, P k →
    P { k with activeChords := (k.activeChords.set i ⟨a,
          ⟨keys, (k.activeChords.getD i {}).chord.d⟩, (k.activeChords.getD i {}).layer⟩) }
  enqueue : ∀ k q, P k → k.pending.code ≠ 0 → P { k with pending := { k.pending with queue := q } }
  resolve : ∀ k a t, P k → k.pending.code ≠ 0 → a ≠ .none →
    (a = k.pending.action1 ∨ a = k.pending.action2 ∨ a = .keyseq KEYD.NOOP 0) →
    Sat (resolvePendingStep k a t) (fun r => P r.1) E
  timers : ∀ k c t, P k → Sat (stepTimers k c t) P E
  key : ∀ k c p t, P k → PassesPending k c p → Sat (stepKey k c p t) P E

variable {P : Kbd → Prop} {E : Err → Prop}

/-- What is assumed about recursive calls. -/
def PESat (P : Kbd → Prop) (E : Err → Prop) (pe : PE) : Prop :=
  ∀ k c p t, P k → Sat (pe k c p t) (fun r => P r.1) E

theorem scheduleTimeout_sat (I : EngineInv P E) {k : Kbd} (t : Int) (h : P k) :
    Sat (scheduleTimeout k t) P E := by
  unfold scheduleTimeout
  split
  · exact I.timeouts _ _ h
  · exact I.errs _ (by simp [InfraErr])

theorem catchUp_sat (I : EngineInv P E) {pe : PE} (hpe : PESat P E pe) :
    ∀ n k timeout ts limit, P k → Sat (catchUp pe n k timeout ts limit) (fun r => P r.1) E := by
  intro n
  induction n with
  | zero => intros; exact I.errs _ (by simp [InfraErr])
  | succ n ih =>
    intro k timeout ts limit h
    unfold catchUp
    split
    · exact (hpe k 0 false ts h).bind (fun r hr => ih _ _ _ _ hr)
    · exact h

theorem processEventsLoop_sat (I : EngineInv P E) {pe : PE} (hpe : PESat P E pe) :
    ∀ evs k timeout ts, P k → Sat (processEventsLoop pe evs k timeout ts) (fun r => P r.1) E := by
  intro evs
  induction evs with
  | nil => intro k timeout ts h; exact h
  | cons ev rest ih =>
    intro k timeout ts h
    unfold processEventsLoop
    refine (catchUp_sat I hpe _ _ _ _ _ h).bind ?_
    rintro ⟨k1, t1, ts1⟩ h1
    refine (hpe _ _ _ _ h1).bind ?_
    rintro ⟨k2, t2⟩ h2
    exact ih _ _ _ h2

theorem resolveChord_sat (I : EngineInv P E) {pe : PE} (hpe : PESat P E pe) {k : Kbd} (h : P k) :
    Sat (resolveChord pe k) P E := by
  unfold resolveChord
  have h0 : P { k with chord := { k.chord with state := .resolving } } := I.chord _ _ h
  have key : ∀ r : Kbd × Nat, P r.1 →
      Sat (if r.1.chord.queue.length < r.2 then
            (.error (.oob "chord.queue + queue_offset") : Res Kbd)
          else do
            let (k, _) ← processEventsWith pe r.1 (r.1.chord.queue.drop r.2)
            .ok { k with chord := { k.chord with state := .inactive } }) P E := by
    rintro ⟨k1, off⟩ h1
    dsimp only
    split
    · exact I.errs _ (by simp [InfraErr])
    · refine (processEventsLoop_sat I hpe _ _ _ _ h1).bind ?_
      rintro ⟨k2, t2⟩ h2
      exact I.chord _ _ h2
  refine Sat.bind (Q := fun r => P r.1) ?_ (fun r hr => key r hr)
  dsimp only
  split
  · exact h0
  · refine (I.install _ _ h0).bind ?_
    rintro ⟨k1, c1, s1⟩ h1
    refine (hpe _ _ _ _ (I.swallowed _ _ h1)).bind ?_
    rintro ⟨k2, t2⟩ h2
    exact h2

theorem abortChord_sat (I : EngineInv P E) {pe : PE} (hpe : PESat P E pe) {k : Kbd} (h : P k) :
    Sat (abortChord pe k) P E :=
  resolveChord_sat I hpe (I.chord _ _ h)

theorem enqueueChordEvent_sat (I : EngineInv P E) {k : Kbd} (c : Code) (p : Bool) (t : Int)
    (h : P k) : Sat (enqueueChordEvent k c p t) P E := by
  unfold enqueueChordEvent
  split
  · exact h
  · split
    · exact I.chord _ _ h
    · exact I.errs _ (by simp [InfraErr])

theorem strikeChord_sat (I : EngineInv P E) {pe : PE} (hpe : PESat P E pe) {k : Kbd} (i : Nat)
    (c : Code) (t : Int) (h : P k) : Sat (strikeChord pe k i c t) P E := by
  unfold strikeChord
  dsimp only
  split
  · exact (hpe _ _ _ _ (I.strike _ i _ false (I.swallowed _ _ h))).bind (fun r hr => hr)
  · exact I.strike _ i _ _ (I.swallowed _ _ h)

theorem checkChordMatch_inv (I : EngineInv P E) {k : Kbd} (h : P k) : P (checkChordMatch k).2 := by
  unfold checkChordMatch
  dsimp only
  split
  · exact I.chord _ _ h
  · exact h

theorem chordDecide_sat (I : EngineInv P E) {pe : PE} (hpe : PESat P E pe) {k : Kbd} (t : Int)
    (f : Kbd → Res (Kbd × Bool)) (hf : ∀ k, P k → Sat (f k) (fun r => P r.1) E) (h : P k) :
    Sat (chordDecide pe k t f) (fun r => P r.1) E := by
  unfold chordDecide
  have h1 := checkChordMatch_inv I h
  revert h1
  generalize checkChordMatch k = r
  obtain ⟨n, k1⟩ := r
  intro h1
  dsimp only at h1
  split
  · rename_i heq; cases heq; exact hf _ h1
  · rename_i heq; cases heq
    dsimp only
    have h2 : P { k1 with chord := { k1.chord with lastCodeTime := t } } := I.chord _ _ h1
    split
    · refine (scheduleTimeout_sat I _ ?_).bind (fun k3 h3 => h3)
      exact I.chord _ _ h1
    · exact (resolveChord_sat I hpe h2).bind (fun k3 h3 => h3)
  · rename_i heq; cases heq
    dsimp only
    refine (scheduleTimeout_sat I _ ?_).bind (fun k3 h3 => h3)
    exact I.chord _ _ h1

theorem chordMachine_sat (I : EngineInv P E) {pe : PE} (hpe : PESat P E pe) {k : Kbd}
    (c : Code) (p : Bool) (t : Int) (h : P k) :
    Sat (chordMachine pe k c p t) (fun r => P r.1) E := by
  have hab : ∀ k, P k → Sat (do let k ← abortChord pe k; .ok (k, true) : Res (Kbd × Bool))
      (fun r => P r.1) E := fun k hk => (abortChord_sat I hpe hk).bind (fun _ h => h)
  have hre : ∀ k, P k → Sat (do let k ← resolveChord pe k; .ok (k, true) : Res (Kbd × Bool))
      (fun r => P r.1) E := fun k hk => (resolveChord_sat I hpe hk).bind (fun _ h => h)
  unfold chordMachine
  split
  · exact h
  · refine (enqueueChordEvent_sat I _ _ _ (I.chord _ _ h)).bind ?_
    intro k1 h1
    exact chordDecide_sat I hpe _ _ (fun k hk => hk) h1
  · split
    · split
      · split
        · dsimp only
          split
          · refine (scheduleTimeout_sat I _ h).bind ?_
            intro k1 h1
            exact I.chord _ _ h1
          · exact hre _ h
        · exact hab _ h
      · exact h
    · refine (enqueueChordEvent_sat I _ _ _ h).bind ?_
      intro k1 h1
      split
      · exact hab _ h1
      · exact chordDecide_sat I hpe _ _ hab h1
  · split
    · split
      · exact hre _ h
      · exact h
    · refine (enqueueChordEvent_sat I _ _ _ h).bind ?_
      intro k1 h1
      split
      · split
        · exact I.errs _ (by simp [InfraErr])
        · split
          · exact hab _ h1
          · exact h1
      · exact h1

theorem handleChord_sat (I : EngineInv P E) {pe : PE} (hpe : PESat P E pe) {k : Kbd}
    (c : Code) (p : Bool) (t : Int) (h : P k) :
    Sat (handleChord pe k c p t) (fun r => P r.1) E := by
  unfold handleChord
  split
  · exact (strikeChord_sat I hpe _ _ _ h).bind (fun _ h => h)
  · exact chordMachine_sat I hpe _ _ _ h

theorem pendingDecision_cases (p : PendingKey) (c : Code) (pr : Bool) (t : Int) :
    pendingDecision p c pr t = .none ∨ pendingDecision p c pr t = p.action1 ∨
    pendingDecision p c pr t = p.action2 ∨ pendingDecision p c pr t = .keyseq KEYD.NOOP 0 := by
  unfold pendingDecision
  repeat' split
  all_goals simp

theorem handlePendingKey_sat (I : EngineInv P E) {pe : PE} (hpe : PESat P E pe) {k : Kbd}
    (c : Code) (p : Bool) (t : Int) (h : P k) :
    Sat (handlePendingKey pe k c p t) (fun r => P r.1 ∧ (r.2 = false → PassesPending r.1 c p)) E := by
  unfold handlePendingKey
  split
  · rename_i h0; exact ⟨h, fun _ => .inr (.inl h0)⟩
  · rename_i hc
    have h1 : Sat (pendingEnqueue k c p t)
        (fun r => match r with
          | none => p = false ∧ c ≠ k.pending.code
          | some k' => P k' ∧ k'.pending.code = k.pending.code) E := by
      unfold pendingEnqueue
      split
      · exact ⟨h, rfl⟩
      · split
        · exact I.errs _ (by simp [InfraErr])
        · split
          · rename_i hx; exact ⟨by simpa using hx.1, hx.2.2⟩
          · exact ⟨I.enqueue _ _ h hc, rfl⟩
    refine h1.bind ?_
    rintro (_ | k1) h2
    · exact ⟨h, fun _ => .inr (.inr h2)⟩
    · obtain ⟨h2, h3⟩ := h2
      dsimp only
      split
      · exact ⟨h2, fun e => by cases e⟩
      · rename_i hne
        have hcases := pendingDecision_cases k1.pending c p t
        refine (I.resolve k1 _ t h2 (by rw [h3]; exact hc) hne (by tauto)).bind ?_
        rintro ⟨k2, q⟩ hk2
        refine (processEventsLoop_sat I hpe _ _ _ _ hk2).bind ?_
        rintro ⟨k3, t3⟩ hk3
        exact ⟨hk3, fun e => by cases e⟩

theorem processEventBody_sat (I : EngineInv P E) {pe : PE} (hpe : PESat P E pe) :
    PESat P E (processEventBody pe) := by
  intro k c p t h
  unfold processEventBody
  refine (handleChord_sat I hpe c p t h).bind ?_
  rintro ⟨k1, b1⟩ h1
  refine Sat.bind (Q := P) ?_ (fun k2 h2 => I.timeouts _ _ h2)
  dsimp only
  split
  · exact h1
  · have h1' : P (if c = 0 then k1 else k1.log (.passed ⟨c, p, t⟩)) := by
      split
      · exact h1
      · exact I.passed _ _ h1
    refine (handlePendingKey_sat I hpe c p t h1').bind ?_
    rintro ⟨k2, b2⟩ ⟨h2, hp⟩
    dsimp only at h2 hp ⊢
    split
    · exact h2
    · rename_i hb
      refine ((I.timers _ c t h2).and_any (Calm.stepTimers k2 c t)).bind (fun k3 h3 => I.key _ _ _ _ h3.1 ?_)
      unfold PassesPending
      rw [h3.2.pending]
      exact hp (by simpa using hb)

/-- The generic invariant principle for `process_event`. -/
theorem processEvent_sat (I : EngineInv P E) : ∀ n, PESat P E (processEvent n)
  | 0 => fun _ _ _ _ _ => I.errs _ (by simp [InfraErr])
  | n+1 => processEventBody_sat I (processEvent_sat I n)

/-- The generic invariant principle for `kbd_process_events`. -/
theorem kbdProcessEvents_sat (I : EngineInv P E) (n : Nat) (k : Kbd) (evs : List KeyEvent)
    (h : P k) : Sat (kbdProcessEvents n k evs) (fun r => P r.1) E :=
  processEventsLoop_sat I (processEvent_sat I n) _ _ _ _ h

end Keyd
