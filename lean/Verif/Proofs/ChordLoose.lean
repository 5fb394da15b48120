import Verif.Proofs.ChordInv

/-
  What is left of the chord invariant when bindings change at run time: the chord noted while the
  engine waits is only a position in the table of a layer, and a binding may have been replaced there.
-/

set_option autoImplicit false

namespace Keyd

/-- The queue of held back events is shorter than the chord that replaced the noted one. -/
def overrun : Err := .oob "chord.queue + queue_offset"

/-- `s` says that no binding changes while a chord is being decided. -/
def LooseErr (s : Prop) (e : Err) : Prop := TameErr e ∨ (¬ s ∧ e = overrun)

theorem TameErr.loose {s : Prop} {e : Err} (h : TameErr e) : LooseErr s e := .inl h

theorem Sat.loose {α : Type} {r : Res α} {Q : α → Prop} {s : Prop} (h : Sat r Q TameErr) : Sat r Q (LooseErr s) :=
  h.mono (fun _ h => h) (fun _ h => h.loose)

structure LooseInv (s : Prop) (c : Config) (k : Kbd) : Prop where
  term : TermInv c k
  hold : k.chord.state = .pendingHoldTimeout → k.chord.match ≠ none
  presses : s → k.chord.state = .pendingDisambiguation → ∀ e ∈ k.chord.queue, e.pressed = true
  noted : s → waiting k.chord.state = true → ∀ p, k.chord.match = some p → NotedBy c p k.chord.queue

theorem LooseInv.idle {s : Prop} {c : Config} {k : Kbd} (h : TermInv c k) (hs : waiting k.chord.state = false) : LooseInv s c k :=
  ⟨h, (fun h' => by rw [h'] at hs; cases hs), (fun _ h' => by rw [h'] at hs; cases hs), (fun _ h' => by rw [h'] at hs; cases hs)⟩

theorem LooseInv.congr {s : Prop} {c : Config} {k k' : Kbd} (h : LooseInv s c k) (ht : TermInv c k')
    (hc : k'.chord = k.chord) : LooseInv s c k' :=
  ⟨ht, by rw [hc]; exact h.hold, by rw [hc]; exact h.presses, by rw [hc]; exact h.noted⟩

theorem checkChordMatch_loose {s : Prop} {c : Config} {k : Kbd} (hc : k.config = c)
    (hq : s → (∀ e ∈ k.chord.queue, e.pressed = true) ∨ (∀ e ∈ k.chord.queue, e.pressed = false)) :
    ∃ n m l, checkChordMatch k = (n, { k with chord := { k.chord with «match» := m, matchLayer := l } }) ∧
      (n = 2 → m ≠ none) ∧
      (s → m = k.chord.match ∨ ∃ p, m = some p ∧ NotedBy c p k.chord.queue) ∧
      (s → n ≠ 0 → ∀ e ∈ k.chord.queue, e.pressed = true) := by
  by_cases hs : s
  · obtain ⟨n, m, l, h1, h2, h3, h4⟩ := checkChordMatch_noted hc (hq hs)
    exact ⟨n, m, l, h1, h2, fun _ => h3, fun _ => h4⟩
  · unfold checkChordMatch
    dsimp only
    match hfull : (chordScan k).full with
    | some (l, i) => exact ⟨_, _, _, rfl, (fun _ h => by cases h), fun h => absurd h hs, fun h => absurd h hs⟩
    | none =>
      refine ⟨_, k.chord.match, k.chord.matchLayer, rfl, fun h => ?_, fun h => absurd h hs, fun h => absurd h hs⟩
      exfalso
      split at h <;> omega

def LooseKeep (s : Prop) (c : Config) (pe : PE) : Prop :=
  ∀ k code p t, LooseInv s c k → Sat (pe k code p t) (fun r => LooseInv s c r.1 ∧ SameMode k r.1) (LooseErr s)

section
variable {s : Prop} {c : Config} {pe : PE} (hp : LooseKeep s c pe)
include hp

theorem catchUp_loose : ∀ (n : Nat) (k : Kbd) (to ts lim : Int), LooseInv s c k →
    Sat (catchUp pe n k to ts lim) (fun r => LooseInv s c r.1 ∧ SameMode k r.1) (LooseErr s)
  | 0, _, _, _, _, _ => .inl (.inl rfl)
  | n+1, k, to, ts, lim, hi => by
    unfold catchUp
    refine Sat.ite (fun hc => ?_) (fun _ => ⟨hi, SameMode.refl k⟩)
    refine (hp k 0 false ts hi).bind (fun r hr => ?_)
    obtain ⟨k1, t⟩ := r
    obtain ⟨h1, h3⟩ := hr
    dsimp only at h1 h3 ⊢
    exact (catchUp_loose n k1 t (ts + t) lim h1).imp (fun r hr => ⟨hr.1, h3.trans hr.2⟩)

theorem loop_loose : ∀ (evs : List KeyEvent) (k : Kbd) (to ts : Int), LooseInv s c k →
    Sat (processEventsLoop pe evs k to ts) (fun r => LooseInv s c r.1 ∧ SameMode k r.1) (LooseErr s)
  | [], k, to, ts, hi => ⟨hi, SameMode.refl k⟩
  | ev :: rest, k, to, ts, hi => by
    unfold processEventsLoop
    refine (catchUp_loose hp _ k to ts ev.ts hi).bind (fun r hr => ?_)
    obtain ⟨k1, to1, ts1⟩ := r
    obtain ⟨h1, h3⟩ := hr
    dsimp only at h1 h3 ⊢
    refine (hp k1 ev.code ev.pressed ev.ts h1).bind (fun r hr => ?_)
    obtain ⟨k2, t⟩ := r
    obtain ⟨g1, g3⟩ := hr
    dsimp only at g1 g3 ⊢
    refine (loop_loose rest k2 t (ev.ts + t) g1).imp ?_
    intro r hr
    exact ⟨hr.1, (h3.trans g3).trans hr.2⟩

theorem resolveChord_loose (hc : TermCfg c) {k : Kbd} (h : TermInv c k)
    (hn : s → ∀ p, k.chord.match = some p → NotedBy c p k.chord.queue) :
    Sat (resolveChord pe k) (fun k' => LooseInv s c k' ∧ k'.chord.state = .inactive) (LooseErr s) := by
  unfold resolveChord
  dsimp only
  refine Sat.bind (Q := fun r : Kbd × Nat => LooseInv s c r.1 ∧ (s → r.1.chord = { k.chord with state := .resolving } ∧
      r.2 ≤ k.chord.queue.length)) ?_ (fun r hr => ?_)
  · split
    · exact ⟨LooseInv.idle (h.setChord _) rfl, fun _ => ⟨rfl, Nat.zero_le _⟩⟩
    · rename_i p hm
      unfold installChord
      dsimp only
      split
      · exact .inl (.inr (by decide))
      · rename_i j hj
        rw [bind_ok]
        dsimp only
        refine (hp _ _ true _ (LooseInv.idle ?_ rfl)).bind (fun r hr => ?_)
        · refine TermInv.setSlot (k := Kbd.logSwallowed { k with chord := { k.chord with state := .resolving } } _)
            ⟨h.1, h.2, h.3⟩ j _ ?_
          dsimp only
          unfold derefChord
          dsimp only
          rw [h.config]
          exact hc.chords p.1 p.2
        · obtain ⟨k2, t⟩ := r
          obtain ⟨g1, g3⟩ := hr
          dsimp only at g1 g3 ⊢
          refine ⟨g1, fun hs => ⟨g3.resolving rfl, ?_⟩⟩
          obtain ⟨L, ch, hL, hch, hlen, _⟩ := hn hs p hm
          unfold derefChord
          dsimp only
          rw [h.config, layer_of_getElem hL, List.getD_eq_getElem?_getD, hch]
          exact hlen
  · obtain ⟨k1, off⟩ := r
    obtain ⟨h1, h2⟩ := hr
    dsimp only at h1 h2 ⊢
    refine Sat.ite (fun hlt => .inr ⟨fun hs => ?_, rfl⟩) (fun _ => ?_)
    · obtain ⟨h2, h3⟩ := h2 hs
      have hq : k1.chord.queue = k.chord.queue := by rw [h2]
      rw [hq] at hlt; omega
    · refine (loop_loose hp (k1.chord.queue.drop off) k1 0 0 h1).bind (fun r hr => ?_)
      exact ⟨LooseInv.idle (hr.1.term.setChord _) rfl, rfl⟩

theorem abortChord_loose (hc : TermCfg c) {k : Kbd} (h : TermInv c k) :
    Sat (abortChord pe k) (fun k' => LooseInv s c k' ∧ k'.chord.state = .inactive) (LooseErr s) :=
  resolveChord_loose hp hc (h.setChord _) (fun _ p h => by cases h)

theorem chordDecide_loose (hc : TermCfg c) {k : Kbd} (t : Int) (h : TermInv c k)
    (hq : s → (∀ e ∈ k.chord.queue, e.pressed = true) ∨ (∀ e ∈ k.chord.queue, e.pressed = false))
    (hn : s → ∀ p, k.chord.match = some p → NotedBy c p k.chord.queue)
    (ifNone : Kbd → Res (Kbd × Bool)) {Q : Kbd × Bool → Prop}
    (hNone : ∀ k', TermInv c k' → k'.chord.state = k.chord.state → Sat (ifNone k') Q (LooseErr s))
    (hQ : ∀ k', LooseInv s c k' → k'.chord.state ≠ .resolving → Q (k', true)) :
    Sat (chordDecide pe k t ifNone) Q (LooseErr s) := by
  obtain ⟨n, m, l, hm, h2, h3, h4⟩ := checkChordMatch_loose h.config hq
  have hn' : s → ∀ p, m = some p → NotedBy c p k.chord.queue := by
    intro hs p hp
    rcases h3 hs with h3 | ⟨p', h3, h5⟩
    · exact hn hs p (by rw [← h3]; exact hp)
    · rw [h3] at hp; injection hp with hp; rw [← hp]; exact h5
  unfold chordDecide
  rw [hm]
  split
  · rename_i heq
    cases heq
    exact hNone _ (h.setChord _) rfl
  · rename_i heq
    cases heq
    dsimp only
    refine Sat.ite (fun _ => ?_) (fun _ => ?_)
    · refine Sat.bind (Tame.sat (Tame.schedule _ _) (Calm.schedule _ _)).loose (fun k1 h1 => hQ _ ?_ ?_)
      · refine ⟨TermInv.calm (h.setChord _) h1, ?_, ?_, ?_⟩
        · rw [h1.chord]; exact fun _ => h2 rfl
        · rw [h1.chord]; exact fun _ h => by cases h
        · rw [h1.chord]; exact fun hs _ => hn' hs
      · rw [h1.chord]; exact fun h => by cases h
    · exact Sat.bind (resolveChord_loose hp hc (h.setChord _) hn')
        (fun k1 h1 => hQ k1 h1.1 (by rw [h1.2]; exact fun h => by cases h))
  · rename_i h0 _ heq
    cases heq
    dsimp only
    refine Sat.bind (Tame.sat (Tame.schedule _ _) (Calm.schedule _ _)).loose (fun k1 h1 => hQ _ ?_ ?_)
    · refine ⟨TermInv.calm (h.setChord _) h1, ?_, ?_, ?_⟩
      · rw [h1.chord]; exact fun h => by cases h
      · rw [h1.chord]; exact fun hs _ => h4 hs (fun hz => h0 hz)
      · rw [h1.chord]; exact fun hs _ => hn' hs
    · rw [h1.chord]; exact fun h => by cases h

def AfterLoose (s : Prop) (c : Config) (k : Kbd) (r : Kbd × Bool) : Prop := LooseInv s c r.1 ∧ SameMode k r.1

theorem chordMachine_loose (hc : TermCfg c) {k : Kbd} (code : Code) (p : Bool) (t : Int) (h : LooseInv s c k) :
    Sat (chordMachine pe k code p t) (AfterLoose s c k) (LooseErr s) := by
  have skip : AfterLoose s c k (k, false) := ⟨h, SameMode.refl k⟩
  unfold chordMachine
  split
  · exact skip
  · rename_i hst
    have nores : k.chord.state ≠ .resolving := by rw [hst]; exact fun h => by cases h
    dsimp only
    refine (enqueueChord_mat code p t).loose.bind (fun k1 h1 => ?_)
    obtain ⟨q, rfl, hq⟩ := h1
    dsimp only
    refine chordDecide_loose hp hc t (h.term.setChord _) (fun _ => ?_) (fun _ p h => by cases h) _ ?_ ?_
    · cases p
      · exact .inr (by simpa using hq)
      · exact .inl (by simpa using hq)
    · intro k' g1 g4
      have g4 : k'.chord.state = .inactive := g4.trans hst
      exact ⟨LooseInv.idle g1 (by rw [g4]; rfl), ⟨fun hr => absurd hr nores, fun _ => (by rw [g4]; exact fun h => by cases h)⟩⟩
    · intro k' g1 g3
      exact ⟨g1, ⟨fun hr => absurd hr nores, fun _ => g3⟩⟩
  · rename_i hst
    have nores : k.chord.state ≠ .resolving := by rw [hst]; exact fun h => by cases h
    have fin : ∀ k', LooseInv s c k' → k'.chord.state ≠ .resolving → AfterLoose s c k (k', true) :=
      fun k' g1 g3 => ⟨g1, ⟨fun hr => absurd hr nores, fun _ => g3⟩⟩
    have hw : waiting k.chord.state = true := by rw [hst]; rfl
    refine Sat.ite (fun h0 => ?_) (fun h0 => ?_)
    · refine Sat.ite (fun _ => Sat.ite (fun hsome => ?_) (fun _ => ?_)) (fun _ => skip)
      · dsimp only
        refine Sat.ite (fun _ => ?_) (fun _ => ?_)
        · refine Sat.bind (Tame.sat (Tame.schedule k _) (Calm.schedule k _)).loose (fun k1 h1 => ?_)
          refine fin _ ⟨(h.term.calm h1).setChord _, ?_, (fun _ h => by cases h), ?_⟩ (fun h => by cases h)
          · dsimp only
            rw [h1.chord]
            intro _ hnone
            rw [hnone] at hsome
            cases hsome
          · dsimp only
            rw [h1.chord]
            exact fun hs _ => h.noted hs hw
        · refine (resolveChord_loose hp hc h.term (fun hs => h.noted hs hw)).bind (fun k1 h1 => ?_)
          exact fin _ h1.1 (by rw [h1.2]; exact fun h => by cases h)
      · refine (abortChord_loose hp hc h.term).bind (fun k1 h1 => ?_)
        exact fin _ h1.1 (by rw [h1.2]; exact fun h => by cases h)
    · refine (enqueueChord_mat code p t).loose.bind (fun k1 h1 => ?_)
      obtain ⟨q, rfl, hq⟩ := h1
      have ab : ∀ k', TermInv c k' → Sat (do let k ← abortChord pe k'; Except.ok (k, true)) (AfterLoose s c k) (LooseErr s) := by
        intro k' g1
        refine (abortChord_loose hp hc g1).bind (fun k2 f2 => ?_)
        exact fin _ f2.1 (by rw [f2.2]; exact fun h => by cases h)
      refine Sat.ite (fun _ => ab _ (h.term.setChord _)) (fun hpr => ?_)
      have hpt : p = true := by simpa using hpr
      subst hpt
      refine chordDecide_loose hp hc t (h.term.setChord _) (fun hs => .inl ?_) ?_ _ (fun k' g1 _ => ab k' g1)
        (fun k' g1 g3 => fin k' g1 g3)
      · intro e he
        rcases List.mem_append.1 he with he | he
        · exact h.presses hs hst e he
        · exact hq e he
      · intro hs p hp'
        exact (h.noted hs hw p hp').append q
  · rename_i hst
    have nores : k.chord.state ≠ .resolving := by rw [hst]; exact fun h => by cases h
    have fin : ∀ k', LooseInv s c k' → k'.chord.state ≠ .resolving → AfterLoose s c k (k', true) :=
      fun k' g1 g3 => ⟨g1, ⟨fun hr => absurd hr nores, fun _ => g3⟩⟩
    have hw : waiting k.chord.state = true := by rw [hst]; rfl
    refine Sat.ite (fun h0 => ?_) (fun h0 => ?_)
    · refine Sat.ite (fun _ => ?_) (fun _ => skip)
      refine (resolveChord_loose hp hc h.term (fun hs => h.noted hs hw)).bind (fun k1 h1 => ?_)
      exact fin _ h1.1 (by rw [h1.2]; exact fun h => by cases h)
    · refine (enqueueChord_mat code p t).loose.bind (fun k1 h1 => ?_)
      obtain ⟨q, rfl, hq⟩ := h1
      have keep : AfterLoose s c k ({ k with chord := { k.chord with queue := k.chord.queue ++ q } }, true) :=
        fin _ ⟨h.term.setChord _, fun _ => h.hold hst, (fun _ h' => by
          dsimp only at h'
          rw [hst] at h'; cases h'), fun hs _ p hp => (h.noted hs hw p hp).append q⟩ nores
      refine Sat.ite (fun _ => ?_) (fun _ => keep)
      split
      · rename_i hnone
        exact absurd hnone (h.hold hst)
      · refine Sat.ite (fun _ => ?_) (fun _ => keep)
        refine Sat.bind (abortChord_loose hp hc (h.term.setChord _)) (fun k2 h2 => ?_)
        exact fin _ h2.1 (by rw [h2.2]; exact fun h => by cases h)

theorem strikeChord_loose {k : Kbd} {i : Nat} {code : Code} (t : Int)
    (hf : findActiveChord code k.activeChords 0 = some i) (h : LooseInv s c k) :
    Sat (strikeChord pe k i code t) (fun k' => AfterLoose s c k (k', true)) (LooseErr s) := by
  obtain ⟨a, _, ha, hact, hmem⟩ := findActiveChord_some _ _ _ _ hf
  rw [Nat.sub_zero] at ha
  have hin : a ∈ k.activeChords := List.mem_of_getElem? ha
  have hkeys : ∀ x ∈ chordStrike code a.chord.keys, ¬ IsChordCode x := by
    intro x hx
    obtain ⟨y, hy, he⟩ := List.mem_map.1 hx
    split at he
    · subst he; decide
    · subst he; exact h.term.keys a hin _ hy
  have hget : k.activeChords.getD i {} = a := by rw [List.getD_eq_getElem?_getD, ha]; rfl
  have hi : ∀ b : Bool, LooseInv s c (setSlot (k.logSwallowed [⟨code, false, t⟩]) i (strickenChord code a b)) := fun b =>
    ⟨TermInv.setSlot (k := k.logSwallowed [⟨code, false, t⟩]) ⟨h.term.1, h.term.2, h.term.3⟩ i _ hkeys, h.hold, h.presses, h.noted⟩
  have hm : ∀ b, SameMode k (setSlot (k.logSwallowed [⟨code, false, t⟩]) i b) := fun b => SameMode.of_chord rfl
  unfold strikeChord
  rw [hget]
  dsimp only
  refine Sat.ite (fun _ => ?_) (fun hleft => ?_)
  · refine (hp _ (KEYD.CHORD_1 + UInt8.ofNat i) false t (hi false)).bind (fun r hr => ?_)
    obtain ⟨k1, t1⟩ := r
    obtain ⟨g1, g3⟩ := hr
    dsimp only at g1 g3 ⊢
    exact ⟨g1, (hm _).trans g3⟩
  · exact ⟨hi a.active, hm _⟩

theorem handleChord_loose (hc : TermCfg c) {k : Kbd} (code : Code) (p : Bool) (t : Int) (h : LooseInv s c k) :
    Sat (handleChord pe k code p t) (AfterLoose s c k) (LooseErr s) := by
  unfold handleChord
  split
  · rename_i i hf
    split at hf
    · exact (strikeChord_loose hp t hf h).bind (fun k1 h1 => h1)
    · cases hf
  · exact chordMachine_loose hp hc code p t h

omit hp in
theorem descriptor_loose (hc : TermCfg c) {k : Kbd} (h : LooseInv s c k) (code : Code) (d : Desc) (dl : Nat) (p : Bool) (t : Int) :
    Sat (processDescriptor (descBudget k) k code d dl p t) (fun k' => LooseInv s c k' ∧ SameMode k k') (LooseErr s) := by
  refine Sat.loose (Tame.sat (Tame.descriptor _ _ _ _ _ _ _) ((mild_descriptor hc.nest _ k code d dl p t h.term.config
    (h.term.config ▸ descBudget_rank k d)).imp (fun k' hm => ?_)))
  exact ⟨h.congr (h.term.mild hm) hm.chord, SameMode.of_chord hm.chord⟩

theorem handlePendingKey_loose (hc : TermCfg c) {k : Kbd} (code : Code) (p : Bool) (t : Int) (h : LooseInv s c k) :
    Sat (handlePendingKey pe k code p t) (AfterLoose s c k) (LooseErr s) := by
  have skip : AfterLoose s c k (k, false) := ⟨h, SameMode.refl k⟩
  unfold handlePendingKey
  refine Sat.ite (fun _ => skip) (fun hpend => ?_)
  refine Sat.bind (Q := fun o => match o with
      | none => True
      | some k1 => ∃ q, k1 = { k with pending := { k.pending with queue := q } }) ?_ (fun o ho => ?_)
  · unfold pendingEnqueue
    refine Sat.ite (fun h0 => ?_) (fun _ => Sat.ite (fun _ => ?_) (fun _ => Sat.ite (fun _ => trivial) (fun _ => ?_)))
    · exact ⟨k.pending.queue, rfl⟩
    · exact .inl (.inr (by decide))
    · exact ⟨_, rfl⟩
  · split
    · exact skip
    · rename_i k1
      obtain ⟨q, rfl⟩ := ho
      dsimp only
      refine Sat.ite (fun _ => ?_) (fun hne => ?_)
      · exact ⟨h.congr ⟨h.term.1, h.term.2, h.term.3⟩ rfl, SameMode.of_chord rfl⟩
      · generalize hact : pendingDecision _ code p t = action
        unfold resolvePendingStep
        dsimp only
        refine Sat.bind (Q := fun r : Kbd × List KeyEvent => LooseInv s c r.1 ∧ SameMode k r.1) ?_ (fun r hr => ?_)
        · generalize hk2 : (Option.getD _ _ : Kbd).log _ = k2
          have ex : LooseInv s c k2 ∧ SameMode k k2 := by
            subst hk2
            cases hcs : cacheSet { k with pending := { k.pending with code := 0, queue := [], tapExpiry := 0 } } k.pending.code
              (some { d := action, dl := k.pending.dl, layer := 0 }) with
            | none => exact ⟨h.congr ⟨h.term.1, h.term.2, h.term.3⟩ rfl, SameMode.of_chord rfl⟩
            | some k3 =>
              obtain ⟨l, rfl⟩ := cacheSet_frame hcs
              exact ⟨h.congr ⟨h.term.1, h.term.2, h.term.3⟩ rfl, SameMode.of_chord rfl⟩
          refine (descriptor_loose hc ex.1 k.pending.code action k.pending.dl true t).bind (fun k3 h3 => ?_)
          exact ⟨h3.1, ex.2.trans h3.2⟩
        · obtain ⟨k3, q'⟩ := r
          obtain ⟨h3, h4⟩ := hr
          dsimp only at h3 h4 ⊢
          refine (loop_loose hp q' k3 0 0 h3).bind (fun r hr => ?_)
          obtain ⟨k4, t4⟩ := r
          obtain ⟨g1, g3⟩ := hr
          dsimp only at g1 g3 ⊢
          exact ⟨g1, h4.trans g3⟩

omit hp in
theorem stepKey_loose (hc : TermCfg c) {k : Kbd} (code : Code) (p : Bool) (t : Int) (h : LooseInv s c k) :
    Sat (stepKey k code p t) (fun k' => LooseInv s c k' ∧ SameMode k k') (LooseErr s) := by
  have lg : ∀ l b u, LooseInv s c (Kbd.log { k with cache := l } (.key code b t u)) ∧
      SameMode k (Kbd.log { k with cache := l } (.key code b t u)) := fun l b u =>
    ⟨h.congr ⟨h.term.1, h.term.2, h.term.3⟩ rfl, SameMode.of_chord rfl⟩
  have run : ∀ l u d dl b b', Sat (processDescriptor (descBudget (Kbd.log { k with cache := l } (.key code b t u)))
      (Kbd.log { k with cache := l } (.key code b t u)) code d dl b' t) (fun k' => LooseInv s c k' ∧ SameMode k k') (LooseErr s) := by
    intro l u d dl b b'
    exact (descriptor_loose hc (lg l b u).1 code d dl b' t).imp (fun k1 h1 => ⟨h1.1, (lg l b u).2.trans h1.2⟩)
  unfold stepKey
  refine Sat.ite (fun h0 => ?_) (fun h0 => Sat.ite (fun hp' => Sat.ite (fun _ => ?_) (fun _ => ?_)) (fun hp' => ?_))
  · exact ⟨h, SameMode.refl k⟩
  · exact lg k.cache true none
  · dsimp only
    split
    · exact lg k.cache true none
    · rename_i k1 hk1
      obtain ⟨l, rfl⟩ := cacheSet_frame hk1
      exact run l _ _ _ _ _
  · split
    · exact lg k.cache false none
    · rename_i ce _
      dsimp only
      cases hcs : cacheSet k code none with
      | none => exact run k.cache _ _ _ _ _
      | some k1 =>
        obtain ⟨l, rfl⟩ := cacheSet_frame hcs
        exact run l _ _ _ _ _

theorem processEventBody_loose (hc : TermCfg c) : LooseKeep s c (processEventBody pe) := by
  intro k code p t h
  unfold processEventBody
  refine (handleChord_loose hp hc code p t h).bind (fun r hr => ?_)
  obtain ⟨k1, b1⟩ := r
  obtain ⟨h1, h2⟩ := hr
  dsimp only at h1 h2 ⊢
  refine Sat.bind (Q := fun k' => LooseInv s c k' ∧ SameMode k k') ?_
    (fun k' g => ⟨g.1.congr ⟨g.1.term.1, g.1.term.2, g.1.term.3⟩ rfl, g.2.trans (SameMode.of_chord rfl)⟩)
  refine Sat.ite (fun hb => ⟨h1, h2⟩) (fun hb => ?_)
  generalize hk2 : (if code = 0 then k1 else k1.log (.passed ⟨code, p, t⟩)) = k2
  have ex : LooseInv s c k2 ∧ k2.chord = k1.chord := by
    subst hk2
    split
    · exact ⟨h1, rfl⟩
    · exact ⟨h1.congr ⟨h1.term.1, h1.term.2, h1.term.3⟩ rfl, rfl⟩
  obtain ⟨e1, e3⟩ := ex
  have e3 : SameMode k k2 := h2.trans (SameMode.of_chord e3)
  refine (handlePendingKey_loose hp hc code p t e1).bind (fun r hr => ?_)
  obtain ⟨k3, b3⟩ := r
  obtain ⟨g1, g2⟩ := hr
  dsimp only at g1 g2 ⊢
  refine Sat.ite (fun hb => ⟨g1, e3.trans g2⟩) (fun hb => ?_)
  refine Sat.bind (Tame.sat (Tame.stepTimers k3 code t) (Calm.stepTimers k3 code t)).loose (fun k4 f => ?_)
  refine (stepKey_loose hc code p t (g1.congr (g1.term.calm f) f.chord)).imp (fun k5 f5 => ?_)
  exact ⟨f5.1, (e3.trans g2).trans ((SameMode.of_chord f.chord).trans f5.2)⟩

end

theorem processEvent_loose {s : Prop} {c : Config} (hc : TermCfg c) : ∀ n, LooseKeep s c (processEvent n)
  | 0 => fun _ _ _ _ _ => .inl (.inl rfl)
  | n+1 => processEventBody_loose (processEvent_loose hc n) hc

end Keyd
