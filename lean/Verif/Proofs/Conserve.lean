import Verif.Proofs.Potential
import Verif.Spec.Arrivals

/-
  Every physical event is accounted for exactly once.
-/

set_option autoImplicit false

namespace Keyd

/-- A weight for events, and one for the active chords which makes up for the events the engine
creates for them. -/
structure Tally where
  w : KeyEvent → Int
  slot : List ActiveChord → Int
  zero : ∀ p t, w ⟨0, p, t⟩ = 0
  install : ∀ (as : List ActiveChord) (i : Nat) (a b : ActiveChord) (t : Int), i < 3 → as[i]? = some a → a.active = false →
    b.active = true → slot (as.set i b) + w ⟨KEYD.CHORD_1 + UInt8.ofNat i, true, t⟩ = slot as
  finish : ∀ (as : List ActiveChord) (i : Nat) (a b : ActiveChord) (t : Int), i < 3 → as[i]? = some a → a.active = true →
    b.active = false → slot (as.set i b) + w ⟨KEYD.CHORD_1 + UInt8.ofNat i, false, t⟩ = slot as
  strike : ∀ (as : List ActiveChord) (i : Nat) (a b : ActiveChord), as[i]? = some a → b.active = a.active →
    slot (as.set i b) = slot as

def Tally.sum (m : Tally) (l : List KeyEvent) : Int := (l.map m.w).sum

theorem Tally.sum_append (m : Tally) (a b : List KeyEvent) : m.sum (a ++ b) = m.sum a + m.sum b := by
  unfold Tally.sum
  rw [List.map_append, List.sum_append]

theorem Tally.sum_one (m : Tally) (e : KeyEvent) : m.sum [e] = m.w e := by
  unfold Tally.sum
  simp

theorem Tally.sum_nil (m : Tally) : m.sum [] = 0 := rfl

/-- The weight of everything that has been processed, absorbed or is held back, and of the active chords. -/
def seen (m : Tally) (k : Kbd) : Int :=
  m.sum k.processed + m.sum k.absorbed + m.sum k.pending.queue + m.slot k.activeChords +
    (if waiting k.chord.state = true then m.sum k.chord.queue else 0)

theorem seen_congr {m : Tally} {k k' : Kbd} (hs : k'.steps = k.steps) (hq : k'.pending.queue = k.pending.queue)
    (hc : k'.chord = k.chord) (ha : k'.activeChords = k.activeChords) : seen m k' = seen m k := by
  unfold seen Kbd.processed Kbd.absorbed
  rw [hs, hq, hc, ha]

theorem processed_log (k : Kbd) (s : Step) : (k.log s).processed = k.processed ++ s.keyEvent.toList := by
  unfold Kbd.processed Kbd.log
  simp only [List.reverse_cons, List.filterMap_append]
  cases s <;> rfl

theorem absorbed_log (k : Kbd) (s : Step) : (k.log s).absorbed = k.absorbed ++ s.swallowedEvent.toList := by
  unfold Kbd.absorbed Kbd.log
  simp only [List.reverse_cons, List.filterMap_append]
  cases s <;> rfl

theorem processed_swallow (k : Kbd) (l : List KeyEvent) : (k.logSwallowed l).processed = k.processed := by
  unfold Kbd.processed Kbd.logSwallowed
  simp only [List.reverse_append, List.reverse_reverse, List.filterMap_append]
  rw [show (l.map Step.swallowed).filterMap Step.keyEvent = [] by
    rw [List.filterMap_map]; simp [Function.comp_def, Step.keyEvent]]
  simp

theorem absorbed_swallow (k : Kbd) (l : List KeyEvent) : (k.logSwallowed l).absorbed = k.absorbed ++ l := by
  unfold Kbd.absorbed Kbd.logSwallowed
  simp only [List.reverse_append, List.reverse_reverse, List.filterMap_append]
  congr 1
  rw [List.filterMap_map]
  simp [Function.comp_def, Step.swallowedEvent]

/-- The same without the events behind an undecided chord. -/
def core (m : Tally) (k : Kbd) : Int :=
  m.sum k.processed + m.sum k.absorbed + m.sum k.pending.queue + m.slot k.activeChords

theorem seen_core (m : Tally) (k : Kbd) :
    seen m k = core m k + (if waiting k.chord.state = true then m.sum k.chord.queue else 0) := rfl

theorem core_congr {m : Tally} {k k' : Kbd} (hs : k'.steps = k.steps) (hq : k'.pending.queue = k.pending.queue)
    (ha : k'.activeChords = k.activeChords) : core m k' = core m k := by
  unfold core Kbd.processed Kbd.absorbed
  rw [hs, hq, ha]

/-- The claim about (recursive calls of) `process_event`. -/
def Once (c : Config) (m : Tally) (pe : PE) : Prop :=
  ∀ k code p t, TermInv c k →
    Sat (pe k code p t) (fun r => TermInv c r.1 ∧ seen m r.1 = seen m k + m.w ⟨code, p, t⟩ ∧ SameMode k r.1) AnyErr

section
variable {c : Config} {m : Tally} {pe : PE} (hp : Once c m pe)
include hp

theorem catchUp_once : ∀ (n : Nat) (k : Kbd) (to ts lim : Int), TermInv c k →
    Sat (catchUp pe n k to ts lim) (fun r => TermInv c r.1 ∧ seen m r.1 = seen m k ∧ SameMode k r.1) AnyErr
  | 0, _, _, _, _, _ => trivial
  | n+1, k, to, ts, lim, hi => by
    unfold catchUp
    refine Sat.ite (fun hc => ?_) (fun _ => ⟨hi, rfl, SameMode.refl k⟩)
    refine (hp k 0 false ts hi).bind (fun r hr => ?_)
    obtain ⟨k1, t⟩ := r
    obtain ⟨h1, h2, h3⟩ := hr
    dsimp only at h1 h2 h3 ⊢
    rw [m.zero, Int.add_zero] at h2
    exact (catchUp_once n k1 t (ts + t) lim h1).imp (fun r hr => ⟨hr.1, hr.2.1.trans h2, h3.trans hr.2.2⟩)

theorem loop_once : ∀ (evs : List KeyEvent) (k : Kbd) (to ts : Int), TermInv c k →
    Sat (processEventsLoop pe evs k to ts)
      (fun r => TermInv c r.1 ∧ seen m r.1 = seen m k + m.sum evs ∧ SameMode k r.1) AnyErr
  | [], k, to, ts, hi => ⟨hi, (Int.add_zero _).symm, SameMode.refl k⟩
  | ev :: rest, k, to, ts, hi => by
    unfold processEventsLoop
    refine (catchUp_once hp _ k to ts ev.ts hi).bind (fun r hr => ?_)
    obtain ⟨k1, to1, ts1⟩ := r
    obtain ⟨h1, h2, h3⟩ := hr
    dsimp only at h1 h2 h3 ⊢
    refine (hp k1 ev.code ev.pressed ev.ts h1).bind (fun r hr => ?_)
    obtain ⟨k2, t⟩ := r
    obtain ⟨g1, g2, g3⟩ := hr
    dsimp only at g1 g2 g3 ⊢
    refine (loop_once rest k2 t (ev.ts + t) g1).imp ?_
    intro r hr
    refine ⟨hr.1, ?_, (h3.trans g3).trans hr.2.2⟩
    rw [hr.2.1, g2, h2]
    have : m.sum (ev :: rest) = m.sum [ev] + m.sum rest := m.sum_append [ev] rest
    rw [m.sum_one] at this
    have h5 : (⟨ev.code, ev.pressed, ev.ts⟩ : KeyEvent) = ev := rfl
    rw [h5]
    omega

theorem resolveChord_once (hc : TermCfg c) {k : Kbd} (h : TermInv c k) :
    Sat (resolveChord pe k) (fun k' => TermInv c k' ∧ k'.chord.state = .inactive ∧
      seen m k' + (if waiting k.chord.state = true then m.sum k.chord.queue else 0) = seen m k + m.sum k.chord.queue) AnyErr := by
  have res : ∀ k : Kbd, waiting k.chord.state = false → seen m k = core m k := by
    intro k hk
    rw [seen_core, hk]
    simp
  unfold resolveChord
  dsimp only
  refine Sat.bind (Q := fun r : Kbd × Nat => TermInv c r.1 ∧
      seen m r.1 + (if waiting k.chord.state = true then m.sum k.chord.queue else 0) = seen m k + m.sum (k.chord.queue.take r.2) ∧
      r.1.chord = { k.chord with state := .resolving }) ?_ (fun r hr => ?_)
  · have e0 : seen m { k with chord := { k.chord with state := .resolving } } +
        (if waiting k.chord.state = true then m.sum k.chord.queue else 0) = seen m k := by
      rw [res _ rfl, seen_core]
      rfl
    split
    · refine ⟨h.setChord _, ?_, rfl⟩
      dsimp only
      rw [List.take_zero, m.sum_nil, Int.add_zero]
      exact e0
    · rename_i p hm
      refine (Sat.mono (installChord_paid hc (h.setChord { k.chord with state := .resolving }) p)
        (fun _ h => h) (fun _ _ => trivial)).bind_eq (fun r heq hr => ?_)
      obtain ⟨k1, code, sz⟩ := r
      obtain ⟨h1, _, h3, _⟩ := hr
      dsimp only at h1 h3 ⊢
      have hcc : k1.steps = k.steps ∧ k1.pending = k.pending ∧
          ∀ t, m.slot k1.activeChords + m.w ⟨code, true, t⟩ = m.slot k.activeChords := by
        unfold installChord at heq
        dsimp only at heq
        split at heq
        · cases heq
        · rename_i i hi
          injection heq with heq
          injection heq with ha hb
          injection hb with hb hc'
          subst ha hb
          obtain ⟨a, _, ha, hact⟩ := freeChordSlot_some _ _ _ hi
          rw [Nat.sub_zero] at ha
          exact ⟨rfl, rfl, fun t => m.install _ _ a _ t (Nat.lt_of_lt_of_le (lt_of_getElem? ha) h.slots) ha hact rfl⟩
      have hl : TermInv c (k1.logSwallowed (k1.chord.queue.take sz)) := ⟨h1.1, h1.2, h1.3⟩
      have hst : (k1.logSwallowed (k1.chord.queue.take sz)).chord.state = .resolving := by
        show k1.chord.state = _
        rw [h3]
      have e1 : ∀ t, seen m k1 + m.w ⟨code, true, t⟩ = seen m { k with chord := { k.chord with state := .resolving } } := by
        intro t
        have := hcc.2.2 t
        rw [res k1 (by rw [h3]; rfl), res _ rfl]
        have e3 : k1.processed = k.processed ∧ k1.absorbed = k.absorbed := by
          unfold Kbd.processed Kbd.absorbed
          rw [hcc.1]
          exact ⟨rfl, rfl⟩
        unfold core
        rw [hcc.2.1, e3.1, e3.2]
        show _ = m.sum k.processed + m.sum k.absorbed + m.sum k.pending.queue + m.slot k.activeChords
        omega
      have e2 : seen m (k1.logSwallowed (k1.chord.queue.take sz)) = seen m k1 + m.sum (k.chord.queue.take sz) := by
        unfold seen
        rw [processed_swallow, absorbed_swallow, Tally.sum_append]
        show _ + _ + m.sum k1.pending.queue + m.slot k1.activeChords + (if waiting k1.chord.state = true then m.sum k1.chord.queue else 0) = _
        have : k1.chord.queue = k.chord.queue := by rw [h3]
        rw [this]
        omega
      refine (hp _ code true _ hl).bind (fun r hr => ?_)
      obtain ⟨k2, t⟩ := r
      obtain ⟨g1, g2, g3⟩ := hr
      dsimp only at g1 g2 g3 ⊢
      have e1 := e1 (k1.logSwallowed (k1.chord.queue.take sz)).chord.lastCodeTime
      refine ⟨g1, ?_, (g3.resolving hst).trans h3⟩
      dsimp only
      omega
  · obtain ⟨k1, off⟩ := r
    obtain ⟨h1, h2, h3⟩ := hr
    dsimp only at h1 h2 h3 ⊢
    refine Sat.ite (fun _ => trivial) (fun _ => ?_)
    refine (loop_once hp (k1.chord.queue.drop off) k1 0 0 h1).bind (fun r hr => ?_)
    obtain ⟨k2, t⟩ := r
    obtain ⟨g1, g2, g3⟩ := hr
    dsimp only at g1 g2 g3 ⊢
    refine ⟨g1.setChord _, rfl, ?_⟩
    have hst : k1.chord.state = .resolving := by rw [h3]
    have hq : k1.chord.queue = k.chord.queue := by rw [h3]
    have e1 : seen m { k2 with chord := { k2.chord with state := .inactive } } = seen m k2 := by
      rw [res k2 (by rw [g3.resolving hst, hst]; rfl)]
      rw [res _ rfl]
      rfl
    rw [e1, g2, hq]
    have : m.sum k.chord.queue = m.sum (k.chord.queue.take off) + m.sum (k.chord.queue.drop off) := by
      rw [← Tally.sum_append, List.take_append_drop]
    omega

/-- The same, counted without the chord's queue. -/
theorem resolveChord_core (hc : TermCfg c) {k : Kbd} (h : TermInv c k) :
    Sat (resolveChord pe k) (fun k' => TermInv c k' ∧ k'.chord.state = .inactive ∧
      seen m k' = core m k + m.sum k.chord.queue) AnyErr := by
  refine (resolveChord_once hp hc h).imp (fun k' hk => ⟨hk.1, hk.2.1, ?_⟩)
  have := hk.2.2
  rw [seen_core m k] at this
  omega

theorem abortChord_core (hc : TermCfg c) {k : Kbd} (h : TermInv c k) :
    Sat (abortChord pe k) (fun k' => TermInv c k' ∧ k'.chord.state = .inactive ∧
      seen m k' = core m k + m.sum k.chord.queue) AnyErr := resolveChord_core hp hc (h.setChord _)

omit hp in
theorem enqueueChord_once {k : Kbd} (code : Code) (p : Bool) (t : Int) (h : TermInv c k) :
    Sat (enqueueChordEvent k code p t) (fun k' => TermInv c k' ∧ core m k' = core m k ∧
      k'.chord.state = k.chord.state ∧ k'.chord.match = k.chord.match ∧
      m.sum k'.chord.queue = m.sum k.chord.queue + m.w ⟨code, p, t⟩) AnyErr := by
  unfold enqueueChordEvent
  refine Sat.ite (fun h0 => ?_) (fun _ => Sat.ite (fun _ => ?_) (fun _ => trivial))
  · subst h0
    refine ⟨h, rfl, rfl, rfl, ?_⟩
    rw [m.zero, Int.add_zero]
  · refine ⟨h.setChord _, rfl, rfl, rfl, ?_⟩
    show m.sum (k.chord.queue ++ _) = _
    rw [Tally.sum_append, Tally.sum_one]

theorem chordDecide_once (hc : TermCfg c) {k : Kbd} (t : Int) (h : TermInv c k)
    (ifNone : Kbd → Res (Kbd × Bool)) {Q : Kbd × Bool → Prop}
    (hNone : ∀ k', TermInv c k' → core m k' = core m k → k'.chord.queue = k.chord.queue →
      k'.chord.state = k.chord.state → Sat (ifNone k') Q AnyErr)
    (hQ : ∀ k', TermInv c k' → seen m k' = core m k + m.sum k.chord.queue → k'.chord.state ≠ .resolving → Q (k', true)) :
    Sat (chordDecide pe k t ifNone) Q AnyErr := by
  obtain ⟨n, ch, hm, hq, hs⟩ := checkChordMatch_cases k
  have hi : TermInv c { k with chord := ch } := h.setChord ch
  have sched : ∀ (ch' : ChordSt) (t' : Int), ch'.queue = ch.queue → waiting ch'.state = true →
      Sat (scheduleTimeout { k with chord := ch' } t') (fun k' => Q (k', true)) AnyErr := by
    intro ch' t' hq' hs'
    refine (Calm.schedule _ _).imp (fun k1 h1 => ?_)
    have e1 : seen m k1 = seen m { k with chord := ch' } := seen_congr h1.steps (by rw [h1.pending]) h1.chord h1.activeChords
    refine hQ k1 ((h.setChord ch').calm h1) ?_ (by rw [h1.chord]; intro hh; dsimp only at hh; rw [hh] at hs'; cases hs')
    rw [e1, seen_core, hs', if_pos rfl]
    show core m k + m.sum ch'.queue = _
    rw [hq', hq]
  unfold chordDecide
  rw [hm]
  split
  · rename_i heq
    cases heq
    exact hNone _ hi rfl hq hs
  · rename_i heq
    cases heq
    dsimp only
    refine Sat.ite (fun _ => ?_) (fun _ => ?_)
    · refine (sched _ _ ?_ ?_).bind (fun k1 h1 => h1)
      · rfl
      · rfl
    · refine (resolveChord_core hp hc (h.setChord _)).bind
        (fun k1 h1 => hQ k1 h1.1 ?_ (by rw [h1.2.1]; exact fun h => by cases h))
      rw [h1.2.2]
      show core m k + m.sum ch.queue = _
      rw [hq]
  · rename_i heq
    cases heq
    dsimp only
    refine (sched _ _ ?_ ?_).bind (fun k1 h1 => h1)
    · rfl
    · rfl

/-- The event is counted iff it was consumed. -/
def AfterOnce (c : Config) (m : Tally) (k : Kbd) (w : Int) (r : Kbd × Bool) : Prop :=
  TermInv c r.1 ∧ SameMode k r.1 ∧ (r.2 = true → seen m r.1 = seen m k + w) ∧ (r.2 = false → seen m r.1 = seen m k)

theorem chordMachine_once (hc : TermCfg c) {k : Kbd} (code : Code) (p : Bool) (t : Int) (h : TermInv c k) :
    Sat (chordMachine pe k code p t) (AfterOnce c m k (m.w ⟨code, p, t⟩)) AnyErr := by
  have skip : AfterOnce c m k (m.w ⟨code, p, t⟩) (k, false) := ⟨h, SameMode.refl k, fun h => (by cases h), fun _ => rfl⟩
  unfold chordMachine
  split
  · exact skip
  · rename_i hst
    have hseen : seen m k = core m k := by rw [seen_core, hst]; simp [waiting]
    have nores : k.chord.state ≠ .resolving := by rw [hst]; exact fun h => by cases h
    dsimp only
    refine (enqueueChord_once (m := m) code p t (h.setChord { k.chord with queue := [], «match» := none, startCode := code })).bind
      (fun k1 h1 => ?_)
    obtain ⟨h1, h2, h3, _, h4⟩ := h1
    have h2 : core m k1 = core m k := h2
    have h3 : k1.chord.state = .inactive := h3.trans hst
    have h4 : m.sum k1.chord.queue = 0 + m.w ⟨code, p, t⟩ := h4
    refine chordDecide_once hp hc t h1 _ ?_ ?_
    · intro k' g1 g2 g3 g4
      refine ⟨g1, ⟨fun hr => absurd hr nores, fun _ => ?_⟩, fun h => (by cases h), fun _ => ?_⟩
      · show k'.chord.state ≠ _
        rw [g4, h3]; exact fun h => by cases h
      · show seen m k' = _
        rw [seen_core, g4, h3, g2, h2, hseen]
        simp [waiting]
    · intro k' g1 g2 g3
      refine ⟨g1, ⟨fun hr => absurd hr nores, fun _ => g3⟩, fun _ => ?_, fun h => (by cases h)⟩
      show seen m k' = _
      omega
  · rename_i hst
    have hseen : seen m k = core m k + m.sum k.chord.queue := by rw [seen_core, hst]; simp [waiting]
    have nores : k.chord.state ≠ .resolving := by rw [hst]; exact fun h => by cases h
    have fin : ∀ k', TermInv c k' → seen m k' = seen m k + m.w ⟨code, p, t⟩ → k'.chord.state ≠ .resolving →
        AfterOnce c m k (m.w ⟨code, p, t⟩) (k', true) :=
      fun k' g1 g2 g3 => ⟨g1, ⟨fun hr => absurd hr nores, fun _ => g3⟩, fun _ => g2, fun h => by cases h⟩
    refine Sat.ite (fun h0 => ?_) (fun h0 => ?_)
    · subst h0
      have h00 : m.w ⟨0, p, t⟩ = 0 := m.zero p t
      refine Sat.ite (fun _ => Sat.ite (fun _ => ?_) (fun _ => ?_)) (fun _ => skip)
      · dsimp only
        refine Sat.ite (fun _ => ?_) (fun _ => ?_)
        · refine Sat.bind (Calm.schedule k _) (fun k1 h1 => ?_)
          refine fin _ ((h.calm h1).setChord _) ?_ (fun h => by cases h)
          rw [seen_core]
          show core m k1 + m.sum k1.chord.queue = _
          rw [core_congr h1.steps (by rw [h1.pending]) h1.activeChords, h1.chord]
          omega
        · refine (resolveChord_core hp hc h).bind (fun k1 h1 => ?_)
          exact fin _ h1.1 (by have := h1.2.2; omega) (by rw [h1.2.1]; exact fun h => by cases h)
      · refine (abortChord_core hp hc h).bind (fun k1 h1 => ?_)
        exact fin _ h1.1 (by have := h1.2.2; omega) (by rw [h1.2.1]; exact fun h => by cases h)
    · refine (enqueueChord_once (m := m) code p t h).bind (fun k1 h1 => ?_)
      obtain ⟨h1, h2, h3, _, h4⟩ := h1
      have ab : ∀ k', TermInv c k' → core m k' = core m k1 → k'.chord.queue = k1.chord.queue →
          Sat (do let k ← abortChord pe k'; Except.ok (k, true)) (AfterOnce c m k (m.w ⟨code, p, t⟩)) AnyErr := by
        intro k' g1 g2 g3
        refine (abortChord_core hp hc g1).bind (fun k2 f2 => ?_)
        exact fin _ f2.1 (by have := f2.2.2; rw [g2, g3] at this; omega) (by rw [f2.2.1]; exact fun h => by cases h)
      refine Sat.ite (fun _ => ab k1 h1 rfl rfl) (fun _ => ?_)
      exact chordDecide_once hp hc t h1 _ (fun k' g1 g2 g3 _ => ab k' g1 g2 g3)
        (fun k' g1 g2 g3 => fin k' g1 (by omega) g3)
  · rename_i hst
    have hseen : seen m k = core m k + m.sum k.chord.queue := by rw [seen_core, hst]; simp [waiting]
    have nores : k.chord.state ≠ .resolving := by rw [hst]; exact fun h => by cases h
    have fin : ∀ k', TermInv c k' → seen m k' = seen m k + m.w ⟨code, p, t⟩ → k'.chord.state ≠ .resolving →
        AfterOnce c m k (m.w ⟨code, p, t⟩) (k', true) :=
      fun k' g1 g2 g3 => ⟨g1, ⟨fun hr => absurd hr nores, fun _ => g3⟩, fun _ => g2, fun h => by cases h⟩
    refine Sat.ite (fun h0 => ?_) (fun h0 => ?_)
    · subst h0
      have h00 : m.w ⟨0, p, t⟩ = 0 := m.zero p t
      refine Sat.ite (fun _ => ?_) (fun _ => skip)
      refine (resolveChord_core hp hc h).bind (fun k1 h1 => ?_)
      exact fin _ h1.1 (by have := h1.2.2; omega) (by rw [h1.2.1]; exact fun h => by cases h)
    · refine (enqueueChord_once (m := m) code p t h).bind (fun k1 h1 => ?_)
      obtain ⟨h1, h2, h3, _, h4⟩ := h1
      have keep : AfterOnce c m k (m.w ⟨code, p, t⟩) (k1, true) := by
        refine fin k1 h1 ?_ (by rw [h3]; exact nores)
        rw [seen_core, h3, hst]
        show core m k1 + m.sum k1.chord.queue = _
        omega
      refine Sat.ite (fun _ => ?_) (fun _ => keep)
      split
      · trivial
      · refine Sat.ite (fun _ => ?_) (fun _ => keep)
        refine (abortChord_core hp hc h1).bind (fun k2 h2 => ?_)
        exact fin _ h2.1 (by have := h2.2.2; omega) (by rw [h2.2.1]; exact fun h => by cases h)

theorem strikeChord_once {k : Kbd} {i : Nat} {code : Code} (t : Int)
    (hf : findActiveChord code k.activeChords 0 = some i) (h : TermInv c k) :
    Sat (strikeChord pe k i code t) (fun k' => AfterOnce c m k (m.w ⟨code, false, t⟩) (k', true)) AnyErr := by
  obtain ⟨a, _, ha, hact, hmem⟩ := findActiveChord_some _ _ _ _ hf
  rw [Nat.sub_zero] at ha
  have hin : a ∈ k.activeChords := List.mem_of_getElem? ha
  have hlt : i < 3 := Nat.lt_of_lt_of_le (lt_of_getElem? ha) h.slots
  have hkeys : ∀ x ∈ chordStrike code a.chord.keys, ¬ IsChordCode x := by
    intro x hx
    obtain ⟨y, hy, he⟩ := List.mem_map.1 hx
    split at he
    · subst he; decide
    · subst he; exact h.keys a hin _ hy
  have hget : k.activeChords.getD i {} = a := by rw [List.getD_eq_getElem?_getD, ha]; rfl
  have hs : ∀ b, seen m (setSlot (k.logSwallowed [⟨code, false, t⟩]) i b) + m.slot k.activeChords =
      seen m k + m.w ⟨code, false, t⟩ + m.slot (k.activeChords.set i b) := by
    intro b
    have h1 : (setSlot (k.logSwallowed [⟨code, false, t⟩]) i b).processed = k.processed := processed_swallow k _
    have h2 : (setSlot (k.logSwallowed [⟨code, false, t⟩]) i b).absorbed = k.absorbed ++ [⟨code, false, t⟩] :=
      absorbed_swallow k _
    unfold seen
    rw [h1, h2, Tally.sum_append, Tally.sum_one]
    show _ + _ + m.sum k.pending.queue + m.slot (k.activeChords.set i b) +
      (if waiting k.chord.state = true then m.sum k.chord.queue else 0) + _ = _
    omega
  have hi : ∀ b : Bool, TermInv c (setSlot (k.logSwallowed [⟨code, false, t⟩]) i (strickenChord code a b)) :=
    fun b => TermInv.setSlot (k := k.logSwallowed [⟨code, false, t⟩]) ⟨h.1, h.2, h.3⟩ i _ hkeys
  have hm : ∀ b, SameMode k (setSlot (k.logSwallowed [⟨code, false, t⟩]) i b) := fun b => SameMode.of_chord rfl
  unfold strikeChord
  rw [hget]
  dsimp only
  refine Sat.ite (fun _ => ?_) (fun _ => ?_)
  · refine (hp _ (KEYD.CHORD_1 + UInt8.ofNat i) false t (hi false)).bind (fun r hr => ?_)
    obtain ⟨k1, t1⟩ := r
    obtain ⟨g1, g2, g3⟩ := hr
    dsimp only at g1 g2 g3 ⊢
    have h2 := m.finish k.activeChords i a (strickenChord code a false) t hlt ha hact rfl
    have h3 := hs (strickenChord code a false)
    exact ⟨g1, (hm _).trans g3, fun _ => (by show seen m k1 = _; omega), fun h => by cases h⟩
  · have h2 := m.strike k.activeChords i a (strickenChord code a a.active) ha rfl
    have h3 := hs (strickenChord code a a.active)
    exact ⟨hi a.active, hm _, fun _ => (by show seen m (setSlot _ i (strickenChord code a a.active)) = _; omega), fun h => by cases h⟩

theorem handleChord_once (hc : TermCfg c) {k : Kbd} (code : Code) (p : Bool) (t : Int) (h : TermInv c k) :
    Sat (handleChord pe k code p t) (AfterOnce c m k (m.w ⟨code, p, t⟩)) AnyErr := by
  unfold handleChord
  split
  · rename_i i hf
    split at hf
    · rename_i h0
      have : p = false := by simpa using h0.2
      subst this
      exact (strikeChord_once hp t hf h).bind (fun k1 h1 => h1)
    · cases hf
  · exact chordMachine_once hp hc code p t h

theorem handlePendingKey_once (hc : TermCfg c) {k : Kbd} (code : Code) (p : Bool) (t : Int) (h : TermInv c k) :
    Sat (handlePendingKey pe k code p t) (AfterOnce c m k (m.w ⟨code, p, t⟩)) AnyErr := by
  have skip : AfterOnce c m k (m.w ⟨code, p, t⟩) (k, false) := ⟨h, SameMode.refl k, fun h => (by cases h), fun _ => rfl⟩
  unfold handlePendingKey
  refine Sat.ite (fun _ => skip) (fun hpend => ?_)
  refine Sat.bind (Q := fun o => match o with
      | none => True
      | some k1 => ∃ q, k1 = { k with pending := { k.pending with queue := q } } ∧
          m.sum q = m.sum k.pending.queue + m.w ⟨code, p, t⟩) ?_ (fun o ho => ?_)
  · unfold pendingEnqueue
    refine Sat.ite (fun h0 => ?_) (fun _ => Sat.ite (fun _ => ?_) (fun _ => Sat.ite (fun _ => trivial) (fun _ => ?_)))
    · subst h0
      exact ⟨k.pending.queue, rfl, by rw [m.zero, Int.add_zero]⟩
    · trivial
    · exact ⟨_, rfl, by rw [Tally.sum_append, Tally.sum_one]⟩
  · split
    · exact skip
    · rename_i k1
      obtain ⟨q, rfl, hq⟩ := ho
      dsimp only
      refine Sat.ite (fun _ => ?_) (fun hne => ?_)
      · refine ⟨⟨h.1, h.2, h.3⟩, SameMode.of_chord rfl, fun _ => ?_, fun h => by cases h⟩
        show m.sum k.processed + m.sum k.absorbed + m.sum q + m.slot k.activeChords +
          (if waiting k.chord.state = true then m.sum k.chord.queue else 0) = _
        unfold seen
        omega
      · generalize hact : pendingDecision _ code p t = action
        unfold resolvePendingStep
        dsimp only
        refine Sat.bind (Q := fun r : Kbd × List KeyEvent => r.2 = q ∧ TermInv c r.1 ∧ SameMode k r.1 ∧
          seen m r.1 + m.sum q = seen m k + m.w ⟨code, p, t⟩) ?_ (fun r hr => ?_)
        · generalize hk2 : (Option.getD _ _ : Kbd).log _ = k2
          have ex : ∃ l, k2 = { k with cache := l, steps := .resolve k.pending.code action k.pending.dl t :: k.steps, pending := { k.pending with code := 0, queue := [], tapExpiry := 0 } } := by
            subst hk2
            cases hcs : cacheSet { k with pending := { k.pending with code := 0, queue := [], tapExpiry := 0 } } k.pending.code
              (some { d := action, dl := k.pending.dl, layer := 0 }) with
            | none =>
              refine ⟨k.cache, ?_⟩
              show Kbd.log _ _ = _
              unfold Kbd.log
              rfl
            | some k3 =>
              obtain ⟨l, hl⟩ := cacheSet_frame hcs
              refine ⟨l, ?_⟩
              show Kbd.log k3 _ = _
              rw [hl]
              unfold Kbd.log
              rfl
          obtain ⟨l, ex⟩ := ex
          have e1 : k2.config = c := by rw [ex]; exact h.config
          have e2 : TermInv c k2 := by rw [ex]; exact ⟨h.1, h.2, h.3⟩
          have e3 : k2.chord = k.chord := by rw [ex]
          have e5 : seen m k2 + m.sum k.pending.queue = seen m k := by
            have : seen m k2 = seen m { k.log (.resolve k.pending.code action k.pending.dl t) with pending := { k.pending with code := 0, queue := [], tapExpiry := 0 } } := by
              rw [ex]; rfl
            rw [this]
            unfold seen
            show m.sum (k.log _).processed + m.sum (k.log _).absorbed + 0 + m.slot k.activeChords + _ + _ = _
            rw [processed_log, absorbed_log]
            show m.sum (k.processed ++ []) + m.sum (k.absorbed ++ []) + 0 + m.slot k.activeChords +
              (if waiting k.chord.state = true then m.sum k.chord.queue else 0) + _ = _
            rw [List.append_nil, List.append_nil]
            omega
          refine ((mild_descriptor hc.nest _ k2 k.pending.code action k.pending.dl true t e1
            (e1 ▸ descBudget_rank k2 action)).mono (fun _ h => h) (fun _ _ => trivial)).bind (fun k3 h3 => ?_)
          refine ⟨rfl, e2.mild h3, (SameMode.of_chord e3).trans (SameMode.of_chord h3.chord), ?_⟩
          have := seen_congr (m := m) h3.steps h3.queue h3.chord h3.activeChords
          dsimp only
          omega
        · obtain ⟨k3, q'⟩ := r
          obtain ⟨rfl, h3, h4, h5⟩ := hr
          dsimp only at h3 h4 h5 ⊢
          refine (loop_once hp q' k3 0 0 h3).bind (fun r hr => ?_)
          obtain ⟨k4, t4⟩ := r
          obtain ⟨g1, g2, g3⟩ := hr
          dsimp only at g1 g2 g3 ⊢
          exact ⟨g1, h4.trans g3, fun _ => by show seen m k4 = _; omega, fun h => by cases h⟩

omit hp in
theorem stepKey_once (hc : TermCfg c) {k : Kbd} (code : Code) (p : Bool) (t : Int) (h : TermInv c k) :
    Sat (stepKey k code p t) (fun k' => TermInv c k' ∧ SameMode k k' ∧ seen m k' = seen m k + m.w ⟨code, p, t⟩) AnyErr := by
  have lg : ∀ l b u, TermInv c { k with cache := l, steps := .key code b t u :: k.steps } ∧
      SameMode k { k with cache := l, steps := .key code b t u :: k.steps } ∧
      seen m { k with cache := l, steps := .key code b t u :: k.steps } = seen m k + m.w ⟨code, b, t⟩ := by
    intro l b u
    refine ⟨⟨h.1, h.2, h.3⟩, SameMode.of_chord rfl, ?_⟩
    have : seen m { k with cache := l, steps := .key code b t u :: k.steps } = seen m (k.log (.key code b t u)) := rfl
    rw [this]
    unfold seen
    rw [processed_log, absorbed_log]
    show m.sum (k.processed ++ [⟨code, b, t⟩]) + m.sum (k.absorbed ++ []) + m.sum k.pending.queue + m.slot k.activeChords +
      (if waiting k.chord.state = true then m.sum k.chord.queue else 0) = _
    rw [Tally.sum_append, Tally.sum_one, List.append_nil]
    omega
  have run : ∀ l u d dl b b', Sat (processDescriptor (descBudget { k with cache := l, steps := .key code b t u :: k.steps })
      { k with cache := l, steps := .key code b t u :: k.steps } code d dl b' t)
      (fun k' => TermInv c k' ∧ SameMode k k' ∧ seen m k' = seen m k + m.w ⟨code, b, t⟩) AnyErr := by
    intro l u d dl b b'
    obtain ⟨l1, l2, l3⟩ := lg l b u
    refine ((mild_descriptor hc.nest _ { k with cache := l, steps := .key code b t u :: k.steps } code d dl b' t h.config
      (h.config ▸ descBudget_rank { k with cache := l, steps := .key code b t u :: k.steps } d)).mono (fun _ h => h)
      (fun _ _ => trivial)).imp (fun k1 h1 => ?_)
    exact ⟨l1.mild h1, l2.trans (SameMode.of_chord h1.chord), (seen_congr h1.steps h1.queue h1.chord h1.activeChords).trans l3⟩
  unfold stepKey
  refine Sat.ite (fun h0 => ?_) (fun h0 => Sat.ite (fun hp' => Sat.ite (fun _ => ?_) (fun _ => ?_)) (fun hp' => ?_))
  · subst h0
    exact ⟨h, SameMode.refl k, by rw [m.zero, Int.add_zero]⟩
  · rw [hp']
    exact lg k.cache true none
  · rw [hp']
    dsimp only
    split
    · exact lg k.cache true none
    · rename_i k1 hk1
      obtain ⟨l, rfl⟩ := cacheSet_frame hk1
      exact run l _ _ _ _ _
  · have : p = false := by simpa using hp'
    subst this
    split
    · exact lg k.cache false none
    · rename_i ce _
      dsimp only
      cases hcs : cacheSet k code none with
      | none => exact run k.cache _ _ _ _ _
      | some k1 =>
        obtain ⟨l, rfl⟩ := cacheSet_frame hcs
        exact run l _ _ _ _ _

theorem processEventBody_once (hc : TermCfg c) : Once c m (processEventBody pe) := by
  intro k code p t h
  unfold processEventBody
  refine (handleChord_once hp hc code p t h).bind (fun r hr => ?_)
  obtain ⟨k1, b1⟩ := r
  obtain ⟨h1, h2, h3, h4⟩ := hr
  dsimp only at h1 h2 h3 h4 ⊢
  have fin : ∀ k', TermInv c k' → SameMode k k' → seen m k' = seen m k + m.w ⟨code, p, t⟩ →
      TermInv c (calculateMainLoopTimeout k' t).1 ∧ seen m (calculateMainLoopTimeout k' t).1 = seen m k + m.w ⟨code, p, t⟩ ∧
      SameMode k (calculateMainLoopTimeout k' t).1 :=
    fun k' g1 g2 g3 => ⟨⟨g1.1, g1.2, g1.3⟩, g3, g2.trans (SameMode.of_chord rfl)⟩
  refine Sat.bind (Q := fun k' => TermInv c k' ∧ SameMode k k' ∧ seen m k' = seen m k + m.w ⟨code, p, t⟩) ?_
    (fun k' g => fin k' g.1 g.2.1 g.2.2)
  refine Sat.ite (fun hb => ⟨h1, h2, h3 hb⟩) (fun hb => ?_)
  have h4 := h4 (by simpa using hb)
  generalize hk2 : (if code = 0 then k1 else k1.log (.passed ⟨code, p, t⟩)) = k2
  have ex : TermInv c k2 ∧ seen m k2 = seen m k1 ∧ k2.chord = k1.chord := by
    subst hk2
    split
    · exact ⟨h1, rfl, rfl⟩
    · refine ⟨⟨h1.1, h1.2, h1.3⟩, ?_, rfl⟩
      unfold seen
      rw [processed_log, absorbed_log]
      show m.sum (k1.processed ++ []) + m.sum (k1.absorbed ++ []) + m.sum k1.pending.queue + m.slot k1.activeChords +
        (if waiting k1.chord.state = true then m.sum k1.chord.queue else 0) = _
      rw [List.append_nil, List.append_nil]
  obtain ⟨e1, e2, e3⟩ := ex
  have e3 : SameMode k k2 := h2.trans (SameMode.of_chord e3)
  refine (handlePendingKey_once hp hc code p t e1).bind (fun r hr => ?_)
  obtain ⟨k3, b3⟩ := r
  obtain ⟨g1, g2, g3, g4⟩ := hr
  dsimp only at g1 g2 g3 g4 ⊢
  refine Sat.ite (fun hb => ⟨g1, e3.trans g2, by have := g3 hb; omega⟩) (fun hb => ?_)
  have g4 := g4 (by simpa using hb)
  refine Sat.bind (Calm.stepTimers k3 code t) (fun k4 f => ?_)
  have f1 : seen m k4 = seen m k3 := seen_congr f.steps (by rw [f.pending]) f.chord f.activeChords
  refine (stepKey_once (m := m) hc code p t (g1.calm f)).imp (fun k5 f5 => ?_)
  exact ⟨f5.1, (e3.trans g2).trans ((SameMode.of_chord f.chord).trans f5.2.1), by have := f5.2.2; omega⟩

end

theorem processEvent_once {c : Config} {m : Tally} (hc : TermCfg c) : ∀ n, Once c m (processEvent n)
  | 0 => fun _ _ _ _ _ => trivial
  | n+1 => processEventBody_once (processEvent_once hc n) hc

/-- Counting the occurrences of one event. -/
def countTally (e : KeyEvent) (he : Physical e.code) : Tally where
  w := fun x => if x = e then 1 else 0
  slot := fun _ => 0
  zero := fun p t => by
    rw [if_neg]
    intro h
    exact he.1 (by rw [← h])
  install := fun as i a b t hi _ _ _ => by
    rw [if_neg]
    · rfl
    · intro h
      exact he.2 (by rw [← h]; exact chordCode_isChord hi)
  finish := fun as i a b t hi _ _ _ => by
    rw [if_neg]
    · rfl
    · intro h
      exact he.2 (by rw [← h]; exact chordCode_isChord hi)
  strike := fun _ _ _ _ _ _ => rfl

theorem countTally_sum (e : KeyEvent) (he : Physical e.code) : ∀ l : List KeyEvent, (countTally e he).sum l = (l.count e : Int)
  | [] => rfl
  | x :: l => by
    have := (countTally e he).sum_append [x] l
    rw [List.singleton_append, Tally.sum_one, countTally_sum e he l] at this
    rw [this, List.count_cons]
    show (if x = e then (1 : Int) else 0) + _ = _
    by_cases h : x = e
    · subst h; simp; omega
    · rw [if_neg h, if_neg (by simpa using h)]; simp

theorem seen_count (e : KeyEvent) (he : Physical e.code) (k : Kbd) :
    seen (countTally e he) k = (k.accounted.count e : Int) := by
  unfold seen Kbd.accounted Kbd.behindChord Kbd.behindKey
  simp only [countTally_sum, List.count_append]
  cases k.chord.state <;> simp [waiting, countTally]

end Keyd
