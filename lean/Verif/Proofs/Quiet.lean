import Verif.Proofs.Sat

/-
  The behaviour of `process_event` on a key that no chord, no undecided key, no
  expired one-shot and no repeating macro is concerned with.
-/

set_option autoImplicit false

namespace Keyd

/-- Nothing but the key itself has a say in an event of key `code` at `time`. -/
structure Undisturbed (k : Kbd) (code : Code) (time : Int) : Prop where
  /-- a key, not a wakeup -/
  key : code ≠ 0
  /-- no undecided key -/
  pending : k.pending.code = 0
  /-- no macro is repeating -/
  mac : k.activeMacro = none
  /-- no one-shot deadline has passed -/
  oneshot : k.oneshotTimeout = 0 ∨ time < k.oneshotTimeout
  /-- no chord is being struck -/
  chord : k.chord.state = .inactive
  /-- the key is not part of a chord being held -/
  held : ∀ ac ∈ k.activeChords, ac.active = true → code ∉ ac.chord.keys
  /-- nor of a chord of an active layer -/
  chords : ∀ i < k.config.layers.length, k.isActive i = true → ∀ ch ∈ (k.config.layer i).chords, code ∉ ch.keys

/-- Bookkeeping of the chord stage for such an event (no observable effect). -/
def quietEntry (k : Kbd) (code : Code) (pressed : Bool) (time : Int) : Kbd :=
  { k with
    chord := { k.chord with queue := [⟨code, pressed, time⟩], «match» := none, startCode := code }
    steps := .passed ⟨code, pressed, time⟩ :: k.steps }

theorem chordEventMatch_single {ch : Chord} {e : KeyEvent} (h : e.code ∉ ch.keys) : chordEventMatch ch [e] = .no := by
  unfold chordEventMatch
  cases hp : e.pressed
  · simp [hp]
  · simp [hp, h]

theorem foldl_id {α β : Type} {f : α → β → α} {a : α} : ∀ (l : List β), (∀ b ∈ l, f a b = a) → l.foldl f a = a
  | [], _ => rfl
  | b :: l, h => by
    rw [List.foldl_cons, h b (by simp)]
    exact foldl_id l fun b hb => h b (by simp [hb])

theorem findActiveChord_none {code : Code} : ∀ (l : List ActiveChord) (i : Nat),
    (∀ ac ∈ l, ac.active = true → code ∉ ac.chord.keys) → findActiveChord code l i = none
  | [], _, _ => rfl
  | a :: l, i, h => by
    unfold findActiveChord
    rw [if_neg (fun hc => h a (by simp) hc.1 hc.2)]
    exact findActiveChord_none l (i+1) fun ac hac => h ac (by simp [hac])

theorem quiet_checkChord {k : Kbd} {code : Code} {pressed : Bool} {time : Int}
    (hq : k.chord.queue = [⟨code, pressed, time⟩])
    (h : ∀ i < k.config.layers.length, k.isActive i = true → ∀ ch ∈ (k.config.layer i).chords, code ∉ ch.keys) :
    checkChordMatch k = (0, k) := by
  have hs : chordScan k = {} := by
    unfold chordScan
    apply foldl_id
    intro i hi
    split
    · rename_i ha
      apply foldl_id
      intro p hp
      rw [List.mem_map] at hp
      obtain ⟨q, hq', rfl⟩ := hp
      have hm : q.1 ∈ (k.config.layer i).chords := by
        have := List.mem_zipIdx_iff_getElem?.1 hq'
        exact List.mem_of_getElem? this
      unfold chordScanStep
      simp only [hq, chordEventMatch_single (e := ⟨code, pressed, time⟩) (h i (List.mem_range.1 hi) ha _ hm)]
    · rfl
  unfold checkChordMatch
  rw [hs]
  rfl

/-- On a quiet event `process_event` goes straight to the key stage. -/
theorem processEvent_quiet {k : Kbd} {code : Code} {pressed : Bool} {time : Int} (h : Undisturbed k code time) (n : Nat) :
    processEvent (n+1) k code pressed time = (do
      let k' ← stepKey (quietEntry k code pressed time) code pressed time
      .ok (calculateMainLoopTimeout k' time)) := by
  have hch : handleChord (processEvent n) k code pressed time =
      .ok ({ k with chord := { k.chord with queue := [⟨code, pressed, time⟩], «match» := none, startCode := code } }, false) := by
    unfold handleChord
    have : (if code ≠ 0 ∧ (!pressed) = true then findActiveChord code k.activeChords 0 else none) = none := by
      rw [findActiveChord_none _ _ h.held]; simp
    rw [this]
    simp only
    unfold chordMachine
    rw [h.chord]
    simp only
    unfold enqueueChordEvent
    rw [if_neg h.key]
    simp only [List.length_nil, Nat.zero_lt_succ, if_true, List.nil_append]
    rw [bind_ok]
    unfold chordDecide
    have hcc : ∀ k1 : Kbd, k1.chord.queue = [⟨code, pressed, time⟩] → k1.config = k.config →
        k1.layerState = k.layerState → checkChordMatch k1 = (0, k1) := by
      intro k1 e1 e2 e3
      apply quiet_checkChord e1
      intro i hi ha
      rw [e2] at hi ⊢
      unfold Kbd.isActive at ha
      rw [e3] at ha
      exact h.chords i hi ha
    rw [hcc]
    · simp only [h.chord]
    all_goals rfl
  show processEventBody (processEvent n) k code pressed time = _
  unfold processEventBody
  rw [hch, bind_ok]
  simp only [Bool.false_eq_true, if_false, h.key]
  have hp : ∀ k1 : Kbd, (a : k1.pending = k.pending) → handlePendingKey (processEvent n) k1 code pressed time = .ok (k1, false) := by
    intro k1 e
    unfold handlePendingKey
    rw [e, if_pos h.pending]
  rw [hp]
  case a => rfl
  rw [bind_ok]
  simp only [Bool.false_eq_true, if_false]
  have ht : ∀ k1 : Kbd, k1.oneshotTimeout = k.oneshotTimeout → k1.activeMacro = k.activeMacro →
      stepTimers k1 code time = .ok k1 := by
    intro k1 e1 e2
    unfold stepTimers
    rw [e1, if_neg (by have := h.oneshot; omega), bind_ok, e2, h.mac]
  rw [ht, bind_ok]
  all_goals rfl

end Keyd
