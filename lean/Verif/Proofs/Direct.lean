import Verif.Proofs.QuietPress

/-
  The behaviour of `process_event` on events, including wakeups, that no chord and
  no undecided key is concerned with: timers, then the key itself.
-/

set_option autoImplicit false

namespace Keyd

/-- No chord and no undecided key has a say in an event of key `code` (0: a wakeup). -/
structure Direct (k : Kbd) (code : Code) : Prop where
  /-- no undecided key -/
  pending : k.pending.code = 0
  /-- no chord is being struck -/
  chord : k.chord.state = .inactive
  /-- the key is not part of a chord being held -/
  held : code ≠ 0 → ∀ ac ∈ k.activeChords, ac.active = true → code ∉ ac.chord.keys
  /-- nor of a chord of an active layer -/
  chords : code ≠ 0 → ∀ i < k.config.layers.length, k.isActive i = true →
    ∀ ch ∈ (k.config.layer i).chords, code ∉ ch.keys

theorem Undisturbed.direct {k : Kbd} {code : Code} {time : Int} (h : Undisturbed k code time) : Direct k code :=
  ⟨h.pending, h.chord, fun _ => h.held, fun _ => h.chords⟩

/-- Bookkeeping of the chord stage for such an event (no observable effect). -/
def directEntry (k : Kbd) (code : Code) (pressed : Bool) (time : Int) : Kbd :=
  { k with
    chord := { k.chord with
      queue := if code = 0 then [] else [⟨code, pressed, time⟩], «match» := none, startCode := code }
    steps := if code = 0 then k.steps else .passed ⟨code, pressed, time⟩ :: k.steps }

theorem empty_checkChord {k : Kbd} (hq : k.chord.queue = []) : checkChordMatch k = (0, k) := by
  have hs : chordScan k = {} := by
    unfold chordScan
    apply foldl_id
    intro i hi
    split
    · apply foldl_id
      intro p _
      unfold chordScanStep chordEventMatch
      simp [hq]
    · rfl
  unfold checkChordMatch
  rw [hs]
  rfl

theorem processEvent_direct {k : Kbd} {code : Code} {pressed : Bool} {time : Int} (h : Direct k code) (n : Nat) :
    processEvent (n+1) k code pressed time = (do
      let k1 ← stepTimers (directEntry k code pressed time) code time
      let k2 ← stepKey k1 code pressed time
      .ok (calculateMainLoopTimeout k2 time)) := by
  have hch : handleChord (processEvent n) k code pressed time =
      .ok ({ k with chord := { k.chord with
        queue := if code = 0 then [] else [⟨code, pressed, time⟩], «match» := none, startCode := code } }, false) := by
    unfold handleChord
    have : (if code ≠ 0 ∧ (!pressed) = true then findActiveChord code k.activeChords 0 else none) = none := by
      split
      · rename_i hc; exact findActiveChord_none _ _ (h.held hc.1)
      · rfl
    rw [this]
    simp only
    unfold chordMachine
    rw [h.chord]
    simp only
    unfold enqueueChordEvent
    by_cases hc : code = 0
    · simp only [hc, if_true]
      rw [bind_ok]
      unfold chordDecide
      rw [empty_checkChord rfl]
      simp only [h.chord]
    · rw [if_neg hc]
      simp only [List.length_nil, Nat.zero_lt_succ, if_true, List.nil_append, if_neg hc]
      rw [bind_ok]
      unfold chordDecide
      have hcc : ∀ k1 : Kbd, k1.chord.queue = [⟨code, pressed, time⟩] → k1.config = k.config →
          k1.layerState = k.layerState → checkChordMatch k1 = (0, k1) := by
        intro k1 e1 e2 e3
        apply quiet_checkChord e1
        intro i hi ha
        rw [e2] at hi ⊢
        unfold Kbd.isActive at ha
        rw [e3] at ha
        exact h.chords hc i hi ha
      rw [hcc]
      · simp only [h.chord]
      all_goals rfl
  show processEventBody (processEvent n) k code pressed time = _
  unfold processEventBody
  rw [hch, bind_ok]
  simp only [Bool.false_eq_true, if_false]
  have hp : ∀ k1 : Kbd, (a : k1.pending = k.pending) → handlePendingKey (processEvent n) k1 code pressed time = .ok (k1, false) := by
    intro k1 e
    unfold handlePendingKey
    rw [e, if_pos h.pending]
  rw [hp]
  case a => split <;> rfl
  rw [bind_ok]
  simp only [Bool.false_eq_true, if_false]
  have : (if code = 0 then
      ({ k with chord := { k.chord with
        queue := if code = 0 then [] else [⟨code, pressed, time⟩], «match» := none, startCode := code } } : Kbd)
      else ({ k with chord := { k.chord with
        queue := if code = 0 then [] else [⟨code, pressed, time⟩], «match» := none, startCode := code } } : Kbd).log
          (.passed ⟨code, pressed, time⟩)) = directEntry k code pressed time := by
    unfold directEntry
    split <;> rfl
  rw [this]
  cases stepTimers (directEntry k code pressed time) code time with
  | error e => rfl
  | ok k1 => rfl

/-- The batch the daemon submits consists of one event. -/
theorem kbdProcessEvents_single (n : Nat) (k : Kbd) (ev : KeyEvent) :
    kbdProcessEvents n k [ev] = processEvent n k ev.code ev.pressed ev.ts := by
  unfold kbdProcessEvents processEventsWith processEventsLoop
  have : catchUp (processEvent n) ((ev.ts - 0).toNat + 2) k 0 0 ev.ts = .ok (k, 0, 0) := by
    unfold catchUp
    rw [if_neg (by omega)]
  rw [this, bind_ok]
  dsimp only
  cases processEvent n k ev.code ev.pressed ev.ts with
  | error e => rfl
  | ok r => rfl

/-- A computable version of `Direct`, for the examples. -/
def directCheck (k : Kbd) (code : Code) : Bool :=
  decide (k.pending.code = 0) && decide (k.chord.state = .inactive) &&
  (decide (code = 0) || (k.activeChords.all (fun ac => !ac.active || !ac.chord.keys.contains code) &&
  (List.range k.config.layers.length).all (fun i => !k.isActive i ||
    (k.config.layer i).chords.all (fun ch => !ch.keys.contains code))))

theorem direct_of_check {k : Kbd} {code : Code} (h : directCheck k code = true) : Direct k code := by
  unfold directCheck at h
  simp only [Bool.and_eq_true, decide_eq_true_eq, List.all_eq_true, Bool.or_eq_true, Bool.not_eq_true',
    List.mem_range] at h
  obtain ⟨⟨h1, h2⟩, h3⟩ := h
  refine ⟨h1, h2, ?_, ?_⟩
  · intro hc ac ha hact
    rcases h3 with h3 | h3
    · exact absurd h3 hc
    · rcases h3.1 ac ha with e | e
      · rw [e] at hact; cases hact
      · simpa using e
  · intro hc i hi hact ch hch
    rcases h3 with h3 | h3
    · exact absurd h3 hc
    · rcases h3.2 i hi with e | e
      · rw [e] at hact; cases hact
      · simpa using e ch hch

end Keyd
