import Verif.Props.Chords
import Verif.Props.Termination
import Verif.Proofs.ChordInv

/-
  C20: the life of a chord that fired. C50: where the engine can stop the daemon.
-/

set_option autoImplicit false

namespace Keyd

attribute [local irreducible] configInit

/-! ### Specification -/

/-- The code that stands for the chord in slot `i` (0, 1 or 2). -/
def chordCode (i : Nat) : Code := KEYD.CHORD_1 + UInt8.ofNat i

/-- Slot `i` is occupied by an active chord. -/
def SlotActive (k : Kbd) (i : Nat) : Prop := ∃ a, k.activeChords[i]? = some a ∧ a.active = true

/-- `SlotHolds k i code a`: the chord `a` in slot `i` is active and waits for the release of
`code`; no chord in an earlier slot does. -/
def SlotHolds (k : Kbd) (i : Nat) (code : Code) (a : ActiveChord) : Prop :=
  k.activeChords[i]? = some a ∧ a.active = true ∧ code ∈ a.chord.keys ∧
  ∀ j b, j < i → k.activeChords[j]? = some b → b.active = true → code ∉ b.chord.keys

/-- The presses that the chords in slot `i` caused, handled or still held back. -/
def firings (k : Kbd) (i : Nat) : List KeyEvent :=
  (k.processed ++ k.behindKey ++ k.behindChord).filter (fun e => e.code == chordCode i && e.pressed)

/-- The releases that the chords in slot `i` caused, handled or still held back. -/
def endings (k : Kbd) (i : Nat) : List KeyEvent :=
  (k.processed ++ k.behindKey ++ k.behindChord).filter (fun e => e.code == chordCode i && !e.pressed)

/-! ### Releasing a key of an active chord -/

theorem findActiveChord_eq : ∀ (l : List ActiveChord) (code : Code) (s i : Nat) (a : ActiveChord),
    l[i]? = some a → a.active = true → code ∈ a.chord.keys →
    (∀ j b, j < i → l[j]? = some b → b.active = true → code ∉ b.chord.keys) →
    findActiveChord code l s = some (s + i)
  | [], _, _, _, _, h, _, _, _ => by simp at h
  | x :: l, code, s, 0, a, h, h1, h2, _ => by
    simp at h
    subst h
    unfold findActiveChord
    rw [if_pos ⟨h1, h2⟩]
    rfl
  | x :: l, code, s, i+1, a, h, h1, h2, h3 => by
    have hx : ¬ (x.active = true ∧ code ∈ x.chord.keys) := fun hx => h3 0 x (by omega) rfl hx.1 hx.2
    unfold findActiveChord
    rw [if_neg hx, findActiveChord_eq l code (s+1) i a (by simpa using h) h1 h2
      (fun j b hj hb => h3 (j+1) b (by omega) (by simpa using hb))]
    congr 1
    omega

theorem handleChord_strike {pe : PE} {k : Kbd} {i : Nat} {code : Code} {a : ActiveChord} (h : SlotHolds k i code a)
    (h0 : code ≠ 0) (t : Int) :
    handleChord pe k code false t = (do let k ← strikeChord pe k i code t; .ok (k, true)) := by
  have hf := findActiveChord_eq k.activeChords code 0 i a h.1 h.2.1 h.2.2.1 h.2.2.2
  rw [Nat.zero_add] at hf
  unfold handleChord
  rw [if_pos (by simp [h0]), hf]

/-- Crossing `code` off. -/
def crossOff (a : ActiveChord) (code : Code) : ActiveChord :=
  { a with chord := { a.chord with keys := a.chord.keys.map fun x => if x = code then 0 else x } }

/-- C20. Releasing a key of an active chord while another of its keys is still down does nothing
but cross the key off: no output, no change of any layer, key or deadline decided by it. -/
theorem C20_swallowed (k : Kbd) (i : Nat) (code : Code) (a : ActiveChord) (n : Nat) (time : Int) (h0 : code ≠ 0)
    (h : SlotHolds k i code a) (hleft : ∃ x ∈ a.chord.keys, x ≠ code ∧ x ≠ 0) :
    processEvent (n+1) k code false time = .ok (calculateMainLoopTimeout
      { k with
        activeChords := k.activeChords.set i (crossOff a code)
        steps := .swallowed ⟨code, false, time⟩ :: k.steps } time) := by
  have hg : k.activeChords.getD i {} = a := by rw [List.getD_eq_getElem?_getD, h.1]; rfl
  have hall : (chordStrike code a.chord.keys).all (· = 0) = false := by
    obtain ⟨x, hx, h1, h2⟩ := hleft
    rw [List.all_eq_false]
    refine ⟨x, ?_, by simpa using h2⟩
    unfold chordStrike
    exact List.mem_map.2 ⟨x, hx, if_neg h1⟩
  have hd := handleChord_strike (pe := processEvent n) h h0 time
  unfold strikeChord at hd
  rw [hg] at hd
  dsimp only at hd
  rw [if_neg (by rw [hall]; decide), bind_ok] at hd
  rw [processEvent_kept hd]
  rfl

/-- C20. Releasing the last key of an active chord frees its slot and releases the chord's action,
once, at that time. -/
theorem C20_ended (k : Kbd) (i : Nat) (code : Code) (a : ActiveChord) (n : Nat) (time : Int) (h0 : code ≠ 0)
    (h : SlotHolds k i code a) (hlast : ∀ x ∈ a.chord.keys, x = code ∨ x = 0) :
    processEvent (n+1) k code false time = (do
      let (k', _) ← processEvent n
        { k with
          activeChords := k.activeChords.set i { crossOff a code with active := false }
          steps := .swallowed ⟨code, false, time⟩ :: k.steps } (chordCode i) false time
      .ok (calculateMainLoopTimeout k' time)) := by
  have hg : k.activeChords.getD i {} = a := by rw [List.getD_eq_getElem?_getD, h.1]; rfl
  have hall : (chordStrike code a.chord.keys).all (· = 0) = true := by
    rw [List.all_eq_true]
    intro y hy
    obtain ⟨x, hx, rfl⟩ := List.mem_map.1 hy
    rcases hlast x hx with e | e
    · rw [if_pos e]; decide
    · subst e; split <;> decide
  have hd := handleChord_strike (pe := processEvent n) h h0 time
  unfold strikeChord at hd
  rw [hg] at hd
  dsimp only at hd
  rw [if_pos hall] at hd
  show _ = (do
      let (k', _) ← processEvent n
        (setSlot (k.logSwallowed [⟨code, false, time⟩]) i { crossOff a code with active := false }) (chordCode i) false time
      .ok (calculateMainLoopTimeout k' time))
  have hd' : handleChord (processEvent n) k code false time = (do
      let k ← (do
        let (k, _) ← processEvent n (setSlot (k.logSwallowed [⟨code, false, time⟩]) i { crossOff a code with active := false })
          (chordCode i) false time
        .ok k : Res Kbd)
      .ok (k, true)) := hd
  revert hd'
  generalize processEvent n _ (chordCode i) _ _ = r
  intro hd'
  cases r with
  | error e => exact processEvent_error hd'
  | ok r => exact processEvent_kept hd'

/-! ### What holds in every state -/

theorem matInv_init (c : Config) : MatInv c (newKeyboard c) := by
  have e : (newKeyboard c).activeChords = List.replicate 3 {} := rfl
  refine ⟨⟨rfl, by rw [e]; decide, fun a ha x hx => ?_⟩, ⟨fun x hx => ?_, fun a ha hact => ?_⟩,
    fun h => (by cases h), fun h => (by cases h), fun h => (by cases h)⟩
  · rw [e] at ha
    rw [List.eq_of_mem_replicate ha] at hx
    cases hx
  · cases hx
  · rw [e] at ha
    rw [List.eq_of_mem_replicate ha] at hact
    cases hact

theorem matInv_reach {c : Config} (hb : Bound c) {k : Kbd} (h : Reach (fun c' => c' = c) k) : MatInv c k := by
  have hc : TermCfg c := (C27_wellformed c hb).termCfg
  induction h with
  | init c' hc' =>
    have : c' = c := hc'
    subst this
    exact matInv_init _
  | events n k evs k' w hr run ih => exact ((loop_mat (processEvent_mat hc n) evs k 0 0 ih).of_ok run).1
  | bind k e k' ok hr run hc' ih =>
    have hc' : k'.config = c := hc'
    have e1 := kbdEval_frame run
    rw [e1] at hc' ⊢
    exact ⟨⟨hc', ih.term.2, ih.term.3⟩, ih.2, ih.3, ih.4, ih.5⟩
  | scroll k s hr ih => exact ⟨⟨ih.term.1, ih.term.2, ih.term.3⟩, ih.2, ih.3, ih.4, ih.5⟩

/-- C19. While the engine waits with a chord to fire, that chord is one of the configuration, and
the events held back begin with as many presses as it has keys, all of its keys. -/
theorem C19_noted (c : Config) (hb : Bound c) (k : Kbd) (h : Reach (fun c' => c' = c) k) (l i : Nat)
    (hs : k.chord.state = .pendingDisambiguation ∨ k.chord.state = .pendingHoldTimeout)
    (hm : k.chord.match = some (l, i)) :
    ∃ L ch, c.layers[l]? = some L ∧ L.chords[i]? = some ch ∧ ch.keys ≠ [] ∧ ch.keys.length ≤ k.behindChord.length ∧
      ∀ e ∈ k.behindChord.take ch.keys.length, e.pressed = true ∧ e.code ∈ ch.keys := by
  have hi := matInv_reach hb h
  have hw : waiting k.chord.state = true := by rcases hs with h | h <;> rw [h] <;> rfl
  have hq : k.behindChord = k.chord.queue := by unfold Kbd.behindChord; rcases hs with h | h <;> rw [h]
  obtain ⟨L, ch, h1, h2, h3, h4, h5⟩ := hi.noted hw _ hm
  rw [hq]
  exact ⟨L, ch, h1, h2, h5, h3, h4⟩

/-- C19. With `chord_hold_timeout`, the engine only waits when there is a chord to fire. -/
theorem C19_hold_noted (c : Config) (hb : Bound c) (k : Kbd) (h : Reach (fun c' => c' = c) k)
    (hs : k.chord.state = .pendingHoldTimeout) : k.chord.match ≠ none := (matInv_reach hb h).hold hs

/-- C20. An active chord is one of the configuration, was struck by as many presses of its keys as
it has keys, and has keys left that it waits for; every key it no longer waits for has been
released since. -/
theorem C20_outstanding (c : Config) (hb : Bound c) (k : Kbd) (h : Reach (fun c' => c' = c) k) (i : Nat) (a : ActiveChord)
    (ha : k.activeChords[i]? = some a) (hact : a.active = true) :
    ∃ (L : Layer) (ch : Chord) (before strokes after : List KeyEvent) (up : List Code),
      L ∈ c.layers ∧ ch ∈ L.chords ∧ a.chord.d = ch.d ∧
      k.absorbed = before ++ strokes ++ after ∧ strokes.length = ch.keys.length ∧
      (∀ e ∈ strokes, e.pressed = true ∧ e.code ∈ ch.keys) ∧
      a.chord.keys = ch.keys.map (fun x => if x ∈ up then 0 else x) ∧
      (∀ x ∈ up, ∃ t, (⟨x, false, t⟩ : KeyEvent) ∈ after) ∧ (∃ x ∈ a.chord.keys, x ≠ 0) := by
  obtain ⟨L, ch, b, s, f, up, h1, h2, h3, h4, h5, h6, h7, h8, x, hx, hxu⟩ :=
    (matInv_reach hb h).absorbed.slots a (List.mem_of_getElem? ha) hact
  refine ⟨L, ch, b, s, f, up, h1, h2, h3, h4, h5, h6, h7, h8, x, ?_, ?_⟩
  · rw [h7]
    exact List.mem_map.2 ⟨x, hx, if_neg hxu⟩
  · intro h0
    have := ((C27_wellformed c hb).chords L h1 ch h2).2.2 x hx
    exact this.1 h0

/-! ### Firings and endings -/

def slotWeight (i : Nat) (as : List ActiveChord) : Int :=
  match as[i]? with
  | some a => if a.active then -1 else 0
  | none => 0

theorem chordCode_inj (i j : Nat) (hi : i < 3) (hj : j < 3) (h : chordCode i = chordCode j) : i = j := by
  have key : ∀ a b : Fin 3, chordCode a.1 = chordCode b.1 → a = b := by decide
  exact congrArg Fin.val (key ⟨i, hi⟩ ⟨j, hj⟩ h)

theorem chordCode_ne_zero (i : Nat) (hi : i < 3) : chordCode i ≠ 0 := by
  have key : ∀ a : Fin 3, chordCode a.1 ≠ 0 := by decide
  exact key ⟨i, hi⟩

theorem slotWeight_set {i j : Nat} {as : List ActiveChord} {b : ActiveChord} (h : i ≠ j) :
    slotWeight i (as.set j b) = slotWeight i as := by
  unfold slotWeight
  rw [List.getElem?_set_ne (Ne.symm h)]

theorem slotWeight_set_self {i : Nat} {as : List ActiveChord} {a b : ActiveChord} (h : as[i]? = some a) :
    slotWeight i (as.set i b) = if b.active then -1 else 0 := by
  unfold slotWeight
  rw [List.getElem?_set_self (lt_of_getElem? h)]

/-- Counting firings against endings. -/
def chordTally (i : Nat) (hi : i < 3) : Tally where
  w := fun e => if e.code = chordCode i then (if e.pressed then 1 else -1) else 0
  slot := slotWeight i
  zero := fun p t => if_neg (Ne.symm (chordCode_ne_zero i hi))
  install := fun as j a b t hj ha hina hb => by
    show slotWeight i (as.set j b) + (if chordCode j = chordCode i then (if true then (1 : Int) else -1) else 0) = slotWeight i as
    by_cases h : i = j
    · subst h
      rw [slotWeight_set_self ha, if_pos rfl]
      unfold slotWeight
      rw [ha]
      simp [hina, hb]
    · rw [slotWeight_set h, if_neg (fun e => h (chordCode_inj j i hj hi e).symm), Int.add_zero]
  finish := fun as j a b t hj ha hina hb => by
    show slotWeight i (as.set j b) + (if chordCode j = chordCode i then (if false then (1 : Int) else -1) else 0) = slotWeight i as
    by_cases h : i = j
    · subst h
      rw [slotWeight_set_self ha, if_pos rfl]
      unfold slotWeight
      rw [ha]
      simp [hina, hb]
    · rw [slotWeight_set h, if_neg (fun e => h (chordCode_inj j i hj hi e).symm), Int.add_zero]
  strike := fun as j a b ha hb => by
    by_cases h : i = j
    · subst h
      rw [slotWeight_set_self ha]
      unfold slotWeight
      rw [ha, hb]
    · rw [slotWeight_set h]

theorem chordTally_sum (i : Nat) (hi : i < 3) : ∀ l : List KeyEvent, (chordTally i hi).sum l =
    ((l.filter (fun e => e.code == chordCode i && e.pressed)).length : Int) -
      ((l.filter (fun e => e.code == chordCode i && !e.pressed)).length : Int)
  | [] => rfl
  | x :: l => by
    have := (chordTally i hi).sum_append [x] l
    rw [List.singleton_append, Tally.sum_one, chordTally_sum i hi l] at this
    rw [this]
    show (if x.code = chordCode i then (if x.pressed then (1 : Int) else -1) else 0) + _ = _
    by_cases h : x.code = chordCode i
    · cases hp : x.pressed
      · simp [h, hp]; omega
      · simp [h, hp]; omega
    · simp [h]

theorem isChordCode_chordCode {i : Nat} (hi : i < 3) : IsChordCode (chordCode i) := chordCode_isChord hi

theorem chordTally_plain (i : Nat) (hi : i < 3) (l : List KeyEvent) (h : ∀ e ∈ l, ¬ IsChordCode e.code) :
    (chordTally i hi).sum l = 0 := by
  have hn : ∀ p : KeyEvent → Bool, l.filter (fun e => e.code == chordCode i && p e) = [] := by
    intro p
    rw [List.filter_eq_nil_iff]
    intro e he hx
    simp at hx
    exact h e he (hx.1 ▸ isChordCode_chordCode hi)
  rw [chordTally_sum, hn (fun e => e.pressed), hn (fun e => !e.pressed)]
  rfl

/-- C20. In every state, the chords in each slot have caused as many presses as releases, plus one
press if the slot is occupied: every chord that fired is ended exactly once. -/
theorem C20_once (c : Config) (hb : Bound c) (arrived : List KeyEvent) (k : Kbd) (h : Fed (fun c' => c' = c) arrived k)
    (hp : ∀ e ∈ arrived, ¬ (KEYD.CHORD_1 ≤ e.code ∧ e.code ≤ KEYD.CHORD_MAX)) (i : Nat) (hi : i < 3) :
    (SlotActive k i → (firings k i).length = (endings k i).length + 1) ∧
    (¬ SlotActive k i → (firings k i).length = (endings k i).length) := by
  have hc : TermCfg c := (C27_wellformed c hb).termCfg
  have key : seen (chordTally i hi) k = 0 := by
    induction h with
    | init c' hc' => cases i with
      | zero => rfl
      | succ i => cases i with
        | zero => rfl
        | succ i => cases i with
          | zero => rfl
          | succ i => omega
    | events n k before evs k' w hk run ih =>
      have ih := ih (fun e he => hp e (List.mem_append_left _ he))
      have h1 := ((loop_once (m := chordTally i hi) (processEvent_once hc n) evs k 0 0 (matInv_reach hb hk.reach).term).of_ok run).2.1
      rw [chordTally_plain i hi evs (fun e he => hp e (List.mem_append_right _ he)), ih] at h1
      exact h1
    | bind k b x k' a hk run hc' ih =>
      rw [kbdEval_frame run]
      exact ih hp
    | scroll k b s hk _ ih => exact ih hp
  have habs := chordTally_plain i hi k.absorbed (matInv_reach hb h.reach).absorbed.plain
  have hq : (if waiting k.chord.state = true then (chordTally i hi).sum k.chord.queue else 0) =
      (chordTally i hi).sum k.behindChord := by
    unfold Kbd.behindChord
    cases k.chord.state <;> simp [waiting, Tally.sum]
  unfold seen at key
  rw [habs, hq] at key
  have hsum : (chordTally i hi).sum (k.processed ++ k.behindKey ++ k.behindChord) =
      ((firings k i).length : Int) - ((endings k i).length : Int) := chordTally_sum i hi _
  rw [Tally.sum_append, Tally.sum_append] at hsum
  have hk : (chordTally i hi).sum k.behindKey = (chordTally i hi).sum k.pending.queue := rfl
  have hslot : (chordTally i hi).slot k.activeChords = slotWeight i k.activeChords := rfl
  rw [hslot] at key
  constructor
  · rintro ⟨a, ha, hact⟩
    have : slotWeight i k.activeChords = -1 := by
      unfold slotWeight
      rw [ha]
      exact if_pos hact
    omega
  · intro hn
    have : slotWeight i k.activeChords = 0 := by
      unfold slotWeight
      split
      · rename_i a ha
        exact if_neg (fun hact => hn ⟨a, ha, hact⟩)
      · rfl
    omega

/-! ### Where the engine can stop -/

/-- C50. From every state a keyboard can be in, handling any batch of events either succeeds or stops
the daemon at one of seven places: an assertion on the size of a fixed table, an unbalanced layer
deactivation, or an 8-bit counter wrapping around. It never dereferences a missing chord, never reads
beyond a queue, and never runs forever. -/
theorem C50_stops (c : Config) (hb : Bound c) (k : Kbd) (h : Reach (fun c' => c' = c) k) (evs : List KeyEvent) :
    ∃ depth, ∀ n, depth ≤ n →
      (∃ k' w, kbdProcessEvents n k evs = .ok (k', w)) ∨ (∃ e ∈ stopPoints, kbdProcessEvents n k evs = .error e) := by
  have hc : TermCfg c := (C27_wellformed c hb).termCfg
  have hi := matInv_reach hb h
  have hr : Reach Bound k := by
    clear hi
    induction h with
    | init c' hc' => exact .init c' (by have : c' = c := hc'; rw [this]; exact hb)
    | events n k evs k' w hr run ih => exact .events n k evs k' w ih run
    | bind k e k' ok hr run hc' ih => exact .bind k e k' ok ih run (by have : k'.config = c := hc'; rw [this]; exact hb)
    | scroll k s hr ih => exact .scroll k s ih
  obtain ⟨d, r, hne, hd⟩ := C24_terminates k hr evs
  refine ⟨d, fun n hn => ?_⟩
  have hs := loop_mat (processEvent_mat hc n) evs k 0 0 hi
  have he : processEventsLoop (processEvent n) evs k 0 0 = kbdProcessEvents n k evs := rfl
  rw [he, hd n hn] at hs
  rw [hd n hn]
  cases r with
  | ok r => exact .inl ⟨r.1, r.2, rfl⟩
  | error e =>
    refine .inr ⟨e, ?_, rfl⟩
    rcases hs with h1 | h1
    · exact absurd (by rw [h1]) hne
    · exact h1

/-! ### The theorems are not vacuous -/

theorem fixed_run {c : Config} {evs : List KeyEvent} {k : Kbd} (h : runConfig c evs = some k) :
    Fed (fun c' => c' = c) evs k := fed_run h rfl

/-- `C20_swallowed`, `C20_outstanding`, `C19_noted`, `C20_once`: the chord `j+k` is active with both keys
down while a third chord key waits. -/
example : ∃ c k a, Bound c ∧ Fed (fun c' => c' = c) [press 36 1000, press 37 1010, wakeup 1060, press 33 1100] k ∧
    SlotHolds k 0 36 a ∧ (∃ x ∈ a.chord.keys, x ≠ 36 ∧ x ≠ 0) ∧ k.chord.state = .pendingDisambiguation ∧
    (firings k 0).length = 1 ∧ k.outputs = [.key 45 true] := by
  have h : checkRun b!"[main]\nj+k = x\nj+k+l = y\nf+d = z\n" [press 36 1000, press 37 1010, wakeup 1060, press 33 1100] (fun _ => true)
      (fun k => (k.chord.state == .pendingDisambiguation && (decide ((firings k 0).length = 1) && k.outputs == [.key 45 true])) &&
        (match k.activeChords[0]? with
        | some a => a.active && decide (a.chord.keys = [36, 37])
        | none => false)) = true := by
    set_option maxRecDepth 100000 in decide +kernel
  obtain ⟨c, k, hb, _, _, hq, hr, _⟩ := checkRun_history h
  simp only [Bool.and_eq_true, beq_iff_eq, decide_eq_true_eq] at hq
  obtain ⟨⟨q1, q2, q3⟩, q4⟩ := hq
  split at q4
  · rename_i a ha
    simp only [Bool.and_eq_true, decide_eq_true_eq] at q4
    exact ⟨c, k, a, hb, fixed_run hr, ⟨ha, q4.1, by rw [q4.2]; decide, fun j b hj => by omega⟩,
      by rw [q4.2]; exact ⟨37, by decide, by decide, by decide⟩, q1, q2, q3⟩
  · cases q4

/-- `C20_ended`: one key is left. -/
example : ∃ c k a, Bound c ∧ Fed (fun c' => c' = c) [press 36 1000, press 37 1010, press 30 1020, release 37 1030] k ∧
    SlotHolds k 0 36 a ∧ (∀ x ∈ a.chord.keys, x = 36 ∨ x = 0) := by
  have h : checkRun b!"[main]\nj+k = x\n" [press 36 1000, press 37 1010, press 30 1020, release 37 1030] (fun _ => true)
      (fun k => match k.activeChords[0]? with
        | some a => a.active && decide (a.chord.keys = [36, 0])
        | none => false) = true := by
    set_option maxRecDepth 100000 in decide +kernel
  obtain ⟨c, k, hb, _, _, hq, hr, _⟩ := checkRun_history h
  split at hq
  · rename_i a ha
    simp only [Bool.and_eq_true, decide_eq_true_eq] at hq
    exact ⟨c, k, a, hb, fixed_run hr, ⟨ha, hq.1, by rw [hq.2]; decide, fun j b hj => by omega⟩, by rw [hq.2]; decide⟩
  · cases hq

/-- A chord's action is held until the last of its keys is released, in either order, and other keys
in between do not matter. -/
theorem C20_examples :
    checkRun b!"[main]\nj+k = x\n" [press 36 1000, press 37 1010, press 30 1020, release 36 1030] (fun _ => true)
      (fun k => k.outputs == [.key 45 true, .key 30 true]) = true ∧
    checkRun b!"[main]\nj+k = x\n" [press 36 1000, press 37 1010, press 30 1020, release 36 1030, release 37 1040] (fun _ => true)
      (fun k => k.outputs == [.key 45 true, .key 30 true, .key 45 false]) = true ∧
    checkRun b!"[main]\nj+k = x\n" [press 36 1000, press 37 1010, release 37 1030, release 36 1040] (fun _ => true)
      (fun k => k.outputs == [.key 45 true, .key 45 false]) = true := by
  refine ⟨?_, ?_, ?_⟩ <;> (set_option maxRecDepth 100000 in decide +kernel)

/-- Several of the places in `C50_stops` are reached by ordinary typing. Four chords at once: -/
theorem C50_four_chords : runErr b!"[main]\na+b = 1\nc+d = 2\ne+f = 3\ng+h = 4\n" [press 30 1000, press 48 1001, press 46 1002, press 32 1003,
      press 18 1004, press 33 1005, press 34 1006, press 35 1007] = some (.assertFail "resolve_chord: code") := by
  set_option maxRecDepth 100000 in decide +kernel

/-- 33 events while a chord is being held: -/
theorem C50_chord_queue : runErr b!"[global]\nchord_hold_timeout = 300\n[main]\na+b = 1\n" ([press 30 1000, press 48 1001] ++
      (List.range 31).map (fun i => ⟨UInt8.ofNat (i+50), true, 1002⟩)) =
        some (.assertFail "chord.queue_sz < ARRAY_SIZE(chord.queue)") := by
  set_option maxRecDepth 100000 in decide +kernel

/-- 65 taps of a hold-tap key within its timeout: -/
theorem C50_deadlines : runErr b!"[main]\na = overloadt2(shift, b, 30000)\n" ((List.range 65).flatMap (fun i =>
      [press 30 (1000 + 300 * i), release 30 (1100 + 300 * i)])) = some (.assertFail "nr_timeouts < ARRAY_SIZE(timeouts)") := by
  set_option maxRecDepth 100000 in decide +kernel

/-- 256 taps of a one-shot key: -/
theorem C50_oneshot : runErr b!"[main]\na = oneshot(shift)\n" ((List.range 256).flatMap (fun i =>
      [press 30 (1000 + i), release 30 (1000 + i)])) = some (.wrap "layer_state.active") := by
  set_option maxRecDepth 100000 in decide +kernel

end Keyd
