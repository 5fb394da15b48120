import Verif.Proofs.Termination

/-
  The potential argument: how deep `process_event` can call itself.
-/

set_option autoImplicit false

namespace Keyd

/-- The code of a chord. -/
def IsChordCode (x : Code) : Prop := KEYD.CHORD_1 ≤ x ∧ x ≤ KEYD.CHORD_MAX

instance (x : Code) : Decidable (IsChordCode x) := by unfold IsChordCode; infer_instance

/-- The largest nesting of actions. -/
def nestMax (c : Config) : Nat := c.descriptors.length + 1

/-- What an event can cause. -/
def evWeight (c : Config) (x : Code) : Nat :=
  if x = 0 then 0 else if IsChordCode x then nestMax c else 2 * nestMax c + 1

/-- What a list of events can cause. -/
def evsWeight (c : Config) : List KeyEvent → Nat
  | [] => 0
  | e :: l => evWeight c e.code + evsWeight c l

theorem evsWeight_append (c : Config) : ∀ l l', evsWeight c (l ++ l') = evsWeight c l + evsWeight c l'
  | [], l' => by simp [evsWeight]
  | e :: l, l' => by simp [evsWeight, evsWeight_append c l l', Nat.add_assoc]

theorem evsWeight_drop (c : Config) (n : Nat) (l : List KeyEvent) : evsWeight c (l.drop n) ≤ evsWeight c l := by
  conv => rhs; rw [← List.take_append_drop n l]
  rw [evsWeight_append]
  omega

/-- Free chord slots. -/
def freeSlots (l : List ActiveChord) : Nat := (l.filter (fun a => !a.active)).length

def basePot (k : Kbd) : Nat :=
  pendCredit k + evsWeight k.config k.pending.queue + nestMax k.config * freeSlots k.activeChords

/-- A chord is being waited for. -/
def waiting : ChordState → Bool
  | .pendingDisambiguation => true
  | .pendingHoldTimeout => true
  | _ => false

def pot (k : Kbd) : Nat := basePot k + (if waiting k.chord.state = true then evsWeight k.config k.chord.queue else 0)

def modeCost (k : Kbd) : Nat := if k.chord.state = .resolving then 0 else 1

/-- The state does not leave or enter the resolution of a chord. -/
structure SameMode (k k' : Kbd) : Prop where
  resolving : k.chord.state = .resolving → k'.chord = k.chord
  other : k.chord.state ≠ .resolving → k'.chord.state ≠ .resolving

theorem SameMode.refl (k : Kbd) : SameMode k k := ⟨fun _ => rfl, fun h => h⟩

theorem SameMode.of_chord {k k' : Kbd} (h : k'.chord = k.chord) : SameMode k k' := ⟨fun _ => h, fun h' => by rw [h]; exact h'⟩

theorem SameMode.trans {k k' k'' : Kbd} (h : SameMode k k') (h' : SameMode k' k'') : SameMode k k'' := by
  refine ⟨fun hr => ?_, fun hr => h'.other (h.other hr)⟩
  have e := h.resolving hr
  exact (h'.resolving (by rw [e]; exact hr)).trans e

theorem SameMode.cost {k k' : Kbd} (h : SameMode k k') : modeCost k' = modeCost k := by
  unfold modeCost
  by_cases hr : k.chord.state = .resolving
  · rw [h.resolving hr]
  · rw [if_neg hr, if_neg (h.other hr)]

/-- What the argument needs to know about the state. -/
structure TermInv (c : Config) (k : Kbd) : Prop where
  config : k.config = c
  slots : k.activeChords.length ≤ 3
  keys : ∀ a ∈ k.activeChords, ∀ x ∈ a.chord.keys, ¬ IsChordCode x

/-- What the argument needs to know about the configuration. -/
structure TermCfg (c : Config) : Prop where
  nest : NestWF c
  chords : ∀ l i, ∀ x ∈ ((c.layer l).chords.getD i ⟨[], .none⟩).keys, ¬ IsChordCode x

/-- The claim about (recursive calls of) `process_event`. -/
def Paid (c : Config) (pe : PE) (N : Nat) : Prop :=
  ∀ k code p t, TermInv c k → 2 * (pot k + evWeight c code) + modeCost k < N →
    Sat (pe k code p t) (fun r => TermInv c r.1 ∧ pot r.1 ≤ pot k + evWeight c code ∧ SameMode k r.1) RealErr

theorem catchUp_paid {c : Config} {pe : PE} {N : Nat} (hp : Paid c pe N) : ∀ (n : Nat) (k : Kbd) (to ts lim : Int),
    TermInv c k → 2 * pot k + modeCost k < N → 1 ≤ n → (to > 0 ∧ ts ≤ lim → (lim - ts).toNat + 2 ≤ n) →
    Sat (catchUp pe n k to ts lim) (fun r => TermInv c r.1 ∧ pot r.1 ≤ pot k ∧ SameMode k r.1) RealErr
  | 0, _, _, _, _, _, _, h1, _ => by omega
  | n+1, k, to, ts, lim, hi, hN, _, hn => by
    unfold catchUp
    refine Sat.ite (fun hc => ?_) (fun _ => ⟨hi, Nat.le_refl _, SameMode.refl k⟩)
    have hn := hn hc
    have w0 : evWeight c 0 = 0 := rfl
    refine (hp k 0 false ts hi (by rw [w0]; exact hN)).bind (fun r hr => ?_)
    obtain ⟨k1, t⟩ := r
    obtain ⟨h1, h2, h3⟩ := hr
    dsimp only at h1 h2 h3 ⊢
    rw [w0] at h2
    refine (catchUp_paid hp n k1 t (ts + t) lim h1 (by rw [h3.cost]; omega) (by omega) (fun hc' => ?_)).imp ?_
    · have := hc'.1; have := hc'.2; omega
    · intro r hr
      exact ⟨hr.1, by have := hr.2.1; omega, h3.trans hr.2.2⟩

theorem loop_paid {c : Config} {pe : PE} {N : Nat} (hp : Paid c pe N) : ∀ (evs : List KeyEvent) (k : Kbd) (to ts : Int),
    TermInv c k → 2 * (pot k + evsWeight c evs) + modeCost k < N →
    Sat (processEventsLoop pe evs k to ts)
      (fun r => TermInv c r.1 ∧ pot r.1 ≤ pot k + evsWeight c evs ∧ SameMode k r.1) RealErr
  | [], k, to, ts, hi, _ => ⟨hi, Nat.le_add_right _ _, SameMode.refl k⟩
  | ev :: rest, k, to, ts, hi, hN => by
    unfold processEventsLoop
    have hw : evsWeight c (ev :: rest) = evWeight c ev.code + evsWeight c rest := rfl
    rw [hw] at hN
    refine (catchUp_paid hp _ k to ts ev.ts hi (by omega) (by omega) (fun _ => Nat.le_refl _)).bind (fun r hr => ?_)
    obtain ⟨k1, to1, ts1⟩ := r
    obtain ⟨h1, h2, h3⟩ := hr
    dsimp only at h1 h2 h3 ⊢
    refine (hp k1 ev.code ev.pressed ev.ts h1 (by rw [h3.cost]; omega)).bind (fun r hr => ?_)
    obtain ⟨k2, t⟩ := r
    obtain ⟨g1, g2, g3⟩ := hr
    dsimp only at g1 g2 g3 ⊢
    refine (loop_paid hp rest k2 t (ev.ts + t) g1 (by rw [g3.cost, h3.cost]; omega)).imp ?_
    intro r hr
    refine ⟨hr.1, ?_, (h3.trans g3).trans hr.2.2⟩
    have := hr.2.1
    rw [hw]
    omega

/-! ### Chords -/

theorem chordCode_isChord {i : Nat} (h : i < 3) : IsChordCode (KEYD.CHORD_1 + UInt8.ofNat i) := by
  have : i = 0 ∨ i = 1 ∨ i = 2 := by omega
  rcases this with rfl | rfl | rfl <;> decide

theorem chordCode_weight (c : Config) {i : Nat} (h : i < 3) :
    evWeight c (KEYD.CHORD_1 + UInt8.ofNat i) = nestMax c := by
  have : i = 0 ∨ i = 1 ∨ i = 2 := by omega
  rcases this with rfl | rfl | rfl <;> rfl

theorem freeSlots_set : ∀ (l : List ActiveChord) (i : Nat) (a b : ActiveChord), l[i]? = some a →
    freeSlots (l.set i b) + (if a.active then 0 else 1) = freeSlots l + (if b.active then 0 else 1)
  | [], i, a, b, h => by simp at h
  | x :: l, 0, a, b, h => by
    simp at h
    subst h
    simp only [freeSlots, List.set_cons_zero, List.filter_cons]
    cases x.active <;> cases b.active <;> simp <;> omega
  | x :: l, i+1, a, b, h => by
    have := freeSlots_set l i a b (by simpa using h)
    simp only [freeSlots, List.set_cons_succ, List.filter_cons] at this ⊢
    cases x.active <;> simp <;> omega

theorem freeChordSlot_some : ∀ (l : List ActiveChord) (j i : Nat), freeChordSlot l j = some i →
    ∃ a, j ≤ i ∧ l[i - j]? = some a ∧ a.active = false
  | [], j, i, h => by simp [freeChordSlot] at h
  | x :: l, j, i, h => by
    unfold freeChordSlot at h
    split at h
    · obtain ⟨a, h1, h2, h3⟩ := freeChordSlot_some l (j+1) i h
      refine ⟨a, by omega, ?_, h3⟩
      rw [show i - j = (i - (j+1)) + 1 by omega, List.getElem?_cons_succ]
      exact h2
    · rename_i hx
      injection h with h
      subst h
      exact ⟨x, Nat.le_refl _, by simp, by simpa using hx⟩

theorem findActiveChord_some (code : Code) : ∀ (l : List ActiveChord) (j i : Nat), findActiveChord code l j = some i →
    ∃ a, j ≤ i ∧ l[i - j]? = some a ∧ a.active = true ∧ code ∈ a.chord.keys
  | [], j, i, h => by simp [findActiveChord] at h
  | x :: l, j, i, h => by
    unfold findActiveChord at h
    split at h
    · rename_i hx
      injection h with h
      subst h
      exact ⟨x, Nat.le_refl _, by simp, hx.1, hx.2⟩
    · obtain ⟨a, h1, h2, h3⟩ := findActiveChord_some code l (j+1) i h
      refine ⟨a, by omega, ?_, h3⟩
      rw [show i - j = (i - (j+1)) + 1 by omega, List.getElem?_cons_succ]
      exact h2

theorem lt_of_getElem? {α : Type} {l : List α} {i : Nat} {a : α} (h : l[i]? = some a) : i < l.length := by
  rcases Nat.lt_or_ge i l.length with h' | h'
  · exact h'
  · rw [List.getElem?_eq_none h'] at h; cases h

theorem TermInv.setChord {c : Config} {k : Kbd} (h : TermInv c k) (ch : ChordSt) : TermInv c { k with chord := ch } :=
  ⟨h.1, h.2, h.3⟩

/-- Everything the argument looks at, except the chord state. -/
theorem basePot_congr {k k' : Kbd} (hp : k'.pending = k.pending) (ha : k'.activeChords = k.activeChords)
    (hc : k'.config = k.config) : basePot k' = basePot k := by
  unfold basePot pendCredit
  rw [hp, ha, hc]

theorem pot_congr {k k' : Kbd} (hp : k'.pending = k.pending) (ha : k'.activeChords = k.activeChords)
    (hc : k'.config = k.config) (hch : k'.chord = k.chord) : pot k' = pot k := by
  unfold pot
  rw [basePot_congr hp ha hc, hc, hch]

theorem basePot_le_pot (k : Kbd) : basePot k ≤ pot k := Nat.le_add_right _ _

theorem TermInv.calm {c : Config} {k k' : Kbd} (h : TermInv c k) (hc : Calm k k') : TermInv c k' :=
  ⟨hc.config.trans h.1, by rw [hc.activeChords]; exact h.2, by rw [hc.activeChords]; exact h.3⟩

/-- Replacing an active chord. -/
theorem TermInv.setSlot {c : Config} {k : Kbd} (h : TermInv c k) (i : Nat) (a : ActiveChord)
    (ha : ∀ x ∈ a.chord.keys, ¬ IsChordCode x) : TermInv c { k with activeChords := k.activeChords.set i a } := by
  refine ⟨h.1, by simpa using h.2, fun b hb => ?_⟩
  rcases List.mem_or_eq_of_mem_set hb with hb | hb
  · exact h.3 b hb
  · subst hb; exact ha

theorem installChord_paid {c : Config} (hc : TermCfg c) {k : Kbd} (h : TermInv c k) (p : Nat × Nat) :
    Sat (installChord k p) (fun r => TermInv c r.1 ∧ basePot r.1 + nestMax c = basePot k ∧ r.1.chord = k.chord ∧
      evWeight c r.2.1 = nestMax c) RealErr := by
  unfold installChord
  dsimp only
  split
  · exact fun h => by cases h
  · rename_i i hi
    obtain ⟨a, _, ha, hb⟩ := freeChordSlot_some _ _ _ hi
    rw [Nat.sub_zero] at ha
    refine ⟨h.setSlot _ _ ?_, ?_, rfl, chordCode_weight c (Nat.lt_of_lt_of_le (lt_of_getElem? ha) h.slots)⟩
    · intro x hx
      refine hc.chords p.1 p.2 x ?_
      unfold derefChord at hx
      rw [h.config] at hx
      exact hx
    · have := freeSlots_set k.activeChords i a ⟨true, derefChord k p, k.chord.matchLayer⟩ ha
      rw [hb] at this
      simp only [Bool.false_eq_true, if_false, if_true, Nat.add_zero] at this
      unfold basePot pendCredit
      dsimp only
      rw [← this, h.config, Nat.mul_add, Nat.mul_one]
      omega

theorem resolveChord_paid {c : Config} (hc : TermCfg c) {pe : PE} {N B : Nat} (hp : Paid c pe N) {k : Kbd}
    (h : TermInv c k) (hB : basePot k + evsWeight c k.chord.queue ≤ B) (hN : 2 * B < N) :
    Sat (resolveChord pe k) (fun k' => TermInv c k' ∧ pot k' ≤ B ∧ k'.chord.state = .inactive) RealErr := by
  have res : ∀ k : Kbd, k.chord.state = .resolving → pot k = basePot k ∧ modeCost k = 0 := by
    intro k hk
    unfold pot modeCost
    rw [hk]
    simp [waiting]
  unfold resolveChord
  dsimp only
  refine Sat.bind (Q := fun r : Kbd × Nat => TermInv c r.1 ∧ basePot r.1 ≤ basePot k ∧
      r.1.chord = { k.chord with state := .resolving }) ?_ (fun r hr => ?_)
  · split
    · exact ⟨h.setChord _, Nat.le_refl _, rfl⟩
    · rename_i p hm
      refine (installChord_paid hc (h.setChord { k.chord with state := .resolving }) p).bind (fun r hr => ?_)
      obtain ⟨k1, code, sz⟩ := r
      obtain ⟨h1, h2, h3, h4⟩ := hr
      dsimp only at h1 h2 h3 h4 ⊢
      have hb : basePot { k with chord := { k.chord with state := .resolving } } = basePot k := rfl
      rw [hb] at h2
      have hl : TermInv c (k1.logSwallowed (k1.chord.queue.take sz)) := ⟨h1.1, h1.2, h1.3⟩
      have hst : (k1.logSwallowed (k1.chord.queue.take sz)).chord.state = .resolving := by
        show k1.chord.state = _
        rw [h3]
      have hbl : basePot (k1.logSwallowed (k1.chord.queue.take sz)) = basePot k1 := rfl
      obtain ⟨e1, e2⟩ := res _ hst
      refine (hp _ code true _ hl (by rw [e1, e2, h4, hbl]; omega)).bind (fun r hr => ?_)
      obtain ⟨k2, t⟩ := r
      obtain ⟨g1, g2, g3⟩ := hr
      dsimp only at g1 g2 g3 ⊢
      have hch : k2.chord = { k.chord with state := .resolving } := (g3.resolving hst).trans h3
      refine ⟨g1, ?_, hch⟩
      show basePot k2 ≤ basePot k
      rw [e1, h4, hbl] at g2
      have := basePot_le_pot k2
      omega
  · obtain ⟨k1, off⟩ := r
    obtain ⟨h1, h2, h3⟩ := hr
    dsimp only at h1 h2 h3 ⊢
    refine Sat.ite (fun _ => fun h => by cases h) (fun _ => ?_)
    have hst : k1.chord.state = .resolving := by rw [h3]
    obtain ⟨e1, e2⟩ := res _ hst
    have hq : evsWeight c (k1.chord.queue.drop off) ≤ evsWeight c k.chord.queue := by
      rw [h3]
      exact evsWeight_drop c off _
    refine (loop_paid hp (k1.chord.queue.drop off) k1 0 0 h1 (by rw [e1, e2]; omega)).bind (fun r hr => ?_)
    obtain ⟨k2, t⟩ := r
    obtain ⟨g1, g2, g3⟩ := hr
    dsimp only at g1 g2 g3 ⊢
    refine ⟨g1.setChord _, ?_, rfl⟩
    show pot _ ≤ B
    have hb := basePot_le_pot k2
    rw [e1] at g2
    have : pot { k2 with chord := { k2.chord with state := .inactive } } = basePot k2 := by
      unfold pot basePot pendCredit
      simp [waiting]
    rw [this]
    omega

theorem abortChord_paid {c : Config} (hc : TermCfg c) {pe : PE} {N B : Nat} (hp : Paid c pe N) {k : Kbd}
    (h : TermInv c k) (hB : basePot k + evsWeight c k.chord.queue ≤ B) (hN : 2 * B < N) :
    Sat (abortChord pe k) (fun k' => TermInv c k' ∧ pot k' ≤ B ∧ k'.chord.state = .inactive) RealErr :=
  resolveChord_paid hc hp (h.setChord _) hB hN

theorem enqueueChord_paid {c : Config} {k : Kbd} (code : Code) (p : Bool) (t : Int) (h : TermInv c k) :
    Sat (enqueueChordEvent k code p t) (fun k' => TermInv c k' ∧ basePot k' = basePot k ∧
      k'.chord.state = k.chord.state ∧ k'.chord.match = k.chord.match ∧
      evsWeight c k'.chord.queue = evsWeight c k.chord.queue + evWeight c code) RealErr := by
  unfold enqueueChordEvent
  refine Sat.ite (fun h0 => ?_) (fun _ => Sat.ite (fun _ => ?_) (fun _ => fun h => by cases h))
  · subst h0
    exact ⟨h, rfl, rfl, rfl, rfl⟩
  · refine ⟨h.setChord _, rfl, rfl, rfl, ?_⟩
    show evsWeight c (k.chord.queue ++ _) = _
    rw [evsWeight_append]
    simp [evsWeight]

/-- After the chord machinery: the event was consumed, or nothing was paid. -/
def AfterChord (c : Config) (k : Kbd) (w : Nat) (r : Kbd × Bool) : Prop :=
  TermInv c r.1 ∧ SameMode k r.1 ∧ pot r.1 ≤ pot k + w ∧ (r.2 = false → pot r.1 ≤ pot k)

theorem schedule_paid {c : Config} {k : Kbd} (t : Int) (h : TermInv c k) :
    Sat (scheduleTimeout k t) (fun k' => TermInv c k' ∧ basePot k' = basePot k ∧ k'.chord = k.chord) RealErr := by
  refine (NoFuel.schedule _ _).sat ((Calm.schedule k t).imp (fun k1 h1 => ?_))
  exact ⟨h.calm h1, basePot_congr h1.pending h1.activeChords h1.config, h1.chord⟩

theorem pot_le_of_base {c : Config} {k : Kbd} {B : Nat} (hc : k.config = c)
    (h : basePot k + evsWeight c k.chord.queue ≤ B) : pot k ≤ B := by
  unfold pot
  rw [hc]
  split <;> omega

theorem checkChordMatch_cases (k : Kbd) : ∃ n ch, checkChordMatch k = (n, { k with chord := ch }) ∧
    ch.queue = k.chord.queue ∧ ch.state = k.chord.state := by
  unfold checkChordMatch
  dsimp only
  split
  · exact ⟨_, _, rfl, rfl, rfl⟩
  · exact ⟨_, k.chord, rfl, rfl, rfl⟩

theorem chordDecide_paid {c : Config} (hc : TermCfg c) {pe : PE} {N B : Nat} (hp : Paid c pe N) {k : Kbd} (t : Int)
    (h : TermInv c k) (hB : basePot k + evsWeight c k.chord.queue ≤ B) (hN : 2 * B < N)
    (ifNone : Kbd → Res (Kbd × Bool)) {Q : Kbd × Bool → Prop}
    (hNone : ∀ k', TermInv c k' → basePot k' = basePot k → k'.chord.queue = k.chord.queue →
      k'.chord.state = k.chord.state → Sat (ifNone k') Q RealErr)
    (hQ : ∀ k', TermInv c k' → pot k' ≤ B → k'.chord.state ≠ .resolving → Q (k', true)) :
    Sat (chordDecide pe k t ifNone) Q RealErr := by
  obtain ⟨n, ch, he, hq, hs⟩ := checkChordMatch_cases k
  have hi : TermInv c { k with chord := ch } := h.setChord ch
  have sched : ∀ (ch' : ChordSt) (t' : Int), ch'.queue = ch.queue → ch'.state ≠ .resolving →
      Sat (scheduleTimeout { k with chord := ch' } t') (fun k' => Q (k', true)) RealErr := by
    intro ch' t' hq' hs'
    refine (schedule_paid t' (h.setChord ch')).imp (fun k1 h1 => ?_)
    refine hQ k1 h1.1 (pot_le_of_base h1.1.config ?_) (by rw [h1.2.2]; exact hs')
    rw [h1.2.1, h1.2.2]
    show basePot k + evsWeight c ch'.queue ≤ B
    rw [hq', hq]
    exact hB
  unfold chordDecide
  rw [he]
  split
  · rename_i heq
    cases heq
    exact hNone _ hi rfl hq hs
  · rename_i heq
    cases heq
    dsimp only
    refine Sat.ite (fun _ => ?_) (fun _ => ?_)
    · refine (sched _ _ ?_ ?_).bind (fun k1 h1 => h1)
      · rfl
      · exact fun h => by cases h
    · refine (resolveChord_paid hc hp (h.setChord _) ?_ hN).bind
        (fun k1 h1 => hQ k1 h1.1 h1.2.1 (by rw [h1.2.2]; exact fun h => by cases h))
      show basePot k + evsWeight c ch.queue ≤ B
      rw [hq]; exact hB
  · rename_i heq
    cases heq
    dsimp only
    refine (sched _ _ ?_ ?_).bind (fun k1 h1 => h1)
    · rfl
    · exact fun h => by cases h

theorem chordMachine_paid {c : Config} (hc : TermCfg c) {pe : PE} {N : Nat} (hp : Paid c pe N) {k : Kbd}
    (code : Code) (p : Bool) (t : Int) (h : TermInv c k) (hN : 2 * (pot k + evWeight c code) + modeCost k < N + 1) :
    Sat (chordMachine pe k code p t) (AfterChord c k (evWeight c code)) RealErr := by
  unfold chordMachine
  split
  · exact ⟨h, SameMode.refl k, Nat.le_add_right _ _, fun _ => Nat.le_refl _⟩
  · rename_i hst
    have hm : modeCost k = 1 := by unfold modeCost; rw [hst]; rfl
    have hpot : pot k = basePot k := by unfold pot; rw [hst]; simp [waiting]
    have nores : k.chord.state ≠ .resolving := by rw [hst]; exact fun h => by cases h
    dsimp only
    refine (enqueueChord_paid code p t (h.setChord { k.chord with queue := [], «match» := none, startCode := code })).bind
      (fun k1 h1 => ?_)
    obtain ⟨h1, h2, h3, _, h4⟩ := h1
    have h2 : basePot k1 = basePot k := h2
    have h3 : k1.chord.state = .inactive := h3.trans hst
    have h4 : evsWeight c k1.chord.queue = 0 + evWeight c code := h4
    refine chordDecide_paid hc hp (B := pot k + evWeight c code) t h1 (by rw [h2, h4, hpot]; omega) (by omega) _ ?_ ?_
    · intro k' g1 g2 g3 g4
      have : pot k' = basePot k' := by unfold pot; rw [g4, h3]; simp [waiting]
      refine ⟨g1, ⟨fun hr => absurd hr nores, fun _ => ?_⟩, ?_, fun _ => ?_⟩
      · show k'.chord.state ≠ _
        rw [g4, h3]; exact fun h => by cases h
      · show pot k' ≤ _; omega
      · show pot k' ≤ _; omega
    · intro k' g1 g2 g3
      exact ⟨g1, ⟨fun hr => absurd hr nores, fun _ => g3⟩, g2, fun h => by cases h⟩
  · rename_i hst
    have hm : modeCost k = 1 := by unfold modeCost; rw [hst]; rfl
    have hpot : pot k = basePot k + evsWeight c k.chord.queue := by unfold pot; rw [hst, h.config]; simp [waiting]
    have nores : k.chord.state ≠ .resolving := by rw [hst]; exact fun h => by cases h
    have fin : ∀ k', TermInv c k' → pot k' ≤ pot k + evWeight c code → k'.chord.state ≠ .resolving →
        AfterChord c k (evWeight c code) (k', true) :=
      fun k' g1 g2 g3 => ⟨g1, ⟨fun hr => absurd hr nores, fun _ => g3⟩, g2, fun h => by cases h⟩
    refine Sat.ite (fun h0 => ?_) (fun h0 => ?_)
    · refine Sat.ite (fun _ => Sat.ite (fun _ => ?_) (fun _ => ?_)) (fun _ => ?_)
      · dsimp only
        refine Sat.ite (fun _ => ?_) (fun _ => ?_)
        · refine (schedule_paid _ h).bind (fun k1 h1 => ?_)
          refine fin _ (h1.1.setChord _) (pot_le_of_base h1.1.config ?_) (fun h => by cases h)
          show basePot k1 + evsWeight c k1.chord.queue ≤ _
          rw [h1.2.1, h1.2.2]
          omega
        · refine (resolveChord_paid hc hp (B := pot k) h (by omega) (by omega)).bind (fun k1 h1 => ?_)
          exact fin _ h1.1 (by have := h1.2.1; omega) (by rw [h1.2.2]; exact fun h => by cases h)
      · refine (abortChord_paid hc hp (B := pot k) h (by omega) (by omega)).bind (fun k1 h1 => ?_)
        exact fin _ h1.1 (by have := h1.2.1; omega) (by rw [h1.2.2]; exact fun h => by cases h)
      · exact ⟨h, SameMode.refl k, Nat.le_add_right _ _, fun _ => Nat.le_refl _⟩
    · refine (enqueueChord_paid code p t h).bind (fun k1 h1 => ?_)
      obtain ⟨h1, h2, h3, _, h4⟩ := h1
      have hB : basePot k1 + evsWeight c k1.chord.queue ≤ pot k + evWeight c code := by omega
      have ab : ∀ k', TermInv c k' → basePot k' = basePot k1 → k'.chord.queue = k1.chord.queue →
          Sat (do let k ← abortChord pe k'; Except.ok (k, true)) (AfterChord c k (evWeight c code)) RealErr := by
        intro k' g1 g2 g3
        refine (abortChord_paid hc hp g1 (B := pot k + evWeight c code) (by rw [g2, g3]; omega) (by omega)).bind
          (fun k2 h2 => ?_)
        exact fin _ h2.1 h2.2.1 (by rw [h2.2.2]; exact fun h => by cases h)
      refine Sat.ite (fun _ => ab k1 h1 rfl rfl) (fun _ => ?_)
      exact chordDecide_paid hc hp (B := pot k + evWeight c code) t h1 hB (by omega) _
        (fun k' g1 g2 g3 _ => ab k' g1 g2 g3) fin
  · rename_i hst
    have hm : modeCost k = 1 := by unfold modeCost; rw [hst]; rfl
    have hpot : pot k = basePot k + evsWeight c k.chord.queue := by unfold pot; rw [hst, h.config]; simp [waiting]
    have nores : k.chord.state ≠ .resolving := by rw [hst]; exact fun h => by cases h
    have fin : ∀ k', TermInv c k' → pot k' ≤ pot k + evWeight c code → k'.chord.state ≠ .resolving →
        AfterChord c k (evWeight c code) (k', true) :=
      fun k' g1 g2 g3 => ⟨g1, ⟨fun hr => absurd hr nores, fun _ => g3⟩, g2, fun h => by cases h⟩
    refine Sat.ite (fun h0 => ?_) (fun h0 => ?_)
    · refine Sat.ite (fun _ => ?_) (fun _ => ?_)
      · refine (resolveChord_paid hc hp (B := pot k) h (by omega) (by omega)).bind (fun k1 h1 => ?_)
        exact fin _ h1.1 (by have := h1.2.1; omega) (by rw [h1.2.2]; exact fun h => by cases h)
      · exact ⟨h, SameMode.refl k, Nat.le_add_right _ _, fun _ => Nat.le_refl _⟩
    · refine (enqueueChord_paid code p t h).bind (fun k1 h1 => ?_)
      obtain ⟨h1, h2, h3, _, h4⟩ := h1
      have hB : basePot k1 + evsWeight c k1.chord.queue ≤ pot k + evWeight c code := by omega
      have keep : AfterChord c k (evWeight c code) (k1, true) :=
        fin k1 h1 (pot_le_of_base h1.config hB) (by rw [h3]; exact nores)
      refine Sat.ite (fun _ => ?_) (fun _ => keep)
      split
      · exact fun h => by cases h
      · refine Sat.ite (fun _ => ?_) (fun _ => keep)
        refine (abortChord_paid hc hp h1 (B := pot k + evWeight c code) hB (by omega)).bind (fun k2 h2 => ?_)
        exact fin _ h2.1 h2.2.1 (by rw [h2.2.2]; exact fun h => by cases h)

/-- The chord after the release of one of its keys. -/
abbrev strickenChord (code : Code) (a : ActiveChord) (b : Bool) : ActiveChord :=
  { active := b, chord := { keys := chordStrike code a.chord.keys, d := a.chord.d }, layer := a.layer }

abbrev setSlot (k : Kbd) (i : Nat) (a : ActiveChord) : Kbd := { k with activeChords := k.activeChords.set i a }

theorem pot_setSlot (k : Kbd) (i : Nat) (a : ActiveChord) :
    pot (setSlot k i a) + nestMax k.config * freeSlots k.activeChords =
      pot k + nestMax k.config * freeSlots (k.activeChords.set i a) := by
  unfold pot basePot pendCredit
  dsimp only
  omega

theorem strikeChord_paid {c : Config} {pe : PE} {N : Nat} (hp : Paid c pe N) {k : Kbd} {i : Nat} {code : Code} (t : Int)
    (hf : findActiveChord code k.activeChords 0 = some i) (h0 : code ≠ 0) (h : TermInv c k)
    (hN : 2 * (pot k + evWeight c code) + modeCost k < N + 1) :
    Sat (strikeChord pe k i code t) (fun k' => AfterChord c k (evWeight c code) (k', true)) RealErr := by
  obtain ⟨a, _, ha, hact, hmem⟩ := findActiveChord_some _ _ _ _ hf
  rw [Nat.sub_zero] at ha
  have hin : a ∈ k.activeChords := List.mem_of_getElem? ha
  have hlt : i < 3 := Nat.lt_of_lt_of_le (lt_of_getElem? ha) h.slots
  have hw : evWeight c code = 2 * nestMax c + 1 := by
    unfold evWeight
    rw [if_neg h0, if_neg (h.keys a hin code hmem)]
  have hkeys : ∀ x ∈ chordStrike code a.chord.keys, ¬ IsChordCode x := by
    intro x hx
    obtain ⟨y, hy, he⟩ := List.mem_map.1 hx
    split at he
    · subst he; decide
    · subst he; exact h.keys a hin _ hy
  have hget : k.activeChords.getD i {} = a := by rw [List.getD_eq_getElem?_getD, ha]; rfl
  unfold strikeChord
  rw [hget]
  dsimp only
  refine Sat.ite (fun _ => ?_) (fun _ => ?_)
  · have hs := freeSlots_set k.activeChords i a
      (strickenChord code a false) ha
    rw [hact] at hs
    simp only [Bool.false_eq_true, if_false, if_true, Nat.add_zero] at hs
    have hpot : pot (setSlot (k.logSwallowed [⟨code, false, t⟩]) i (strickenChord code a false)) =
        pot k + nestMax c := by
      have hg := pot_setSlot (k.logSwallowed [⟨code, false, t⟩]) i (strickenChord code a false)
      have e1 : pot (k.logSwallowed [⟨code, false, t⟩]) = pot k := rfl
      have e2 : (k.logSwallowed [⟨code, false, t⟩]).activeChords = k.activeChords := rfl
      have e3 : (k.logSwallowed [⟨code, false, t⟩]).config = c := h.config
      rw [e1, e2, e3, hs, Nat.mul_add, Nat.mul_one] at hg
      omega
    have hi : TermInv c (setSlot (k.logSwallowed [⟨code, false, t⟩]) i (strickenChord code a false)) :=
      TermInv.setSlot (k := k.logSwallowed [⟨code, false, t⟩]) ⟨h.1, h.2, h.3⟩ i _ hkeys
    refine (hp _ (KEYD.CHORD_1 + UInt8.ofNat i) false t hi ?_).bind (fun r hr => ?_)
    · rw [hpot, chordCode_weight c hlt]
      show 2 * (pot k + nestMax c + nestMax c) + modeCost k < N
      omega
    · obtain ⟨k1, t1⟩ := r
      obtain ⟨g1, g2, g3⟩ := hr
      dsimp only at g1 g2 g3 ⊢
      rw [hpot, chordCode_weight c hlt] at g2
      refine ⟨g1, ?_, ?_, fun h => by cases h⟩
      · exact SameMode.trans (SameMode.of_chord (k' := setSlot (k.logSwallowed [⟨code, false, t⟩]) i (strickenChord code a false)) rfl) g3
      · show pot k1 ≤ _
        omega
  · have hs := freeSlots_set k.activeChords i a
      (strickenChord code a a.active) ha
    have hs : freeSlots (k.activeChords.set i
      (strickenChord code a a.active)) =
      freeSlots k.activeChords := Nat.add_right_cancel hs
    refine ⟨TermInv.setSlot (k := k.logSwallowed [⟨code, false, t⟩]) ⟨h.1, h.2, h.3⟩ i _ hkeys,
      SameMode.of_chord rfl, ?_, fun h => by cases h⟩
    show pot _ ≤ _
    have : pot (setSlot (k.logSwallowed [⟨code, false, t⟩]) i (strickenChord code a a.active)) = pot k := by
      have hg := pot_setSlot (k.logSwallowed [⟨code, false, t⟩]) i (strickenChord code a a.active)
      have e1 : pot (k.logSwallowed [⟨code, false, t⟩]) = pot k := rfl
      have e2 : (k.logSwallowed [⟨code, false, t⟩]).activeChords = k.activeChords := rfl
      rw [e1, e2, hs] at hg
      omega
    rw [this]
    omega

theorem handleChord_paid {c : Config} (hc : TermCfg c) {pe : PE} {N : Nat} (hp : Paid c pe N) {k : Kbd}
    (code : Code) (p : Bool) (t : Int) (h : TermInv c k) (hN : 2 * (pot k + evWeight c code) + modeCost k < N + 1) :
    Sat (handleChord pe k code p t) (AfterChord c k (evWeight c code)) RealErr := by
  unfold handleChord
  split
  · rename_i i hf
    split at hf
    · rename_i h0
      exact (strikeChord_paid hp t hf h0.1 h hN).bind (fun k1 h1 => h1)
    · cases hf
  · exact chordMachine_paid hc hp code p t h hN

/-! ### Pending keys -/

theorem pot_mild {x : Code} {b : Nat} {k k' : Kbd} (hm : Mild x b k k') :
    pot k' + pendCredit k = pot k + pendCredit k' ∧ SameMode k k' := by
  refine ⟨?_, SameMode.of_chord hm.chord⟩
  unfold pot basePot
  rw [hm.config, hm.activeChords, hm.chord, hm.queue]
  omega

theorem TermInv.mild {c : Config} {x : Code} {b : Nat} {k k' : Kbd} (h : TermInv c k) (hm : Mild x b k k') : TermInv c k' :=
  ⟨hm.config.trans h.1, by rw [hm.activeChords]; exact h.2, by rw [hm.activeChords]; exact h.3⟩

theorem cacheSet_frame {k k' : Kbd} {code : Code} {e : Option CacheEntry} (h : cacheSet k code e = some k') :
    ∃ l, k' = { k with cache := l } := by
  unfold cacheSet at h
  split at h
  · cases h
  · split at h <;> (injection h with h; exact ⟨_, h.symm⟩)

theorem pendingDecision_rank (c : Config) (p : PendingKey) (code : Code) (b : Bool) (t : Int) :
    nestRank c (pendingDecision p code b t) ≤ max (nestRank c p.action1) (nestRank c p.action2) := by
  have h1 : nestRank c p.action1 ≤ max (nestRank c p.action1) (nestRank c p.action2) := Nat.le_max_left _ _
  have h2 : nestRank c p.action2 ≤ max (nestRank c p.action1) (nestRank c p.action2) := Nat.le_max_right _ _
  have h3 : nestRank c .none = 0 := rfl
  have h4 : nestRank c (.keyseq KEYD.NOOP 0) = 0 := rfl
  unfold pendingDecision
  repeat' split
  all_goals omega

theorem descBudget_rank (k : Kbd) (d : Desc) : nestRank k.config d < descBudget k := by
  have := nestRank_le k.config d
  unfold descBudget
  omega

theorem handlePendingKey_paid {c : Config} (hc : TermCfg c) {pe : PE} {N : Nat} (hp : Paid c pe N) {k : Kbd}
    (code : Code) (p : Bool) (t : Int) (h : TermInv c k) (hN : 2 * (pot k + evWeight c code) + modeCost k < N + 1) :
    Sat (handlePendingKey pe k code p t) (AfterChord c k (evWeight c code)) RealErr := by
  unfold handlePendingKey
  refine Sat.ite (fun _ => ?_) (fun hpend => ?_)
  · exact ⟨h, SameMode.refl k, Nat.le_add_right _ _, fun _ => Nat.le_refl _⟩
  · refine Sat.bind (Q := fun o => match o with
      | none => True
      | some k1 => ∃ q, k1 = { k with pending := { k.pending with queue := q } } ∧
          evsWeight c q = evsWeight c k.pending.queue + evWeight c code) ?_ (fun o ho => ?_)
    · unfold pendingEnqueue
      refine Sat.ite (fun h0 => ?_) (fun _ => Sat.ite (fun _ => ?_) (fun _ => Sat.ite (fun _ => trivial) (fun _ => ?_)))
      · subst h0
        exact ⟨k.pending.queue, rfl, rfl⟩
      · exact fun h => by cases h
      · refine ⟨_, rfl, ?_⟩
        rw [evsWeight_append]
        simp [evsWeight]
    · split
      · exact ⟨h, SameMode.refl k, Nat.le_add_right _ _, fun _ => Nat.le_refl _⟩
      · rename_i k1
        obtain ⟨q, rfl, hq⟩ := ho
        have hpot : ∀ q', pot { k with pending := { k.pending with queue := q' } } + evsWeight c k.pending.queue =
            pot k + evsWeight c q' := by
          intro q'
          unfold pot basePot pendCredit
          rw [h.config]
          dsimp only
          omega
        dsimp only
        refine Sat.ite (fun _ => ?_) (fun hne => ?_)
        · refine ⟨⟨h.1, h.2, h.3⟩, SameMode.of_chord rfl, ?_, fun h => by cases h⟩
          show pot { k with pending := { k.pending with queue := q } } ≤ pot k + evWeight c code
          have := hpot q
          omega
        · generalize hact : pendingDecision _ code p t = action
          have hrank := pendingDecision_rank c { k.pending with queue := q } code p t
          rw [hact] at hrank
          dsimp only at hrank
          have hcred : pendCredit k = 1 + max (nestRank c k.pending.action1) (nestRank c k.pending.action2) := by
            unfold pendCredit
            rw [if_neg hpend, h.config]
          unfold resolvePendingStep
          dsimp only
          refine Sat.bind (Q := fun r : Kbd × List KeyEvent => r.2 = q ∧ TermInv c r.1 ∧ SameMode k r.1 ∧
            pot r.1 + evsWeight c q + 1 ≤ pot k + evWeight c code) ?_ (fun r hr => ?_)
          · -- the state handed to the action
            generalize hk2 : (Option.getD _ _ : Kbd).log _ = k2
            have e : ∃ l s, k2 = { k with cache := l, steps := s, pending := { k.pending with code := 0, queue := [], tapExpiry := 0 } } := by
              subst hk2
              cases hcs : cacheSet { k with pending := { k.pending with code := 0, queue := [], tapExpiry := 0 } } k.pending.code
                (some { d := action, dl := k.pending.dl, layer := 0 }) with
              | none =>
                refine ⟨k.cache, .resolve k.pending.code action k.pending.dl t :: k.steps, ?_⟩
                show Kbd.log _ _ = _
                unfold Kbd.log
                rfl
              | some k3 =>
                obtain ⟨l, hl⟩ := cacheSet_frame hcs
                refine ⟨l, .resolve k.pending.code action k.pending.dl t :: k.steps, ?_⟩
                show Kbd.log k3 _ = _
                rw [hl]
                unfold Kbd.log
                rfl
            obtain ⟨l, s, e⟩ := e
            have e1 : k2.config = c := by rw [e]; exact h.config
            have e2 : TermInv c k2 := by rw [e]; exact ⟨h.1, h.2, h.3⟩
            have e3 : k2.chord = k.chord := by rw [e]
            have e4 : pendCredit k2 = 0 := by rw [e]; rfl
            have e5 : pot k2 + pendCredit k + evsWeight c k.pending.queue = pot k := by
              have hb : basePot k2 = nestMax c * freeSlots k.activeChords := by
                unfold basePot
                rw [e4, e1, e]
                simp [evsWeight]
              unfold pot
              rw [hb, e1, e3]
              unfold basePot
              rw [h.config]
              omega
            refine (mild_descriptor hc.nest _ k2 k.pending.code action k.pending.dl true t e1
              (e1 ▸ descBudget_rank k2 action)).bind (fun k3 h3 => ?_)
            obtain ⟨p1, p2⟩ := pot_mild h3
            have h5 := h3.credit
            refine ⟨rfl, e2.mild h3, (SameMode.of_chord e3).trans p2, ?_⟩
            show pot k3 + _ + 1 ≤ _
            omega
          · obtain ⟨k3, q'⟩ := r
            obtain ⟨rfl, h3, h4, h5⟩ := hr
            dsimp only at h3 h4 h5 ⊢
            refine (loop_paid hp q' k3 0 0 h3 (by rw [h4.cost]; omega)).bind (fun r hr => ?_)
            obtain ⟨k4, t4⟩ := r
            obtain ⟨g1, g2, g3⟩ := hr
            dsimp only at g1 g2 g3 ⊢
            refine ⟨g1, h4.trans g3, ?_, fun h => by cases h⟩
            show pot k4 ≤ _
            omega

theorem stepKey_paid {c : Config} (hc : TermCfg c) {k : Kbd} (code : Code) (p : Bool) (t : Int) (h : TermInv c k) :
    Sat (stepKey k code p t) (fun k' => TermInv c k' ∧ SameMode k k' ∧ pot k' ≤ pot k + evWeight c code) RealErr := by
  have hw : code ≠ 0 → nestMax c ≤ evWeight c code := by
    intro h0
    unfold evWeight
    rw [if_neg h0]
    split <;> omega
  have skip : ∀ l s, TermInv c { k with cache := l, steps := s } ∧ SameMode k { k with cache := l, steps := s } ∧
      pot { k with cache := l, steps := s } ≤ pot k + evWeight c code :=
    fun l s => ⟨⟨h.1, h.2, h.3⟩, SameMode.of_chord rfl, Nat.le_add_right _ _⟩
  have run : ∀ l s d dl b, code ≠ 0 → Sat (processDescriptor (descBudget { k with cache := l, steps := s }) { k with cache := l, steps := s } code d dl b t)
      (fun k' => TermInv c k' ∧ SameMode k k' ∧ pot k' ≤ pot k + evWeight c code) RealErr := by
    intro l s d dl b h0
    refine (mild_descriptor hc.nest _ { k with cache := l, steps := s } code d dl b t h.config
      (h.config ▸ descBudget_rank { k with cache := l, steps := s } d)).imp (fun k1 h1 => ?_)
    obtain ⟨p1, p2⟩ := pot_mild h1
    refine ⟨(skip l s).1.mild h1, (skip l s).2.1.trans p2, ?_⟩
    have h5 := h1.credit
    have h6 : nestRank c d ≤ nestMax c := nestRank_le c d
    have h7 := hw h0
    have h8 : pot { k with cache := l, steps := s } = pot k := rfl
    have h9 : pendCredit { k with cache := l, steps := s } = pendCredit k := rfl
    rw [h8, h9] at p1
    rw [h9] at h5
    omega
  unfold stepKey
  refine Sat.ite (fun _ => ?_) (fun h0 => Sat.ite (fun _ => Sat.ite (fun _ => ?_) (fun _ => ?_)) (fun _ => ?_))
  · exact ⟨h, SameMode.refl k, Nat.le_add_right _ _⟩
  · exact skip k.cache _
  · dsimp only
    split
    · exact skip k.cache _
    · rename_i k1 hk1
      obtain ⟨l, rfl⟩ := cacheSet_frame hk1
      exact run l _ _ _ _ h0
  · split
    · exact skip k.cache _
    · rename_i ce _
      dsimp only
      cases hcs : cacheSet k code none with
      | none => exact run k.cache _ _ _ _ h0
      | some k1 =>
        obtain ⟨l, rfl⟩ := cacheSet_frame hcs
        exact run l _ _ _ _ h0

theorem processEventBody_paid {c : Config} (hc : TermCfg c) {pe : PE} {N : Nat} (hp : Paid c pe N) :
    Paid c (processEventBody pe) (N + 1) := by
  intro k code p t h hN
  unfold processEventBody
  refine (handleChord_paid hc hp code p t h hN).bind (fun r hr => ?_)
  obtain ⟨k1, b1⟩ := r
  obtain ⟨h1, h2, h3, h4⟩ := hr
  dsimp only at h1 h2 h3 h4 ⊢
  have fin : ∀ k', TermInv c k' → SameMode k k' → pot k' ≤ pot k + evWeight c code →
      TermInv c (calculateMainLoopTimeout k' t).1 ∧ pot (calculateMainLoopTimeout k' t).1 ≤ pot k + evWeight c code ∧
      SameMode k (calculateMainLoopTimeout k' t).1 :=
    fun k' g1 g2 g3 => ⟨⟨g1.1, g1.2, g1.3⟩, g3, g2.trans (SameMode.of_chord rfl)⟩
  refine Sat.bind (Q := fun k' => TermInv c k' ∧ SameMode k k' ∧ pot k' ≤ pot k + evWeight c code) ?_
    (fun k' g => fin k' g.1 g.2.1 g.2.2)
  refine Sat.ite (fun _ => ⟨h1, h2, h3⟩) (fun hb => ?_)
  have h4 := h4 (by simpa using hb)
  generalize hk2 : (if code = 0 then k1 else k1.log (.passed ⟨code, p, t⟩)) = k2
  have e : ∃ s, k2 = { k1 with steps := s } := by
    subst hk2
    split
    · exact ⟨k1.steps, rfl⟩
    · exact ⟨_, rfl⟩
  obtain ⟨s, e⟩ := e
  have e1 : TermInv c k2 := by rw [e]; exact ⟨h1.1, h1.2, h1.3⟩
  have e2 : pot k2 = pot k1 := by rw [e]; rfl
  have e3 : SameMode k k2 := h2.trans (SameMode.of_chord (by rw [e]))
  refine (handlePendingKey_paid hc hp code p t e1 (by rw [e3.cost]; omega)).bind (fun r hr => ?_)
  obtain ⟨k3, b3⟩ := r
  obtain ⟨g1, g2, g3, g4⟩ := hr
  dsimp only at g1 g2 g3 g4 ⊢
  refine Sat.ite (fun _ => ⟨g1, e3.trans g2, by omega⟩) (fun hb => ?_)
  have g4 := g4 (by simpa using hb)
  refine ((NoFuel.stepTimers k3 code t).sat (Calm.stepTimers k3 code t)).bind (fun k4 f => ?_)
  have f1 : pot k4 = pot k3 := pot_congr f.pending f.activeChords f.config f.chord
  refine (stepKey_paid hc code p t (g1.calm f)).imp (fun k5 f5 => ?_)
  exact ⟨f5.1, (e3.trans g2).trans ((SameMode.of_chord f.chord).trans f5.2.1), by have := f5.2.2; omega⟩

/-- With that much fuel the recursion never runs out. -/
theorem processEvent_paid {c : Config} (hc : TermCfg c) : ∀ n, Paid c (processEvent n) n
  | 0 => fun _ _ _ _ _ h => by omega
  | n+1 => processEventBody_paid hc (processEvent_paid hc n)

end Keyd
