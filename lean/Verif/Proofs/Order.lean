import Verif.Proofs.Conserve

/-
  Without chords, events are acted upon in the order of their arrival.
-/

set_option autoImplicit false

namespace Keyd

/-- The events of interest, acted upon or held back. -/
def inOrder (P : KeyEvent → Bool) (k : Kbd) : List KeyEvent := (k.processed ++ k.pending.queue).filter P

/-- A selection of events that a release overtaking the queue does not disturb. -/
structure Selection (P : KeyEvent → Bool) : Prop where
  wakeup : ∀ ev, P ev = true → ev.code ≠ 0
  overtake : ∀ (ev : KeyEvent) (q : List KeyEvent), ev.pressed = false → (∀ x ∈ q, x.code ≠ ev.code) → P ev = true → ∀ x ∈ q, P x = false

/-- No chord is being struck or active. -/
structure Chordless (c : Config) (k : Kbd) : Prop where
  config : k.config = c
  idle : k.chord.state = .inactive
  none : ∀ a ∈ k.activeChords, a.active = false
  noQueue : k.pending.code = 0 → k.pending.queue = []

theorem Chordless.calm {c : Config} {k k' : Kbd} (h : Chordless c k) (hc : Calm k k') : Chordless c k' :=
  ⟨hc.config.trans h.1, by rw [hc.chord]; exact h.2, by rw [hc.activeChords]; exact h.3,
    by rw [hc.pending]; exact h.4⟩

theorem Chordless.mild {c : Config} {x : Code} {b : Nat} {k k' : Kbd} (hx : x ≠ 0) (h : Chordless c k) (hc : Mild x b k k') :
    Chordless c k' := by
  refine ⟨hc.config.trans h.1, by rw [hc.chord]; exact h.2, by rw [hc.activeChords]; exact h.3, fun h0 => ?_⟩
  rw [hc.queue]
  rcases hc.code with e | e
  · exact h.4 (e ▸ h0)
  · exact absurd (e ▸ h0) hx

theorem inOrder_congr {P : KeyEvent → Bool} {k k' : Kbd} (hs : k'.steps = k.steps) (hq : k'.pending.queue = k.pending.queue) :
    inOrder P k' = inOrder P k := by
  unfold inOrder Kbd.processed
  rw [hs, hq]

def InOrder (c : Config) (P : KeyEvent → Bool) (pe : PE) : Prop :=
  ∀ k code p t, Chordless c k →
    Sat (pe k code p t) (fun r => Chordless c r.1 ∧ inOrder P r.1 = inOrder P k ++ [⟨code, p, t⟩].filter P) AnyErr

theorem findActiveChord_idle (code : Code) : ∀ (l : List ActiveChord) (i : Nat), (∀ a ∈ l, a.active = false) →
    findActiveChord code l i = none
  | [], _, _ => rfl
  | a :: l, i, h => by
    unfold findActiveChord
    rw [if_neg]
    · exact findActiveChord_idle code l (i+1) (fun b hb => h b (List.mem_cons_of_mem _ hb))
    · rw [h a (List.mem_cons_self)]
      exact fun h => by cases h.1

theorem chordScan_nil {k : Kbd} (hn : NoChords k.config) : chordScan k = {} := by
  have hl : ∀ i, (k.config.layer i).chords = [] := by
    intro i
    unfold Config.layer
    rcases getD_mem_or k.config.layers i {} with h | h
    · exact hn _ h
    · rw [h]
  unfold chordScan
  have : ∀ (l : List Nat) (acc : ChordScan), l.foldl (fun acc i =>
    if k.isActive i then
      ((k.config.layer i).chords.zipIdx.map (fun p => (p.2, p.1))).foldl
        (chordScanStep k.chord.queue i (k.layerState i).activationTime) acc
    else acc) acc = acc := by
    intro l
    induction l with
    | nil => intro acc; rfl
    | cons i l ih =>
      intro acc
      rw [List.foldl_cons, hl i]
      simp only [List.zipIdx_nil, List.map_nil, List.foldl_nil, ite_self]
      exact ih acc
  exact this _ _

theorem handleChord_chordless {c : Config} (hn : NoChords c) (pe : PE) {k : Kbd} (h : Chordless c k) (code : Code) (p : Bool) (t : Int) :
    Sat (handleChord pe k code p t) (fun r => Chordless c r.1 ∧ r.2 = false ∧ r.1.steps = k.steps ∧ r.1.pending = k.pending)
      (fun _ => False) := by
  have hf : (if code ≠ 0 ∧ !p then findActiveChord code k.activeChords 0 else none) = none := by
    split
    · exact findActiveChord_idle code _ 0 h.none
    · rfl
  unfold handleChord
  rw [hf]
  dsimp only
  unfold chordMachine
  rw [h.idle]
  dsimp only
  refine Sat.bind (Q := fun k' => k'.chord.state = .inactive ∧ k' = { k with chord := k'.chord }) ?_ (fun k' hk => ?_)
  · unfold enqueueChordEvent
    refine Sat.ite (fun _ => ?_) (fun _ => Sat.ite (fun _ => ?_) (fun hl => absurd (by simp) hl))
    · exact ⟨h.idle, rfl⟩
    · exact ⟨h.idle, rfl⟩
  · obtain ⟨hs, hk⟩ := hk
    generalize k'.chord = ch at hs hk
    subst hk
    have : checkChordMatch { k with chord := ch } = (0, { k with chord := ch }) := by
      unfold checkChordMatch
      rw [chordScan_nil (by rw [← h.config] at hn; exact hn)]
      rfl
    unfold chordDecide
    rw [this]
    exact ⟨⟨h.config, hs, h.none, h.noQueue⟩, rfl, rfl, rfl⟩

section
variable {c : Config} {P : KeyEvent → Bool} {pe : PE} (hP : Selection P) (hp : InOrder c P pe)
include hP hp

omit hp in
theorem filter_wakeup (p : Bool) (t : Int) : [(⟨0, p, t⟩ : KeyEvent)].filter P = [] := by
  rw [List.filter_cons]
  split
  · rename_i h
    exact absurd (rfl : (0 : Code) = 0) (hP.wakeup _ h)
  · rfl

theorem catchUp_order : ∀ (n : Nat) (k : Kbd) (to ts lim : Int), Chordless c k →
    Sat (catchUp pe n k to ts lim) (fun r => Chordless c r.1 ∧ inOrder P r.1 = inOrder P k) AnyErr
  | 0, _, _, _, _, _ => trivial
  | n+1, k, to, ts, lim, hi => by
    unfold catchUp
    refine Sat.ite (fun hc => ?_) (fun _ => ⟨hi, rfl⟩)
    refine (hp k 0 false ts hi).bind (fun r hr => ?_)
    obtain ⟨k1, t⟩ := r
    obtain ⟨h1, h2⟩ := hr
    dsimp only at h1 h2 ⊢
    rw [filter_wakeup hP, List.append_nil] at h2
    exact (catchUp_order n k1 t (ts + t) lim h1).imp (fun r hr => ⟨hr.1, hr.2.trans h2⟩)

theorem loop_order : ∀ (evs : List KeyEvent) (k : Kbd) (to ts : Int), Chordless c k →
    Sat (processEventsLoop pe evs k to ts)
      (fun r => Chordless c r.1 ∧ inOrder P r.1 = inOrder P k ++ evs.filter P) AnyErr
  | [], k, to, ts, hi => ⟨hi, by simp⟩
  | ev :: rest, k, to, ts, hi => by
    unfold processEventsLoop
    refine (catchUp_order hP hp _ k to ts ev.ts hi).bind (fun r hr => ?_)
    obtain ⟨k1, to1, ts1⟩ := r
    obtain ⟨h1, h2⟩ := hr
    dsimp only at h1 h2 ⊢
    refine (hp k1 ev.code ev.pressed ev.ts h1).bind (fun r hr => ?_)
    obtain ⟨k2, t⟩ := r
    obtain ⟨g1, g2⟩ := hr
    dsimp only at g1 g2 ⊢
    refine (loop_order rest k2 t (ev.ts + t) g1).imp ?_
    intro r hr
    refine ⟨hr.1, ?_⟩
    rw [hr.2, g2, h2, List.append_assoc, ← List.filter_append]
    rfl

theorem handlePendingKey_order (hc : NestWF c) {k : Kbd} (code : Code) (p : Bool) (t : Int) (h : Chordless c k) :
    Sat (handlePendingKey pe k code p t) (fun r => Chordless c r.1 ∧
      (r.2 = true → inOrder P r.1 = inOrder P k ++ [⟨code, p, t⟩].filter P) ∧
      (r.2 = false → r.1 = k ∧ (code ≠ 0 → P ⟨code, p, t⟩ = true → ∀ x ∈ k.pending.queue, P x = false)))
      AnyErr := by
  unfold handlePendingKey
  refine Sat.ite (fun h0 => ⟨h, fun h => (by cases h), fun _ => ⟨rfl, fun _ _ x hx => by rw [h.noQueue h0] at hx; cases hx⟩⟩) (fun hpend => ?_)
  refine Sat.bind (Q := fun o => match o with
      | none => P ⟨code, p, t⟩ = true → ∀ x ∈ k.pending.queue, P x = false
      | some k1 => ∃ q, k1 = { k with pending := { k.pending with queue := q } } ∧
          q.filter P = k.pending.queue.filter P ++ [⟨code, p, t⟩].filter P) ?_ (fun o ho => ?_)
  · unfold pendingEnqueue
    refine Sat.ite (fun h0 => ?_) (fun _ => Sat.ite (fun _ => ?_) (fun _ => Sat.ite (fun hov => ?_) (fun _ => ?_)))
    · subst h0
      exact ⟨k.pending.queue, rfl, by rw [filter_wakeup hP, List.append_nil]⟩
    · trivial
    · intro hPe
      refine hP.overtake ⟨code, p, t⟩ k.pending.queue (by simpa using hov.1) ?_ hPe
      intro x hx hxc
      have := hov.2.1
      simp only [Bool.not_eq_true', List.any_eq_false, decide_eq_true_eq] at this
      exact this x hx hxc
    · exact ⟨_, rfl, by rw [List.filter_append]⟩
  · split
    · exact ⟨h, fun h => (by cases h), fun _ => ⟨rfl, fun _ hPe x hx => ho hPe x hx⟩⟩
    · rename_i k1
      obtain ⟨q, rfl, hq⟩ := ho
      dsimp only
      refine Sat.ite (fun _ => ?_) (fun hne => ?_)
      · refine ⟨⟨h.1, h.2, h.3, fun h0 => absurd h0 hpend⟩, fun _ => ?_, fun h => by cases h⟩
        show (k.processed ++ q).filter P = _
        unfold inOrder
        rw [List.filter_append, List.filter_append, hq, List.append_assoc]
      · generalize hact : pendingDecision _ code p t = action
        unfold resolvePendingStep
        dsimp only
        refine Sat.bind (Q := fun r : Kbd × List KeyEvent => r.2 = q ∧ Chordless c r.1 ∧
          inOrder P r.1 = k.processed.filter P) ?_ (fun r hr => ?_)
        · generalize hk2 : (Option.getD _ _ : Kbd).log _ = k2
          have ex : ∃ l, k2 = { k with cache := l, steps := .resolve k.pending.code action k.pending.dl t :: k.steps, pending := { k.pending with code := 0, queue := [], tapExpiry := 0 } } := by
            subst hk2
            cases hcs : cacheSet { k with pending := { k.pending with code := 0, queue := [], tapExpiry := 0 } } k.pending.code
              (some { d := action, dl := k.pending.dl, layer := 0 }) with
            | none =>
              refine ⟨k.cache, ?_⟩
              show Kbd.log _ _ = _
              unfold Kbd.log
              rfl
            | some k3 =>
              obtain ⟨l, hl⟩ := cacheSet_frame hcs
              refine ⟨l, ?_⟩
              show Kbd.log k3 _ = _
              rw [hl]
              unfold Kbd.log
              rfl
          obtain ⟨l, ex⟩ := ex
          have e1 : k2.config = c := by rw [ex]; exact h.config
          have e2 : Chordless c k2 := by rw [ex]; exact ⟨h.1, h.2, h.3, fun _ => rfl⟩
          have e5 : inOrder P k2 = k.processed.filter P := by
            have : inOrder P k2 = ((k.log (.resolve k.pending.code action k.pending.dl t)).processed ++ []).filter P := by
              rw [ex]; rfl
            rw [this, processed_log]
            show ((k.processed ++ []) ++ []).filter P = _
            rw [List.append_nil, List.append_nil]
          refine ((mild_descriptor hc _ k2 k.pending.code action k.pending.dl true t e1
            (e1 ▸ descBudget_rank k2 action)).mono (fun _ h => h) (fun _ _ => trivial)).bind (fun k3 h3 => ?_)
          exact ⟨rfl, e2.mild hpend h3, (inOrder_congr h3.steps h3.queue).trans e5⟩
        · obtain ⟨k3, q'⟩ := r
          obtain ⟨rfl, h3, h5⟩ := hr
          dsimp only at h3 h5 ⊢
          refine (loop_order hP hp q' k3 0 0 h3).bind (fun r hr => ?_)
          obtain ⟨k4, t4⟩ := r
          obtain ⟨g1, g2⟩ := hr
          dsimp only at g1 g2 ⊢
          refine ⟨g1, fun _ => ?_, fun h => by cases h⟩
          show inOrder P k4 = _
          rw [g2, h5, hq]
          unfold inOrder
          rw [List.filter_append, List.append_assoc]

omit hp in
theorem stepKey_order (hc : NestWF c) {k : Kbd} (code : Code) (p : Bool) (t : Int) (h : Chordless c k)
    (hov : code ≠ 0 → P ⟨code, p, t⟩ = true → ∀ x ∈ k.pending.queue, P x = false) :
    Sat (stepKey k code p t) (fun k' => Chordless c k' ∧ inOrder P k' = inOrder P k ++ [⟨code, p, t⟩].filter P) AnyErr := by
  have lg : ∀ l u, code ≠ 0 → Chordless c { k with cache := l, steps := .key code p t u :: k.steps } ∧
      inOrder P { k with cache := l, steps := .key code p t u :: k.steps } = inOrder P k ++ [⟨code, p, t⟩].filter P := by
    intro l u h0
    refine ⟨⟨h.1, h.2, h.3, h.4⟩, ?_⟩
    have : inOrder P { k with cache := l, steps := .key code p t u :: k.steps } =
      ((k.log (.key code p t u)).processed ++ k.pending.queue).filter P := rfl
    rw [this, processed_log]
    show ((k.processed ++ [(⟨code, p, t⟩ : KeyEvent)]) ++ k.pending.queue).filter P = _
    unfold inOrder
    rw [List.filter_append, List.filter_append, List.filter_append]
    by_cases hx : P ⟨code, p, t⟩ = true
    · rw [show k.pending.queue.filter P = [] from List.filter_eq_nil_iff.2 (fun x hx' => by rw [hov h0 hx x hx']; simp)]
      simp
    · rw [show [(⟨code, p, t⟩ : KeyEvent)].filter P = [] from List.filter_eq_nil_iff.2 (fun x hx' => by
        rw [List.mem_singleton.1 hx']; exact hx)]
      simp
  have run : ∀ l u d dl b', code ≠ 0 → Sat (processDescriptor (descBudget { k with cache := l, steps := .key code p t u :: k.steps })
      { k with cache := l, steps := .key code p t u :: k.steps } code d dl b' t)
      (fun k' => Chordless c k' ∧ inOrder P k' = inOrder P k ++ [⟨code, p, t⟩].filter P) AnyErr := by
    intro l u d dl b' h0
    obtain ⟨l1, l3⟩ := lg l u h0
    refine ((mild_descriptor hc _ { k with cache := l, steps := .key code p t u :: k.steps } code d dl b' t h.config
      (h.config ▸ descBudget_rank { k with cache := l, steps := .key code p t u :: k.steps } d)).mono (fun _ h => h)
      (fun _ _ => trivial)).imp (fun k1 h1 => ?_)
    exact ⟨l1.mild h0 h1, (inOrder_congr h1.steps h1.queue).trans l3⟩
  unfold stepKey
  refine Sat.ite (fun h0 => ?_) (fun h0 => Sat.ite (fun hp' => Sat.ite (fun _ => ?_) (fun _ => ?_)) (fun hp' => ?_))
  · subst h0
    exact ⟨h, by rw [filter_wakeup hP, List.append_nil]⟩
  · have : p = true := hp'
    subst this
    exact lg k.cache none h0
  · have : p = true := hp'
    subst this
    dsimp only
    split
    · exact lg k.cache none h0
    · rename_i k1 hk1
      obtain ⟨l, rfl⟩ := cacheSet_frame hk1
      exact run l _ _ _ _ h0
  · have : p = false := by simpa using hp'
    subst this
    split
    · exact lg k.cache none h0
    · rename_i ce _
      dsimp only
      cases hcs : cacheSet k code none with
      | none => exact run k.cache _ _ _ _ h0
      | some k1 =>
        obtain ⟨l, rfl⟩ := cacheSet_frame hcs
        exact run l _ _ _ _ h0

end

theorem processEventBody_order {c : Config} {P : KeyEvent → Bool} {pe : PE} (hP : Selection P) (hp : InOrder c P pe)
    (hn : NoChords c) (hc : NestWF c) : InOrder c P (processEventBody pe) := by
  intro k code p t h
  unfold processEventBody
  refine ((handleChord_chordless hn pe h code p t).mono (fun _ h => h) (fun _ _ => trivial)).bind (fun r hr => ?_)
  obtain ⟨k1, b1⟩ := r
  obtain ⟨h1, h2, h3, h4⟩ := hr
  dsimp only at h1 h2 h3 h4 ⊢
  subst h2
  refine Sat.bind (Q := fun k' => Chordless c k' ∧ inOrder P k' = inOrder P k ++ [⟨code, p, t⟩].filter P) ?_
    (fun k' g => ⟨⟨g.1.1, g.1.2, g.1.3, g.1.4⟩, g.2⟩)
  refine Sat.ite (fun hb => by cases hb) (fun _ => ?_)
  generalize hk2 : (if code = 0 then k1 else k1.log (.passed ⟨code, p, t⟩)) = k2
  have ex : Chordless c k2 ∧ inOrder P k2 = inOrder P k := by
    have e0 : inOrder P k1 = inOrder P k := inOrder_congr h3 (by rw [h4])
    subst hk2
    split
    · exact ⟨h1, e0⟩
    · refine ⟨⟨h1.1, h1.2, h1.3, h1.4⟩, ?_⟩
      rw [← e0]
      unfold inOrder
      rw [processed_log]
      show ((k1.processed ++ []) ++ k1.pending.queue).filter P = _
      rw [List.append_nil]
  obtain ⟨e1, e2⟩ := ex
  refine (handlePendingKey_order hP hp hc code p t e1).bind (fun r hr => ?_)
  obtain ⟨k3, b3⟩ := r
  obtain ⟨g1, g3, g4⟩ := hr
  dsimp only at g1 g3 g4 ⊢
  refine Sat.ite (fun hb => ⟨g1, by rw [g3 hb, e2]⟩) (fun hb => ?_)
  obtain ⟨rfl, g5⟩ := g4 (by simpa using hb)
  refine Sat.bind (Calm.stepTimers k3 code t) (fun k4 f => ?_)
  have f1 : inOrder P k4 = inOrder P k3 := inOrder_congr f.steps (by rw [f.pending])
  refine (stepKey_order hP hc code p t (g1.calm f) (by rw [f.pending]; exact g5)).imp (fun k5 f5 => ?_)
  exact ⟨f5.1, by rw [f5.2, f1, e2]⟩

theorem processEvent_order {c : Config} {P : KeyEvent → Bool} (hP : Selection P) (hn : NoChords c) (hc : NestWF c) :
    ∀ n, InOrder c P (processEvent n)
  | 0 => fun _ _ _ _ _ => trivial
  | n+1 => processEventBody_order hP (processEvent_order hP hn hc n) hn hc

end Keyd
