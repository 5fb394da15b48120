import Verif.Proofs.Order
import Verif.Props.Termination

/-
  C18: events held back behind an undecided key or chord are neither lost nor duplicated; they
  keep their order as long as no chord is involved.
-/

set_option autoImplicit false

namespace Keyd

attribute [local irreducible] configInit

theorem Fed.reach {cfg : Config → Prop} {evs : List KeyEvent} {k : Kbd} (h : Fed cfg evs k) : Reach cfg k := by
  induction h with
  | init c h => exact .init c h
  | events n k b evs k' w _ run ih => exact .events n k evs k' w ih run
  | bind k b e k' a _ run hc ih => exact .bind k e k' a ih run hc
  | scroll k b s _ _ ih => exact .scroll k s ih

theorem accounted_congr {k k' : Kbd} (hs : k'.steps = k.steps) (hp : k'.pending = k.pending) (hc : k'.chord = k.chord) :
    k'.accounted = k.accounted := by
  unfold Kbd.accounted Kbd.processed Kbd.absorbed Kbd.behindKey Kbd.behindChord
  rw [hs, hp, hc]

/-- C18. In every state, every event of a physical key that ever arrived is accounted for
exactly as often as it arrived: it was acted upon, became part of a chord, or is still held
back. -/
theorem C18_exactly_once (arrived : List KeyEvent) (k : Kbd) (h : Fed Bound arrived k) (e : KeyEvent) (he : Physical e.code) :
    k.accounted.count e = arrived.count e := by
  induction h with
  | init c hc => rfl
  | events n k before evs k' w hk run ih =>
    have hc : TermCfg k.config := (C27_reachable k hk.reach).termCfg
    have := ((loop_once (m := countTally e he) (processEvent_once hc n) evs k 0 0 (termInv_reach hk.reach)).of_ok run).2.1
    rw [seen_count, seen_count, countTally_sum] at this
    rw [List.count_append]
    dsimp only at this
    omega
  | bind k b x k' a hk run hc ih => rw [accounted_congr (by rw [kbdEval_frame run]) (by rw [kbdEval_frame run]) (by rw [kbdEval_frame run])]; exact ih
  | scroll k b s hk _ ih => exact ih

/-- C18. The same for a single batch of events, from any state. -/
theorem C18_batch (k : Kbd) (h : Reach Bound k) (n : Nat) (evs : List KeyEvent) (k' : Kbd) (wait : Int)
    (run : kbdProcessEvents n k evs = .ok (k', wait)) (e : KeyEvent) (he : Physical e.code) :
    k'.accounted.count e = k.accounted.count e + evs.count e := by
  have hc : TermCfg k.config := (C27_reachable k h).termCfg
  have := ((loop_once (m := countTally e he) (processEvent_once hc n) evs k 0 0 (termInv_reach h)).of_ok run).2.1
  rw [seen_count, seen_count, countTally_sum] at this
  dsimp only at this
  omega

theorem chordless_fed {arrived : List KeyEvent} {k : Kbd} (h : Fed (fun c => Bound c ∧ NoChords c) arrived k) :
    Bound k.config ∧ NoChords k.config ∧ Chordless k.config k ∧ ∀ P, Selection P → inOrder P k = arrived.filter P := by
  induction h with
  | init c hc =>
    refine ⟨hc.1, hc.2, ⟨rfl, rfl, ?_, fun _ => rfl⟩, fun P _ => rfl⟩
    intro a ha
    have e : (newKeyboard c).activeChords = List.replicate 3 {} := rfl
    rw [e] at ha
    rw [List.eq_of_mem_replicate ha]
  | events n k before evs k' w hk run ih =>
    obtain ⟨i1, i2, i3, i4⟩ := ih
    have hw := (C27_wellformed _ i1).nestWF
    have key : ∀ P, Selection P → Chordless k.config k' ∧ inOrder P k' = inOrder P k ++ evs.filter P := fun P hP =>
      (loop_order hP (processEvent_order hP i2 hw n) evs k 0 0 i3).of_ok run
    have hcl := (key (fun _ => false) ⟨fun _ h => (by cases h), fun _ _ _ _ h => by cases h⟩).1
    refine ⟨by rw [hcl.config]; exact i1, by rw [hcl.config]; exact i2, by rw [hcl.config]; exact hcl, fun P hP => ?_⟩
    rw [(key P hP).2, i4 P hP, List.filter_append]
  | bind k b x k' a hk run hc ih =>
    obtain ⟨i1, i2, i3, i4⟩ := ih
    rw [kbdEval_frame run] at hc ⊢
    exact ⟨hc.1, hc.2, ⟨rfl, i3.2, i3.3, i3.4⟩, i4⟩
  | scroll k b s hk _ ih =>
    obtain ⟨i1, i2, i3, i4⟩ := ih
    exact ⟨i1, i2, ⟨i3.1, i3.2, i3.3, i3.4⟩, i4⟩

/-- Presses of keys. -/
def isPress (e : KeyEvent) : Bool := e.pressed && e.code != 0

/-- Events of the key `x`. -/
def isKey (x : Code) (e : KeyEvent) : Bool := e.code == x && e.code != 0

/-- C18, without chords (with chords the claim is false, see `C18_fails_order`): presses are
acted upon in the order of their arrival, those still held back being the last ones. -/
theorem C18_order_partial (arrived : List KeyEvent) (k : Kbd) (h : Fed (fun c => Bound c ∧ NoChords c) arrived k) :
    (k.processed ++ k.behindKey).filter isPress = arrived.filter isPress := by
  refine (chordless_fed h).2.2.2 isPress ⟨?_, ?_⟩
  · intro ev hp
    unfold isPress at hp
    simp at hp
    exact hp.2
  · intro ev q hr _ hp
    unfold isPress at hp
    rw [hr] at hp
    cases hp

/-- C18, without chords: the presses and releases of any one key are acted upon in the order of
their arrival, those still held back being the last ones. -/
theorem C18_key_order_partial (arrived : List KeyEvent) (k : Kbd) (h : Fed (fun c => Bound c ∧ NoChords c) arrived k)
    (x : Code) : (k.processed ++ k.behindKey).filter (isKey x) = arrived.filter (isKey x) := by
  refine (chordless_fed h).2.2.2 (isKey x) ⟨?_, ?_⟩
  · intro ev hp
    unfold isKey at hp
    simp at hp
    exact hp.2
  · intro ev q _ hq hp y hy
    unfold isKey at hp ⊢
    simp at hp ⊢
    intro hyx
    exact absurd (hyx.trans hp.1.symm) (hq y hy)

/-- C18. A key event that would not fit in the queue of 32 stops the daemon. -/
theorem C18_overflow (arrived : List KeyEvent) (k : Kbd) (h : Fed (fun c => Bound c ∧ NoChords c) arrived k)
    (hp : k.pending.code ≠ 0) (hq : k.behindKey.length = 32) (n : Nat) (ev : KeyEvent) (hev : ev.code ≠ 0) :
    kbdProcessEvents (n + 1) k [ev] = .error (.assertFail "pending_key.queue_sz < ARRAY_SIZE(pending_key.queue)") := by
  obtain ⟨_, i2, i3, _⟩ := chordless_fed h
  have hpe : processEvent (n + 1) k ev.code ev.pressed ev.ts =
      .error (.assertFail "pending_key.queue_sz < ARRAY_SIZE(pending_key.queue)") := by
    show processEventBody (processEvent n) k ev.code ev.pressed ev.ts = _
    unfold processEventBody
    have hc := handleChord_chordless i2 (processEvent n) i3 ev.code ev.pressed ev.ts
    generalize handleChord (processEvent n) k ev.code ev.pressed ev.ts = r at hc
    rcases r with e | ⟨k1, b⟩
    · exact hc.elim
    obtain ⟨c1, c2, c3, c4⟩ := hc
    dsimp only at c1 c2 c3 c4
    subst c2
    simp only [bind_ok, Bool.false_eq_true, if_false, if_neg hev]
    have : handlePendingKey (processEvent n) (k1.log (.passed ⟨ev.code, ev.pressed, ev.ts⟩)) ev.code ev.pressed ev.ts =
        .error (.assertFail "pending_key.queue_sz < ARRAY_SIZE(pending_key.queue)") := by
      have p1 : (k1.log (.passed ⟨ev.code, ev.pressed, ev.ts⟩)).pending = k.pending := c4
      have hq' : k.pending.queue.length = 32 := hq
      unfold handlePendingKey pendingEnqueue
      rw [p1, if_neg hp, if_neg hev, if_pos (by omega)]
      rfl
    rw [this]
    rfl
  unfold kbdProcessEvents processEventsWith processEventsLoop
  have hcu : catchUp (processEvent (n + 1)) ((ev.ts - 0).toNat + 2) k 0 0 ev.ts = .ok (k, 0, 0) := by
    unfold catchUp
    rw [if_neg (by simp)]
  rw [hcu]
  simp only [bind_ok]
  rw [hpe]
  rfl

/-! ### Witnesses -/

theorem fed_run {cfg : Config → Prop} {c : Config} {evs : List KeyEvent} {k : Kbd}
    (h : runConfig c evs = some k) (hc : cfg c) : Fed cfg evs k := by
  unfold runConfig at h
  split at h
  · rename_i k' w heq
    cases h
    exact .events 40 _ [] evs _ w (.init c hc) heq
  · cases h


/-- The hypotheses are met by a run with a hold-tap key that is decided while events are
queued behind it. -/
theorem C18_order_witness : ∃ arrived k, Fed (fun c => Bound c ∧ NoChords c) arrived k ∧
    k.behindKey = [press 37 1300, release 37 1310] ∧
    k.processed = [press 36 1000, press 46 1010, release 36 1020, press 48 1030, release 48 1040, release 46 1050, press 46 1200] := by
  have h : checkRun b!"[main]\nc = overloadt(shift, y, 200)\n"
      [press 36 1000, press 46 1010, press 48 1030, release 36 1020, release 48 1040, release 46 1050, press 46 1200,
        press 37 1300, release 37 1310]
      (fun c => c.layers.all (fun l => l.chords.isEmpty))
      (fun k => k.behindKey == [press 37 1300, release 37 1310] &&
        k.processed == [press 36 1000, press 46 1010, release 36 1020, press 48 1030, release 48 1040, release 46 1050, press 46 1200]) = true := by
    set_option maxRecDepth 100000 in decide +kernel
  obtain ⟨c, k, hb, _, hp, hq, hr, _⟩ := checkRun_history h
  simp only [Bool.and_eq_true, beq_iff_eq] at hq
  refine ⟨_, k, fed_run hr ⟨hb, ?_⟩, hq.1, hq.2⟩
  intro l hl
  have := List.all_eq_true.1 hp l hl
  simpa using this

/-- C18 fails with chords: `j` is pressed before `k`, yet `k` is acted upon (and reaches the
host) first. The hold-tap key `c` is decided by its deadline while `k` is held back as a
possible start of the chord `k+l`; the replayed `j` then queues up behind `k`. -/
theorem C18_fails_order : ∃ arrived k, Fed Bound arrived k ∧
    arrived.filter isPress = [press 46 1000, press 36 1010, press 37 1170] ∧
    k.processed = [press 46 1000, press 37 1170, press 36 1010] ∧
    k.outputs = [.layer 2 true, .key 42 true, .key 37 true, .key 36 true] := by
  have h : checkRun b!"[main]\nk+l = x\nc = overloadt(shift, y, 200)\n"
      [press 46 1000, press 36 1010, press 37 1170, wakeup 1200] (fun _ => true)
      (fun k => k.processed == [press 46 1000, press 37 1170, press 36 1010] &&
        k.outputs == [.layer 2 true, .key 42 true, .key 37 true, .key 36 true]) = true := by
    set_option maxRecDepth 100000 in decide +kernel
  obtain ⟨c, k, hb, _, hp, hq, hr, _⟩ := checkRun_history h
  simp only [Bool.and_eq_true, beq_iff_eq] at hq
  exact ⟨_, k, fed_run hr hb, rfl, hq.1, hq.2⟩

/-- C18 fails with chords, and leaves a key stuck: every key is released in the end, but the
release of `j` is acted upon before its press, and `j` (36) stays down at the host. -/
theorem C18_fails_stuck : ∃ arrived k, Fed Bound arrived k ∧
    arrived.filter (isKey 36) = [press 36 1010, release 36 1150] ∧
    k.processed.filter (isKey 36) = [release 36 1150, press 36 1010] ∧
    k.behindKey = [] ∧ k.behindChord = [] ∧
    (∀ x ∈ [30, 36, 46, 48], (arrived.filter (isKey x)).getLast?.map (·.pressed) = some false) ∧
    k.outputs = [.layer 2 true, .key 42 true, .key 45 true, .key 36 true, .key 45 false, .layer 2 false, .key 42 false] := by
  have h : checkRun b!"[global]\nchord_hold_timeout = 300\n[main]\na+b = x\nc = overloadt(shift, y, 200)\n"
      [press 46 1000, press 36 1010, press 30 1100, press 48 1110, release 36 1150, wakeup 1200, wakeup 1500,
        release 30 1600, release 48 1610, release 46 1700] (fun _ => true)
      (fun k => k.processed.filter (isKey 36) == [release 36 1150, press 36 1010] &&
        (k.behindKey == [] && (k.behindChord == [] &&
        k.outputs == [.layer 2 true, .key 42 true, .key 45 true, .key 36 true, .key 45 false, .layer 2 false, .key 42 false]))) = true := by
    set_option maxRecDepth 100000 in decide +kernel
  obtain ⟨c, k, hb, _, hp, hq, hr, _⟩ := checkRun_history h
  simp only [Bool.and_eq_true, beq_iff_eq] at hq
  exact ⟨_, k, fed_run hr hb, rfl, hq.1, hq.2.1, hq.2.2.1, by decide, hq.2.2.2⟩

/-- 32 events behind a hold-tap key. -/
def fullQueue : List KeyEvent := press 46 1000 :: (List.range 32).map (fun i => ⟨UInt8.ofNat (i + 50), true, 1001⟩)

/-- The hypotheses of `C18_overflow` are met. -/
theorem C18_overflow_witness : ∃ arrived k, Fed (fun c => Bound c ∧ NoChords c) arrived k ∧
    k.pending.code ≠ 0 ∧ k.behindKey.length = 32 := by
  have h : checkRun b!"[main]\nc = overloadt(shift, y, 200)\n" fullQueue
      (fun c => c.layers.all (fun l => l.chords.isEmpty))
      (fun k => k.pending.code == 46 && k.behindKey.length == 32) = true := by
    set_option maxRecDepth 100000 in decide +kernel
  obtain ⟨c, k, hb, _, hp, hq, hr, _⟩ := checkRun_history h
  simp only [Bool.and_eq_true, beq_iff_eq] at hq
  refine ⟨_, k, fed_run hr ⟨hb, ?_⟩, by rw [hq.1]; decide, hq.2⟩
  intro l hl
  have := List.all_eq_true.1 hp l hl
  simpa using this

end Keyd
