import Verif.Props.UptimeDaemon

/-
  C108: evloop.c announces the devices found at the start without setting the time of the event. Nothing depends on it, unless it is later than the first event.
-/

set_option autoImplicit false

namespace Keyd

attribute [local irreducible] configInit

/-! ### Proofs -/

/-- Equal but for the statics `timeout` and `last_time`, and no wakeup can be due at `T`. -/
def Loose (T : Int) (d d' : Daemon) : Prop :=
  ∃ t' w', d' = { d with lastTime := t', timeout := w' } ∧ d.timeout + d.lastTime ≤ T ∧ w' + t' ≤ T

theorem Loose.tick {T t : Int} {d d' : Daemon} (h : Loose T d d') (ht : T ≤ t) : tick d' t = tick d t := by
  obtain ⟨t', w', rfl, h1, h2⟩ := h
  unfold Keyd.tick
  dsimp only
  have e : (if w' - (t - t') < 0 then 0 else w' - (t - t')) = (if d.timeout - (t - d.lastTime) < 0 then 0 else d.timeout - (t - d.lastTime)) := by
    split <;> split <;> omega
  rw [e]

theorem handler_same {env : Env} {d d' : Daemon} {ev : LoopEvent} {t : Int} (h : tick d' t = tick d t) : eventHandler env d' ev t = eventHandler env d ev t := by
  unfold eventHandler
  rw [h]

theorem iteration_same {T : Int} (t : LoopTurn) (ht : T ≤ t.now) {l l' : Loop} (h : Loose T l.d l'.d) (hw : l'.timeout = l.timeout) (hp : l'.panic = l.panic) :
    iteration t.env l' t.start t.now t.evs t.removed = iteration t.env l t.start t.now t.evs t.removed ∨
    ∃ l1 l1', iteration t.env l' t.start t.now t.evs t.removed = .ok (some l1') ∧ iteration t.env l t.start t.now t.evs t.removed = .ok (some l1) ∧
      Loose T l1.d l1'.d ∧ l1'.timeout = l1.timeout ∧ l1'.panic = l1.panic := by
  have ev : ∀ e, eventHandler t.env l'.d e t.now = eventHandler t.env l.d e t.now := fun e => handler_same (h.tick ht)
  by_cases h1 : l.timeout > 0 ∧ t.now - t.start ≥ l.timeout
  · left
    unfold iteration afterPoll
    rw [hw, if_pos h1, if_pos h1, ev, hp]
  · have a' : afterPoll t.env l' t.start t.now = .ok { l' with timeout := l.timeout - (t.now - t.start) } := by
      unfold afterPoll
      rw [hw, if_neg h1]
    have a : afterPoll t.env l t.start t.now = .ok { l with timeout := l.timeout - (t.now - t.start) } := by
      unfold afterPoll
      rw [if_neg h1]
    unfold iteration
    rw [a, a']
    cases he : t.evs with
    | nil =>
      right
      obtain ⟨t', w', e, h2, h3⟩ := h
      refine ⟨_, _, rfl, rfl, ⟨t', w', ?_, h2, h3⟩, rfl, hp⟩
      unfold dropRemoved
      dsimp only
      rw [e]
    | cons e es =>
      left
      have key : loopEvents t.env t.now (e :: es) { l' with timeout := l.timeout - (t.now - t.start) } = loopEvents t.env t.now (e :: es) { l with timeout := l.timeout - (t.now - t.start) } := by
        unfold loopEvents loopEvent
        dsimp only
        rw [ev, hp]
      show (loopEvents t.env t.now (e :: es) { l' with timeout := l.timeout - (t.now - t.start) } >>= _) = (loopEvents t.env t.now (e :: es) { l with timeout := l.timeout - (t.now - t.start) } >>= _)
      rw [key]

theorem turns_same {T : Int} : ∀ (ts : List LoopTurn) {l l' : Loop}, (∀ t ∈ ts, T ≤ t.now) → Loose T l.d l'.d → l'.timeout = l.timeout → l'.panic = l.panic →
    seenOf (loopTurns ts l') = seenOf (loopTurns ts l)
  | [], l, l', _, h, hw, hp => by
    obtain ⟨t', w', e, _⟩ := h
    show (Except.ok (some l'.seen) : DRes (Option Seen)) = .ok (some l.seen)
    unfold Loop.seen
    rw [hw, hp, e]
  | t :: ts, l, l', ht, h, hw, hp => by
    unfold loopTurns
    rcases iteration_same t (ht t List.mem_cons_self) h hw hp with e | ⟨l1, l1', e1, e2, h1, hw1, hp1⟩
    · rw [e]
    · rw [e1, e2]
      exact turns_same ts (fun x hx => ht x (List.mem_cons_of_mem _ hx)) h1 hw1 hp1

theorem addFound_loose {T : Int} (env : Env) (g g' : Int) (hT : 0 ≤ T) (hg : g ≤ T) (hg' : g' ≤ T) : ∀ (ds : List Device) {d d' : Daemon}, 0 ≤ d.timeout → 0 ≤ d'.timeout →
    Loose T d d' → ∃ r r', addFound env g ds d = .ok r ∧ addFound env g' ds d' = .ok r' ∧ Loose T r r'
  | [], d, d', _, _, h => ⟨d, d', rfl, rfl, h⟩
  | dev :: ds, d, d', h0, h0', h => by
    unfold addFound eventHandler
    dsimp only
    obtain ⟨t', w', rfl, h1, h2⟩ := h
    dsimp only at h0'
    refine addFound_loose env g g' hT hg hg' ds ?_ ?_ ⟨g', _, rfl, ?_, ?_⟩ <;> (dsimp only [Keyd.tick]; split <;> omega)

/-- C108. Whatever time, not later than any turn of the main loop, the first devices are announced with: the daemon does the same. -/
theorem C108_same (env : Env) (found : List Device) (ts : List LoopTurn) (g g' : Int) (after : ∀ t ∈ ts, 0 ≤ t.now ∧ g ≤ t.now ∧ g' ≤ t.now) :
    seenOf (daemonFrom env g' found ts) = seenOf (daemonFrom env g found ts) := by
  unfold daemonFrom
  cases hr : reload env {} with
  | error e => rfl
  | ok d =>
    obtain ⟨_, _, _, _, _, he, hl⟩ := (reload_sat dinv_init).of_ok hr
    change d.timeout = 0 at he
    change d.lastTime = 0 at hl
    have hm : ∀ t ∈ ts, max 0 (max g g') ≤ t.now := fun t ht => by have := after t ht; omega
    obtain ⟨r, r', e1, e2, h⟩ := addFound_loose (T := max 0 (max g g')) env g g' (by omega) (by omega) (by omega) found (d := d) (d' := d) (by omega) (by omega)
      ⟨d.lastTime, d.timeout, rfl, by omega, by omega⟩
    show seenOf (addFound env g' found d >>= fun d => loopTurns ts { d := d }) = seenOf (addFound env g found d >>= fun d => loopTurns ts { d := d })
    rw [e1, e2]
    exact turns_same ts hm h rfl rfl

/-! ### Examples -/

/-- How long the loop will wait at the end of a run. -/
def waitsAfter (r : DRes (Option Loop)) : Option Int :=
  match r with
  | .ok (some l) => some l.timeout
  | _ => none

/-- The hypothesis is met by the session of `C82_daemon_example`. -/
theorem C108_example : ∀ g g' : Int, g ≤ 65536 → g' ≤ 65536 → ∀ t ∈ uptimeTurns, 0 ≤ t.now ∧ g ≤ t.now ∧ g' ≤ t.now := by
  intro g g' hg hg' t ht
  have := (C82_daemon_example.2.1 t ht).1
  omega

/-- C108 needs the hypothesis: if the memory happened to hold a time a hundred seconds ahead, moving the mouse once makes the daemon wait for those hundred seconds and
then wake up for nothing; otherwise it sleeps until the next event. -/
theorem C108_fails_ahead :
    waitsAfter (daemonFrom { confs := [uptimeText] } 0 uptimeFound [⟨{ confs := [uptimeText] }, 70000, 70010, [.dev 1 { type := .mouseMove, x := 3 }], []⟩]) = some 0 ∧
    waitsAfter (daemonFrom { confs := [uptimeText] } 170010 uptimeFound [⟨{ confs := [uptimeText] }, 70000, 70010, [.dev 1 { type := .mouseMove, x := 3 }], []⟩]) = some 100000 := by
  refine ⟨?_, ?_⟩ <;> (set_option maxRecDepth 100000 in decide +kernel)

end Keyd
