import Verif.Props.Unplug

/-
  C84: plugging in a device has no effect on anything else.
-/

set_option autoImplicit false

namespace Keyd

attribute [local irreducible] configInit

theorem tick_tick (d : Daemon) (t u : Int) (h : t ≤ u) : tick (tick d t) u = tick d u := by
  unfold tick
  dsimp only
  congr 1
  split <;> split <;> split <;> omega

/-- The handler sees the state only through the time that has passed. -/
theorem eventHandler_tick (env : Env) (d : Daemon) (ev : LoopEvent) (t u : Int) (h : t ≤ u) :
    eventHandler env (tick d t) ev u = eventHandler env d ev u := by
  have e := tick_tick d t u h
  unfold eventHandler
  rw [e]

/-- C84. The event itself: the device enters the table at the end, matched with a configuration (C37); nothing else
changes but the clock, and nothing is sent to anybody. -/
theorem C84_added (env : Env) (d d' : Daemon) (dev : Device) (t w : Int)
    (run : eventHandler env d (.devAdd dev) t = .ok (d', w)) :
    d'.vout = d.vout ∧ d'.keystate = d.keystate ∧ d'.heap = d.heap ∧ d'.sent = d.sent ∧ d'.replies = d.replies ∧
    d'.active = d.active ∧ d'.devices = d.devices ++ [manageDevice env d.configs dev] := by
  have e : eventHandler env d (.devAdd dev) t =
      .ok ({ tick d t with devices := d.devices ++ [manageDevice env d.configs dev] }, (tick d t).timeout) := rfl
  rw [e] at run
  cases run
  exact ⟨rfl, rfl, rfl, rfl, rfl, rfl, rfl⟩

/-- C84. Plugging in a device that is not used (yet): everything goes as if it had not been plugged in. Whatever happens
afterwards, the same is sent to the virtual keyboard, to the listeners and to the clients, the same waits are asked for,
and all other devices get the same keyboards and lights. Only the places in the table of devices plugged in later are
one higher. -/
theorem C84_plugged (env env1 : Env) (d : Daemon) (dev : Device) (t t1 : Int) (ev1 : LoopEvent)
    (es : List (Env × LoopEvent × Int)) (ht : t ≤ t1)
    (h : ∀ x ∈ (env1, ev1, t1) :: es, ¬ x.2.1.ofDevice d.devices.length) :
    loopRun (((env1, ev1, t1) :: es).map fun x => (x.1, x.2.1.without d.devices.length, x.2.2)) d =
      (loopRun ((env, .devAdd dev, t) :: (env1, ev1, t1) :: es) d).map
        fun r => (r.1.unplug d.devices.length, r.2.tail) := by
  have e : eventHandler env d (.devAdd dev) t =
      .ok ({ tick d t with devices := d.devices ++ [manageDevice env d.configs dev] }, (tick d t).timeout) := rfl
  have c := C83_unplugged d.devices.length ((env1, ev1, t1) :: es)
    { tick d t with devices := d.devices ++ [manageDevice env d.configs dev] } (by simp) h
  have hu : ({ tick d t with devices := d.devices ++ [manageDevice env d.configs dev] } : Daemon).unplug d.devices.length =
      tick d t := by
    unfold Daemon.unplug
    dsimp only
    have : (d.devices ++ [manageDevice env d.configs dev]).eraseIdx d.devices.length = d.devices := by
      rw [List.eraseIdx_append_of_length_le (Nat.le_refl _)]
      simp
    rw [this]
    rfl
  rw [hu] at c
  have e2 : loopRun ((env, .devAdd dev, t) :: (env1, ev1, t1) :: es) d =
      (loopRun ((env1, ev1, t1) :: es) { tick d t with devices := d.devices ++ [manageDevice env d.configs dev] }).map
        fun r => (r.1, (tick d t).timeout :: r.2) := by
    rw [loopRun, e]
    show (loopRun _ _ >>= _) = _
    cases loopRun ((env1, ev1, t1) :: es) { tick d t with devices := d.devices ++ [manageDevice env d.configs dev] } <;> rfl
  have e3 : ∀ l : List (Env × LoopEvent × Int), ∀ ev : LoopEvent,
      loopRun ((env1, ev, t1) :: l) (tick d t) = loopRun ((env1, ev, t1) :: l) d := by
    intro l ev
    rw [loopRun, loopRun, eventHandler_tick env1 d ev t t1 ht]
  rw [e2]
  rw [List.map_cons] at c ⊢
  rw [← e3, c]
  cases loopRun ((env1, ev1, t1) :: es) { tick d t with devices := d.devices ++ [manageDevice env d.configs dev] } <;> rfl

/-- A second keyboard is plugged in while `s` is held on the first: the typing goes on. -/
theorem C84_example :
    (match reload demoEnv {} with
      | .error _ => none
      | .ok d =>
        match loopRun [(demoEnv, demoKbd, 1), (demoEnv, secondKey 0 31 1, 1000)] d with
        | .error _ => none
        | .ok (d, _) =>
          match loopRun [(demoEnv, .devAdd { id := b!"0003:0004", capabilities := CAP_KEYBOARD }, 1001),
              (demoEnv, secondKey 0 32 1, 1002), (demoEnv, secondKey 0 32 0, 1003), (demoEnv, secondKey 0 31 0, 1004)] d with
          | .error _ => none
          | .ok (d, _) => some (d.devices.length, d.vout.reverse)) =
      some (2, [.key 31 true, .key 32 true, .key 32 false, .key 31 false]) := by
  set_option maxRecDepth 100000 in decide +kernel

end Keyd
