import Verif.Model.Daemon
import Verif.Props.Bindings

/-
  Specification vocabulary for the daemon: the states it can reach, and what an observer
  of the virtual keyboard sees.
-/

set_option autoImplicit false

namespace Keyd

/-- The states the daemon can be in between two events of the main loop. It starts with
zeroed statics and a `reload` (daemon.c:618), and then handles any events in any order, at
any times, whatever the environment does; devices may leave the table. -/
inductive DHistory : Daemon → Prop
  | start (env : Env) (d : Daemon) (run : reload env {} = .ok d) : DHistory d
  | event (env : Env) (d : Daemon) (ev : LoopEvent) (t : Int) (d' : Daemon) (w : Int)
      (h : DHistory d) (run : eventHandler env d ev t = .ok (d', w)) (fresh : ∀ dev, ev = .devAdd dev → dev.data = none) :
      DHistory d'
  | remove (d : Daemon) (removed : List Nat) (h : DHistory d) :
      DHistory { d with devices := (d.devices.zipIdx.filter fun p => decide (p.2 ∉ removed)).map Prod.fst }

/-- The key is down on the virtual keyboard: the last call for it (calls newest first) was
a press. -/
def DownAtVkbd (c : Code) : List VOut → Bool
  | [] => false
  | .key c' b :: os => if c' = c then b else DownAtVkbd c os
  | _ :: os => DownAtVkbd c os

/-- No pointer to a freed keyboard is held in `active_kbd`. -/
def ActiveLive (d : Daemon) : Prop := ∀ a, d.active = some a → d.heap a ≠ none

end Keyd
