import Verif.Model.Types

/-
  `device_grab` (device.c:312-364) as it interleaves with the user's typing.

  The kernel's side: a device has the set of its keys that are down; an event is put into the queue of the file descriptor held by keyd and, unless
  the device is grabbed, is also delivered to everyone else (here: the host). Simplifications: only key events; `EVIOCGKEY` also drops key events from
  the queue (Linux, `__evdev_flush_queue`), which is not modelled since the function discards the queue anyway; the `ioctl`s succeed; `usleep(100)` is any
  number of events of the user.
-/

set_option autoImplicit false

namespace Keyd

/-- `KEY_MAX`, linux/input-event-codes.h. -/
def KEY_MAX : Nat := 0x2ff

/-- A key event as the kernel has it: the key, and whether it went down. -/
abbrev KernelKey := Nat × Bool

/-- Where `device_grab` is. -/
inductive GrabPc where
  /-- in the loop, device.c:327-345 -/
  | polling
  /-- after the loop, before `EVIOCGRAB`, device.c:347-352 -/
  | settled
  /-- after `EVIOCGRAB`, in the draining loop, device.c:359-360 -/
  | draining
  /-- it has returned, device.c:362 -/
  | done
deriving DecidableEq, Repr

/-- The kernel's device and the progress of `device_grab` on it. -/
structure Grabbing where
  pc : GrabPc := .polling
  down : Nat → Bool := fun _ => false
  /-- what keyd can read, oldest first -/
  queue : List KernelKey := []
  /-- what the host has been given, oldest first -/
  host : List KernelKey := []
  /-- what `device_grab` has read and thrown away, oldest first -/
  dropped : List KernelKey := []

/-- The kernel passes the device's events on to the host until it is grabbed. -/
def Grabbing.grabbed (g : Grabbing) : Bool := g.pc = .draining ∨ g.pc = .done

/-- The counting loop, device.c:336-339: how many keys below `KEY_MAX` are down. -/
def keysDown (down : Nat → Bool) : Nat := ((List.range KEY_MAX).filter down).length

/-- One step: of the user, or of `device_grab`. -/
inductive GrabStep : Grabbing → Option KernelKey → Grabbing → Prop
  /-- the user presses or releases a key -/
  | user (g : Grabbing) (code : Nat) (pressed : Bool) (h : g.down code ≠ pressed) :
    GrabStep g (some (code, pressed)) { g with
      down := fun c => if c = code then pressed else g.down c
      queue := g.queue ++ [(code, pressed)]
      host := if g.grabbed then g.host else g.host ++ [(code, pressed)] }
  /-- device.c:328-345 -/
  | poll (g : Grabbing) (h : g.pc = .polling) :
    GrabStep g none { g with pc := if keysDown g.down = 0 then .settled else .polling }
  /-- `EVIOCGRAB`, device.c:353 -/
  | grab (g : Grabbing) (h : g.pc = .settled) : GrabStep g none { g with pc := .draining }
  /-- `read`, device.c:359 -/
  | read (g : Grabbing) (e : KernelKey) (q : List KernelKey) (h : g.pc = .draining) (hq : g.queue = e :: q) :
    GrabStep g none { g with queue := q, dropped := g.dropped ++ [e] }
  /-- nothing left to read, device.c:359-363 -/
  | done (g : Grabbing) (h : g.pc = .draining) (hq : g.queue = []) : GrabStep g none { g with pc := .done }

end Keyd
