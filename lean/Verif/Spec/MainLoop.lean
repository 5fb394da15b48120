import Verif.Model.Daemon

/-
  Vocabulary for C48: deadlines and the main loop. Only used to state properties.
-/

set_option autoImplicit false

namespace Keyd

/-- The main loop owes keyboard `a` a wakeup at the deadline `D`; the last event was handled, or the last
poll returned, at `t`: the next poll has a finite time limit, it does not end before the deadline, and the
wakeup goes to `a`. -/
structure Owed (D : Int) (a : Nat) (l : Loop) (t : Int) : Prop where
  active : l.d.active = some a
  deadline : l.d.lastTime + l.d.timeout = D
  finite : 0 < l.timeout
  late : D ≤ t + l.timeout

/-- An event that gives no keyboard anything to do: no key, button or wheel, no reload; and it does not come from a
device that belongs to another keyboard than `a`. (`devs`: the device table when `poll` returned.) -/
def Leaves (a : Nat) (devs : List Device) : LoopEvent → Prop
  | .timeout => False
  | .dev i e => e.type ≠ .key ∧ e.type ≠ .mouseScroll ∧ ∃ dev, devs[i]? = some dev ∧ (dev.data = none ∨ dev.data = some a)
  | .devAdd _ => True
  | .devRemove => True
  | .client _ msg => msg.type ≠ .reload

/-- One turn of the main loop: when `poll` was entered, when it returned, what it found, and which devices
have disappeared. -/
structure Turn where
  start : Int
  now : Int
  evs : List LoopEvent
  removed : List Nat := []

/-- The main loop makes these turns, all of which end before `poll` has waited as long as it may; the first poll is
entered at `t` or later, time never runs backwards, no keyboard has anything to do, and an event that is handled
after the deadline `D` does not come before the wakeup. -/
inductive Idles (env : Env) (a : Nat) (D : Int) : Loop → Int → List Turn → Loop → Int → Prop
  | nil (l : Loop) (t : Int) : Idles env a D l t [] l t
  | turn (l : Loop) (t : Int) (x : Turn) (xs : List Turn) (l1 l2 : Loop) (t2 : Int) (h1 : t ≤ x.start) (h2 : x.start ≤ x.now)
      (early : x.now - x.start < l.timeout) (leaves : ∀ ev ∈ x.evs, Leaves a l.d.devices ev)
      (intime : x.evs = [] ∨ x.now < D) (run : iteration env l x.start x.now x.evs x.removed = .ok (some l1))
      (rest : Idles env a D l1 x.now xs l2 t2) : Idles env a D l t (x :: xs) l2 t2

/-- The same without delay: each poll is entered in the millisecond in which the last one returned. Nothing is
assumed about when events come. -/
inductive Prompt (env : Env) (a : Nat) : Loop → Int → List Turn → Loop → Int → Prop
  | nil (l : Loop) (t : Int) : Prompt env a l t [] l t
  | turn (l : Loop) (t : Int) (x : Turn) (xs : List Turn) (l1 l2 : Loop) (t2 : Int) (h1 : x.start = t) (h2 : x.start ≤ x.now)
      (early : x.now - x.start < l.timeout) (leaves : ∀ ev ∈ x.evs, Leaves a l.d.devices ev)
      (run : iteration env l x.start x.now x.evs x.removed = .ok (some l1))
      (rest : Prompt env a l1 x.now xs l2 t2) : Prompt env a l t (x :: xs) l2 t2

end Keyd
