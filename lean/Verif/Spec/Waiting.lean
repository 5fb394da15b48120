import Verif.Model.Keyboard

/-
  Keys whose action depends on what happens next: `overloadt`, `overloadt2` and `timeout`. Only used
  to state properties.
-/

set_option autoImplicit false

namespace Keyd

/-- The three waiting actions. -/
inductive Waiter where
  | overloadt | overloadt2 | timeout
deriving DecidableEq, Repr

/-- For a waiting action: which one, what a tap does, what a hold does, and the time limit. -/
def Desc.waits (c : Config) : Desc → Option (Waiter × Desc × Desc × Nat)
  | .overloadTimeout l a T => some (.overloadt, c.desc a, .layer l, T)
  | .overloadTimeoutTap l a T => some (.overloadt2, c.desc a, .layer l, T)
  | .timeout a T h => some (.timeout, c.desc a, c.desc h, T)
  | _ => Option.none

/-- How the engine represents it. -/
def Waiter.behaviour : Waiter → Behaviour
  | .overloadt => .uninterruptible
  | .overloadt2 => .uninterruptibleTapAction2
  | .timeout => .interruptAction1

/-- Key `code`, bound in layer `dl`, is undecided until time `expire`; `queue` are the events that
came after it. -/
structure Pends (k : Kbd) (code : Code) (dl : Nat) (kind : Waiter) (tap hold : Desc) (expire : Int)
    (queue : List KeyEvent) : Prop where
  key : code ≠ 0
  code : k.pending.code = code
  dl : k.pending.dl = dl
  kind : k.pending.behaviour = kind.behaviour
  tap : k.pending.action1 = tap
  hold : k.pending.action2 = hold
  expire : k.pending.expire = expire
  queue : k.pending.queue = queue
  /-- wakeups are not queued -/
  keys : ∀ e ∈ k.pending.queue, e.code ≠ 0

/-- The event is the release of a key that was pressed before the undecided key was. -/
def EarlierRelease (code : Code) (queue : List KeyEvent) (ev : KeyEvent) : Prop :=
  ev.code ≠ 0 ∧ ev.pressed = false ∧ ev.code ≠ code ∧ ∀ e ∈ queue, e.code ≠ ev.code

/-- The event, which is before the deadline, does not settle the matter: it is a wakeup, the press of
another key (unless the action is `timeout`), or the release of a key pressed meanwhile (unless the
action is `overloadt2`). -/
def Indecisive (kind : Waiter) (code : Code) (queue : List KeyEvent) (ev : KeyEvent) : Prop :=
  ev.code = 0 ∨ (ev.code ≠ code ∧ ev.pressed = true ∧ kind ≠ .timeout) ∨
    (ev.code ≠ code ∧ ev.pressed = false ∧ kind ≠ .overloadt2 ∧ ∃ e ∈ queue, e.code = ev.code)

/-- The queue after an event: wakeups are not queued. -/
def enqueued (queue : List KeyEvent) (ev : KeyEvent) : List KeyEvent := if ev.code = 0 then queue else queue ++ [ev]

/-- None of the events, which arrive one after the other, settles the matter. -/
def AllIndecisive (kind : Waiter) (code : Code) (expire : Int) : List KeyEvent → List KeyEvent → Prop
  | _, [] => True
  | queue, ev :: evs => ev.ts < expire ∧ Indecisive kind code queue ev ∧
      AllIndecisive kind code expire (enqueued queue ev) evs

/-- The engine is given the events one at a time. -/
def feedEach (fuel : Nat) : Kbd → List KeyEvent → Res Kbd
  | k, [] => .ok k
  | k, ev :: evs => do
    let r ← kbdProcessEvents fuel k [ev]
    feedEach fuel r.1 evs

end Keyd
