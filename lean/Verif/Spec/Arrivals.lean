import Verif.Model.Keyboard

/-
  What became of the key events that arrived, for C18 and C20.
-/

set_option autoImplicit false

namespace Keyd

def Step.keyEvent : Step → Option KeyEvent
  | .key c p t _ => some ⟨c, p, t⟩
  | _ => none

def Step.swallowedEvent : Step → Option KeyEvent
  | .swallowed ev => some ev
  | _ => none

/-- The events that were acted upon (looked up and executed, or found to need no action),
in that order. -/
def Kbd.processed (k : Kbd) : List KeyEvent := k.steps.reverse.filterMap Step.keyEvent

/-- The events that became part of a struck chord: the presses that struck it and the
releases of its keys while it was active. -/
def Kbd.absorbed (k : Kbd) : List KeyEvent := k.steps.reverse.filterMap Step.swallowedEvent

/-- The events held back while a chord is undecided. -/
def Kbd.behindChord (k : Kbd) : List KeyEvent :=
  match k.chord.state with
  | .pendingDisambiguation => k.chord.queue
  | .pendingHoldTimeout => k.chord.queue
  | _ => []

/-- The events held back behind an undecided hold-tap key. -/
def Kbd.behindKey (k : Kbd) : List KeyEvent := k.pending.queue

/-- Everything that arrived and is accounted for. -/
def Kbd.accounted (k : Kbd) : List KeyEvent := k.processed ++ k.absorbed ++ k.behindKey ++ k.behindChord

/-- A key event of a device: not the marker for a wakeup, and not one of the three codes the
engine uses internally for struck chords. -/
def Physical (x : Code) : Prop := x ≠ 0 ∧ ¬ (KEYD.CHORD_1 ≤ x ∧ x ≤ KEYD.CHORD_MAX)

/-- No layer has a chord. -/
def NoChords (c : Config) : Prop := ∀ l ∈ c.layers, l.chords = []

/-- `Fed cfg evs k`: the keyboard is in state `k` after receiving exactly the events `evs`,
in this order, in whatever batches and interleaved with whatever `bind` commands. `cfg`
restricts the binding tables in force, as in `Reach`. -/
inductive Fed (cfg : Config → Prop) : List KeyEvent → Kbd → Prop
  | init (c : Config) (h : cfg c) : Fed cfg [] (newKeyboard c)
  | events (fuel : Nat) (k : Kbd) (before evs : List KeyEvent) (k' : Kbd) (wait : Int)
      (h : Fed cfg before k) (run : kbdProcessEvents fuel k evs = .ok (k', wait)) : Fed cfg (before ++ evs) k'
  | bind (k : Kbd) (before : List KeyEvent) (exp : Str) (k' : Kbd) (accepted : Bool)
      (h : Fed cfg before k) (run : kbdEval k exp = .ok (k', accepted)) (hc : cfg k'.config) : Fed cfg before k'
  | scroll (k : Kbd) (before : List KeyEvent) (s : Scroll) (h : Fed cfg before k) (hs : s.active = k.scroll.active) :
      Fed cfg before { k with scroll := s }

end Keyd
