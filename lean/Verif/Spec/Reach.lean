import Verif.Model.Keyboard

/-
  Specification vocabulary for the engine properties: which engine states the
  daemon can produce, and what an observer of the output callback sees.
  Nothing here is used by the model.
-/

set_option autoImplicit false

namespace Keyd

/-- The states of a keyboard the daemon can produce. `cfg` restricts the binding
tables in force at any time. A history starts with a new keyboard and then
interleaves arbitrarily
* batches of events (`kbd_process_events`; a timer wakeup is an event with code
  0, as in daemon.c:507-515), with arbitrary codes, directions and timestamps,
* `bind` commands (`kbd_eval`), successful or not,
* scroll bookkeeping on mouse motion (daemon.c:553-569), which only touches
  `scroll`. -/
inductive Reach (cfg : Config → Prop) : Kbd → Prop
  | init (c : Config) (h : cfg c) : Reach cfg (newKeyboard c)
  | events (fuel : Nat) (k : Kbd) (evs : List KeyEvent) (k' : Kbd) (wait : Int)
      (h : Reach cfg k) (run : kbdProcessEvents fuel k evs = .ok (k', wait)) : Reach cfg k'
  | bind (k : Kbd) (exp : Str) (k' : Kbd) (accepted : Bool)
      (h : Reach cfg k) (run : kbdEval k exp = .ok (k', accepted)) (hc : cfg k'.config) :
      Reach cfg k'
  | scroll (k : Kbd) (s : Scroll) (h : Reach cfg k) : Reach cfg { k with scroll := s }

/-- The up/down history of one key as seen through the output callback, oldest
first. -/
def keyHistory (c : Code) (outs : List Out) : List Bool :=
  outs.filterMap fun o => match o with
    | .key c' b => if c' = c then some b else none
    | _ => none

/-- down, up, down, up, ... -/
def Alternates (l : List Bool) : Prop := ∀ i b, l[i]? = some b → b = (i % 2 == 0)

/-- A macro consisting of a single key sequence, e.g. `C-a`. -/
def PlainMacro (m : Macro) : Prop := ∃ e : MacroEntry, m = [e] ∧ e.type = .keysequence

/-- The number of a key's physical presses currently held, etc. are defined where
they are used. This one is the output key state shown to the host. -/
def DownAtHost (c : Code) (outs : List Out) : Prop := (keyHistory c outs).getLast? = some true

end Keyd
