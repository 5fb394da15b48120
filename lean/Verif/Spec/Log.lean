import Verif.Model.Keyboard

/-
  Reading the log of steps: which binding a key was last processed with, and which key was pressed
  last. These definitions are only used to state properties.
-/

set_option autoImplicit false

namespace Keyd

/-- Actions that neither hold a layer nor wait for a decision: key sequences, macros, commands and
so on. A key bound to one of them keeps its binding until it is released. -/
def Desc.steady : Desc → Bool
  | .layer _ | .layerm _ _ | .oneshot _ | .oneshotm _ _ | .overload _ _ | .toggle _ | .togglem _ _
  | .overloadIdle _ _ _ | .overloadTimeout _ _ _ | .overloadTimeoutTap _ _ _ | .timeout _ _ _ => false
  | _ => true

/-- How a key was last processed. -/
inductive Use where
  /-- Pressed, with this binding found by lookup. -/
  | pressed (d : Desc) (dl : Nat)
  /-- Its decision was made: it is held with this binding. -/
  | decided (d : Desc) (dl : Nat)
  /-- Released. -/
  | released
deriving DecidableEq, Repr

/-- The latest use of a key in a log (newest step first). Events that were ignored do not count. -/
def lastUse (code : Code) : List Step → Option Use
  | [] => none
  | .key c true _ (some (d, dl)) :: rest => if c = code then some (.pressed d dl) else lastUse code rest
  | .key c false _ (some _) :: rest => if c = code then some .released else lastUse code rest
  | .resolve c d dl _ :: rest => if c = code then some (.decided d dl) else lastUse code rest
  | _ :: rest => lastUse code rest

/-- The key pressed last (0 if none). A decision counts as a press. -/
def newestPress : List Step → Code
  | [] => 0
  | .key c true _ (some _) :: _ => c
  | .resolve c _ _ _ :: _ => c
  | _ :: rest => newestPress rest

/-- The key and time of the latest press, provided it is the press of an overload key which has not
been released since. -/
def openOverload : List Step → Option (Code × Int)
  | [] => none
  | .key c true t (some (.overload _ _, _)) :: _ => some (c, t)
  | .key _ true _ (some _) :: _ => none
  | .resolve _ _ _ _ :: _ => none
  | .key c false _ (some _) :: rest =>
    match openOverload rest with
    | some (c', t) => if c' = c then none else some (c', t)
    | none => none
  | _ :: rest => openOverload rest

/-- The step is about this key: it was pressed or released with a binding, its release was ignored,
or it was decided. (A repeated press of a key that is already held is ignored, and is not counted.) -/
def Step.about (code : Code) : Step → Bool
  | .key _ true _ none => false
  | .key c _ _ _ => c = code
  | .resolve c _ _ _ => c = code
  | _ => false

/-- The step is the press of some key (a decision counts as a press). Presses that were ignored do
not count. -/
def Step.isPress : Step → Bool
  | .key _ true _ (some _) => true
  | .resolve _ _ _ _ => true
  | _ => false

end Keyd
