import Verif.Model.Keyboard

/-
  What is typed: the output without modifier keys, layer notifications, commands and pauses. Only
  used to state properties.
-/

set_option autoImplicit false

namespace Keyd

/-- The keys the modifier machinery sends: left alt, right alt, left shift, left meta, left control. -/
def isModifierKey (c : Code) : Bool := c ∈ ([56, 100, 42, 125, 29] : List Code)

/-- The key event, unless it is of a modifier key. -/
def typedKey : Out → Option (Code × Bool)
  | .key c down => if isModifierKey c then none else some (c, down)
  | _ => none

/-- The key events sent, in order, without those of modifier keys. -/
def Kbd.typed (k : Kbd) : List (Code × Bool) := k.outputs.filterMap typedKey

end Keyd
