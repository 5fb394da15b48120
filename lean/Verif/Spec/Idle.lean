import Verif.Model.Keyboard

/-
  How long the keyboard has been idle, read off the log of steps. Used only to state properties.
-/

set_option autoImplicit false

namespace Keyd

/-- The action types a symbol: a key on its own, or with shift. -/
def Desc.symbol : Desc → Bool
  | .keyseq _ m => m = 0 ∨ m = MOD_SHIFT
  | _ => false

/-- The press or release of a key with this action may perform a further action, which the log does
not name: pressing an `overloadi` key, and releasing an `overload` key. -/
def Desc.performs (pressed : Bool) : Desc → Bool
  | .overloadIdle _ _ _ => pressed
  | .overload _ _ => !pressed
  | _ => false

/-- The time of the latest press or release of a key that typed a symbol, `0` if there was none.
The answer is `none` if the log alone does not tell: after a key whose action performed another one.
The release of that key settles the matter again. (For a reading of the log that always tells, see `LogPerforms`.) -/
def lastSymbol : List Step → Option Int
  | [] => some 0
  | .key _ p t (some (d, _)) :: rest =>
    if d.symbol then some t else if d.performs p then none else lastSymbol rest
  | .resolve _ d _ t :: rest => if d.symbol then some t else if d.performs true then none else lastSymbol rest
  | _ :: rest => lastSymbol rest

end Keyd
