import Verif.Spec.Typed

/-
  What the host makes of the key events: which keys are struck, and which modifier keys are down at
  that moment. Used only to state properties.
-/

set_option autoImplicit false

namespace Keyd

/-- The modifier keys, in a fixed order: control, shift, alt, alt gr, meta. -/
def modKeys : List Code := [29, 42, 56, 100, 125]

/-- The keys down at the host after some events. -/
def hostAfter (h : Code → Bool) : List Out → Code → Bool
  | [] => h
  | .key c d :: os => hostAfter (upd h c d) os
  | _ :: os => hostAfter h os

/-- The keystrokes the host sees: every press of a key that was up and is no modifier key, with the
modifier keys that are down at that moment. -/
def keystrokes (h : Code → Bool) : List Out → List (Code × List Code)
  | [] => []
  | .key c d :: os =>
    (if d = true ∧ h c = false ∧ isModifierKey c = false then [(c, modKeys.filter h)] else []) ++ keystrokes (upd h c d) os
  | _ :: os => keystrokes h os

/-- The keystrokes a macro entry asks for, each with its modifier set: those of a key sequence, or of
the compose sequence that stands for a character. -/
def MacroEntry.strokes (e : MacroEntry) : List (Code × UInt8) :=
  match e.type with
  | .keysequence => [(e.code, e.mods)]
  | .unicode => (unicodeGetSequence e.data.toNat).map (·, 0)
  | _ => []

/-- The key of a modifier is in a modifier set. -/
def inMods (mods : UInt8) (key : Code) : Bool :=
  (key = 29 ∧ mods &&& MOD_CTRL ≠ 0) ∨ (key = 42 ∧ mods &&& MOD_SHIFT ≠ 0) ∨ (key = 56 ∧ mods &&& MOD_ALT ≠ 0) ∨
  (key = 100 ∧ mods &&& MOD_ALT_GR ≠ 0) ∨ (key = 125 ∧ mods &&& MOD_SUPER ≠ 0)

end Keyd
