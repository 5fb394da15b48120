import Verif.Model.Compose
import Verif.Spec.Host

/-
  An application that receives keystrokes: a US layout and a compose file.
-/

set_option autoImplicit false

namespace Keyd

/-- The characters of the US layout, row by row: the code of the first key of the row, the characters without
and with shift. -/
def usRows : List (Nat × String × String) :=
  [(2, "1234567890-=", "!@#$%^&*()_+"), (16, "qwertyuiop[]", "QWERTYUIOP{}"), (30, "asdfghjkl;'`", "ASDFGHJKL:\"~"),
   (43, "\\zxcvbnm,./", "|ZXCVBNM<>?"), (57, " ", " "), (15, "\t", "\t"), (28, "\n", "\n")]

/-- The character of a key, with and without shift. -/
def usChar (code : Code) (shift : Bool) : Option Char :=
  usRows.findSome? fun r => if r.1 ≤ code.toNat then (if shift then r.2.2 else r.2.1).toList[code.toNat - r.1]? else none

/-- The key symbol of a keystroke: `Cancel` for key 223, otherwise the character of the layout. Strokes with
another modifier than shift give none. -/
def symOf (s : Code × List Code) : Option (List Char) :=
  if s = (223, []) then some "Cancel".toList
  else if s.2 = [] then (usChar s.1 false).map ([·])
  else if s.2 = [42] then (usChar s.1 true).map ([·])
  else none

/-- What an application with the compose lines `file` receives from some keystrokes, `pending` being the symbols of
an unfinished sequence: a symbol that completes a line gives the character of the line; one that continues
a line is remembered; any other symbol gives its own character if no sequence is unfinished, and otherwise is lost
with the unfinished sequence. -/
def received (file : List ComposeLine) (pending : List (List Char)) : List (Code × List Code) → List Char
  | [] => []
  | s :: ss =>
    match symOf s with
    | none => received file [] ss
    | some y =>
      match file.find? fun l => l.syms = pending ++ [y] with
      | some l => l.char :: received file [] ss
      | none =>
        if file.any fun l => (pending ++ [y]).isPrefixOf l.syms then received file (pending ++ [y]) ss
        else (if pending = [] ∧ y.length = 1 then y else []) ++ received file [] ss

end Keyd
