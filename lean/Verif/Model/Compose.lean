import Verif.Model.Unicode

/-
  The compose file that scripts/generate_xcompose writes to data/keyd.compose, from the same list of code points
  it writes into src/unicode.c. The file a user installs (data/keyd.compose) is compared with this model, outside
  of Lean, by tools/check_compose.py.
-/

set_option autoImplicit false

namespace Keyd

/-- `codes`, generate_xcompose:5-16, which is also `unicode_table`, unicode.c:7 (here unfolded from the runs of
Model/Unicode.lean). -/
def unicodeTable : List Nat := unicodeRuns.flatMap fun r => (List.range r.2).map (r.1 + ·)

/-- `chars`, generate_xcompose:21. -/
def base36Chars : List Char := "0123456789abcdefghijklmnopqrstuvwxyz".toList

/-- `base36`, generate_xcompose:20-29. -/
def base36 (n : Nat) : List Char :=
  [base36Chars.getD (n / (base36Chars.length * base36Chars.length) % base36Chars.length) '?',
   base36Chars.getD (n / base36Chars.length % base36Chars.length) '?',
   base36Chars.getD (n % base36Chars.length) '?']

/-- One line of the file: the names between `<` and `>`, and the character between the quotes. -/
structure ComposeLine where
  syms : List (List Char)
  char : Char
deriving DecidableEq

/-- The line for entry `n`, generate_xcompose:35-37. -/
def composeLine (n code : Nat) : ComposeLine :=
  ⟨"Cancel".toList :: (base36 n).map ([·]), Char.ofNat code⟩

/-- data/keyd.compose, generate_xcompose:33-39 (as lines; the text of a line is `ComposeLine.text`). -/
def composeFile : List ComposeLine := unicodeTable.mapIdx composeLine

/-- The text of a line, generate_xcompose:35-37. -/
def ComposeLine.text (l : ComposeLine) : List Char :=
  " ".toList.intercalate (l.syms.map fun s => '<' :: s ++ ['>']) ++ " : \"".toList ++ [l.char] ++ "\"\n".toList

end Keyd
