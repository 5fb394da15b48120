import Verif.Model.File

/-
  Vocabulary for C47 and C53: the text a config file with includes stands for. Only used to state properties.
-/

set_option autoImplicit false

namespace Keyd

/-- The bytes of a file with these lines. -/
def fileOf (ls : List Str) : Str := (ls.map (· ++ [10])).flatten

/-- An ordinary line: at most 255 bytes, no NUL (and no newline, being a line). -/
def TidyLine (l : Str) : Prop := l.length ≤ 255 ∧ 0 ∉ l ∧ 10 ∉ l

/-- The name in a line `include name`. -/
def includeOf (l : Str) : Option Str :=
  if b!"include " <+: l then some ((l.drop 8).dropWhile (· = 32)) else none

/-- What a line stands for: itself, or the contents of the file it includes; nothing, if there is no such file. -/
def expandLine (fs : Files) (path : Str) (l : Str) : Str :=
  match includeOf l with
  | none => l ++ [10]
  | some name =>
    match resolveInclude fs path name with
    | none => []
    | some p => (fs p).getD []

/-- What the lines of a file stand for. -/
def expand (fs : Files) (path : Str) (ls : List Str) : Str := (ls.map (expandLine fs path)).flatten

end Keyd
