import Verif.Model.Str

/-
  Model of /repo/src/ini.c.
-/

namespace Keyd

/-- Space or tab (ini.c:44,48-49). -/
def isBlank (c : UInt8) : Bool := c == 32 || c == 9

/-- The scanning loop of `parse_kvp`, ini.c:36-59. `key` is the text read so
far up to the last non-blank character, `spaces` the blanks read since
(`last_space` points at the first of them). -/
def kvpScan : Str → Str → Str → Option (Str × Str)
  | [], _, _ => none
  | c :: rest, key, spaces =>
    if c = 61 then some (key, rest.dropWhile isBlank)
    else if isBlank c then kvpScan rest key (spaces ++ [c])
    else kvpScan rest (key ++ spaces ++ [c]) []

/-- `parse_kvp`, ini.c:25-60. The value is `none` when it is NULL in C. -/
def parseKvp (s : Str) : Str × Option Str :=
  let r := match s with
    | 61 :: rest => kvpScan rest [61] []
    | _ => kvpScan s [] []
  match r with
  | some (k, v) => (k, some v)
  | none => (s, none)

/-- `struct ini_entry`, ini.h:14-19 (line numbers are only used in messages and
are omitted). -/
structure IniEntry where
  key : Str
  val : Option Str
deriving DecidableEq, Repr, Inhabited

/-- `struct ini_section`, ini.h:21-28. -/
structure IniSection where
  name : Str
  entries : List IniEntry
deriving DecidableEq, Repr, Inhabited

/-- Splitting into lines, ini.c:78-91: the last line is what follows the last
newline (possibly empty). -/
def splitLines : Str → List Str
  | [] => [[]]
  | c :: rest =>
    if c = 10 then [] :: splitLines rest
    else match splitLines rest with
      | [] => [[c]]
      | l :: ls => (c :: l) :: ls

/-- Strip trailing whitespace, ini.c:97-105. -/
def rstrip (s : Str) : Str := (s.reverse.dropWhile isSpaceC).reverse

/-- Strip leading and trailing whitespace, ini.c:94-105. -/
def stripLine (s : Str) : Str := rstrip (s.dropWhile isSpaceC)

/-- What a stripped line is, ini.c:102-144. -/
inductive LineKind where
  | skip
  | section (name : Str)
  | entry (key : Str) (val : Option Str)
deriving DecidableEq, Repr

/-- Classification of one line, ini.c:94-143. -/
def classifyLine (line : Str) : LineKind :=
  let l := stripLine line
  match l with
  | [] => .skip
  | c :: rest =>
    if c = 91 ∧ rest.getLast? = some 93 then .section rest.dropLast
    else if c = 35 then .skip
    else
      let (k, v) := parseKvp l
      .entry k v

/-- `ini_parse_string(s, NULL)`, ini.c:69-148, over already split lines. The
sections are accumulated newest first and entries newest first within
the current section; `none` is the NULL result (an entry before any heading).
`sections` counts at most `MAX_SECTIONS` = 32 and a section at most
`MAX_SECTION_ENTRIES` = 1024 entries, both enforced by asserts. -/
def iniLines : List Str → List IniSection → Res (Option (List IniSection))
  | [], acc => .ok (some acc)
  | line :: rest, acc =>
    match classifyLine line with
    | .skip => iniLines rest acc
    | .section name =>
      if acc.length < 32 then iniLines rest (⟨name, []⟩ :: acc)
      else .error (.assertFail "ini: n < MAX_SECTIONS")
    | .entry k v =>
      match acc with
      | [] => .ok none
      | s :: ss =>
        if s.entries.length < 1024 then
          iniLines rest ({ s with entries := ⟨k, v⟩ :: s.entries } :: ss)
        else .error (.assertFail "ini: nr_entries < MAX_SECTION_ENTRIES")

/-- `ini_parse_string(s, NULL)`, ini.c:69-148: sections and entries in file
order. Simplification: section names longer than 255 bytes (impossible for
lines read by `read_file`) are not truncated. -/
def iniParseString (s : Str) : Res (Option (List IniSection)) := do
  match ← iniLines (splitLines s) [] with
  | none => .ok none
  | some acc => .ok (some ((acc.map fun s => { s with entries := s.entries.reverse }).reverse))

end Keyd
