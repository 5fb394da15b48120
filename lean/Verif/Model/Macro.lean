import Verif.Model.Keys
import Verif.Model.Str
import Verif.Model.Unicode

/-
  Model of /repo/src/macro.c: parsing and executing macros.
-/

namespace Keyd

/-- `ADD_ENTRY`, macro.c:12-20; `none` is the early `return -1`. -/
def addEntry (m : Macro) (t : MacroType) (data : Nat) : Option Macro :=
  if m.length ≥ 256 then none else some (m ++ [⟨t, UInt16.ofNat data⟩])

/-- The inner loop of a `a+b+10ms` token, macro.c:33-44. -/
def macroHolds : List Str → Macro → Option Macro
  | [], m => some m
  | key :: rest, m =>
    if isTimeval key then
      match addEntry m .timeout (toU16 (atoi key)) with
      | none => none
      | some m => macroHolds rest m
    else
      match parseKeySequence key with
      | some (code, _) =>
        match addEntry m .hold code.toNat with
        | none => none
        | some m => macroHolds rest m
      | none => none

/-- The table scan of macro.c:58-71 for a one-byte character: the entry to add,
if any key types it. -/
def scanChar (c : UInt8) : List KeyEnt → Nat → Option Nat
  | [], _ => none
  | e :: es, i =>
    if e.name = some [c] then some i
    else if e.shifted = some [c] then some (MOD_SHIFT.toNat * 256 + i)
    else scanChar c es (i+1)

/-- The character loop of a plain text token, macro.c:53-76. Each step consumes
at least one byte, so the length of the token bounds the number of steps. -/
def macroChars : Nat → Str → Macro → Res (Option Macro)
  | 0, _, m => .ok (some m)
  | n+1, tok, m => do
    let (sz, cp) ← utf8ReadChar tok
    match tok with
    | [] => .ok (some m)
    | c :: _ =>
      if sz = 1 ∧ cp < 128 then
        match scanChar c keycodeTable 0 with
        | some data =>
          match addEntry m .keysequence data with
          | none => .ok none
          | some m => macroChars n (tok.drop sz) m
        | none => macroChars n (tok.drop sz) m
      else
        match unicodeLookupIndex cp with
        | some x =>
          if x > 0 then
            match addEntry m .unicode x with
            | none => .ok none
            | some m => macroChars n (tok.drop sz) m
          else macroChars n (tok.drop sz) m
        | none => macroChars n (tok.drop sz) m

/-- One space separated token, macro.c:24-77. -/
def macroToken (tok : Str) (m : Macro) : Res (Option Macro) :=
  match parseKeySequence tok with
  | some (code, mods) => .ok (addEntry m .keysequence (mods.toNat * 256 + code.toNat))
  | none =>
    if (43 : UInt8) ∈ tok then
      match macroHolds (tokens 43 tok) m with
      | none => .ok none
      | some m => .ok (addEntry m .release 0)
    else if isTimeval tok then
      .ok (addEntry m .timeout (toU16 (atoi tok)))
    else macroChars tok.length tok m

/-- The token loop of `macro_parse`, macro.c:23-78. -/
def macroTokens : List Str → Macro → Res (Option Macro)
  | [], m => .ok (some m)
  | tok :: rest, m => do
    match ← macroToken tok m with
    | none => .ok none
    | some m => macroTokens rest m

/-- `macro_parse`, macro.c:8-83. `none` is the return value -1. -/
def macroParse (s : Str) : Res (Option Macro) := macroTokens (tokens 32 s) []

/-- What a macro asks of the outside world: key events handed to the output
callback, or a delay (microseconds). -/
inductive MacroOut where
  | key (code : Code) (down : Bool)
  | sleep (us : Nat)
deriving DecidableEq, Repr

/-- `if (timeout) usleep(timeout)`, macro.c:142-143,163-164. -/
def macroSleep (us : Nat) : List MacroOut := if us = 0 then [] else [.sleep us]

/-- The output of one macro entry other than HOLD and RELEASE,
macro.c:119-161. -/
def macroEntryOut (timeout : Nat) (e : MacroEntry) : List MacroOut :=
  match e.type with
  | .unicode =>
    (unicodeGetSequence e.data.toNat).flatMap (fun c => [.key c true, .key c false])
  | .keysequence =>
    (modifiers.filter (fun m => e.mods &&& m.1 ≠ 0)).map (fun m => .key m.2 true) ++
    (if e.mods ≠ 0 then macroSleep timeout else []) ++
    [.key e.code true, .key e.code false] ++
    (modifiers.filter (fun m => e.mods &&& m.1 ≠ 0)).map (fun m => .key m.2 false)
  | .timeout => [.sleep (e.data.toNat * 1000)]
  | .hold => [.key e.code true]
  | .release => []

/-- The loop of `macro_execute`, macro.c:91-165. `held` is `none` when
`hold_start == -1`, and otherwise the entries from `hold_start` up to the
current one. On RELEASE an up event is sent for the data of *every* such entry,
as in macro.c:111-114 (also for TIMEOUT entries). -/
def macroExecAux (timeout : Nat) : Macro → Option (List MacroEntry) → List MacroOut
  | [], _ => []
  | e :: es, held =>
    match e.type with
    | .hold =>
      macroEntryOut timeout e ++ macroSleep timeout ++
        macroExecAux timeout es (some (held.getD [] ++ [e]))
    | .release =>
      match held with
      | some hs =>
        hs.map (fun h => .key h.code false) ++ macroSleep timeout ++ macroExecAux timeout es none
      | none => macroSleep timeout ++ macroExecAux timeout es none
    | _ =>
      macroEntryOut timeout e ++ macroSleep timeout ++
        macroExecAux timeout es (held.map (· ++ [e]))

/-- `macro_execute`, macro.c:85-166: the calls made, in order. -/
def macroExecute (m : Macro) (timeout : Nat) : List MacroOut := macroExecAux timeout m none

end Keyd
