import Verif.Model.Keyboard

/-
  Fidelity check, not a proof: replays the project's own test cases
  (/repo/t/*.t with /repo/t/test.conf, see /repo/t/test-io.c) on the model.

  Run with:
    cd /verif/lean && lake env lean --run Verif/Replay.lean /repo/t/test.conf /repo/t/*.t
-/

namespace Keyd.Replay

def bytes (s : String) : Str := s.toUTF8.toList

/-- `lookup_code`, t/test-io.c:19-36. -/
def lookupCode (s : String) : Code :=
  if s = "control" then 29 else if s = "shift" then 42 else if s = "meta" then 125
  else if s = "alt" then 56
  else
    match (keycodeTable.zipIdx.find? fun p => p.1.name = some (bytes s)) with
    | some p => UInt8.ofNat p.2
    | none => 0

structure Parsed where
  input : List KeyEvent := []
  expected : List KeyEvent := []

/-- `parse_events`, t/test-io.c:131-201. -/
def parseEvents (lines : List String) : Parsed := Id.run do
  let mut cur : List KeyEvent := []
  let mut inp : List KeyEvent := []
  let mut time : Int := 0
  for line in lines do
    if line.startsWith "#" then continue
    let l := (line.trimAsciiStart).toString
    if l.isEmpty then
      inp := cur
      cur := []
    else if l.endsWith "ms" then
      time := time + atoi (bytes l)
    else
      match (l.splitOn " ").filter (· ≠ "") with
      | [k, v] => cur := cur ++ [⟨lookupCode k, v == "down", time⟩]
      | _ => pure ()
  return { input := inp, expected := cur }

def run (args : List String) : IO UInt32 := do
  match args with
  | [] => IO.println "usage"; return 1
  | conf :: files =>
    let text ← IO.FS.readFile conf
    match configParse (bytes text) with
    | .error e => IO.println s!"config error {repr e}"; return 1
    | .ok none => IO.println "config parse failed"; return 1
    | .ok (some c) =>
      IO.println s!"layers={c.layers.length} descriptors={c.descriptors.length} macros={c.macros.length}"
      let mut k := newKeyboard c
      let mut bad := 0
      let mut good := 0
      for f in files do
        let t ← IO.FS.readFile f
        let p := parseEvents (t.splitOn "\n").dropLast
        match kbdProcessEvents 10000 { k with trace := [] } p.input with
        | .error e => IO.println s!"{f} ERROR {repr e}"; bad := bad + 1
        | .ok (k', _) =>
          let outs := k'.outputs.filterMap fun o => match o with
            | .key c d => some (c, d)
            | _ => none
          let exp := p.expected.map fun e => (e.code, e.pressed)
          if outs = exp then good := good + 1
          else
            IO.println s!"{f} FAILED\n  expected {repr exp}\n  got      {repr outs}"
            bad := bad + 1
          k := k'
      IO.println s!"{good} passed, {bad} failed"
      return 0

end Keyd.Replay

def main (args : List String) : IO UInt32 := Keyd.Replay.run args
