import Verif.Model.Keys

/-
  `keyd monitor` (monitor.c) and the markup of log messages (log.c).

  Not modelled: the terminal's flags, draining standard input at the end, ending when standard output is closed (`EV_FD_ERR`), and buffering.
-/

set_option autoImplicit false

namespace Keyd

/-- The colour letters, log.c:27-36; 0 is none. -/
def colourNumber (c : UInt8) : UInt8 :=
  if c = 114 then 1 else if c = 103 then 2 else if c = 121 then 3 else if c = 98 then 4
  else if c = 109 then 5 else if c = 99 then 6 else if c = 119 then 7 else 0

/-- The loop of `colorize`, log.c:23-63: `suppress` is `suppress_colours`, `inside` is `inside_escape`, `out` is `buf` up to `n`. -/
def colorizeLoop (suppress : Bool) : Str → Bool → Str → Str
  | [], _, out => out
  | [c], inside, out =>
    if out.length < 1024 then
      if c = 125 ∧ inside then (if ¬ suppress ∧ 1024 - out.length > 4 then out ++ b!"\x1b[0m" else out) else out ++ [c]
    else out
  | c :: c2 :: rest, inside, out =>
    if out.length < 1024 then
      if c2 = 123 ∧ colourNumber c ≠ 0 then
        colorizeLoop suppress rest true (if ¬ suppress ∧ 1024 - out.length > 5 then out ++ [27, 91, 51, 48 + colourNumber c, 109] else out)
      else if c = 125 ∧ inside then
        colorizeLoop suppress (c2 :: rest) false (if ¬ suppress ∧ 1024 - out.length > 4 then out ++ b!"\x1b[0m" else out)
      else colorizeLoop suppress (c2 :: rest) inside (out ++ [c])
    else out

/-- `colorize`, log.c:12-69. The terminating NUL is written at `buf[n]`, which is outside of the buffer if it is full. -/
def colorize (suppress : Bool) (s : Str) : Res Str :=
  let out := colorizeLoop suppress s false []
  if out.length < 1024 then .ok out else .error (.oob "colorize: buf[n]")

/-- Decimal digits of a number, as printed by `%ld`. -/
def decimalNat (n : Nat) : Str := (Nat.toDigits 10 n).map (fun c => UInt8.ofNat c.toNat)

/-- `%ld`. -/
def decimal : Int → Str
  | .ofNat n => decimalNat n
  | .negSucc n => 45 :: decimalNat (n + 1)

/-- A device as printed by the monitor: `struct device`, device.h. -/
structure MonDev where
  name : Str
  id : Str
  path : Str

/-- The events of the loop that concern the monitor: a device appears, disappears, has a key pressed or released, or anything else. -/
inductive MonEvent where
  | added (dev : MonDev)
  | removed (dev : MonDev)
  | key (dev : MonDev) (code : Code) (pressed : Bool)
  | other

/-- The name of a key in the table; a null pointer is printed as `(null)`. -/
def printedName (code : Code) : Str := (((keycodeTable[code.toNat]?).bind KeyEnt.name).getD b!"(null)")

/-- What `event_handler`, monitor.c:33-75, prints for an event. `timeFlag` is `time_flag`, `last` is `last_time`; the format `r{+%ld} ms\t` goes
through `colorize`. -/
def monitorPrints (suppress timeFlag : Bool) (last : Int) (ev : MonEvent) (t : Int) : Str :=
  match ev with
  | .added dev => b!"device added: " ++ dev.id ++ b!" " ++ dev.name ++ b!" (" ++ dev.path ++ b!")\n"
  | .removed dev => b!"device removed: " ++ dev.id ++ b!" " ++ dev.name ++ b!" (" ++ dev.path ++ b!")\n"
  | .key dev code pressed =>
    (if timeFlag ∧ last ≠ 0 then
      (if suppress then [] else b!"\x1b[31m") ++ b!"+" ++ decimal (t - last) ++ (if suppress then [] else b!"\x1b[0m") ++ b!" ms\t"
    else []) ++
    dev.name ++ b!"\t" ++ dev.id ++ b!"\t" ++ printedName code ++ b!" " ++ (if pressed then b!"down" else b!"up") ++ b!"\n"
  | .other => []

/-- The output of the monitor for a list of events with their times; `last_time = ev->timestamp` after each, monitor.c:73. -/
def monitorRun (suppress timeFlag : Bool) : Int → List (MonEvent × Int) → Str
  | _, [] => []
  | last, (ev, t) :: evs => monitorPrints suppress timeFlag last ev t ++ monitorRun suppress timeFlag t evs

end Keyd
