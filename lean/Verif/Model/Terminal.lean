import Verif.Model.Types

/-
  The terminal of `keyd monitor`: src/monitor.c:5-32,78-111 and the signals of src/keyd.c:248-249, statement by statement.

  Modelled: whether the terminal echoes and reads lines (ICANON), whether its open file is non-blocking, what was typed and not yet read. The end of the
  process by `exit` (SIGTERM, SIGINT, a closed pipe at standard output, the panic sequence) and by any other signal, at any point.
  Not modelled: that other processes change the terminal meanwhile (so `tcgetattr` and `tcsetattr` are one step); job control; that `fstat` fails.
-/

set_option autoImplicit false

namespace Keyd

/-- The terminal (or other file) at standard input. -/
structure Tty where
  canon : Bool := true
  echo : Bool := true
  nonblock : Bool := false
  /-- typed and not yet read -/
  queue : Str := []
deriving DecidableEq, Repr

/-- Where `keyd monitor` is: before monitor.c:89; before the `atexit` of monitor.c:106; in the event loop, monitor.c:108; in `cleanup` before monitor.c:25, 27, in the loop of
28 and before 30; ended. -/
inductive MonPc where
  | start | hushed | looping | clean1 | clean2 | drain | clean4 | ended
deriving DecidableEq, Repr

structure MonSys where
  /-- `isatty(0)` -/
  tty0 : Bool
  /-- `isatty(1)` -/
  tty1 : Bool
  t : Tty
  pc : MonPc := .start
deriving DecidableEq, Repr

/-- `set_tflags`, monitor.c:5-20. -/
def setTflags (s : MonSys) (canon echo val : Bool) : MonSys :=
  if s.tty0 then { s with t := { s.t with canon := if canon then val else s.t.canon, echo := if echo then val else s.t.echo } } else s

/-- What `read` can have: of a terminal that reads lines, only whole lines. -/
def Tty.readable (t : Tty) (tty : Bool) : Nat :=
  if tty && t.canon then (t.queue.reverse.dropWhile (· ≠ 10)).length else t.queue.length

/-- The next statement. -/
def monNext (s : MonSys) : MonSys :=
  match s.pc with
  -- monitor.c:89-90
  | .start => { (if s.tty1 then setTflags s false true false else s) with pc := .hushed }
  -- monitor.c:92-106
  | .hushed => { s with pc := .looping }
  | .looping => s
  -- monitor.c:25
  | .clean1 => { setTflags s true false false with pc := .clean2 }
  -- monitor.c:27
  | .clean2 => { s with t := { s.t with nonblock := true }, pc := .drain }
  -- monitor.c:28: one `read` of at most 4096 bytes
  | .drain => if s.t.readable s.tty0 = 0 then { s with pc := .clean4 } else { s with t := { s.t with queue := s.t.queue.drop (min 4096 (s.t.readable s.tty0)) } }
  -- monitor.c:30, and the process ends
  | .clean4 => { setTflags s true true true with pc := .ended }
  | .ended => s

/-- `exit`, wherever the process is: `cleanup` runs if it is registered, and it is not run again if it was running (glibc forgets an exit handler when it calls it). -/
def monExit (s : MonSys) : MonSys :=
  { s with pc := if s.pc = .looping then .clean1 else .ended }

inductive TtyEvent where
  /-- the process runs one statement -/
  | step
  /-- SIGTERM or SIGINT (keyd.c:248-249), and in the event loop `exit` (monitor.c:66, evloop.c:23) -/
  | stop
  /-- the process is ended by another signal -/
  | kill
  | typed (b : UInt8)
deriving DecidableEq, Repr

def ttyEvent (s : MonSys) : TtyEvent → MonSys
  | .step => monNext s
  | .stop => if s.pc = .ended then s else monExit s
  | .kill => { s with pc := .ended }
  | .typed b => if s.pc = .ended then s else { s with t := { s.t with queue := s.t.queue ++ [b] } }

def monRun (s : MonSys) (es : List TtyEvent) : MonSys := es.foldl ttyEvent s

end Keyd
