import Verif.Model.Types
import Mathlib.Logic.Function.Basic

/-
  Running the program of a `command` action: `execute_command`, src/keyboard.c:367-396, process by process. Any number of daemons' commands, interleaved in any way; every process can be
  ended at any point, every `fork` and the `execl` can fail.

  Not modelled: what the programs do (they are a process each); signals other than those that end a process.
-/

set_option autoImplicit false

namespace Keyd

/-- What a descriptor refers to: `/dev/null` as opened at keyboard.c:380, or another open file. -/
inductive FdFile where
  | null
  | other (n : Nat)
deriving DecidableEq, Repr

structure FdEntry where
  file : FdFile
  cloexec : Bool := false
deriving DecidableEq, Repr

/-- The descriptors of a process: position `n` is descriptor `n`. -/
abbrev FdTable := List (Option FdEntry)

def FdTable.get : FdTable → Nat → Option FdEntry
  | [], _ => none
  | x :: _, 0 => x
  | _ :: t, n + 1 => FdTable.get t n

def FdTable.put : FdTable → Nat → Option FdEntry → FdTable
  | [], 0, d => [d]
  | [], n + 1, d => none :: FdTable.put [] n d
  | _ :: t, 0, d => d :: t
  | x :: t, n + 1, d => x :: FdTable.put t n d

/-- The number `open` gives: the lowest that is free. -/
def FdTable.free : FdTable → Nat
  | [] => 0
  | none :: _ => 0
  | some _ :: t => FdTable.free t + 1

/-- `dup2(a, b)`: fails without effect if `a` is not open, does nothing if `a = b`. -/
def FdTable.dup2 (t : FdTable) (a b : Nat) : FdTable :=
  match t.get a with
  | none => t
  | some d => if a = b then t else t.put b (some { d with cloexec := false })

/-- keyboard.c:380-393: open `/dev/null`, close the standard streams, and put `/dev/null` in their place. That `open` fails is `CmdStep.ends`. -/
def redirect (t : FdTable) : FdTable :=
  let fd := t.free
  let t := t.put fd (some { file := .null })
  let t := ((t.put 0 none).put 1 none).put 2 none
  ((t.dup2 fd 0).dup2 fd 1).dup2 fd 2

/-- What `execl` leaves of a table. -/
def FdTable.exec (t : FdTable) : FdTable := t.map fun d => d.filter fun e => !e.cloexec

/-- How far a process is. -/
inductive CmdStage where
  /-- a daemon in its event loop -/
  | loop
  /-- a daemon in `wait(NULL)`, keyboard.c:374 -/
  | waits
  /-- the child of the daemon, before its `fork`, keyboard.c:377 -/
  | first (cmd : Str)
  /-- the child calls `exit(0)`, keyboard.c:378 -/
  | leaves
  /-- the child of the child, before `execl`, keyboard.c:380-395 -/
  | second (cmd : Str)
  /-- `/bin/sh -c cmd` -/
  | program (cmd : Str)
  /-- ended, but its parent has not waited for it -/
  | zombie
deriving DecidableEq

structure CmdProc where
  /-- 0 stands for the process that adopts orphans and waits for them at once -/
  parent : Nat
  stage : CmdStage
  fds : FdTable

/-- The processes that there are. -/
abbrev CmdWorld := Nat → Option CmdProc

/-- The end of process `p`: its descriptors are closed, its children are adopted; if its parent is the one that adopts, nothing of it is left. -/
def CmdWorld.ends (w : CmdWorld) (p : Nat) : CmdWorld := fun q =>
  match w q with
  | none => none
  | some x =>
    if q = p then (if x.parent = 0 then none else some { x with stage := .zombie, fds := [] })
    else if x.parent = p then (if x.stage = .zombie then none else some { x with parent := 0 })
    else some x

/-- The standard streams are open. -/
def FdTable.std (t : FdTable) : Prop := ∀ n, n < 3 → t.get n ≠ none

/-- One thing that happens. -/
inductive CmdStep : CmdWorld → CmdWorld → Prop where
  /-- keyboard.c:373: the daemon `p` executes a command: it makes a child `q` and waits -/
  | forks (w : CmdWorld) (p q par : Nat) (t : FdTable) (cmd : Str) (hp : w p = some ⟨par, .loop, t⟩) (hq : w q = none) (h0 : q ≠ 0) :
      CmdStep w (Function.update (Function.update w p (some ⟨par, .waits, t⟩)) q (some ⟨p, .first cmd, t⟩))
  /-- `fork` returns -1, which is true: the daemon waits, too -/
  | forkFails (w : CmdWorld) (p par : Nat) (t : FdTable) (hp : w p = some ⟨par, .loop, t⟩) : CmdStep w (Function.update w p (some ⟨par, .waits, t⟩))
  /-- `wait(NULL)` returns when any child of the process has ended, keyboard.c:374 -/
  | reaps (w : CmdWorld) (p q par : Nat) (t : FdTable) (x : CmdProc) (hp : w p = some ⟨par, .waits, t⟩) (hq : w q = some x) (hx : x.parent = p) (hz : x.stage = .zombie) :
      CmdStep w (Function.update (Function.update w p (some ⟨par, .loop, t⟩)) q none)
  /-- `wait(NULL)` returns at once when the process has no children -/
  | childless (w : CmdWorld) (p par : Nat) (t : FdTable) (hp : w p = some ⟨par, .waits, t⟩) (hno : ∀ q x, w q = some x → x.parent ≠ p) :
      CmdStep w (Function.update w p (some ⟨par, .loop, t⟩))
  /-- keyboard.c:377: the second `fork` -/
  | forks2 (w : CmdWorld) (q r par : Nat) (t : FdTable) (cmd : Str) (hq : w q = some ⟨par, .first cmd, t⟩) (hr : w r = none) (h0 : r ≠ 0) :
      CmdStep w (Function.update (Function.update w q (some ⟨par, .leaves, t⟩)) r (some ⟨q, .second cmd, t⟩))
  /-- it returns -1, which is true -/
  | fork2Fails (w : CmdWorld) (q par : Nat) (t : FdTable) (cmd : Str) (hq : w q = some ⟨par, .first cmd, t⟩) : CmdStep w (Function.update w q (some ⟨par, .leaves, t⟩))
  /-- keyboard.c:380-395 -/
  | execs (w : CmdWorld) (r par : Nat) (t : FdTable) (cmd : Str) (hr : w r = some ⟨par, .second cmd, t⟩) :
      CmdStep w (Function.update w r (some ⟨par, .program cmd, (redirect t).exec⟩))
  /-- `execl` returns, and so does `execute_command`, keyboard.c:396: the process goes on as a daemon -/
  | misfires (w : CmdWorld) (r par : Nat) (t : FdTable) (cmd : Str) (hr : w r = some ⟨par, .second cmd, t⟩) : CmdStep w (Function.update w r (some ⟨par, .loop, redirect t⟩))
  /-- a daemon opens and closes descriptors (devices, connections), never the standard streams -/
  | changes (w : CmdWorld) (p par : Nat) (t t' : FdTable) (hp : w p = some ⟨par, .loop, t⟩) (ht : t'.std) : CmdStep w (Function.update w p (some ⟨par, .loop, t'⟩))
  /-- a process ends, by `exit` or by a signal -/
  | ends (w : CmdWorld) (p : Nat) (x : CmdProc) (hp : w p = some x) (hz : x.stage ≠ .zombie) : CmdStep w (w.ends p)

/-- What can come of one daemon, process `d` with descriptors `t`. -/
inductive CmdReach (d : Nat) (t : FdTable) : CmdWorld → Prop where
  | start : CmdReach d t (Function.update (fun _ => none) d (some ⟨0, .loop, t⟩))
  | step (w w' : CmdWorld) : CmdReach d t w → CmdStep w w' → CmdReach d t w'

end Keyd
