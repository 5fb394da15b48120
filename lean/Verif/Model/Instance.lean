import Mathlib.Logic.Function.Basic

/-
  Starting and ending daemons: the lock and the socket of `ipc_create_server`, ipc.c:47-87, and the processes that `execute_command` leaves
  behind, keyboard.c:367-396. Any number of processes, interleaved in any way; any of them can end at any point.
-/

set_option autoImplicit false

namespace Keyd

/-- How far a process is. -/
inductive Phase where
  /-- a `keyd` that has opened the lock file, ipc.c:63 -/
  | opened
  /-- it has the lock, ipc.c:70 -/
  | locked
  /-- the old socket is removed, ipc.c:73 -/
  | unlinked
  /-- the new socket has its name, ipc.c:74 -/
  | bound
  /-- it listens and serves, ipc.c:79 and daemon.c:601-625 -/
  | running
  /-- a program started by a `command` action of the daemon `parent`, keyboard.c:373-395 -/
  | program (parent : Nat)
  /-- it has ended -/
  | ended
deriving DecidableEq

/-- The processes and what the kernel knows of the lock file and the socket path.
Simplifications: nobody else removes or replaces the two files; opening, `setgid` and `listen` do not fail (that would be `ends`). -/
structure Sys where
  phase : Nat → Option Phase := fun _ => none
  /-- the processes that have a descriptor of the open file that is locked (`flock` locks belong to the open file, which `fork` shares and `exec`
  keeps: it is opened without `O_CLOEXEC`, ipc.c:63) -/
  lock : List Nat := []
  /-- the daemon whose socket `SOCKET_PATH` names -/
  path : Option Nat := none

/-- One thing that happens. -/
inductive SysEvent where
  /-- a new `keyd` starts and opens the lock file -/
  | starts (p : Nat)
  /-- it calls `flock` -/
  | locks (p : Nat)
  /-- it calls `unlink` -/
  | unlinks (p : Nat)
  /-- it calls `bind` -/
  | binds (p : Nat)
  /-- it calls `listen` -/
  | listens (p : Nat)
  /-- daemon `p` executes a command, as process `q` -/
  | commands (p q : Nat)
  /-- daemon `p` executes a command, as process `q`, but the shell cannot be executed -/
  | misfires (p q : Nat)
  /-- process `p` ends, for whatever reason: the kernel closes its descriptors -/
  | ends (p : Nat)
deriving DecidableEq

/-- The process moves on. -/
def Sys.at (s : Sys) (p : Nat) (ph : Phase) : Sys := { s with phase := Function.update s.phase p (some ph) }

/-- What an event does; an event that cannot happen does nothing. -/
def sysStep (s : Sys) : SysEvent → Sys
  -- ipc.c:63
  | .starts p => if s.phase p = none then s.at p .opened else s
  -- ipc.c:70-71 with daemon.c:602-603: without the lock the process ends at once
  | .locks p =>
    if s.phase p = some .opened then
      if s.lock = [] then { s.at p .locked with lock := [p] } else s.at p .ended
    else s
  -- ipc.c:73
  | .unlinks p => if s.phase p = some .locked then { s.at p .unlinked with path := none } else s
  -- ipc.c:74-77: `bind` fails if the name is taken
  | .binds p =>
    if s.phase p = some .unlinked then
      if s.path = none then { s.at p .bound with path := some p } else { s.at p .ended with lock := s.lock.filter (· ≠ p) }
    else s
  -- ipc.c:79
  | .listens p => if s.phase p = some .bound then s.at p .running else s
  -- keyboard.c:373-395: the program inherits the descriptor of the lock file (and of the socket)
  | .commands p q =>
    if s.phase p = some .running ∧ s.phase q = none then { s.at q (.program p) with lock := q :: s.lock } else s
  -- keyboard.c:395-396: if `execl` fails, the process returns and goes on as a copy of the daemon
  | .misfires p q =>
    if s.phase p = some .running ∧ s.phase q = none then { s.at q .running with lock := q :: s.lock } else s
  | .ends p =>
    match s.phase p with
    | none => s
    | some _ => { s.at p .ended with lock := s.lock.filter (· ≠ p) }

/-- The system after some events, none before. -/
def sysRun (evs : List SysEvent) : Sys := evs.foldl sysStep {}

/-- A client can connect to the daemon `p` by its name: some process still has the socket open (the daemon itself, or a program it has started, which inherits it:
the socket is made without `SOCK_CLOEXEC`, ipc.c:50). -/
def Sys.connects (s : Sys) (p : Nat) : Prop :=
  s.path = some p ∧ (s.phase p = some .running ∨ ∃ q, s.phase q = some (.program p))

end Keyd
