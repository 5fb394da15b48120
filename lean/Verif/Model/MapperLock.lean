import Mathlib.Logic.Function.Basic

/-
  Starting and ending application mappers: `lock` and `daemonize` of scripts/keyd-application-mapper:485-504,515,553-560, and the programs it runs (52-61, 551). Any number of
  processes, interleaved in any way; any of them can end at any point.

  The lock is a `flock` lock of the open file: `fork` shares it, closing one descriptor does not release it, and Python makes files that are closed in a program it executes
  (PEP 446), unlike the daemon (Model/Instance.lean).
-/

set_option autoImplicit false

namespace Keyd

/-- How far a process is. -/
inductive MapPhase where
  /-- it has opened the lock file, script:487; `d`: it was told to daemonize -/
  | opened (d : Bool)
  /-- it has the lock, script:489; it connects to the desktop and may run programs (517-558) -/
  | locked (d : Bool)
  /-- the first child of `daemonize`, before the second `fork`, script:504 -/
  | child
  /-- it watches the focus, script:560 -/
  | running
  /-- it has forked and calls `exit(0)`, script:503,504 -/
  | leaving
  /-- forked in order to execute a program, but still running the script -/
  | forked
  /-- a program run by the mapper (`keyd bind`, a shell) -/
  | program
  | ended
deriving DecidableEq

structure MapSys where
  phase : Nat → Option MapPhase := fun _ => none
  /-- the processes that have a descriptor of the open file that is locked -/
  lock : List Nat := []

inductive MapEvent where
  | starts (p : Nat) (daemonize : Bool)
  | locks (p : Nat)
  /-- `os.fork` in `daemonize`: process `p` creates `q` -/
  | forks (p q : Nat)
  /-- without `-d`: on to `mon.run` -/
  | runs (p : Nat)
  /-- `subprocess`: process `p` creates `q` to run a program -/
  | spawns (p q : Nat)
  | execs (q : Nat)
  | ends (p : Nat)
deriving DecidableEq

def MapSys.at (s : MapSys) (p : Nat) (ph : MapPhase) : MapSys := { s with phase := Function.update s.phase p (some ph) }

/-- What an event does; an event that cannot happen does nothing. Simplification: opening the files and `fork` do not fail (that would be `ends`). -/
def mapStep (s : MapSys) : MapEvent → MapSys
  -- script:487
  | .starts p d => if s.phase p = none then s.at p (.opened d) else s
  -- script:488-491: without the lock the process ends
  | .locks p =>
    match s.phase p with
    | some (.opened d) => if s.lock = [] then { s.at p (.locked d) with lock := [p] } else s.at p .ended
    | _ => s
  -- script:503-504
  | .forks p q =>
    if s.phase q = none ∧ p ≠ q then
      if s.phase p = some (.locked true) then { (s.at p .leaving).at q .child with lock := q :: s.lock }
      else if s.phase p = some .child then { (s.at p .leaving).at q .running with lock := q :: s.lock }
      else s
    else s
  -- script:557-560
  | .runs p => if s.phase p = some (.locked false) then s.at p .running else s
  -- script:52-61 (also from `init`, before `run`) and 551
  | .spawns p q =>
    if s.phase q = none ∧ (s.phase p = some .running ∨ s.phase p = some (.locked true) ∨ s.phase p = some (.locked false)) then
      { s.at q .forked with lock := q :: s.lock }
    else s
  -- the descriptor is closed by `exec`
  | .execs q => if s.phase q = some .forked then { s.at q .program with lock := s.lock.filter (· ≠ q) } else s
  | .ends p =>
    match s.phase p with
    | none => s
    | some _ => { s.at p .ended with lock := s.lock.filter (· ≠ p) }

def mapRun (evs : List MapEvent) : MapSys := evs.foldl mapStep {}

end Keyd
