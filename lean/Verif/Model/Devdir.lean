import Verif.Model.Devmon

/-
  The order in which `evloop` (evloop.c:46-47) begins to watch /dev/input and lists it, while devices come and go. `devmon_read_device` and `device_scan` themselves
  are Model/Devmon.lean.
-/

set_option autoImplicit false

namespace Keyd

/-- Where the start of the main loop is, evloop.c:46-54. -/
inductive Stage where
  | starting   -- before `devmon_create`
  | watching   -- the watch is there, evloop.c:46
  | scanning   -- in `device_scan`, evloop.c:47
  | running    -- in the loop
deriving DecidableEq

/-- /dev/input and the daemon. Each node has an identity of its own, also if it takes the name of one that is gone. -/
structure DirSys where
  nodes : List (Str × Nat) := []
  fresh : Nat := 0
  stage : Stage := .starting
  queue : List Str := []        -- notices of the watch that have not been read
  atStart : List Nat := []      -- the nodes that were there when the directory was opened (device.c:219)
  listed : List Str := []       -- what `readdir` has returned
  workers : List Str := []      -- threads that have not opened their node yet
  opened : List Nat := []       -- the nodes `device_init` has opened
deriving DecidableEq

inductive DirEvent where
  | create (name : Str)    -- a node appears
  | remove (name : Str)    -- a node disappears
  | watch                  -- `devmon_create`, device.c:255-272
  | scan                   -- `opendir`, device.c:219
  | list (name : Str)      -- `readdir` returns an entry, device.c:228
  | worker (name : Str)    -- a thread calls `device_init`, device.c:205-212
  | scanned                -- the directory is at its end and the threads have been joined, device.c:238-247
  | notice                 -- `devmon_read_device` takes a notice, device.c:290-308
deriving DecidableEq

/-- `device_init` on a name, device.c:122-197: the node that has the name now, if it is one keyd can use (`good`). -/
def openNode (good : Nat → Bool) (s : DirSys) (name : Str) : DirSys :=
  if eventName name then
    match s.nodes.find? (fun p => p.1 = name) with
    | some p => if good p.2 then { s with opened := s.opened ++ [p.2] } else s
    | none => s
  else s

/-- One step; a step that is not possible now does nothing. `readdir` returns each name at most once, and every node that has been there all the time since `opendir`
(POSIX); the kernel queues a notice for every node created while the watch exists (inotify(7), if its queue does not overflow). -/
def dirStep (good : Nat → Bool) (s : DirSys) : DirEvent → DirSys
  | .create name =>
    if name ∈ s.nodes.map Prod.fst then s
    else { s with nodes := s.nodes ++ [(name, s.fresh)], fresh := s.fresh + 1, queue := if s.stage = .starting then s.queue else s.queue ++ [name] }
  | .remove name => { s with nodes := s.nodes.filter (fun p => p.1 ≠ name) }
  | .watch => if s.stage = .starting then { s with stage := .watching } else s
  | .scan => if s.stage = .watching then { s with stage := .scanning, atStart := s.nodes.map Prod.snd } else s
  | .list name => if s.stage = .scanning ∧ name ∉ s.listed then { s with listed := name :: s.listed, workers := s.workers ++ [name] } else s
  | .worker name => if s.stage = .scanning ∧ name ∈ s.workers then openNode good { s with workers := s.workers.erase name } name else s
  | .scanned =>
    if s.stage = .scanning ∧ s.workers = [] ∧ ∀ p ∈ s.nodes, p.2 ∈ s.atStart → p.1 ∈ s.listed then { s with stage := .running } else s
  | .notice =>
    if s.stage = .running then
      match s.queue with
      | [] => s
      | n :: q => openNode good { s with queue := q } n
    else s

def dirRun (good : Nat → Bool) (es : List DirEvent) : DirSys := es.foldl (dirStep good) {}

end Keyd
