import Verif.Model.Types

/-
  Stopping the daemon with a signal, statement by statement: src/keyd.c:248-249 makes SIGTERM and SIGINT call `exit`, which runs
  `cleanup` of src/daemon.c:32-36 wherever the program happens to be.

  Modelled: the list of configurations and the memory it lives in, in `free_configs`, `load_configs` and `cleanup`. Not modelled: that
  `exit`, `free` and `calloc` may themselves be interrupted; a second signal during `cleanup`.
-/

set_option autoImplicit false

namespace Keyd

/-- The memory: the allocated `struct config_ent` objects with `next` and `kbd`, the allocated `struct keyboard` objects, the variable
`configs`, and the number of the next object. Objects never get the number of a freed one. -/
structure ConfMem where
  ents : Nat → Option (Option Nat × Option Nat) := fun _ => none
  kbds : Nat → Bool := fun _ => false
  configs : Option Nat := none
  fresh : Nat := 0

/-- `free(tmp->kbd)`: `none` if the object is not allocated (freed twice); freeing a null pointer is allowed. -/
def ConfMem.freeKbd (m : ConfMem) : Option Nat → Option ConfMem
  | none => some m
  | some k => if m.kbds k then some { m with kbds := upd m.kbds k false } else none

/-- `free(tmp)`. -/
def ConfMem.freeEnt (m : ConfMem) (e : Nat) : Option ConfMem :=
  if (m.ents e).isSome then some { m with ents := upd m.ents e none } else none

/-- Where the program is: `idle` in the event loop; in `free_configs` (src/daemon.c:21-29) before `while (ent)`, before `free(tmp->kbd)`, before `free(tmp)` and before
`configs = NULL`; in `load_configs` (src/daemon.c:191-222) before `configs = NULL`, before `readdir`, after `calloc`, before `ent->kbd = …`, before `ent->next = …`
and before `configs = ent`. The files still to come are given by whether they can be parsed. -/
inductive ReloadPc where
  | idle
  | test (ent : Option Nat) (files : List Bool)
  | freeKbd (tmp : Nat) (ent : Option Nat) (files : List Bool)
  | freeEnt (tmp : Nat) (ent : Option Nat) (files : List Bool)
  | clear (files : List Bool)
  | start (files : List Bool)
  | next (files : List Bool)
  | parse (ent : Nat) (ok : Bool) (files : List Bool)
  | keyboard (ent : Nat) (files : List Bool)
  | link (ent : Nat) (files : List Bool)
  | publish (ent : Nat) (files : List Bool)
deriving DecidableEq, Repr

/-- One statement of `reload`, src/daemon.c:19-30,181-225,282-287; `none` is an access to freed memory. -/
def reloadStep (m : ConfMem) : ReloadPc → Option (ConfMem × ReloadPc)
  | .idle => some (m, .idle)
  | .test none fs => some (m, .clear fs)
  | .test (some e) fs =>
    match m.ents e with
    | none => none
    | some (n, _) => some (m, .freeKbd e n fs)
  | .freeKbd e n fs =>
    match m.ents e with
    | none => none
    | some (_, k) => (m.freeKbd k).map fun m => (m, .freeEnt e n fs)
  | .freeEnt e n fs => (m.freeEnt e).map fun m => (m, .test n fs)
  | .clear fs => some ({ m with configs := none }, .start fs)
  | .start fs => some ({ m with configs := none }, .next fs)
  | .next [] => some (m, .idle)
  | .next (ok :: fs) => some ({ m with ents := upd m.ents m.fresh (some (none, none)), fresh := m.fresh + 1 }, .parse m.fresh ok fs)
  | .parse e ok fs => if ok then some (m, .keyboard e fs) else (m.freeEnt e).map fun m => (m, .next fs)
  | .keyboard e fs =>
    match m.ents e with
    | none => none
    | some (n, _) => some ({ m with ents := upd m.ents e (some (n, some m.fresh)), kbds := upd m.kbds m.fresh true, fresh := m.fresh + 1 }, .link e fs)
  | .link e fs =>
    match m.ents e with
    | none => none
    | some (_, k) => some ({ m with ents := upd m.ents e (some (m.configs, k)) }, .publish e fs)
  | .publish e fs => some ({ m with configs := some e }, .next fs)

/-- `cleanup`, src/daemon.c:19-36, from the signal on: `free_configs` from `ent` (the fuel is the number of objects there can be). -/
def freeFrom : Nat → ConfMem → Option Nat → Option ConfMem
  | _, m, none => some { m with configs := none }
  | 0, _, some _ => none
  | n + 1, m, some e =>
    match m.ents e with
    | none => none
    | some (nx, k) => ((m.freeKbd k).bind fun m => m.freeEnt e).bind fun m => freeFrom n m nx

/-- What SIGTERM does: `none` is an access to freed memory. -/
def sigterm (m : ConfMem) : Option ConfMem := freeFrom (m.fresh + 1) m m.configs

/-- What happens: a request to reload reaches the event loop (with the files there are), or the program goes on by a statement. -/
inductive ReloadEvent where
  | reload (files : List Bool)
  | run

def reloadEvent (s : ConfMem × ReloadPc) : ReloadEvent → Option (ConfMem × ReloadPc)
  | .reload files => match s.2 with
    | .idle => some (s.1, .test s.1.configs files)
    | _ => some s
  | .run => reloadStep s.1 s.2

/-- A history of the daemon. -/
def reloadRun (es : List ReloadEvent) : Option (ConfMem × ReloadPc) :=
  es.foldlM reloadEvent ({}, .idle)

end Keyd
