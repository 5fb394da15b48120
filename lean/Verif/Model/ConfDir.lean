import Verif.Model.Daemon
import Verif.Model.File

/-
  The config directory: `load_configs`, daemon.c:181-225, with the files it reads.
-/

set_option autoImplicit false

namespace Keyd

/-- What `readdir` says of an entry: its name and whether `d_type` is `DT_DIR`. -/
structure DirEnt where
  name : Str
  isDir : Bool
deriving DecidableEq

/-- `CONFIG_DIR`, Makefile:7. -/
def CONFIG_DIR : Str := b!"/etc/keyd"

/-- The path of an entry, daemon.c:200. Simplification: it is not cut off at 1023 bytes (names have at most 255). -/
def DirEnt.path (e : DirEnt) : Str := CONFIG_DIR ++ 47 :: e.name

/-- One turn of the loop of `load_configs`, daemon.c:193-221. `stack` is what the buffer `line` of `read_file` happens to contain
when that path is read (config.c:114). -/
def loadEntry (fs : Files) (stack : Str → Str) (d : Daemon) (e : DirEnt) : DRes Daemon :=
  if e.isDir then .ok d
  else
    let len := e.path.length
    if len ≥ 5 ∧ e.path.drop (len - 5) = b!".conf" then do
      match ← lift (readFile fs (stack e.path) e.path) with
      | none => .ok d
      | some text => loadConfig d text
    else .ok d

/-- The loop of `load_configs`, daemon.c:193-222, over the entries in the order `readdir` gives them. Simplification: the directory can be
opened (daemon.c:186-189). -/
def loadDir (fs : Files) (stack : Str → Str) : List DirEnt → Daemon → DRes Daemon
  | [], d => .ok d
  | e :: es, d => do loadDir fs stack es (← loadEntry fs stack d e)

end Keyd
