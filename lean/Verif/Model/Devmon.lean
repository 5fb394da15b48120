import Verif.Model.Str

/-
  Finding devices: `device_scan` and `devmon_read_device` of /repo/src/device.c, and how `evloop` (/repo/src/evloop.c) uses them. What `device_init` makes of
  a node is Model/Discovery.lean; here its result is a parameter.
-/

set_option autoImplicit false

namespace Keyd

/-- `MAX_DEVICES`, device.h:15. -/
def maxDevices : Nat := 64

/-- An entry of /dev/input as `readdir` gives it. -/
structure InputEnt where
  name : Str
  isDir : Bool
deriving DecidableEq

/-- The name test, device.c:229 and device.c:303: `strncmp(name, "event", 5)`. -/
def eventName (name : Str) : Bool := isPrefix b!"event" name

/-- The path, device.c:233 and device.c:306. -/
def inputPath (name : Str) : Str := (b!"/dev/input/" ++ name).take 1023

/-- The readdir loop of `device_scan`, device.c:228-236: the paths given to the workers. -/
def scanWorkers : List InputEnt → List Str → Res (List Str)
  | [], ws => .ok ws
  | e :: es, ws =>
    if e.isDir = false ∧ eventName e.name = true then
      if ws.length < maxDevices then scanWorkers es (ws ++ [inputPath e.name])
      else .error (.assertFail "device_scan: n < MAX_DEVICES")
    else scanWorkers es ws

/-- What a worker thread leaves in its slot, device.c:205-212. The threads end in any order; each writes only its own slot. -/
def workerEnds {D : Type} (init : Str → Option D) (ws : List Str) (slots : Nat → Option D) (i : Nat) : Nat → Option D :=
  fun j => if j = i then (ws[i]?).bind init else slots j

/-- `device_scan`, device.c:214-248: the threads end in the order `order`; then they are joined one by one, device.c:238-245. -/
def deviceScan {D : Type} (init : Str → Option D) (ents : List InputEnt) (order : List Nat) : Res (List D) := do
  let ws ← scanWorkers ents []
  let slots := order.foldl (workerEnds init ws) (fun _ => none)
  .ok ((List.range ws.length).filterMap slots)

/-- The static variables of `devmon_read_device`, device.c:282-284. -/
structure Devmon where
  buf : Str := List.replicate 4096 0
  sz : Nat := 0
  ptr : Nat := 0

/-- A 32-bit number of the (little-endian) machine. -/
def le32 : Str → Nat
  | a :: b :: c :: d :: _ => a.toNat + 256 * (b.toNat + 256 * (c.toNat + 256 * d.toNat))
  | _ => 0

/-- `ev->name` as a string, device.c:297,300. Simplification: what lies beyond the buffer reads as NUL. -/
def nameAt (buf : Str) (p : Nat) : Str := (buf.drop (p + 16)).takeWhile (· ≠ 0)

/-- `sizeof(struct inotify_event) + ev->len`, device.c:298. -/
def recordSize (buf : Str) (p : Nat) : Nat := 16 + le32 (buf.drop (p + 12))

/-- Lines device.c:290-298: the name of the next record; `reads` is what the next calls of `read` store, after which it fails (there is nothing more). -/
def devmonNext (m : Devmon) (reads : List Str) : Option (Str × Devmon × List Str) :=
  if m.ptr ≥ m.sz then
    match reads with
    | [] => none
    | b :: bs =>
      let buf := b ++ m.buf.drop b.length
      some (nameAt buf 0, { buf := buf, sz := b.length, ptr := recordSize buf 0 }, bs)
  else some (nameAt m.buf m.ptr, { m with ptr := m.ptr + recordSize m.buf m.ptr }, reads)

/-- What a call of `devmon_read_device` gives. -/
structure DevmonResult (D : Type) where
  found : Option D        -- `none` is -1
  mon : Devmon
  reads : List Str
  calls : List Str        -- the paths given to `device_init` so far

/-- `devmon_read_device`, device.c:280-310. `init n path` is the result of the `n`th call of `device_init`. The first argument bounds the turns of the loop. -/
def devmonRead {D : Type} (init : Nat → Str → Option D) : Nat → Devmon → List Str → List Str → Res (DevmonResult D)
  | 0, _, _, _ => .error .fuel
  | n + 1, m, reads, calls =>
    match devmonNext m reads with
    | none => .ok ⟨none, { m with sz := 0, ptr := 0 }, reads, calls⟩
    | some (name, m', reads') =>
      if eventName name then
        match init calls.length (inputPath name) with
        | some d => .ok ⟨some d, m', reads', calls ++ [inputPath name]⟩
        | none => devmonRead init n m' reads' (calls ++ [inputPath name])
      else devmonRead init n m' reads' calls

/-- The monitor branch of the main loop, evloop.c:129-141: the device table, and the static state afterwards. -/
def devmonDrain {D : Type} (init : Nat → Str → Option D) : Nat → Devmon → List Str → List Str → List D → Res (List D × Devmon × List Str)
  | 0, _, _, _, _ => .error .fuel
  | n + 1, m, reads, calls, table => do
    let r ← devmonRead init (n + 1) m reads calls
    match r.found with
    | none => .ok (table, r.mon, r.calls)
    | some d =>
      if table.length < maxDevices then devmonDrain init n r.mon r.reads r.calls (table ++ [d])
      else .error (.assertFail "evloop: device_table_sz < MAX_DEVICES")

end Keyd
