import Verif.Model.Daemon

/-
  The transfer of messages between `keyd` commands and the daemon: util.c, keyd.c:9-35,90-160, keyd.h:73-88.
-/

set_option autoImplicit false

namespace Keyd

/-- What the kernel does with one `read` or `write` call: transfer at most this many bytes, or fail. -/
inductive Call where
  | bytes (n : Nat)
  | fails
deriving DecidableEq, Repr

/-- The end of a transfer loop: it returned; the process exited (`exit(-1)`); or it is still in the loop when
the calls considered are used up. -/
inductive Transfer (α : Type) where
  | done (a : α) (calls : List Call)
  | exits
  | waiting (a : α)

/-- `xread`, util.c:18-32: `stream` is what the peer has sent and will send before it closes the connection, `nrd` is
`acc.length`. At the end of the stream `read` returns 0. The result: the buffer and the rest of the stream. -/
def xread (sz : Nat) : List Call → Str → Str → Transfer (Str × Str)
  | [], stream, acc => if sz = acc.length then .done (acc, stream) [] else .waiting (acc, stream)
  | c :: cs, stream, acc =>
    if sz = acc.length then .done (acc, stream) (c :: cs)
    else match c with
      | .fails => .exits
      | .bytes n =>
        let k := min n (sz - acc.length)
        xread sz cs (stream.drop k) (acc ++ stream.take k)

/-- `xwrite`, util.c:3-16: `out` is what the peer's end has been given so far, `buf` what is left to write. -/
def xwrite : List Call → Str → Str → Transfer Str
  | [], buf, out => if buf = [] then .done out [] else .waiting out
  | c :: cs, buf, out =>
    if buf = [] then .done out (c :: cs)
    else match c with
      | .fails => .exits
      | .bytes n => xwrite cs (buf.drop n) (out ++ buf.take n)

/-- The bytes of an unsigned number in memory (little endian machines). -/
def leBytes : Nat → Nat → Str
  | 0, _ => []
  | n+1, x => UInt8.ofNat (x % 256) :: leBytes n (x / 256)

/-- The unsigned number with these bytes. -/
def fromLe : Str → Nat
  | [] => 0
  | b :: bs => b.toNat + 256 * fromLe bs

/-- `struct ipc_message`, keyd.h:73-88, as `type`, `timeout`, `data`, `sz` in memory (x86-64: 4112 bytes). -/
def encodeMsg (type timeout : Nat) (data : Str) (sz : Nat) : Str :=
  leBytes 4 type ++ leBytes 4 timeout ++ data ++ leBytes 8 sz

/-- `sizeof(struct ipc_message)`. -/
def MSG_SIZE : Nat := 4112

/-- The values of the `enum`, keyd.h:74-83. -/
def MsgType.code : MsgType → Nat
  | .success => 0 | .fail => 1 | .bind => 2 | .input => 3 | .macro => 4 | .reload => 5 | .layerListen => 6 | .other => 7

def MsgType.ofCode (n : Nat) : MsgType :=
  if n = 0 then .success else if n = 1 then .fail else if n = 2 then .bind else if n = 3 then .input
  else if n = 4 then .macro else if n = 5 then .reload else if n = 6 then .layerListen else .other

/-- The message in these bytes. -/
def decodeMsg (s : Str) : Msg :=
  { type := .ofCode (fromLe (s.take 4))
    timeout := fromLe ((s.drop 4).take 4)
    data := (s.drop 8).take 4096
    sz := fromLe ((s.drop 4104).take 8) }

/-- The message `ipc_exec` builds, keyd.c:9-18; `garbage` is what the uninitialised `data` contains (4096 bytes). The
`assert` fails for more than 4096 bytes. -/
def ipcMessage (garbage : Str) (type : MsgType) (data : Str) (timeout : Nat) : Res Str :=
  if data.length > 4096 then .error (.assertFail "ipc_exec: sz <= sizeof(msg.data)")
  else .ok (encodeMsg type.code timeout (overwriteData garbage data) data.length)
where
  /-- `memcpy(msg.data, data, sz)` -/
  overwriteData (garbage data : Str) : Str := data ++ garbage.drop data.length

/-- `read_input` with arguments, keyd.c:90-110: the arguments separated by spaces in the buffer of `bufsz` bytes; `none`
is `die`. `snprintf` returns the length it would have needed. -/
def readInputArgs (bufsz : Nat) : List Str → Str → Option Str
  | [], acc => some acc
  | [a], acc => if acc.length + a.length ≥ bufsz then none else some (acc ++ a)
  | a :: as, acc =>
    if acc.length + a.length + 1 ≥ bufsz then none else readInputArgs bufsz as (acc ++ a ++ [32])

/-- `read_input` without arguments, keyd.c:111-122: reading standard input until its end. Simplification: a failing `read`
is not considered (it is not recognised, `n` being unsigned). -/
def readInputStdin (bufsz : Nat) (stdin : Str) : Option Str := if bufsz ≤ stdin.length then none else some stdin

end Keyd
