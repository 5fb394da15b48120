import Verif.Model.Str

/-
  Reading config files: `resolve_include_path` and `read_file`, config.c:83-182.
-/

set_option autoImplicit false

namespace Keyd

/-- `MAX_FILE_SZ`, config.c:27: the capacity of the static buffer. -/
def MAX_FILE_SZ : Nat := 65536

/-- `MAX_LINE_LEN`, config.c:28. -/
def MAX_LINE_LEN : Nat := 256

/-- What the process sees of the file system. Simplification: a path that exists can be opened and
read, and no read fails (config.c:97,102,122,157,163). -/
abbrev Files := Str → Option Str

/-- `dirname` of a path, config.c:95: what precedes the last slash. Simplification: trailing and repeated
slashes are not treated specially (the daemon passes `CONFIG_DIR/name`). -/
def dirName (path : Str) : Str :=
  match (path.reverse.dropWhile (· ≠ 47)).tail.reverse with
  | [] => if path.contains 47 then [47] else [46]
  | d => d

/-- `DATA_DIR`, Makefile:19 with the default PREFIX (Makefile:4). -/
def DATA_DIR : Str := b!"/usr/local/share/keyd"

/-- `resolve_include_path`, config.c:83-107. Simplification: paths are not cut off at `PATH_MAX`. -/
def resolveInclude (fs : Files) (path inc : Str) : Option Str :=
  if inc.contains 46 then none
  else
    let near := dirName path ++ 47 :: inc
    let far := DATA_DIR ++ 47 :: inc
    if (fs near).isSome then some near
    else if (fs far).isSome then some far
    else none

/-- `fgets` with room for `n` bytes before the terminator: the bytes read and the rest. -/
def fgetsTake : Nat → Str → Str × Str
  | 0, s => ([], s)
  | _, [] => ([], [])
  | n+1, ch :: s =>
    if ch = 10 then ([10], s)
    else
      let (got, rest) := fgetsTake n s
      (ch :: got, rest)

/-- Storing bytes at the start of a region of memory. -/
def overwrite (mem : Str) (bytes : Str) : Str := bytes ++ mem.drop bytes.length

/-- `strlen` of a region of memory; running past its end is undefined. -/
def strlenIn (mem : Str) (what : String) : Res Nat :=
  if mem.contains 0 then .ok (mem.takeWhile (· ≠ 0)).length else .error (.oob what)

/-- The local variables of `read_file`: the array `line` (257 bytes) and the first `sz` bytes of `buf`. -/
structure Reading where
  line : Str
  text : Str

/-- The branch for an include line, config.c:140-168: `line[len-1] = 0`, the path after the prefix and spaces;
an unresolved include is skipped; the contents are read into what is left of the buffer. -/
def readInclude (fs : Files) (path : Str) (r : Reading) (len : Nat) : Reading :=
  let line := r.line.set (len - 1) 0
  let inc := ((line.drop 8).dropWhile (· = 32)).takeWhile (· ≠ 0)
  match resolveInclude fs path inc with
  | none => { r with line := line }
  | some p => { line := line, text := r.text ++ ((fs p).getD []).take (MAX_FILE_SZ - r.text.length) }

/-- The branch for any other line, config.c:169-172: `strcpy` copies up to the first NUL of `line` (there may be none),
terminator included, and `sz` grows by `len`. -/
def readPlain (r : Reading) (len : Nat) : Res Reading := do
  let n ← strlenIn r.line "read_file: strcpy reads past line"
  if r.text.length + n + 1 > MAX_FILE_SZ then .error (.oob "read_file: strcpy writes past buf")
  else .ok { r with text := r.text ++ r.line.take len }

/-- The body of the loop after `fgets`, config.c:124-172. `none` is `goto fail`. -/
def readLine (fs : Files) (path : Str) (r : Reading) : Res (Option Reading) := do
  let len ← strlenIn r.line "read_file: strlen"
  if len = 0 then .error (.oob "read_file: line[-1]")
  else
    let ended := decide (r.line[len - 1]? = some 10)
    if ended = false ∧ len ≥ MAX_LINE_LEN then .ok none
    else
      let line := if ended then r.line else r.line.set len 10
      let len := if ended then len else len + 1
      if len + r.text.length > MAX_FILE_SZ then .ok none
      else if isPrefix b!"include " line then .ok (some (readInclude fs path { r with line := line } len))
      else return some (← readPlain { r with line := line } len)

/-- The loop of `read_file`, config.c:123-173, over the rest of the file; every `fgets` takes a byte at
least, so the length of the file bounds the number of turns. -/
def readLoop (fs : Files) (path : Str) : Nat → Str → Reading → Res (Option Reading)
  | 0, _, r => .ok (some r)
  | n+1, s, r =>
    if s = [] then .ok (some r)
    else do
      let (got, rest) := fgetsTake MAX_LINE_LEN s
      match ← readLine fs path { r with line := overwrite r.line (got ++ [0]) } with
      | none => .ok none
      | some r => readLoop fs path n rest r

/-- `read_file`, config.c:109-182: the contents of the buffer as far as `sz`. `stack` is what the array `line`
happens to contain at the start (257 arbitrary bytes). -/
def readFile (fs : Files) (stack : Str) (path : Str) : Res (Option Str) :=
  match fs path with
  | none => .ok none
  | some s => do
    match ← readLoop fs path s.length s { line := stack, text := [] } with
    | none => .ok none
    | some r => if r.text.length ≥ MAX_FILE_SZ then .error (.oob "read_file: buf[sz] = 0") else .ok (some r.text)

end Keyd
