import Verif.Model.Types

/-
  Model of /repo/src/string.c and of the C library string functions used by
  the parsers.
-/

namespace Keyd

/-- ASCII helpers. -/
def isDigit (c : UInt8) : Bool := decide (48 ≤ c ∧ c ≤ 57)

/-- C `isspace` in the C locale: space, \t, \n, \v, \f, \r (used in ini.c:94-99). -/
def isSpaceC (c : UInt8) : Bool := decide (c = 32 ∨ (9 ≤ c ∧ c ≤ 13))

/-- `utf8_read_char`, string.c:10-36. Returns (size, code point); size 0 is the
end of the string. Truncated multi-byte sequences hit the asserts. -/
def utf8ReadChar : Str → Res (Nat × Nat)
  | [] => .ok (0, 0)
  | s0 :: rest =>
    if s0 ≥ 0xF0 then
      match rest with
      | s1 :: s2 :: s3 :: _ =>
        .ok (4, (s0.toNat &&& 0x07) <<< 18 ||| (s1.toNat &&& 0x3F) <<< 12
                ||| (s2.toNat &&& 0x3F) <<< 6 ||| (s3.toNat &&& 0x3F))
      | _ => .error (.assertFail "utf8_read_char")
    else if s0 ≥ 0xE0 then
      match rest with
      | s1 :: s2 :: _ =>
        .ok (3, (s0.toNat &&& 0x0F) <<< 12 ||| (s1.toNat &&& 0x3F) <<< 6 ||| (s2.toNat &&& 0x3F))
      | _ => .error (.assertFail "utf8_read_char")
    else if s0 ≥ 0xC0 then
      match rest with
      | s1 :: _ => .ok (2, (s0.toNat &&& 0x1F) <<< 6 ||| (s1.toNat &&& 0x3F))
      | _ => .error (.assertFail "utf8_read_char")
    else .ok (1, s0.toNat &&& 0x7F)

/-- The loop of `utf8_strlen`, string.c:44-47; every step consumes at least one
byte, so the string length bounds the number of steps. -/
def utf8StrlenAux : Nat → Str → Res Nat
  | 0, _ => .ok 0
  | n+1, s => do
    let (sz, _) ← utf8ReadChar s
    if sz = 0 then .ok 0
    else do
      let r ← utf8StrlenAux n (s.drop sz)
      .ok (r + 1)

/-- `utf8_strlen`, string.c:38-50. -/
def utf8Strlen (s : Str) : Res Nat := utf8StrlenAux s.length s

/-- `is_timeval`, string.c:52-61. -/
def isTimeval (s : Str) : Bool :=
  match s with
  | [] => false
  | c :: _ =>
    if !isDigit c then false
    else
      match s.dropWhile isDigit with
      | 109 :: 115 :: [] => true       -- "ms" then NUL
      | 109 :: 115 :: 10 :: _ => true  -- "ms" then '\n'
      | _ => false

/-- `str_escape`, string.c:66-107 (the in-place result as a new string). -/
def strEscape : Str → Str
  | [] => []
  | [c] => if c = 92 then [] else [c]
  | c :: c1 :: rest =>
    if c = 92 then
      if c1 = 110 then 10 :: strEscape rest        -- \n
      else if c1 = 116 then 9 :: strEscape rest    -- \t
      else if c1 = 92 then 92 :: strEscape rest    -- \\
      else if c1 = 41 then 41 :: strEscape rest    -- \)
      else if c1 = 40 then 40 :: strEscape rest    -- \(
      else 92 :: c1 :: strEscape rest
    else c :: strEscape (c1 :: rest)

/-- Digits of `strtol` in base 10. -/
def atoiDigits : Str → Nat → Nat
  | c :: rest, acc => if isDigit c then atoiDigits rest (acc * 10 + (c.toNat - 48)) else acc
  | [], acc => acc

/-- Wrap an integer to the range of C `int` (32-bit two's complement). -/
def wrapI32 (x : Int) : Int := (x + 2147483648) % 4294967296 - 2147483648

/-- C `atoi` as implemented by glibc: `(int) strtol (s, NULL, 10)`, saturating
at the limits of a 64-bit `long` and then truncating. -/
def atoi (s : Str) : Int :=
  let s := s.dropWhile isSpaceC
  let v : Int := match s with
    | 45 :: rest => - (atoiDigits rest 0 : Int)
    | 43 :: rest => (atoiDigits rest 0 : Int)
    | rest => (atoiDigits rest 0 : Int)
  wrapI32 (max (-9223372036854775808) (min 9223372036854775807 v))

/-- Conversion of an `int` to `uint16_t`. -/
def toU16 (x : Int) : Nat := (x % 65536).toNat

/-- Conversion of an `int` to `int16_t`. -/
def toI16 (x : Int) : Int := (x + 32768) % 65536 - 32768

/-- Conversion of an `int` to `uint8_t`. -/
def toU8 (x : Int) : UInt8 := UInt8.ofNat (x % 256).toNat

/-- Helper for `tokens`; `cur` is the token being built, reversed. -/
def tokensAux (delim : UInt8) : Str → Str → List Str
  | [], cur => if cur = [] then [] else [cur.reverse]
  | c :: rest, cur =>
    if c = delim then
      if cur = [] then tokensAux delim rest []
      else cur.reverse :: tokensAux delim rest []
    else tokensAux delim rest (c :: cur)

/-- The sequence of tokens produced by repeated `strtok(s, d)` calls with a
one-character delimiter: the maximal non-empty delimiter-free substrings. -/
def tokens (delim : UInt8) (s : Str) : List Str := tokensAux delim s []

/-- Split a string at the first occurrence of a byte (`strchr`). -/
def splitAtByte (b : UInt8) : Str → Option (Str × Str)
  | [] => none
  | c :: rest =>
    if c = b then some ([], rest)
    else (splitAtByte b rest).map (fun p => (c :: p.1, p.2))

/-- `strstr(s, p) == s`: `p` is a prefix of `s` (config.c:524,776-786,956). -/
def isPrefix (p s : Str) : Bool := p.isPrefixOf s

end Keyd
