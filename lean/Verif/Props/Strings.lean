import Verif.Model.Config
import Verif.Proofs.Sat
import Mathlib.Tactic.ByContra

/-
  C33 (UTF-8 decoding) and C34 (escape processing).
-/

set_option autoImplicit false

namespace Keyd

/-! ### C33 -/

private theorem and_mask (x n : Nat) : x &&& (2^n - 1) = x % 2^n := Nat.and_two_pow_sub_one_eq_mod x n

private theorem shl_or (a b n : Nat) (h : b < 2^n) : (a <<< n) ||| b = a * 2^n + b := by
  rw [Nat.shiftLeft_eq, Nat.mul_comm, ← Nat.two_pow_add_eq_or_of_lt h]

private theorem or3 (a b c : Nat) (hb : b < 64) (hc : c < 64) :
    ((a <<< 12) ||| (b <<< 6)) ||| c = a * 4096 + (b * 64 + c) := by
  rw [Nat.or_assoc, shl_or b c 6 hc, shl_or a _ 12 (by omega)]

private theorem or4 (a b c d : Nat) (hb : b < 64) (hc : c < 64) (hd : d < 64) :
    (((a <<< 18) ||| (b <<< 12)) ||| (c <<< 6)) ||| d = a * 262144 + (b * 4096 + (c * 64 + d)) := by
  rw [Nat.or_assoc, Nat.or_assoc, ← Nat.or_assoc (b <<< 12), or3 b c d hc hd, shl_or a _ 18 (by omega)]

private theorem u8_toNat (v : Nat) (h : v < 256) : (UInt8.ofNat v).toNat = v := by
  rw [UInt8.toNat_ofNat']; exact Nat.mod_eq_of_lt h

private theorem u8_ge (v k : Nat) (h : v < 256) (hk : k < 256) :
    (UInt8.ofNat v ≥ UInt8.ofNat k) ↔ v ≥ k := by
  rw [ge_iff_le, UInt8.le_iff_toNat_le, u8_toNat _ h, u8_toNat _ hk]

/-- C33. Reading the UTF-8 encoding of a character (Lean's own encoder is the
specification) followed by anything returns the length of the encoding and the
code point. -/
theorem C33_utf8_read_char (c : Char) (rest : Str) :
    utf8ReadChar (String.utf8EncodeChar c ++ rest) =
      .ok ((String.utf8EncodeChar c).length, c.toNat) := by
  have hc : c.val.toNat < 1114112 := by
    have := c.valid
    rcases this with h | h
    · have : c.val.toNat < 55296 := h
      omega
    · exact h.2
  have htn : c.toNat = c.val.toNat := rfl
  rw [htn]
  unfold String.utf8EncodeChar
  generalize hv : c.val.toNat = v at *
  dsimp only
  have m6 : ∀ x, x &&& 0x3F = x % 64 := fun x => and_mask x 6
  split
  · rename_i h
    simp only [List.cons_append, List.nil_append, utf8ReadChar, List.length_cons, List.length_nil]
    rw [if_neg (by rw [show (0xF0 : UInt8) = UInt8.ofNat 0xF0 from rfl, u8_ge _ _ (by omega) (by omega)]; omega),
      if_neg (by rw [show (0xE0 : UInt8) = UInt8.ofNat 0xE0 from rfl, u8_ge _ _ (by omega) (by omega)]; omega),
      if_neg (by rw [show (0xC0 : UInt8) = UInt8.ofNat 0xC0 from rfl, u8_ge _ _ (by omega) (by omega)]; omega),
      u8_toNat _ (by omega), show v &&& 0x7F = v % 128 from and_mask v 7, Nat.mod_eq_of_lt (by omega)]
  · split
    · simp only [List.cons_append, List.nil_append, utf8ReadChar, List.length_cons, List.length_nil]
      rw [if_neg (by rw [show (0xF0 : UInt8) = UInt8.ofNat 0xF0 from rfl, u8_ge _ _ (by omega) (by omega)]; omega),
        if_neg (by rw [show (0xE0 : UInt8) = UInt8.ofNat 0xE0 from rfl, u8_ge _ _ (by omega) (by omega)]; omega),
        if_pos (by rw [show (0xC0 : UInt8) = UInt8.ofNat 0xC0 from rfl, u8_ge _ _ (by omega) (by omega)]; omega),
        u8_toNat _ (by omega), u8_toNat _ (by omega), m6,
        show ∀ x, x &&& 0x1F = x % 32 from fun x => and_mask x 5,
        shl_or _ _ 6 (by omega)]
      congr 2
      omega
    · split
      · simp only [List.cons_append, List.nil_append, utf8ReadChar, List.length_cons, List.length_nil]
        rw [if_neg (by rw [show (0xF0 : UInt8) = UInt8.ofNat 0xF0 from rfl, u8_ge _ _ (by omega) (by omega)]; omega),
          if_pos (by rw [show (0xE0 : UInt8) = UInt8.ofNat 0xE0 from rfl, u8_ge _ _ (by omega) (by omega)]; omega),
          u8_toNat _ (by omega), u8_toNat _ (by omega), u8_toNat _ (by omega), m6, m6,
          show ∀ x, x &&& 0x0F = x % 16 from fun x => and_mask x 4,
          or3 _ _ _ (by omega) (by omega)]
        congr 2
        omega
      · simp only [List.cons_append, List.nil_append, utf8ReadChar, List.length_cons, List.length_nil]
        rw [if_pos (by rw [show (0xF0 : UInt8) = UInt8.ofNat 0xF0 from rfl, u8_ge _ _ (by omega) (by omega)]; omega),
          u8_toNat _ (by omega), u8_toNat _ (by omega), u8_toNat _ (by omega), u8_toNat _ (by omega), m6, m6, m6,
          show ∀ x, x &&& 0x07 = x % 8 from fun x => and_mask x 3,
          or4 _ _ _ _ (by omega) (by omega) (by omega)]
        congr 2
        omega

/-- The loop of `utf8_strlen` given enough iterations. -/
private theorem utf8StrlenAux_encode : ∀ (cs : List Char) (n : Nat),
    (cs.flatMap String.utf8EncodeChar).length ≤ n →
    utf8StrlenAux n (cs.flatMap String.utf8EncodeChar) = .ok cs.length
  | [], 0, _ => rfl
  | [], _+1, _ => rfl
  | c :: cs, 0, h => by
    have : 0 < (String.utf8EncodeChar c).length := by
      rw [String.length_utf8EncodeChar]; exact Char.utf8Size_pos c
    rw [List.flatMap_cons, List.length_append] at h
    omega
  | c :: cs, n+1, h => by
    have hpos : 0 < (String.utf8EncodeChar c).length := by
      rw [String.length_utf8EncodeChar]; exact Char.utf8Size_pos c
    rw [List.flatMap_cons] at *
    unfold utf8StrlenAux
    rw [C33_utf8_read_char]
    simp only [bind_ok]
    rw [if_neg (by omega), List.drop_left,
      utf8StrlenAux_encode cs n (by rw [List.length_append] at h; omega)]
    rfl

/-- C33. The length of a valid UTF-8 string is its number of code points. -/
theorem C33_utf8_strlen (cs : List Char) :
    utf8Strlen (cs.flatMap String.utf8EncodeChar) = .ok cs.length :=
  utf8StrlenAux_encode cs _ (Nat.le_refl _)

/-- Non-vacuity: a string with characters of all four lengths. -/
example : utf8Strlen ("aé€😀".toList.flatMap String.utf8EncodeChar) = .ok 4 :=
  C33_utf8_strlen _

/-- The decoder asserts on truncated input (string.c:16-31): a lone lead byte of
a two-byte sequence stops the daemon. -/
theorem C33_truncated_input_asserts :
    utf8ReadChar [0xC3] = .error (.assertFail "utf8_read_char") := rfl

/-! ### C34 -/

/-- Escaping: the specification is the table in the manual (newline, tab,
backslash, parentheses). -/
def escapeChar (c : UInt8) : Str :=
  if c = 10 then [92, 110]
  else if c = 9 then [92, 116]
  else if c = 92 then [92, 92]
  else if c = 41 then [92, 41]
  else if c = 40 then [92, 40]
  else [c]

/-- C34. Unescaping inverts escaping. -/
theorem C34_unescape_escape : ∀ s : Str, strEscape (s.flatMap escapeChar) = s
  | [] => rfl
  | c :: rest => by
    have ih := C34_unescape_escape rest
    rw [List.flatMap_cons]
    revert ih
    generalize rest.flatMap escapeChar = r
    intro ih
    unfold escapeChar
    split
    · subst c; simp [strEscape, ih]
    split
    · subst c; simp [strEscape, ih]
    split
    · subst c; simp [strEscape, ih]
    split
    · subst c; simp [strEscape, ih]
    split
    · subst c; simp [strEscape, ih]
    · rename_i h1 h2 h3 h4 h5
      rw [List.singleton_append]
      cases r with
      | nil =>
        simp [strEscape] at ih
        simp [strEscape, h3, ih]
      | cons c1 r1 =>
        rw [strEscape, if_neg h3, ih]

/-- C34. Unescaping never lengthens a string. -/
theorem C34_unescape_length : ∀ s : Str, (strEscape s).length ≤ s.length := by
  intro s
  fun_induction strEscape s <;> simp_all <;> omega

/-- C34. Strings without a backslash are unchanged. -/
theorem C34_unescape_plain : ∀ s : Str, (92 : UInt8) ∉ s → strEscape s = s := by
  intro s
  fun_induction strEscape s <;> simp_all

/-- Non-vacuity / illustration. -/
example : strEscape (b!"echo (a\tb)\n".flatMap escapeChar) = b!"echo (a\tb)\n" :=
  C34_unescape_escape _

end Keyd
