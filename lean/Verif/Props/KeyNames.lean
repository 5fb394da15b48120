import Verif.Model.Config
import Verif.Proofs.Sat
import Mathlib.Tactic.ByContra

/-
  C30 (key sequences), C31 (modifier sets), C35 (compose sequences),
  C36 (device ids).
-/

set_option autoImplicit false

namespace Keyd

/-! ### C35 -/

theorem unicodeChars_inj : ∀ i : Nat, i < 36 → ∀ j : Nat, j < 36 →
    unicodeChars.getD i 0 = unicodeChars.getD j 0 → i = j := by
  decide +kernel

/-- C35. Different indices below 36³ have different compose sequences. -/
theorem C35_sequence_injective (i j : Nat) (hi : i < 36^3) (hj : j < 36^3)
    (h : unicodeGetSequence i = unicodeGetSequence j) : i = j := by
  unfold unicodeGetSequence at h
  simp only [List.cons.injEq, and_true, true_and] at h
  obtain ⟨h1, h2, h3⟩ := h
  have e1 := unicodeChars_inj _ (Nat.mod_lt _ (by omega)) _ (Nat.mod_lt _ (by omega)) h1
  have e2 := unicodeChars_inj _ (Nat.mod_lt _ (by omega)) _ (Nat.mod_lt _ (by omega)) h2
  have e3 := unicodeChars_inj _ (Nat.mod_lt _ (by omega)) _ (Nat.mod_lt _ (by omega)) h3
  omega

/-- A key named by a single digit or lower case letter. -/
def isAlnumKey (c : Code) : Bool :=
  match keycodeTable[c.toNat]? with
  | some ⟨some [b], _, _⟩ => decide ((48 ≤ b ∧ b ≤ 57) ∨ (97 ≤ b ∧ b ≤ 122))
  | _ => false

theorem unicodeChars_alnum : ∀ i : Nat, i < 36 → isAlnumKey (unicodeChars.getD i 0) = true := by
  decide +kernel

/-- C35. Every compose sequence is `cancel` followed by three alphanumeric keys
(for every index, also out of range ones). -/
theorem C35_sequence_shape (i : Nat) : ∃ a b c, unicodeGetSequence i = [KEYD.CANCEL, a, b, c] ∧
    isAlnumKey a ∧ isAlnumKey b ∧ isAlnumKey c :=
  ⟨_, _, _, rfl, unicodeChars_alnum _ (Nat.mod_lt _ (by omega)),
    unicodeChars_alnum _ (Nat.mod_lt _ (by omega)), unicodeChars_alnum _ (Nat.mod_lt _ (by omega))⟩

/-- C35. No compose sequence is a proper prefix of another. -/
theorem C35_prefix_free (i j : Nat) (h : unicodeGetSequence i <+: unicodeGetSequence j) :
    unicodeGetSequence i = unicodeGetSequence j :=
  h.eq_of_length rfl

/-- The code point at a table index (specification side: reading the table). -/
def unicodeAt : List (Nat × Nat) → Nat → Option Nat
  | [], _ => none
  | (start, n) :: rs, i => if i < n then some (start + i) else unicodeAt rs (i - n)

theorem unicodeLookupRuns_at (cp : Nat) : ∀ (rs : List (Nat × Nat)) (base i : Nat),
    unicodeLookupRuns cp rs base = some i →
    base ≤ i ∧ unicodeAt rs (i - base) = some cp ∧ i < base + (rs.map (·.2)).sum
  | [], _, _, h => by simp [unicodeLookupRuns] at h
  | (s, n) :: rs, base, i, h => by
    unfold unicodeLookupRuns at h
    split at h
    · rename_i hc
      cases h
      refine ⟨by omega, ?_, ?_⟩
      · simp only [unicodeAt]
        rw [if_pos (by omega)]
        congr 1
        omega
      · simp only [List.map_cons, List.sum_cons]
        omega
    · obtain ⟨h1, h2, h3⟩ := unicodeLookupRuns_at cp rs (base + n) i h
      refine ⟨by omega, ?_, ?_⟩
      · simp only [unicodeAt]
        rw [if_neg (by omega), Nat.sub_sub]
        exact h2
      · simp only [List.map_cons, List.sum_cons]
        omega

/-- C35. The index found for a character is the index of that character in the
table, and is below 36³, so that its sequence identifies the character. -/
theorem C35_lookup_correct (cp i : Nat) (h : unicodeLookupIndex cp = some i) :
    unicodeAt unicodeRuns i = some cp ∧ i < 36^3 := by
  obtain ⟨_, h2, h3⟩ := unicodeLookupRuns_at cp _ _ _ h
  refine ⟨h2, ?_⟩
  have : (unicodeRuns.map (·.2)).sum = 34493 := by decide +kernel
  omega

/-- C35. Distinct characters get distinct key sequences. -/
theorem C35_distinct_characters (cp cp' i i' : Nat) (h : unicodeLookupIndex cp = some i)
    (h' : unicodeLookupIndex cp' = some i') (hne : cp ≠ cp') :
    unicodeGetSequence i ≠ unicodeGetSequence i' := by
  intro heq
  obtain ⟨a, b⟩ := C35_lookup_correct cp i h
  obtain ⟨a', b'⟩ := C35_lookup_correct cp' i' h'
  have := C35_sequence_injective i i' b b' heq
  subst this
  rw [a] at a'
  exact hne (Option.some.inj a')

/-- Non-vacuity: `é` and `ß`. -/
example : unicodeLookupIndex 233 = some 105 ∧ unicodeLookupIndex 223 = some 95 ∧
    unicodeGetSequence 105 = [KEYD.CANCEL, KEYD.«0», KEYD.«2», KEYD.X] := by decide +kernel

/-! ### C36 -/

/-- The decisive entry for a device: the first listed id that is a prefix of the
device's id and is either an exclusion or for this kind of device. -/
def decisiveId (c : Config) (id : Str) (flags : UInt8) : Option IdEntry :=
  c.ids.find? fun e => decide (e.id <+: id) && (e.flags &&& ID_EXCLUDED != 0 || e.flags &&& flags != 0)

theorem checkIds_spec (id : Str) (flags : UInt8) : ∀ ids : List IdEntry,
    checkIds ids id flags =
      (ids.find? fun e => decide (e.id <+: id) &&
        (e.flags &&& ID_EXCLUDED != 0 || e.flags &&& flags != 0)).map
        (fun e => if e.flags &&& ID_EXCLUDED ≠ 0 then 0 else 2)
  | [] => rfl
  | e :: rest => by
    unfold checkIds
    rw [List.find?_cons]
    have ih := checkIds_spec id flags rest
    have hp : isPrefix e.id id = decide (e.id <+: id) := by
      unfold isPrefix
      rw [Bool.eq_iff_iff]
      simp
    rw [hp]
    by_cases h1 : e.id <+: id
    · simp only [h1, decide_true, if_true, Bool.true_and]
      by_cases h2 : e.flags &&& ID_EXCLUDED = 0
      · by_cases h3 : e.flags &&& flags = 0
        · simp [h2, h3, ih]
        · have h3' : (e.flags &&& flags != 0) = true := by simpa using h3
          simp [h2, h3, h3']
      · have h2' : (e.flags &&& ID_EXCLUDED != 0) = true := by simpa using h2
        simp [h2, h2']
    · simp [h1, ih]

/-- C36. A config claims a device explicitly (2) iff its decisive id entry is not
an exclusion, by wildcard (1) iff no entry is decisive and the wildcard is
present, and otherwise not at all (0). -/
theorem C36_check_match (c : Config) (id : Str) (flags : UInt8) :
    configCheckMatch c id flags =
      match decisiveId c id flags with
      | some e => if e.flags &&& ID_EXCLUDED ≠ 0 then 0 else 2
      | none => if c.wildcard then 1 else 0 := by
  unfold configCheckMatch decisiveId
  rw [checkIds_spec]
  cases (c.ids.find? _) <;> rfl

/-- Non-vacuity: an exclusion listed before a prefix wins, another id falls
through to the wildcard. -/
example : let c : Config := { wildcard := true, ids := [⟨b!"046d:b01d", ID_EXCLUDED⟩, ⟨b!"046d", ID_KEYBOARD⟩] }
    configCheckMatch c b!"046d:b01d:77" ID_KEYBOARD = 0 ∧
    configCheckMatch c b!"046d:1111:77" ID_KEYBOARD = 2 ∧
    configCheckMatch c b!"046d:1111:77" ID_MOUSE = 1 := by decide +kernel

/-! ### C31 -/

/-- Modifier letters, as documented. -/
inductive ModLetter : UInt8 → UInt8 → Prop
  | C : ModLetter 67 MOD_CTRL
  | M : ModLetter 77 MOD_SUPER
  | A : ModLetter 65 MOD_ALT
  | S : ModLetter 83 MOD_SHIFT
  | G : ModLetter 71 MOD_ALT_GR

/-- A dash-separated list of modifier letters, with an optional trailing dash,
and the union of the named modifiers. -/
inductive ModsetText : Str → UInt8 → Prop
  | empty : ModsetText [] 0
  | last {c m : UInt8} (h : ModLetter c m) : ModsetText [c] m
  | more {c m : UInt8} {s : Str} {ms : UInt8} (h : ModLetter c m) (t : ModsetText s ms) :
      ModsetText (c :: 45 :: s) (m ||| ms)

theorem modLetter_iff (c m : UInt8) : modLetter c = some m ↔ ModLetter c m := by
  constructor
  · intro h
    unfold modLetter at h
    split at h
    · subst c; cases h; exact .C
    split at h
    · subst c; cases h; exact .M
    split at h
    · subst c; cases h; exact .A
    split at h
    · subst c; cases h; exact .S
    split at h
    · subst c; cases h; exact .G
    · cases h
  · intro h
    cases h <;> rfl

theorem parseModsetAux_iff : ∀ (s : Str) (acc r : UInt8),
    parseModsetAux s acc = some r ↔ ∃ m, ModsetText s m ∧ r = acc ||| m
  | [], acc, r => by
    simp only [parseModsetAux, Option.some.injEq]
    constructor
    · rintro rfl; exact ⟨0, .empty, by simp⟩
    · rintro ⟨m, h, rfl⟩; cases h; simp
  | [c], acc, r => by
    simp only [parseModsetAux, Option.map_eq_some_iff]
    constructor
    · rintro ⟨m, h, rfl⟩; exact ⟨m, .last ((modLetter_iff _ _).1 h), rfl⟩
    · rintro ⟨m, h, rfl⟩
      cases h with
      | last h => exact ⟨m, (modLetter_iff _ _).2 h, rfl⟩
  | c :: c1 :: rest, acc, r => by
    unfold parseModsetAux
    split
    · rename_i h
      constructor
      · intro h; cases h
      · rintro ⟨m, h', _⟩
        cases h' with
        | more h' _ => rw [(modLetter_iff _ _).2 h'] at h; cases h
    · rename_i m h
      split
      · rename_i hd
        subst hd
        rw [parseModsetAux_iff rest]
        constructor
        · rintro ⟨ms, h1, rfl⟩
          exact ⟨m ||| ms, .more ((modLetter_iff _ _).1 h) h1, by rw [UInt8.or_assoc]⟩
        · rintro ⟨x, h1, rfl⟩
          cases h1 with
          | more h2 h3 =>
            rename_i m' ms
            have : m = m' := by
              have := (modLetter_iff _ _).2 h2
              rw [h] at this
              exact Option.some.inj this
            subst this
            exact ⟨ms, h3, by rw [UInt8.or_assoc]⟩
      · rename_i hd
        constructor
        · intro h; cases h
        · rintro ⟨x, h1, rfl⟩
          cases h1
          exact absurd rfl hd

/-- C31. `parse_modset` accepts exactly the dash-separated lists of modifier
letters (empty and trailing dash allowed) and returns the union. -/
theorem C31_parse_modset (s : Str) (m : UInt8) : parseModset s = some m ↔ ModsetText s m := by
  unfold parseModset
  rw [parseModsetAux_iff]
  constructor
  · rintro ⟨x, h, rfl⟩; simpa using h
  · intro h; exact ⟨m, h, by simp⟩

/-- C31. Printing a modifier set and parsing it gives the set back, for every
subset of the five modifiers (the whole domain). -/
theorem C31_modstring_roundtrip : ∀ m : Nat, m < 32 →
    parseModset (modstring (UInt8.ofNat m)) = some (UInt8.ofNat m) := by
  decide +kernel

/-- Illustration. -/
example : ModsetText b!"C-A-" (MOD_CTRL ||| MOD_ALT) := (C31_parse_modset _ _).1 (by decide +kernel)
example : parseModset b!"CA" = none := by decide +kernel

/-! ### C30 -/

/-- Text of modifier prefixes and their union. -/
inductive PrefixText : Str → UInt8 → Prop
  | nil : PrefixText [] 0
  | cons {c m : UInt8} {s : Str} {ms : UInt8} (h : ModLetter c m) (t : PrefixText s ms) :
      PrefixText (c :: 45 :: s) (m ||| ms)

/-- A text that does not look like it starts with a modifier prefix. -/
def NotPrefixed (s : Str) : Prop := ∀ c rest, s ≠ c :: 45 :: rest

theorem keySeqPrefix_spec {p : Str} {ms : UInt8} (hp : PrefixText p ms) :
    ∀ (s : Str) (acc : UInt8), NotPrefixed s → keySeqPrefix (p ++ s) acc = some (s, acc ||| ms) := by
  induction hp with
  | nil =>
    intro s acc hs
    rw [List.nil_append]
    match s with
    | [] => simp [keySeqPrefix]
    | [c] => simp [keySeqPrefix]
    | c :: c1 :: rest =>
      unfold keySeqPrefix
      rw [if_neg (by rintro rfl; exact hs c rest rfl)]
      simp
  | cons h _ ih =>
    intro s acc hs
    rw [List.cons_append, List.cons_append]
    unfold keySeqPrefix
    rw [if_pos rfl, (modLetter_iff _ _).2 h]
    dsimp only
    rw [ih s _ hs, UInt8.or_assoc]

/-- All the names in the key table: text, code and whether it implies shift. -/
def keyNames : List (Str × Code × Bool) :=
  keycodeTable.zipIdx.flatMap fun ei =>
    (ei.1.name.toList.map fun n => (n, UInt8.ofNat ei.2, false)) ++
    (ei.1.alt.toList.filterMap fun n => if n = [] then none else some (n, UInt8.ofNat ei.2, false)) ++
    (ei.1.shifted.toList.map fun n => (n, UInt8.ofNat ei.2, true))

theorem keyNames_scan : ∀ e ∈ keyNames,
    scanSeq e.1 keycodeTable 0 = some (e.2.1.toNat, e.2.2) ∧ e.1 ≠ [] ∧ e.1.getD 1 0 ≠ 45 := by
  decide +kernel

/-- C30. Modifier prefixes followed by any name in the key table parse to that
key with exactly the union of the prefixes, plus shift for shifted names. -/
theorem C30_key_sequence (p : Str) (ms : UInt8) (hp : PrefixText p ms)
    (name : Str) (code : Code) (shifted : Bool) (h : (name, code, shifted) ∈ keyNames) :
    parseKeySequence (p ++ name) = some (code, if shifted then ms ||| MOD_SHIFT else ms) := by
  obtain ⟨h1, h2, h3⟩ := keyNames_scan _ h
  dsimp only at h1 h2 h3
  unfold parseKeySequence
  rw [if_neg (by simp [h2])]
  have hn : NotPrefixed name := by
    rintro c rest rfl
    simp at h3
  rw [keySeqPrefix_spec hp name 0 hn]
  simp only [h1]
  cases shifted <;> simp

/-- C30, converse: whatever is accepted is modifier prefixes followed by a name
in the table, or (because four keys have an empty alternative name) by nothing. -/
theorem keySeqPrefix_inv : ∀ (s : Str) (acc : UInt8) (r : Str) (m : UInt8),
    keySeqPrefix s acc = some (r, m) → ∃ p ms, PrefixText p ms ∧ s = p ++ r ∧ m = acc ||| ms
  | [], acc, r, m, h => by
    simp [keySeqPrefix] at h
    exact ⟨[], 0, .nil, by simp [h.1], by simp [h.2]⟩
  | [c], acc, r, m, h => by
    simp [keySeqPrefix] at h
    exact ⟨[], 0, .nil, by simp [h.1], by simp [h.2]⟩
  | c :: c1 :: rest, acc, r, m, h => by
    unfold keySeqPrefix at h
    split at h
    · rename_i hd
      subst hd
      split at h
      · cases h
      · rename_i ml hml
        obtain ⟨p, ms, hp, rfl, rfl⟩ := keySeqPrefix_inv rest _ r m h
        exact ⟨c :: 45 :: p, ml ||| ms, .cons ((modLetter_iff _ _).1 hml) hp, rfl, by
          rw [UInt8.or_assoc]⟩
    · cases h
      exact ⟨[], 0, .nil, by simp, by simp⟩

theorem scanSeq_inv (s : Str) : ∀ (t : List KeyEnt) (i j : Nat) (b : Bool),
    scanSeq s t i = some (j, b) → ∃ e, t[j - i]? = some e ∧ i ≤ j ∧
      (b = true → e.shifted = some s) ∧ (b = false → e.name = some s ∨ e.alt = some s)
  | [], i, j, b, h => by simp [scanSeq] at h
  | e :: es, i, j, b, h => by
    unfold scanSeq at h
    have step : scanSeq s es (i+1) = some (j, b) → ∃ e', (e :: es)[j - i]? = some e' ∧ i ≤ j ∧
        (b = true → e'.shifted = some s) ∧ (b = false → e'.name = some s ∨ e'.alt = some s) := by
      intro h
      obtain ⟨e', h1, h2, h3⟩ := scanSeq_inv s es (i+1) j b h
      refine ⟨e', ?_, by omega, h3⟩
      have : j - i = (j - (i+1)) + 1 := by omega
      rw [this]
      simpa using h1
    split at h
    · split at h
      · rename_i hs
        cases h
        exact ⟨e, by simp, Nat.le_refl _, fun _ => hs, by simp⟩
      · split at h
        · rename_i hs
          cases h
          exact ⟨e, by simp, Nat.le_refl _, by simp, fun _ => hs⟩
        · exact step h
    · exact step h

theorem C30_only_key_sequences (s : Str) (code : Code) (m : UInt8)
    (h : parseKeySequence s = some (code, m)) :
    ∃ p ms name, PrefixText p ms ∧ s = p ++ name ∧
      ((∃ shifted, (name, code, shifted) ∈ keyNames ∧ m = if shifted then ms ||| MOD_SHIFT else ms) ∨
       (name = [] ∧ p ≠ [] ∧ code = KEYD.LEFTCTRL ∧ m = ms)) := by
  unfold parseKeySequence at h
  split at h
  · cases h
  · rename_i hne
    split at h
    · cases h
    · rename_i rest mods hpre
      obtain ⟨p, ms, hp, rfl, rfl⟩ := keySeqPrefix_inv _ _ _ _ hpre
      refine ⟨p, ms, rest, hp, rfl, ?_⟩
      by_cases hr : rest = []
      · right
        subst hr
        have : scanSeq [] keycodeTable 0 = some (29, false) := by decide +kernel
        rw [this] at h
        simp at h
        refine ⟨rfl, ?_, h.1.symm, h.2.symm⟩
        rintro rfl
        exact hne rfl
      · left
        have hmem : ∀ i b, scanSeq rest keycodeTable 0 = some (i, b) →
            (rest, UInt8.ofNat i, b) ∈ keyNames := by
          intro i b hs
          obtain ⟨e, h1, _, h3, h4⟩ := scanSeq_inv _ _ _ _ _ hs
          rw [Nat.sub_zero] at h1
          unfold keyNames
          rw [List.mem_flatMap]
          refine ⟨(e, i), ?_, ?_⟩
          · rw [List.mk_mem_zipIdx_iff_getElem?]
            exact h1
          · cases b with
            | true => simp [h3 rfl]
            | false =>
              rcases h4 rfl with h4 | h4
              · simp [h4]
              · simp [h4, hr]
        split at h
        · cases h
        · rename_i i hs
          cases h
          exact ⟨true, hmem i true hs, by simp⟩
        · rename_i i hs
          cases h
          exact ⟨false, hmem i false hs, by simp⟩

/-- Non-vacuity: `C-S-a` is in the domain, and there are over 300 names. -/
example : PrefixText b!"C-S-" (MOD_CTRL ||| MOD_SHIFT) ∧ (b!"a", KEYD.A, false) ∈ keyNames ∧
    (b!"?", KEYD.SLASH, true) ∈ keyNames ∧ keyNames.length > 300 :=
  ⟨.cons .C (.cons .S .nil), by decide +kernel, by decide +kernel, by decide +kernel⟩

end Keyd
