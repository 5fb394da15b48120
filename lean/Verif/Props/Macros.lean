import Verif.Props.KeyNames
import Verif.Props.Strings
import Verif.Proofs.ConfigParse

/-
  C49 (what a macro text means) and C21 (macros leave no key down).
-/

set_option autoImplicit false

namespace Keyd

/-! ### C49: specification -/

/-- Key events a macro can be made of. -/
def seqEntry (code : Code) (mods : UInt8) : MacroEntry := ⟨.keysequence, UInt16.ofNat (mods.toNat * 256 + code.toNat)⟩
def holdEntry (code : Code) : MacroEntry := ⟨.hold, UInt16.ofNat code.toNat⟩
def delayEntry (ms : Nat) : MacroEntry := ⟨.timeout, UInt16.ofNat ms⟩
def releaseEntry : MacroEntry := ⟨.release, 0⟩
def unicodeEntry (idx : Nat) : MacroEntry := ⟨.unicode, UInt16.ofNat idx⟩

/-- The text of a delay, e.g. `50ms`, and its length in milliseconds (as a
16-bit number). -/
inductive DelayText : Str → Nat → Prop
  | mk (ds : Str) (h : ds ≠ []) (hd : ds.all isDigit = true) :
      DelayText (ds ++ b!"ms") (toU16 (atoi (ds ++ b!"ms")))

/-- The key that types an ASCII character, and whether shift is needed: the key
one of whose names is that character. -/
def asciiKey (b : UInt8) : Option (Code × Bool) := (keyNames.find? fun e => e.1 = [b]).map (·.2)

/-- The entry for one character of a plain text token, if it can be typed. -/
def charEntry (c : Char) : Option MacroEntry :=
  if c.toNat < 128 then
    (asciiKey (UInt8.ofNat c.toNat)).map fun k => seqEntry k.1 (if k.2 then MOD_SHIFT else 0)
  else
    match unicodeLookupIndex c.toNat with
    | some i => if i = 0 then none else some (unicodeEntry i)
    | none => none

/-- A part of a `+` group. -/
inductive PartMeans : Str → MacroEntry → Prop
  | key (s : Str) (code : Code) (mods : UInt8) (hd : ¬ ∃ ms, DelayText s ms)
      (h : parseKeySequence s = some (code, mods)) : PartMeans s (holdEntry code)
  | delay (s : Str) (ms : Nat) (h : DelayText s ms) : PartMeans s (delayEntry ms)

/-- The parts of a `+` group, each with its meaning. -/
inductive GroupMeans : List Str → List MacroEntry → Prop
  | nil : GroupMeans [] []
  | cons {s : Str} {e : MacroEntry} {ss : List Str} {es : List MacroEntry}
      (h : PartMeans s e) (t : GroupMeans ss es) : GroupMeans (s :: ss) (e :: es)

/-- What one token of a macro text means. -/
inductive TokenMeans : Str → List MacroEntry → Prop
  /-- a key sequence such as `C-a` -/
  | seq (s : Str) (code : Code) (mods : UInt8) (h : parseKeySequence s = some (code, mods)) :
      TokenMeans s [seqEntry code mods]
  /-- keys held together, `a+b+50ms`: pressed in order, then all released -/
  | group (s : Str) (es : List MacroEntry) (h : parseKeySequence s = none) (hp : (43 : UInt8) ∈ s)
      (hg : GroupMeans (tokens 43 s) es) : TokenMeans s (es ++ [releaseEntry])
  /-- a delay -/
  | delay (s : Str) (ms : Nat) (h : parseKeySequence s = none) (hd : DelayText s ms) :
      TokenMeans s [delayEntry ms]
  /-- any other text: typed character by character -/
  | text (cs : List Char) (h : parseKeySequence (cs.flatMap String.utf8EncodeChar) = none)
      (hp : (43 : UInt8) ∉ cs.flatMap String.utf8EncodeChar)
      (hd : ¬ ∃ ms, DelayText (cs.flatMap String.utf8EncodeChar) ms)
      (hnl : ∀ ds : Str, ds.all isDigit = true → ¬ (ds ++ b!"ms\n") <+: cs.flatMap String.utf8EncodeChar) :
      TokenMeans (cs.flatMap String.utf8EncodeChar) (cs.filterMap charEntry)

/-- The tokens of a macro text, each with its meaning. -/
inductive TextMeans : List Str → List MacroEntry → Prop
  | nil : TextMeans [] []
  | cons {s : Str} {es : List MacroEntry} {ss : List Str} {rest : List MacroEntry}
      (h : TokenMeans s es) (t : TextMeans ss rest) : TextMeans (s :: ss) (es ++ rest)

/-! ### C49: proofs -/

/-- Appending with the size limit. -/
def limited (m es : Macro) : Option Macro := if (m ++ es).length ≤ 256 then some (m ++ es) else none

theorem addEntry_limited (m : Macro) (t : MacroType) (d : Nat) :
    addEntry m t d = limited m [⟨t, UInt16.ofNat d⟩] := by
  unfold addEntry limited
  by_cases h : m.length ≥ 256
  · rw [if_pos h, if_neg (by simp; omega)]
  · rw [if_neg h, if_pos (by simp; omega)]

theorem limited_cons (m : Macro) (e : MacroEntry) (es : Macro) :
    limited m (e :: es) = (limited m [e]).bind (fun m' => limited m' es) := by
  unfold limited
  by_cases h : (m ++ [e]).length ≤ 256
  · rw [if_pos h]; simp [Nat.add_assoc, Nat.add_comm 1]
  · rw [if_neg h, if_neg]
    · rfl
    · simp at h ⊢; omega

theorem limited_append (m a b : Macro) :
    limited m (a ++ b) = (limited m a).bind (fun m' => limited m' b) := by
  unfold limited
  by_cases h : (m ++ a).length ≤ 256
  · rw [if_pos h]; simp [Nat.add_assoc]
  · rw [if_neg h, if_neg]
    · rfl
    · simp at h ⊢; omega

theorem limited_nil (m : Macro) (h : m.length ≤ 256) : limited m [] = some m := by
  unfold limited; simp [h]

theorem limited_len {m a m' : Macro} (h : limited m a = some m') : m'.length ≤ 256 := by
  unfold limited at h
  split at h
  · cases h; assumption
  · cases h

theorem dropWhile_digits (ds : Str) (hd : ds.all isDigit = true) (rest : Str)
    (hr : ∀ c, rest.head? = some c → isDigit c = false) :
    (ds ++ rest).dropWhile isDigit = rest := by
  induction ds with
  | nil =>
    cases rest with
    | nil => rfl
    | cons c r => simp [hr c rfl]
  | cons d ds ih =>
    simp only [List.all_cons, Bool.and_eq_true] at hd
    rw [List.cons_append, List.dropWhile_cons_of_pos hd.1, ih hd.2]

theorem isTimeval_delay {s : Str} {ms : Nat} (h : DelayText s ms) : isTimeval s = true := by
  cases h with
  | mk ds h hd =>
    cases ds with
    | nil => exact absurd rfl h
    | cons d ds =>
      have hd0 : isDigit d = true := by simp at hd; exact hd.1
      unfold isTimeval
      simp only [List.cons_append, hd0, Bool.not_true]
      have : (d :: (ds ++ b!"ms")).dropWhile isDigit = b!"ms" :=
        dropWhile_digits (d :: ds) hd b!"ms" (by intro c hc; simp at hc; subst hc; decide)
      rw [this]
      rfl

theorem takeWhile_all_digits (s : Str) : (s.takeWhile isDigit).all isDigit = true := by
  induction s with
  | nil => rfl
  | cons c s ih =>
    unfold List.takeWhile
    split
    · rename_i h; simp [h]
    · rfl

theorem isTimeval_cases {s : Str} (h : isTimeval s = true) :
    (∃ ms, DelayText s ms) ∨ ∃ ds : Str, ds.all isDigit = true ∧ (ds ++ b!"ms\n") <+: s := by
  unfold isTimeval at h
  split at h
  · cases h
  · rename_i c cs
    split at h
    · cases h
    · rename_i hc
      have hc' : isDigit c = true := by simpa using hc
      have hsplit := List.takeWhile_append_dropWhile (p := isDigit) (l := c :: cs)
      have hdig := takeWhile_all_digits (c :: cs)
      have hne : (c :: cs).takeWhile isDigit ≠ [] := by
        rw [List.takeWhile_cons_of_pos hc']; simp
      split at h
      · rename_i heq
        left
        rw [heq] at hsplit
        exact ⟨_, by rw [← hsplit]; exact .mk _ hne hdig⟩
      · rename_i r heq
        right
        rw [heq] at hsplit
        exact ⟨_, hdig, r, by simpa using hsplit⟩
      · cases h

theorem keyNames_no_newline : ∀ e ∈ keyNames, (10 : UInt8) ∉ e.1 := by decide +kernel

theorem prefixText_no_newline {p : Str} {ms : UInt8} (h : PrefixText p ms) : (10 : UInt8) ∉ p := by
  induction h with
  | nil => simp
  | cons h _ ih =>
    simp only [List.mem_cons, not_or]
    refine ⟨?_, by decide, ih⟩
    rintro rfl
    cases h

theorem keySeq_no_newline {s : Str} {code : Code} {mods : UInt8}
    (h : parseKeySequence s = some (code, mods)) : (10 : UInt8) ∉ s := by
  obtain ⟨p, ms, name, h1, rfl, h2⟩ := C30_only_key_sequences s code mods h
  rw [List.mem_append, not_or]
  refine ⟨prefixText_no_newline h1, ?_⟩
  rcases h2 with ⟨sh, h2, _⟩ | ⟨rfl, _⟩
  · exact keyNames_no_newline _ h2
  · simp

theorem macroHolds_means {parts : List Str} {es : List MacroEntry} (h : GroupMeans parts es) :
    ∀ m : Macro, m.length ≤ 256 → macroHolds parts m = limited m es := by
  induction h with
  | nil => intro m hm; rw [limited_nil m hm]; rfl
  | cons h _ ih =>
    intro m hm
    unfold macroHolds
    rw [limited_cons]
    cases h with
    | key code mods hd hk =>
      rename_i s _ _ _
      by_cases ht : isTimeval s = true
      · rcases isTimeval_cases ht with hx | ⟨ds, h1, h2⟩
        · exact absurd hx hd
        · exfalso
          -- no key is named by digits followed by "ms\n..."
          obtain ⟨r, hr⟩ := h2
          exact keySeq_no_newline hk (by rw [← hr]; simp)
      · rw [if_neg ht, hk]
        dsimp only
        rw [addEntry_limited]
        unfold holdEntry
        cases hl : limited m [⟨.hold, UInt16.ofNat code.toNat⟩] with
        | none => rfl
        | some m' => exact ih m' (limited_len hl)
    | delay ms hd =>
      rw [if_pos (isTimeval_delay hd), addEntry_limited]
      cases hd with
      | mk ds h1 h2 =>
        unfold delayEntry
        cases hl : limited m [⟨.timeout, UInt16.ofNat (toU16 (atoi (ds ++ b!"ms")))⟩] with
        | none => rfl
        | some m' => exact ih m' (limited_len hl)

theorem scanChar_ascii : ∀ b : Nat, b < 128 →
    scanChar (UInt8.ofNat b) keycodeTable 0 = (asciiKey (UInt8.ofNat b)).map
      (fun k => (if k.2 then MOD_SHIFT else 0).toNat * 256 + k.1.toNat) := by decide +kernel

theorem encode_ascii (c : Char) (h : c.toNat < 128) :
    String.utf8EncodeChar c = [UInt8.ofNat c.toNat] := by
  have h' : c.val.toNat ≤ 127 := by have : c.val.toNat = c.toNat := rfl; omega
  unfold String.utf8EncodeChar
  simp only [h', if_true]
  rfl

theorem encode_nonascii (c : Char) (h : ¬ c.toNat < 128) :
    2 ≤ (String.utf8EncodeChar c).length := by
  have h' : ¬ c.val.toNat ≤ 127 := by have : c.val.toNat = c.toNat := rfl; omega
  unfold String.utf8EncodeChar
  simp only [h', if_false]
  repeat' split
  all_goals simp

theorem macroChars_means : ∀ (cs : List Char) (n : Nat) (m : Macro),
    (cs.flatMap String.utf8EncodeChar).length ≤ n → m.length ≤ 256 →
    macroChars n (cs.flatMap String.utf8EncodeChar) m = .ok (limited m (cs.filterMap charEntry))
  | [], n, m, _, hm => by
    cases n with
    | zero => rw [List.filterMap_nil, limited_nil m hm]; rfl
    | succ n => rw [List.filterMap_nil, limited_nil m hm]; rfl
  | c :: cs, n, m, hn, hm => by
    have hpos : 1 ≤ (String.utf8EncodeChar c).length := by
      by_cases h : c.toNat < 128
      · rw [encode_ascii c h]; simp
      · have := encode_nonascii c h; omega
    rw [List.flatMap_cons, List.length_append] at hn
    obtain ⟨n, rfl⟩ : ∃ n', n = n' + 1 := ⟨n - 1, by omega⟩
    rw [List.flatMap_cons]
    unfold macroChars
    rw [C33_utf8_read_char]
    have ih : ∀ m : Macro, m.length ≤ 256 → macroChars n ((String.utf8EncodeChar c ++
        cs.flatMap String.utf8EncodeChar).drop (String.utf8EncodeChar c).length) m =
        .ok (limited m (cs.filterMap charEntry)) := by
      intro m hm
      rw [List.drop_left]
      exact macroChars_means cs n m (by omega) hm
    by_cases h : c.toNat < 128
    · have he := encode_ascii c h
      have hce : charEntry c = (asciiKey (UInt8.ofNat c.toNat)).map
          fun k => seqEntry k.1 (if k.2 then MOD_SHIFT else 0) := by
        unfold charEntry; rw [if_pos h]
      have hsc := scanChar_ascii c.toNat h
      rw [he] at ih ⊢
      simp only [List.cons_append, List.nil_append, List.length_singleton, bind_ok] at ih ⊢
      rw [if_pos ⟨trivial, h⟩, hsc]
      cases ha : asciiKey (UInt8.ofNat c.toNat) with
      | none =>
        rw [ha] at hce
        rw [List.filterMap_cons_none hce]
        exact ih m hm
      | some k =>
        rw [ha] at hce
        rw [List.filterMap_cons_some hce]
        simp only [Option.map_some]
        rw [limited_cons, addEntry_limited]
        unfold seqEntry
        cases hl : limited m [⟨.keysequence, UInt16.ofNat ((if k.2 = true then MOD_SHIFT else 0).toNat * 256 + k.1.toNat)⟩] with
        | none => rfl
        | some m' => exact ih m' (limited_len hl)
    · have he := encode_nonascii c h
      have hce : charEntry c = match unicodeLookupIndex c.toNat with
          | some i => if i = 0 then none else some (unicodeEntry i)
          | none => none := by
        unfold charEntry; rw [if_neg h]
      have hneg : ¬ ((String.utf8EncodeChar c).length = 1 ∧ c.toNat < 128) := fun h' => h h'.2
      obtain ⟨b, bs, hb⟩ : ∃ b bs, String.utf8EncodeChar c = b :: bs := by
        cases hx : String.utf8EncodeChar c with
        | nil => rw [hx] at hpos; simp at hpos
        | cons b bs => exact ⟨b, bs, rfl⟩
      simp only [bind_ok]
      split
      · rename_i heq; rw [hb] at heq; cases heq
      · rw [if_neg hneg]
        cases hu : unicodeLookupIndex c.toNat with
        | none =>
          rw [hu] at hce
          rw [List.filterMap_cons_none hce]
          exact ih m hm
        | some i =>
          rw [hu] at hce
          dsimp only at hce ⊢
          by_cases hi : i = 0
          · rw [if_pos hi] at hce
            rw [List.filterMap_cons_none hce, if_neg (by omega)]
            exact ih m hm
          · rw [if_neg hi] at hce
            rw [List.filterMap_cons_some hce, if_pos (by omega), limited_cons, addEntry_limited]
            unfold unicodeEntry
            cases hl : limited m [⟨.unicode, UInt16.ofNat i⟩] with
            | none => rfl
            | some m' => exact ih m' (limited_len hl)

theorem macroToken_means {tok : Str} {es : List MacroEntry} (h : TokenMeans tok es) (m : Macro)
    (hm : m.length ≤ 256) : macroToken tok m = .ok (limited m es) := by
  unfold macroToken
  cases h with
  | seq _ code mods h => rw [h]; dsimp only; rw [addEntry_limited]; rfl
  | group _ es h hp hg =>
    rw [h]
    dsimp only
    rw [if_pos hp, macroHolds_means hg m hm, limited_append]
    cases hl : limited m es with
    | none => rfl
    | some m' => dsimp only [Option.bind_some]; rw [addEntry_limited]; rfl
  | delay _ ms h hd =>
    rw [h]
    dsimp only
    have hp : (43 : UInt8) ∉ tok := by
      cases hd with
      | mk ds h1 h2 =>
        intro hmem
        rcases List.mem_append.1 hmem with h | h
        · have := List.all_eq_true.1 h2 _ h
          revert this; decide
        · revert h; decide
    rw [if_neg hp, if_pos (isTimeval_delay hd), addEntry_limited]
    cases hd
    rfl
  | text cs h hp hd hnl =>
    rw [h]
    dsimp only
    rw [if_neg hp, if_neg, macroChars_means cs _ m (Nat.le_refl _) hm]
    intro ht
    rcases isTimeval_cases ht with hx | ⟨ds, h1, h2⟩
    · exact hd hx
    · exact hnl ds h1 h2

theorem macroTokens_means {toks : List Str} {es : List MacroEntry} (h : TextMeans toks es) :
    ∀ m : Macro, m.length ≤ 256 → macroTokens toks m = .ok (limited m es) := by
  induction h with
  | nil => intro m hm; rw [limited_nil m hm]; rfl
  | cons h _ ih =>
    intro m hm
    unfold macroTokens
    rw [macroToken_means h m hm, limited_append]
    rename_i es _ _ _
    cases hl : limited m es with
    | none => rfl
    | some m' => exact ih m' (limited_len hl)

/-- `s` consists of the given words, separated by spaces (any number, also at the
ends). -/
inductive SpacedText : Str → List Str → Prop
  | blank (n : Nat) : SpacedText (List.replicate n 32) []
  | word (n : Nat) (w rest : Str) (ws : List Str) (h0 : w ≠ []) (h1 : (32 : UInt8) ∉ w)
      (hr : rest = [] ∨ rest.head? = some 32) (t : SpacedText rest ws) :
      SpacedText (List.replicate n 32 ++ (w ++ rest)) (w :: ws)

theorem tokensAux_skip (d : UInt8) (n : Nat) (s : Str) :
    tokensAux d (List.replicate n d ++ s) [] = tokensAux d s [] := by
  induction n with
  | zero => rfl
  | succ n ih => rw [List.replicate_succ, List.cons_append, tokensAux, if_pos rfl, if_pos rfl, ih]

theorem tokensAux_word (d : UInt8) : ∀ (w cur rest : Str), d ∉ w → (cur ≠ [] ∨ w ≠ []) →
    (rest = [] ∨ rest.head? = some d) →
    tokensAux d (w ++ rest) cur = (cur.reverse ++ w) :: tokensAux d rest []
  | [], cur, rest, _, hne, hr => by
    have hc : cur ≠ [] := by rcases hne with h | h; exact h; exact absurd rfl h
    rcases hr with rfl | hr
    · simp [tokensAux, hc]
    · cases rest with
      | nil => cases hr
      | cons c r =>
        simp at hr
        subst hr
        simp [tokensAux, hc]
  | c :: w, cur, rest, hn, _, hr => by
    have h1 : c ≠ d := by rintro rfl; exact hn (List.mem_cons_self ..)
    rw [List.cons_append, tokensAux, if_neg h1,
      tokensAux_word d w (c :: cur) rest (fun h => hn (List.mem_cons_of_mem _ h)) (.inl (by simp)) hr]
    simp

theorem tokens_spaced {s : Str} {ws : List Str} (h : SpacedText s ws) : tokens 32 s = ws := by
  unfold tokens
  induction h with
  | blank n =>
    have := tokensAux_skip 32 n []
    rw [List.append_nil] at this
    rw [this]; rfl
  | word n w rest ws h0 h1 hr _ ih =>
    rw [tokensAux_skip, tokensAux_word 32 w [] rest h1 (.inr h0) hr, ih]
    rfl

/-- C49. A macro text made of meaningful words parses to the concatenation of
their meanings when that has at most 256 entries, and is rejected otherwise. -/
theorem C49_macro_text (s : Str) (words : List Str) (hs : SpacedText s words)
    (es : List MacroEntry) (h : TextMeans words es) :
    macroParse s = .ok (if es.length ≤ 256 then some es else none) := by
  unfold macroParse
  rw [tokens_spaced hs, macroTokens_means h [] (by simp)]
  unfold limited
  simp

/-- C49. Whatever the text, an accepted macro has at most 256 entries. -/
theorem C49_at_most_256 (s : Str) (m : Macro) (h : macroParse s = .ok (some m)) :
    m.length ≤ 256 := (macroParse_sat s).of_ok h m rfl

/-- Non-vacuity: every kind of token. -/
example : ∃ words es, SpacedText b!"C-a  leftshift+x+50ms 10ms hé" words ∧ TextMeans words es ∧
    es.map (·.type) = [.keysequence, .hold, .hold, .timeout, .release, .timeout, .keysequence, .unicode] := by
  refine ⟨[b!"C-a", b!"leftshift+x+50ms", b!"10ms", b!"hé"], [seqEntry 30 MOD_CTRL] ++ ([holdEntry 42, holdEntry 45, delayEntry 50] ++ [releaseEntry] ++
    ([delayEntry 10] ++ (['h', 'é'].filterMap charEntry ++ []))), ?_, ?_, ?_⟩
  · exact .word 0 b!"C-a" _ _ (by decide) (by decide) (.inr rfl)
      (.word 2 b!"leftshift+x+50ms" _ _ (by decide) (by decide) (.inr rfl)
        (.word 1 b!"10ms" _ _ (by decide) (by decide) (.inr rfl)
          (.word 1 b!"hé" [] _ (by decide) (by decide) (.inl rfl) (.blank 0))))
  · refine .cons (.seq _ 30 MOD_CTRL (by decide +kernel)) (.cons (.group _ _ (by decide +kernel) (by decide) ?_) (.cons (.delay _ 10 (by decide +kernel) ?_)
        (.cons (.text ['h', 'é'] (by decide +kernel) (by decide +kernel) ?_ ?_) .nil)))
    · have e : tokens 43 b!"leftshift+x+50ms" = [b!"leftshift", b!"x", b!"50ms"] := by decide +kernel
      rw [e]
      refine .cons (.key _ 42 0 ?_ (by decide +kernel)) (.cons (.key _ 45 0 ?_ (by decide +kernel))
        (.cons (.delay _ 50 (.mk b!"50" (by decide) (by decide))) .nil))
      · rintro ⟨ms, hd⟩; have := isTimeval_delay hd; revert this; decide +kernel
      · rintro ⟨ms, hd⟩; have := isTimeval_delay hd; revert this; decide +kernel
    · exact .mk b!"10" (by decide) (by decide)
    · rintro ⟨ms, hd⟩; have := isTimeval_delay hd; revert this; decide +kernel
    · rintro ds hd ⟨r, hr⟩
      have : (10 : UInt8) ∈ ['h', 'é'].flatMap String.utf8EncodeChar := by rw [← hr]; simp
      revert this; decide +kernel
  · decide +kernel

/-! ### C21 -/

/-- The last event of a key in a macro's output (`true` is down). -/
def lastEvent (c : Code) : List MacroOut → Option Bool
  | [] => none
  | .key c' b :: rest => match lastEvent c rest with
    | some b' => some b'
    | none => if c' = c then some b else none
  | .sleep _ :: rest => lastEvent c rest

theorem lastEvent_append (c : Code) : ∀ a b : List MacroOut,
    lastEvent c (a ++ b) = match lastEvent c b with
      | some x => some x
      | none => lastEvent c a
  | [], b => by cases h : lastEvent c b <;> simp [lastEvent, h]
  | .key c' x :: a, b => by
    simp only [List.cons_append, lastEvent, lastEvent_append c a b]
    cases h : lastEvent c b <;> rfl
  | .sleep _ :: a, b => by
    simp only [List.cons_append, lastEvent, lastEvent_append c a b]

/-- No key is left down by the output. -/
def LeavesUp (l : List MacroOut) : Prop := ∀ c, lastEvent c l ≠ some true

theorem LeavesUp.nil : LeavesUp [] := fun _ h => by cases h

theorem LeavesUp.append {a b : List MacroOut} (ha : LeavesUp a) (hb : LeavesUp b) :
    LeavesUp (a ++ b) := by
  intro c
  rw [lastEvent_append]
  split
  · rename_i x h; intro hx; exact hb c (h.trans hx)
  · exact ha c

theorem LeavesUp.sleep (t : Nat) : LeavesUp (macroSleep t) := by
  unfold macroSleep
  split
  · exact .nil
  · intro c h; simp [lastEvent] at h

/-- Pressing a list of keys and, later, releasing at least those. -/
theorem leavesUp_sandwich (ks rs : List Code) (hsub : ∀ k ∈ ks, k ∈ rs) (a mid : List MacroOut)
    (ha : ∀ c, lastEvent c a = some true → c ∈ ks) (hmid : LeavesUp mid ∨ ∀ c, lastEvent c mid = some true → c ∈ ks) :
    LeavesUp (a ++ mid ++ rs.map (fun c => .key c false)) := by
  have hrs : ∀ (rs : List Code) (c : Code), lastEvent c (rs.map (fun c => MacroOut.key c false)) =
      if c ∈ rs then some false else none := by
    intro rs c
    induction rs with
    | nil => simp [lastEvent]
    | cons r rs ih =>
      simp only [List.map_cons, lastEvent, ih]
      by_cases h1 : c ∈ rs
      · simp [h1]
      · by_cases h2 : r = c
        · simp [h1, h2]
        · have : c ≠ r := fun h => h2 h.symm
          simp [h1, h2, this]
  intro c hc
  rw [lastEvent_append, hrs] at hc
  by_cases h : c ∈ rs
  · rw [if_pos h] at hc; cases hc
  · rw [if_neg h] at hc
    have hk : c ∉ ks := fun h' => h (hsub c h')
    rw [lastEvent_append] at hc
    dsimp only at hc
    split at hc
    · rename_i x hx
      cases hc
      rcases hmid with hmid | hmid
      · exact hmid c hx
      · exact hk (hmid c hx)
    · exact hk (ha c hc)

theorem presses_last (ks : List Code) (c : Code)
    (h : lastEvent c (ks.map (fun c => MacroOut.key c true)) = some true) : c ∈ ks := by
  induction ks with
  | nil => cases h
  | cons k ks ih =>
    simp only [List.map_cons, lastEvent] at h
    cases hl : lastEvent c (ks.map (fun c => MacroOut.key c true)) with
    | some b =>
      rw [hl] at h
      cases h
      exact List.mem_cons_of_mem _ (ih hl)
    | none =>
      rw [hl] at h
      dsimp only at h
      split at h
      · rename_i he; rw [he]; exact List.mem_cons_self ..
      · cases h

/-- An entry that is neither a hold nor a release leaves all keys up. -/
theorem leavesUp_entry (t : Nat) (e : MacroEntry) (hh : e.type ≠ .hold) :
    LeavesUp (macroEntryOut t e) := by
  unfold macroEntryOut
  cases he : e.type with
  | unicode =>
    dsimp only
    generalize unicodeGetSequence e.data.toNat = l
    induction l with
    | nil => exact .nil
    | cons c l ih =>
      rw [List.flatMap_cons]
      refine LeavesUp.append ?_ ih
      intro c' hc
      simp only [lastEvent] at hc
      by_cases h : c = c' <;> simp [h] at hc
  | keysequence =>
    dsimp only
    have : ∀ (ms : List (UInt8 × Code)) (b : Bool),
        ms.map (fun m => MacroOut.key m.2 b) = (ms.map (·.2)).map (fun c => MacroOut.key c b) := by
      intro ms b; simp
    rw [this, this, List.append_assoc _ _ [MacroOut.key e.code true, MacroOut.key e.code false]]
    refine leavesUp_sandwich _ _ (fun k h => h) _ _ (fun c h => presses_last _ _ h) (.inl ?_)
    refine LeavesUp.append ?_ ?_
    · split
      · exact .sleep t
      · exact .nil
    · intro c' hc
      simp only [lastEvent] at hc
      by_cases h : e.code = c' <;> simp [h] at hc
  | timeout => dsimp only; intro c h; simp [lastEvent] at h
  | hold => exact absurd he hh
  | release => exact .nil

/-- Macros in which every group of held keys is closed. -/
inductive Closed : Macro → Prop
  | nil : Closed []
  | single {e : MacroEntry} {m : Macro} (h : e.type ≠ .hold) (t : Closed m) : Closed (e :: m)
  | group {g m : Macro} (h : ∀ e ∈ g, e.type = .hold ∨ e.type = .timeout) (t : Closed m) :
      Closed (g ++ releaseEntry :: m)

/-- Running a group whose keys `held` are already down. -/
theorem exec_group (t : Nat) : ∀ (g m : Macro) (hs : List MacroEntry) (pre : List MacroOut),
    (∀ e ∈ g, e.type = .hold ∨ e.type = .timeout) → LeavesUp (macroExecAux t m none) →
    (∀ c, lastEvent c pre = some true → ∃ h ∈ hs, h.code = c) →
    LeavesUp (pre ++ macroExecAux t (g ++ releaseEntry :: m) (some hs))
  | [], m, hs, pre, _, hm, hpre => by
    simp only [List.nil_append, macroExecAux, releaseEntry]
    rw [← List.append_assoc, ← List.append_assoc]
    refine LeavesUp.append (LeavesUp.append ?_ (.sleep t)) hm
    have e : hs.map (fun h => MacroOut.key h.code false) = (hs.map (·.code)).map (fun c => .key c false) := by
      simp
    rw [e]
    have := leavesUp_sandwich (hs.map (·.code)) (hs.map (·.code)) (fun k h => h) pre []
      (fun c h => by obtain ⟨x, h1, h2⟩ := hpre c h; exact List.mem_map.2 ⟨x, h1, h2⟩) (.inl .nil)
    simpa using this
  | e :: g, m, hs, pre, hg, hm, hpre => by
    have hg' : ∀ e ∈ g, e.type = .hold ∨ e.type = .timeout := fun x hx => hg x (List.mem_cons_of_mem _ hx)
    rw [List.cons_append]
    rcases hg e (List.mem_cons_self ..) with he | he
    · simp only [macroExecAux, he, Option.getD_some]
      rw [← List.append_assoc, ← List.append_assoc]
      refine exec_group t g m (hs ++ [e]) _ hg' hm ?_
      intro c hc
      rw [lastEvent_append] at hc
      split at hc
      · rename_i x hx
        cases hc
        exact absurd hx (LeavesUp.sleep t c)
      · rw [lastEvent_append] at hc
        simp only [macroEntryOut, he, lastEvent] at hc
        by_cases h : e.code = c
        · exact ⟨e, by simp, h⟩
        · simp only [h, if_false] at hc
          obtain ⟨x, h1, h2⟩ := hpre c hc
          exact ⟨x, by simp [h1], h2⟩
    · simp only [macroExecAux, he, Option.map_some]
      rw [← List.append_assoc, ← List.append_assoc]
      refine exec_group t g m (hs ++ [e]) _ hg' hm ?_
      intro c hc
      rw [lastEvent_append] at hc
      split at hc
      · rename_i x hx
        cases hc
        exact absurd hx (LeavesUp.sleep t c)
      · rw [lastEvent_append] at hc
        simp only [macroEntryOut, he, lastEvent] at hc
        obtain ⟨x, h1, h2⟩ := hpre c hc
        exact ⟨x, by simp [h1], h2⟩

/-- A group before its first held key. -/
theorem exec_group0 (t : Nat) : ∀ (g m : Macro), (∀ e ∈ g, e.type = .hold ∨ e.type = .timeout) →
    LeavesUp (macroExecAux t m none) → LeavesUp (macroExecAux t (g ++ releaseEntry :: m) none)
  | [], m, _, hm => by
    simp only [List.nil_append, macroExecAux, releaseEntry]
    exact (LeavesUp.sleep t).append hm
  | e :: g, m, hg, hm => by
    have hg' : ∀ e ∈ g, e.type = .hold ∨ e.type = .timeout := fun x hx => hg x (List.mem_cons_of_mem _ hx)
    rw [List.cons_append]
    rcases hg e (List.mem_cons_self ..) with he | he
    · simp only [macroExecAux, he, Option.getD_none, List.nil_append]
      refine exec_group t g m [e] _ hg' hm ?_
      intro c hc
      rw [lastEvent_append] at hc
      split at hc
      · rename_i x hx
        cases hc
        exact absurd hx (LeavesUp.sleep t c)
      · simp only [macroEntryOut, he, lastEvent] at hc
        by_cases h : e.code = c
        · exact ⟨e, by simp, h⟩
        · simp [h] at hc
    · simp only [macroExecAux, he, Option.map_none]
      exact ((leavesUp_entry t e (by rw [he]; simp)).append (.sleep t)).append (exec_group0 t g m hg' hm)

theorem closed_leavesUp (t : Nat) {m : Macro} (h : Closed m) : LeavesUp (macroExecAux t m none) := by
  induction h with
  | nil => exact .nil
  | single he _ ih =>
    unfold macroExecAux
    split
    · exact absurd (by assumption) he
    · exact (LeavesUp.sleep t).append ih
    · exact ((leavesUp_entry t _ he).append (.sleep t)).append ih
  | group hg _ ih => exact exec_group0 t _ _ hg ih

theorem Closed.append {a b : Macro} (ha : Closed a) (hb : Closed b) : Closed (a ++ b) := by
  induction ha with
  | nil => exact hb
  | single h _ ih => exact .single h ih
  | group h _ ih =>
    rw [List.append_assoc, List.cons_append]
    exact .group h ih

theorem addEntry_closed {m m' : Macro} {t : MacroType} {d : Nat} (hm : Closed m) (ht : t ≠ .hold)
    (h : addEntry m t d = some m') : Closed m' := by
  unfold addEntry at h
  split at h
  · cases h
  · cases h
    exact hm.append (.single ht .nil)

theorem macroHolds_shape : ∀ (parts : List Str) (m m' : Macro), macroHolds parts m = some m' →
    ∃ g : Macro, m' = m ++ g ∧ ∀ e ∈ g, e.type = .hold ∨ e.type = .timeout
  | [], m, m', h => by cases h; exact ⟨[], by simp⟩
  | p :: ps, m, m', h => by
    have step : ∀ (ty : MacroType) (d : Nat) (m1 : Macro), (ty = .hold ∨ ty = .timeout) →
        addEntry m ty d = some m1 → macroHolds ps m1 = some m' →
        ∃ g : Macro, m' = m ++ g ∧ ∀ e ∈ g, e.type = .hold ∨ e.type = .timeout := by
      intro ty d m1 hty h1 h2
      obtain ⟨g, rfl, hg⟩ := macroHolds_shape ps m1 m' h2
      unfold addEntry at h1
      split at h1
      · cases h1
      · cases h1
        refine ⟨⟨ty, UInt16.ofNat d⟩ :: g, by simp, ?_⟩
        intro e he
        rcases List.mem_cons.1 he with rfl | he
        · exact hty
        · exact hg e he
    unfold macroHolds at h
    split at h
    · split at h
      · cases h
      · rename_i m1 h1; exact step _ _ m1 (.inr rfl) h1 h
    · split at h
      · split at h
        · cases h
        · rename_i m1 h1; exact step _ _ m1 (.inl rfl) h1 h
      · cases h

def ClosedRes (r : Option Macro) : Prop := ∀ m, r = some m → Closed m

theorem macroChars_closed : ∀ (n : Nat) (tok : Str) (m : Macro), Closed m →
    Sat (macroChars n tok m) ClosedRes (fun _ => True)
  | 0, tok, m, h => by intro m' hm'; cases hm'; exact h
  | n+1, tok, m, h => by
    unfold macroChars
    refine Sat.bind (Q := fun _ => True) (Sat.intro (fun _ _ => trivial)) ?_
    rintro ⟨sz, cp⟩ _
    dsimp only
    have none' : ClosedRes none := fun _ h => by cases h
    have some' : ClosedRes (some m) := fun _ h' => by cases h'; exact h
    repeat' split
    all_goals first
      | exact none'
      | exact some'
      | exact macroChars_closed n _ m h
      | (rename_i h1; exact macroChars_closed n _ _ (addEntry_closed h (by simp) h1))

theorem macroToken_closed (tok : Str) (m : Macro) (h : Closed m) :
    Sat (macroToken tok m) ClosedRes (fun _ => True) := by
  unfold macroToken
  split
  · exact fun _ h' => addEntry_closed h (by simp) h'
  · split
    · split
      · intro _ h; cases h
      · rename_i m1 h1
        obtain ⟨g, rfl, hg⟩ := macroHolds_shape _ _ _ h1
        intro m2 h2
        unfold addEntry at h2
        split at h2
        · cases h2
        · cases h2
          rw [List.append_assoc]
          exact h.append (.group hg .nil)
    · split
      · exact fun _ h' => addEntry_closed h (by simp) h'
      · exact macroChars_closed _ _ _ h

theorem macroTokens_closed : ∀ (toks : List Str) (m : Macro), Closed m →
    Sat (macroTokens toks m) ClosedRes (fun _ => True)
  | [], m, h => by intro m' hm'; cases hm'; exact h
  | tok :: rest, m, h => by
    unfold macroTokens
    refine Sat.bind (macroToken_closed tok m h) ?_
    intro r hr
    split
    · intro _ h; cases h
    · exact macroTokens_closed rest _ (hr _ rfl)

/-- C21. Executing any macro the parser accepts, with any inter-event delay, ends
with every key it touched released. -/
theorem C21_macro_leaves_keys_up (s : Str) (m : Macro) (h : macroParse s = .ok (some m)) (t : Nat)
    (c : Code) : lastEvent c (macroExecute m t) ≠ some true :=
  closed_leavesUp t ((macroTokens_closed _ _ .nil).of_ok h m rfl) c

/-- Non-vacuity: a macro with a held group that does press keys. -/
example : ∃ m, macroParse b!"leftshift+a+50ms C-x é" = .ok (some m) ∧
    (macroExecute m 0).filter (fun o => match o with | .key _ true => true | _ => false) ≠ [] := by
  refine ⟨[⟨.hold, 42⟩, ⟨.hold, 30⟩, ⟨.timeout, 50⟩, ⟨.release, 0⟩, ⟨.keysequence, 2048 + 45⟩, ⟨.unicode, 105⟩], ?_, ?_⟩
  · decide +kernel
  · decide +kernel

/-- Finding (C21): a delay inside a group is also "released" as if it were a key:
`a+48ms` sends an up event for key 48 (`b`), which was never pressed. -/
theorem C21_spurious_release : (∃ m, macroParse b!"a+48ms" = .ok (some m) ∧
    macroExecute m 0 = [.key 30 true, .sleep 48000, .key 30 false, .key 48 false]) :=
  ⟨[⟨.hold, 30⟩, ⟨.timeout, 48⟩, ⟨.release, 0⟩], by decide +kernel, by decide +kernel⟩

end Keyd
