import Verif.Model.Config
import Verif.Proofs.Sat
import Mathlib.Tactic.ByContra

/-
  C32 (INI structure) and C29 (argument splitting).
-/

set_option autoImplicit false

namespace Keyd

/-! ### C32: key and value of a line -/

theorem kvpScan_text : ∀ (t : Str) (rest key spaces : Str), (61 : UInt8) ∉ t → t ≠ [] →
    (∀ c, t.getLast? = some c → isBlank c = false) →
    kvpScan (t ++ rest) key spaces = kvpScan rest (key ++ spaces ++ t) []
  | [], _, _, _, _, h, _ => absurd rfl h
  | [c], rest, key, spaces, h61, _, hl => by
    have hb := hl c rfl
    have hc : c ≠ 61 := by rintro rfl; simp at h61
    simp only [List.cons_append, List.nil_append, kvpScan]
    rw [if_neg hc, if_neg (by simp [hb])]
  | c :: c1 :: t, rest, key, spaces, h61, _, hl => by
    have hc : c ≠ 61 := by rintro rfl; simp at h61
    have h61' : (61 : UInt8) ∉ (c1 :: t) := fun h => h61 (List.mem_cons_of_mem _ h)
    have hl' : ∀ x, (c1 :: t).getLast? = some x → isBlank x = false := by
      intro x hx
      apply hl x
      rw [List.getLast?_cons_cons]
      exact hx
    rw [List.cons_append, kvpScan, if_neg hc]
    split
    · rw [kvpScan_text (c1 :: t) rest key (spaces ++ [c]) h61' (by simp) hl']
      simp
    · rw [kvpScan_text (c1 :: t) rest (key ++ spaces ++ [c]) [] h61' (by simp) hl']
      simp

theorem kvpScan_blanks : ∀ (bl : Str) (rest key spaces : Str), bl.all isBlank = true →
    ∃ spaces', kvpScan (bl ++ 61 :: rest) key spaces = kvpScan (61 :: rest) key spaces'
  | [], _, _, spaces, _ => ⟨spaces, rfl⟩
  | c :: bl, rest, key, spaces, h => by
    simp only [List.all_cons, Bool.and_eq_true] at h
    have hc : c ≠ 61 := by rintro rfl; exact absurd h.1 (by decide)
    obtain ⟨sp, hs⟩ := kvpScan_blanks bl rest key (spaces ++ [c]) h.2
    refine ⟨sp, ?_⟩
    rw [List.cons_append]
    rw [kvpScan, if_neg hc, if_pos h.1, hs]

theorem dropWhile_blanks (bl v : Str) (hb : bl.all isBlank = true)
    (hv : ∀ c, v.head? = some c → isBlank c = false) : (bl ++ v).dropWhile isBlank = v := by
  induction bl with
  | nil =>
    cases v with
    | nil => rfl
    | cons c v => simp [hv c rfl]
  | cons c bl ih =>
    simp only [List.all_cons, Bool.and_eq_true] at hb
    rw [List.cons_append, List.dropWhile_cons, if_pos hb.1, ih hb.2]

theorem parseKvp_notEq (c : UInt8) (l : Str) (hc : c ≠ 61) :
    parseKvp (c :: l) = match kvpScan (c :: l) [] [] with
      | some (k, v) => (k, some v)
      | none => (c :: l, none) := by
  unfold parseKvp
  split
  · rename_i heq; cases heq; exact absurd rfl hc
  · rfl

/-- C32. `key = value`: every non-empty key whose only `=` is possibly its first
character and that does not end in a blank, every value not starting with a
blank, with any blanks around the sign. The value may contain `=`. -/
theorem C32_key_value (key bl1 bl2 val : Str) (hk : key ≠ []) (hkeq : (61 : UInt8) ∉ key.tail)
    (hlast : ∀ c, key.getLast? = some c → isBlank c = false)
    (hb1 : bl1.all isBlank = true) (hb2 : bl2.all isBlank = true)
    (hv : ∀ c, val.head? = some c → isBlank c = false) :
    parseKvp (key ++ bl1 ++ 61 :: (bl2 ++ val)) = (key, some val) := by
  unfold parseKvp
  have fin : ∀ (k sp : Str), kvpScan (61 :: (bl2 ++ val)) k sp = some (k, val) := by
    intro k sp
    rw [kvpScan, if_pos rfl, dropWhile_blanks bl2 val hb2 hv]
  cases key with
  | nil => exact absurd rfl hk
  | cons c t =>
    by_cases hc : c = 61
    · subst hc
      simp only [List.cons_append]
      have hr : kvpScan (t ++ bl1 ++ 61 :: (bl2 ++ val)) [61] [] = some (61 :: t, val) := by
        by_cases ht : t = []
        · subst ht
          obtain ⟨sp, hs⟩ := kvpScan_blanks bl1 (bl2 ++ val) [61] [] hb1
          rw [List.nil_append, hs, fin]
        · rw [List.append_assoc, kvpScan_text t _ _ _ hkeq ht ?_]
          · obtain ⟨sp, hs⟩ := kvpScan_blanks bl1 (bl2 ++ val) ([61] ++ [] ++ t) [] hb1
            rw [hs, fin]
            rfl
          · intro x hx
            apply hlast x
            rw [List.getLast?_cons_of_ne_nil ht]
            exact hx
      rw [hr]
    · have h61 : (61 : UInt8) ∉ (c :: t) := by
        simp only [List.mem_cons, not_or]
        exact ⟨Ne.symm hc, hkeq⟩
      have e : (c :: t) ++ bl1 ++ 61 :: (bl2 ++ val) = c :: (t ++ bl1 ++ 61 :: (bl2 ++ val)) := by simp
      have hr : kvpScan (c :: (t ++ bl1 ++ 61 :: (bl2 ++ val))) [] [] = some (c :: t, val) := by
        rw [← e, List.append_assoc, kvpScan_text (c :: t) _ [] [] h61 (by simp) hlast]
        obtain ⟨sp, hs⟩ := kvpScan_blanks bl1 (bl2 ++ val) ([] ++ [] ++ c :: t) [] hb1
        rw [hs, fin]
        rfl
      rw [e]
      have := parseKvp_notEq c (t ++ bl1 ++ 61 :: (bl2 ++ val)) hc
      unfold parseKvp at this
      rw [this, hr]

theorem kvpScan_none : ∀ (t key spaces : Str), (61 : UInt8) ∉ t → kvpScan t key spaces = none
  | [], _, _, _ => rfl
  | c :: t, key, spaces, h => by
    have hc : c ≠ 61 := by rintro rfl; simp at h
    have ht : (61 : UInt8) ∉ t := fun h' => h (List.mem_cons_of_mem _ h')
    rw [kvpScan, if_neg hc]
    split <;> exact kvpScan_none t _ _ ht

/-- C32. A line without `=` (other than a first character `=`) is all key and
has no value. -/
theorem C32_no_value (s : Str) (h : (61 : UInt8) ∉ s.tail) : parseKvp s = (s, none) := by
  cases s with
  | nil => rfl
  | cons c t =>
    by_cases hc : c = 61
    · subst hc
      show (match kvpScan t [61] [] with | some (k, v) => (k, some v) | none => ((61 : UInt8) :: t, none)) = _
      rw [kvpScan_none t _ _ (show (61 : UInt8) ∉ t from h)]
    · have h61 : (61 : UInt8) ∉ (c :: t) := by
        simp only [List.mem_cons, not_or]
        exact ⟨Ne.symm hc, h⟩
      rw [parseKvp_notEq c t hc, kvpScan_none _ _ _ h61]

/-! ### C32: lines -/

theorem dropWhile_spaces (ws s : Str) (hw : ws.all isSpaceC = true)
    (hs : ∀ c, s.head? = some c → isSpaceC c = false) : (ws ++ s).dropWhile isSpaceC = s := by
  induction ws with
  | nil =>
    cases s with
    | nil => rfl
    | cons c v => simp [hs c rfl]
  | cons c ws ih =>
    simp only [List.all_cons, Bool.and_eq_true] at hw
    rw [List.cons_append, List.dropWhile_cons, if_pos hw.1, ih hw.2]

/-- Surrounding white space of a line is dropped. -/
theorem stripLine_spec (ws s ws' : Str) (hw : ws.all isSpaceC = true) (hw' : ws'.all isSpaceC = true)
    (hne : s ≠ []) (h1 : ∀ c, s.head? = some c → isSpaceC c = false)
    (h2 : ∀ c, s.getLast? = some c → isSpaceC c = false) :
    stripLine (ws ++ s ++ ws') = s := by
  unfold stripLine rstrip
  rw [List.append_assoc, dropWhile_spaces ws (s ++ ws') hw ?_]
  · rw [List.reverse_append, dropWhile_spaces ws'.reverse s.reverse (by simpa using hw') ?_,
      List.reverse_reverse]
    intro c hc
    rw [List.head?_reverse] at hc
    exact h2 c hc
  · intro c hc
    apply h1 c
    cases s with
    | nil => exact absurd rfl hne
    | cons x xs => simpa using hc

theorem stripLine_blank (ws : Str) (hw : ws.all isSpaceC = true) : stripLine ws = [] := by
  unfold stripLine rstrip
  have : ws.dropWhile isSpaceC = [] := by
    have := dropWhile_spaces ws [] hw (by simp)
    simpa using this
  rw [this]
  rfl

/-- C32. Blank lines are ignored. -/
theorem C32_blank_line (ws : Str) (hw : ws.all isSpaceC = true) : classifyLine ws = .skip := by
  unfold classifyLine
  rw [stripLine_blank ws hw]

/-- C32. Lines whose first visible character is `#` are ignored. -/
theorem C32_comment_line (ws text : Str) (hw : ws.all isSpaceC = true) :
    classifyLine (ws ++ 35 :: text) = .skip := by
  unfold classifyLine
  have : ∃ r, stripLine (ws ++ 35 :: text) = 35 :: r := by
    unfold stripLine rstrip
    rw [dropWhile_spaces ws (35 :: text) hw (by intro c hc; simp at hc; subst hc; decide)]
    rw [List.reverse_cons, List.dropWhile_append]
    split
    · exact ⟨[], by decide⟩
    · exact ⟨_, by simp; rfl⟩
  obtain ⟨r, hr⟩ := this
  rw [hr]
  simp

/-- C32. `[name]` is a heading. -/
theorem C32_heading_line (ws name ws' : Str) (hw : ws.all isSpaceC = true)
    (hw' : ws'.all isSpaceC = true) :
    classifyLine (ws ++ (91 :: name ++ [93]) ++ ws') = .section name := by
  unfold classifyLine
  rw [stripLine_spec ws (91 :: name ++ [93]) ws' hw hw' (by simp)
    (by intro c hc; simp at hc; subst hc; decide)
    (by intro c hc; rw [List.getLast?_concat] at hc; cases hc; decide)]
  simp

/-- C32. Any other line is the entry `parse_kvp` finds in it. -/
theorem C32_entry_line (ws s ws' : Str) (hw : ws.all isSpaceC = true) (hw' : ws'.all isSpaceC = true)
    (hne : s ≠ []) (h1 : ∀ c, s.head? = some c → isSpaceC c = false ∧ c ≠ 35)
    (h2 : ∀ c, s.getLast? = some c → isSpaceC c = false)
    (h3 : ¬ (s.head? = some 91 ∧ s.getLast? = some 93)) :
    classifyLine (ws ++ s ++ ws') = .entry (parseKvp s).1 (parseKvp s).2 := by
  unfold classifyLine
  rw [stripLine_spec ws s ws' hw hw' hne (fun c hc => (h1 c hc).1) h2]
  cases s with
  | nil => exact absurd rfl hne
  | cons c t =>
    obtain ⟨_, h35⟩ := h1 c rfl
    have : ¬ (c = 91 ∧ t.getLast? = some 93) := by
      rintro ⟨rfl, ht⟩
      apply h3
      refine ⟨rfl, ?_⟩
      cases t with
      | nil => simp at ht
      | cons x xs => rw [List.getLast?_cons_cons]; exact ht
    simp [h35, this]

/-- C32. The line `key = value` is the entry with that key and that value, for
every key and value as in `C32_key_value` whose text does not look like a
comment or a heading. -/
theorem C32_binding_line (ws key bl1 bl2 val ws' : Str)
    (hw : ws.all isSpaceC = true) (hw' : ws'.all isSpaceC = true)
    (hk : key ≠ []) (hkeq : (61 : UInt8) ∉ key.tail)
    (hlast : ∀ c, key.getLast? = some c → isBlank c = false)
    (hb1 : bl1.all isBlank = true) (hb2 : bl2.all isBlank = true) (hval : val ≠ [])
    (hv : ∀ c, val.head? = some c → isBlank c = false)
    (hhead : ∀ c, key.head? = some c → isSpaceC c = false ∧ c ≠ 35)
    (hvl : ∀ c, val.getLast? = some c → isSpaceC c = false)
    (hsec : ¬ (key.head? = some 91 ∧ val.getLast? = some 93)) :
    classifyLine (ws ++ (key ++ bl1 ++ 61 :: (bl2 ++ val)) ++ ws') = .entry key (some val) := by
  have hh : (key ++ bl1 ++ 61 :: (bl2 ++ val)).head? = key.head? := by
    cases key with
    | nil => exact absurd rfl hk
    | cons c t => simp
  have hl : (key ++ bl1 ++ 61 :: (bl2 ++ val)).getLast? = val.getLast? := by
    have e : key ++ bl1 ++ 61 :: (bl2 ++ val) = (key ++ bl1 ++ 61 :: bl2) ++ val := by simp
    rw [e, List.getLast?_append]
    cases hg : val.getLast? with
    | none => exact absurd (List.getLast?_eq_none_iff.1 hg) hval
    | some x => rfl
  have h := C32_entry_line ws (key ++ bl1 ++ 61 :: (bl2 ++ val)) ws' hw hw' (by simp)
    (by rw [hh]; exact hhead) (by rw [hl]; exact hvl) (by rw [hh, hl]; exact hsec)
  rw [h, C32_key_value key bl1 bl2 val hk hkeq hlast hb1 hb2 hv]

/-- The exclusion of headings in `C32_binding_line` is needed: the line `[ = ]`,
meant to bind `[` to `]`, is taken as a section heading (ini.c:108-116). -/
theorem C32_bracket_line_is_heading : classifyLine b!"[ = ]" = .section b!" = " := by decide +kernel

/-! ### C32: documents -/

theorem splitLines_single : ∀ (l : Str), (10 : UInt8) ∉ l → splitLines l = [l]
  | [], _ => rfl
  | c :: l, h => by
    have hc : c ≠ 10 := by rintro rfl; simp at h
    rw [splitLines, if_neg hc, splitLines_single l (fun h' => h (List.mem_cons_of_mem _ h'))]

theorem splitLines_cons : ∀ (l rest : Str), (10 : UInt8) ∉ l →
    splitLines (l ++ 10 :: rest) = l :: splitLines rest
  | [], rest, _ => by rw [List.nil_append, splitLines, if_pos rfl]
  | c :: l, rest, h => by
    have hc : c ≠ 10 := by rintro rfl; simp at h
    rw [List.cons_append, splitLines, if_neg hc,
      splitLines_cons l rest (fun h' => h (List.mem_cons_of_mem _ h'))]

/-- Text of a list of lines, each terminated by a newline. -/
def joinLines (ls : List Str) : Str := ls.flatMap (fun l => l ++ [10])

theorem splitLines_join : ∀ (ls : List Str), (∀ l ∈ ls, (10 : UInt8) ∉ l) →
    splitLines (joinLines ls) = ls ++ [[]]
  | [], _ => rfl
  | l :: ls, h => by
    unfold joinLines
    rw [List.flatMap_cons, List.append_assoc, List.singleton_append,
      splitLines_cons _ _ (h l (by simp))]
    rw [show List.flatMap (fun l => l ++ [10]) ls = joinLines ls from rfl,
      splitLines_join ls (fun l' hl => h l' (by simp [hl]))]
    rfl

/-- The entries among some lines, in order. -/
def lineEntries (ls : List Str) : List IniEntry :=
  ls.filterMap fun l => match classifyLine l with
    | .entry k v => some ⟨k, v⟩
    | _ => none

/-- A section as written in a file: its heading line and its other lines. -/
structure SectionText where
  heading : Str
  name : Str
  body : List Str
  isHeading : classifyLine heading = .section name
  bodyPlain : ∀ l ∈ body, ∀ n, classifyLine l ≠ .section n

theorem iniLines_skip : ∀ (ls : List Str) (rest : List Str) (acc : List IniSection),
    (∀ l ∈ ls, classifyLine l = .skip) → iniLines (ls ++ rest) acc = iniLines rest acc
  | [], _, _, _ => rfl
  | l :: ls, rest, acc, h => by
    rw [List.cons_append, iniLines, h l (by simp)]
    exact iniLines_skip ls rest acc (fun l' hl => h l' (by simp [hl]))

theorem iniLines_body : ∀ (ls : List Str) (rest : List Str) (s : IniSection) (acc : List IniSection),
    (∀ l ∈ ls, ∀ n, classifyLine l ≠ .section n) →
    s.entries.length + (lineEntries ls).length ≤ 1024 →
    iniLines (ls ++ rest) (s :: acc) =
      iniLines rest ({ s with entries := (lineEntries ls).reverse ++ s.entries } :: acc)
  | [], _, _, _, _, _ => rfl
  | l :: ls, rest, s, acc, h, hlen => by
    have ht : ∀ l' ∈ ls, ∀ n, classifyLine l' ≠ .section n := fun l' hl => h l' (by simp [hl])
    rw [List.cons_append, iniLines]
    cases hc : classifyLine l with
    | skip =>
      have he : lineEntries (l :: ls) = lineEntries ls := by simp [lineEntries, hc]
      rw [he] at hlen ⊢
      exact iniLines_body ls rest s acc ht hlen
    | «section» n => exact absurd hc (h l (by simp) n)
    | entry k v =>
      have he : lineEntries (l :: ls) = ⟨k, v⟩ :: lineEntries ls := by simp [lineEntries, hc]
      rw [he] at hlen ⊢
      simp only [List.length_cons] at hlen
      dsimp only
      rw [if_pos (by omega), iniLines_body ls rest _ acc ht (by simp only [List.length_cons]; omega)]
      simp

theorem iniLines_sections : ∀ (secs : List SectionText) (rest : List Str) (acc : List IniSection),
    (∀ s ∈ secs, (lineEntries s.body).length ≤ 1024) → acc.length + secs.length ≤ 32 →
    iniLines (secs.flatMap (fun s => s.heading :: s.body) ++ rest) acc =
      iniLines rest ((secs.map fun s => ⟨s.name, (lineEntries s.body).reverse⟩).reverse ++ acc)
  | [], _, _, _, _ => rfl
  | s :: secs, rest, acc, h, hlen => by
    simp only [List.length_cons] at hlen
    rw [List.flatMap_cons, List.cons_append, List.cons_append, iniLines, s.isHeading]
    dsimp only
    rw [if_pos (by omega), List.append_assoc, iniLines_body s.body _ _ acc s.bodyPlain
      (by simpa using h s (by simp))]
    rw [iniLines_sections secs rest _ (fun s' hs => h s' (by simp [hs])) (by simp only [List.length_cons]; omega)]
    simp

/-- C32. A file consisting of ignorable lines followed by at most 32 sections with
at most 1024 entries each parses to exactly those sections, in order, each with
the entries found on the lines between its heading and the next one, in order. -/
theorem C32_document (pre : List Str) (secs : List SectionText)
    (hnl : ∀ l ∈ pre ++ secs.flatMap (fun s => s.heading :: s.body), (10 : UInt8) ∉ l)
    (hpre : ∀ l ∈ pre, classifyLine l = .skip)
    (hlen : secs.length ≤ 32) (hent : ∀ s ∈ secs, (lineEntries s.body).length ≤ 1024) :
    iniParseString (joinLines (pre ++ secs.flatMap (fun s => s.heading :: s.body))) =
      .ok (some (secs.map fun s => ⟨s.name, lineEntries s.body⟩)) := by
  unfold iniParseString
  rw [splitLines_join _ hnl, List.append_assoc, iniLines_skip _ _ _ hpre,
    iniLines_sections secs _ [] hent (by simpa using hlen), iniLines]
  have : classifyLine [] = .skip := rfl
  rw [this]
  simp [iniLines, Function.comp_def]

/-- C32. An entry before any heading makes the file invalid. -/
theorem C32_entry_before_heading (pre : List Str) (l : Str) (rest : List Str) (k : Str) (v : Option Str)
    (hnl : ∀ x ∈ pre ++ l :: rest, (10 : UInt8) ∉ x)
    (hpre : ∀ x ∈ pre, classifyLine x = .skip) (hl : classifyLine l = .entry k v) :
    iniParseString (joinLines (pre ++ l :: rest)) = .ok none := by
  unfold iniParseString
  rw [splitLines_join _ hnl, List.append_assoc, iniLines_skip _ _ _ hpre, List.cons_append, iniLines, hl]
  rfl

/-- C32. The heading of a 33rd section stops the daemon, whatever follows. -/
theorem C32_too_many_sections (secs : List SectionText) (s : SectionText) (rest : List Str) (hlen : secs.length = 32)
    (hent : ∀ s ∈ secs, (lineEntries s.body).length ≤ 1024)
    (hnl : ∀ l ∈ secs.flatMap (fun s => s.heading :: s.body) ++ s.heading :: rest, (10 : UInt8) ∉ l) :
    iniParseString (joinLines (secs.flatMap (fun s => s.heading :: s.body) ++ s.heading :: rest)) =
      .error (.assertFail "ini: n < MAX_SECTIONS") := by
  unfold iniParseString
  rw [splitLines_join _ hnl, List.append_assoc, iniLines_sections secs _ [] hent (by simp [hlen]), List.cons_append, iniLines,
    s.isHeading]
  dsimp only
  rw [if_neg (by simp [hlen])]
  rfl

/-- C32. So does the 1025th entry of a section. -/
theorem C32_too_many_entries (secs : List SectionText) (s : SectionText) (l : Str) (k : Str) (v : Option Str) (rest : List Str)
    (hlen : secs.length < 32) (hent : ∀ s ∈ secs, (lineEntries s.body).length ≤ 1024) (hs : (lineEntries s.body).length = 1024)
    (hl : classifyLine l = .entry k v)
    (hnl : ∀ x ∈ secs.flatMap (fun s => s.heading :: s.body) ++ (s.heading :: s.body ++ l :: rest), (10 : UInt8) ∉ x) :
    iniParseString (joinLines (secs.flatMap (fun s => s.heading :: s.body) ++ (s.heading :: s.body ++ l :: rest))) =
      .error (.assertFail "ini: nr_entries < MAX_SECTION_ENTRIES") := by
  unfold iniParseString
  rw [splitLines_join _ hnl, List.append_assoc, iniLines_sections secs _ [] hent (by simp; omega), List.append_assoc,
    List.cons_append, iniLines, s.isHeading]
  dsimp only
  rw [if_pos (by simp; exact hlen), iniLines_body s.body _ _ _ s.bodyPlain (by simp [hs]), List.cons_append, iniLines, hl]
  dsimp only
  rw [if_neg (by simp [hs])]
  rfl

/-- Non-vacuity. -/
example : iniParseString b!"# c\n\n[ids]\n*\n[main]\na = b = c\n  = = x \n" =
    .ok (some [⟨b!"ids", [⟨b!"*", none⟩]⟩, ⟨b!"main", [⟨b!"a", some b!"b = c"⟩, ⟨b!"=", some b!"x"⟩]⟩]) := by
  decide +kernel

example : ∃ s : SectionText, s.name = b!"main" ∧ lineEntries s.body = [⟨b!"a", some b!"b"⟩] :=
  ⟨⟨b!"[main]", b!"main", [b!"# x", b!"a = b"], by decide +kernel, by
    intro l hl n
    simp only [List.mem_cons, List.not_mem_nil, or_false] at hl
    rcases hl with rfl | rfl
    · rw [show classifyLine b!"# x" = .skip from by decide +kernel]; simp
    · rw [show classifyLine b!"a = b" = .entry b!"a" (some b!"b") from by decide +kernel]; simp⟩,
   rfl, by decide +kernel⟩

/-! ### C29 -/

/-- Text with balanced parentheses; a backslash protects the next character. -/
inductive Balanced : Str → Prop
  | nil : Balanced []
  | char {c : UInt8} {s : Str} (h : c ≠ 92 ∧ c ≠ 40 ∧ c ≠ 41) (t : Balanced s) : Balanced (c :: s)
  | esc {c : UInt8} {s : Str} (t : Balanced s) : Balanced (92 :: c :: s)
  | paren {s t : Str} (hs : Balanced s) (ht : Balanced t) : Balanced (40 :: (s ++ 41 :: t))

/-- The text of one argument: balanced, with commas only inside parentheses or
after a backslash. -/
inductive ArgText : Str → Prop
  | nil : ArgText []
  | char {c : UInt8} {s : Str} (h : c ≠ 92 ∧ c ≠ 40 ∧ c ≠ 41 ∧ c ≠ 44) (t : ArgText s) : ArgText (c :: s)
  | esc {c : UInt8} {s : Str} (t : ArgText s) : ArgText (92 :: c :: s)
  | paren {s t : Str} (hs : Balanced s) (ht : ArgText t) : ArgText (40 :: (s ++ 41 :: t))

/-- A non-empty argument that does not start with a space. -/
def IsArg (a : Str) : Prop := ArgText a ∧ a ≠ [] ∧ a.head? ≠ some 32

/-- `arg1, arg2, ...)...`: what follows the opening parenthesis. -/
inductive ArgsText : Str → List Str → Prop
  | last {a rest : Str} (h : IsArg a) : ArgsText (a ++ 41 :: rest) [a]
  | more {a s : Str} {args : List Str} (n : Nat) (h : IsArg a) (t : ArgsText s args) :
      ArgsText (a ++ 44 :: (List.replicate n 32 ++ s)) (a :: args)

theorem scanArg_balanced {b : Str} (hb : Balanced b) : ∀ (r : Str) (p : Int) (acc : Str),
    r ≠ [] → p > 0 → scanArg (b ++ r) p acc = scanArg r p (b.reverse ++ acc) := by
  induction hb with
  | nil => intros; rfl
  | @char c s h t ih =>
    intro r p acc hr hp
    obtain ⟨h1, h2, h3⟩ := h
    have hne : s ++ r ≠ [] := by simp [hr]
    obtain ⟨x, xs, hx⟩ := List.exists_cons_of_ne_nil hne
    rw [List.cons_append, hx, scanArg, if_neg h1, if_neg h2, if_neg h3,
      if_neg (by omega), ← hx, ih r p _ hr hp]
    simp
  | @esc c s t ih =>
    intro r p acc hr hp
    rw [List.cons_append, List.cons_append, scanArg, if_pos rfl, ih r p _ hr hp]
    simp
  | @paren s t hs ht ihs iht =>
    intro r p acc hr hp
    have e : (40 :: (s ++ 41 :: t)) ++ r = 40 :: (s ++ (41 :: (t ++ r))) := by simp
    rw [e]
    obtain ⟨x, xs, hx⟩ := List.exists_cons_of_ne_nil (show s ++ (41 :: (t ++ r)) ≠ [] by simp)
    rw [hx, scanArg, if_neg (by decide), if_pos rfl, ← hx,
      ihs (41 :: (t ++ r)) (p+1) _ (by simp) (by omega)]
    obtain ⟨y, ys, hy⟩ := List.exists_cons_of_ne_nil (show t ++ r ≠ [] by simp [hr])
    rw [hy, scanArg, if_neg (by decide), if_neg (by decide), if_pos rfl, if_neg (by omega), ← hy,
      show p + 1 - 1 = p by omega, iht r p _ hr hp]
    simp

theorem scanArg_arg {a : Str} (ha : ArgText a) : ∀ (r : Str) (acc : Str),
    r ≠ [] → scanArg (a ++ r) 0 acc = scanArg r 0 (a.reverse ++ acc) := by
  induction ha with
  | nil => intros; rfl
  | @char c s h t ih =>
    intro r acc hr
    obtain ⟨h1, h2, h3, h4⟩ := h
    obtain ⟨x, xs, hx⟩ := List.exists_cons_of_ne_nil (show s ++ r ≠ [] by simp [hr])
    rw [List.cons_append, hx, scanArg, if_neg h1, if_neg h2, if_neg h3,
      if_neg (by simp [h4]), ← hx, ih r _ hr]
    simp
  | @esc c s t ih =>
    intro r acc hr
    rw [List.cons_append, List.cons_append, scanArg, if_pos rfl, ih r _ hr]
    simp
  | @paren s t hs ht iht =>
    intro r acc hr
    have e : (40 :: (s ++ 41 :: t)) ++ r = 40 :: (s ++ (41 :: (t ++ r))) := by simp
    rw [e]
    obtain ⟨x, xs, hx⟩ := List.exists_cons_of_ne_nil (show s ++ (41 :: (t ++ r)) ≠ [] by simp)
    rw [hx, scanArg, if_neg (by decide), if_pos rfl, ← hx,
      scanArg_balanced hs (41 :: (t ++ r)) (0+1) _ (by simp) (by omega)]
    obtain ⟨y, ys, hy⟩ := List.exists_cons_of_ne_nil (show t ++ r ≠ [] by simp [hr])
    rw [hy, scanArg, if_neg (by decide), if_neg (by decide), if_pos rfl, if_neg (by omega), ← hy,
      show (0 : Int) + 1 - 1 = 0 by omega, iht r _ hr]
    simp

theorem scanArg_stop (t : UInt8) (ht : t = 41 ∨ t = 44) (rest acc : Str) :
    scanArg (t :: rest) 0 acc = some (acc.reverse, t, rest) := by
  cases rest with
  | nil => rcases ht with rfl | rfl <;> simp [scanArg]
  | cons x xs => rcases ht with rfl | rfl <;> simp [scanArg]

theorem dropWhile_sp (n : Nat) (s : Str) (h : s.head? ≠ some 32) :
    (List.replicate n (32 : UInt8) ++ s).dropWhile (· == 32) = s := by
  induction n with
  | zero =>
    cases s with
    | nil => rfl
    | cons c s =>
      have : c ≠ 32 := by rintro rfl; exact h rfl
      simp [this]
  | succ n ih => rw [List.replicate_succ, List.cons_append, List.dropWhile_cons, if_pos (by decide), ih]

theorem ArgsText.head {s : Str} {args : List Str} (h : ArgsText s args) : s.head? ≠ some 32 := by
  have aux : ∀ a r : Str, IsArg a → (a ++ r).head? ≠ some 32 := by
    rintro a r ⟨_, h1, h2⟩
    cases a with
    | nil => exact absurd rfl h1
    | cons c a => simpa using h2
  cases h with
  | last h => exact aux _ _ h
  | more n h t => exact aux _ _ h

theorem fnArgs_spec {s : Str} {args : List Str} (h : ArgsText s args) :
    ∀ (n : Nat) (acc : List Str), args.length ≤ n → acc.length + args.length ≤ 5 →
    fnArgs n s acc = .ok (some (acc ++ args)) := by
  induction h with
  | @last a rest h =>
    intro n acc hn hl
    obtain ⟨n, rfl⟩ : ∃ m, n = m + 1 := ⟨n - 1, by simp at hn; omega⟩
    rw [fnArgs, scanArg_arg h.1 _ _ (by simp), scanArg_stop 41 (.inl rfl)]
    simp only [List.length_cons, List.length_nil] at hl
    simp [h.2.1]
    omega
  | @more a s args k h t ih =>
    intro n acc hn hl
    simp only [List.length_cons] at hn hl
    obtain ⟨n, rfl⟩ : ∃ m, n = m + 1 := ⟨n - 1, by omega⟩
    rw [fnArgs, scanArg_arg h.1 _ _ (by simp), scanArg_stop 44 (.inr rfl)]
    have hne : a ≠ [] := h.2.1
    simp only [List.append_nil, List.reverse_reverse]
    rw [if_neg (by omega), if_pos hne, if_neg (by decide), dropWhile_sp k s t.head,
      ih n (acc ++ [a]) (by omega) (by simp only [List.length_append, List.length_singleton]; omega)]
    simp

theorem splitAtByte_first (b : UInt8) : ∀ (s rest : Str), b ∉ s →
    splitAtByte b (s ++ b :: rest) = some (s, rest)
  | [], rest, _ => by simp [splitAtByte]
  | c :: s, rest, h => by
    have hc : c ≠ b := by rintro rfl; simp at h
    rw [List.cons_append, splitAtByte, if_neg hc,
      splitAtByte_first b s rest (fun h' => h (List.mem_cons_of_mem _ h'))]
    rfl

theorem ArgsText.length_le {s : Str} {args : List Str} (h : ArgsText s args) : args.length ≤ s.length := by
  induction h with
  | last h => simp; omega
  | more n h t ih => simp; omega

/-- C29. `name(arg1, ..., argn)` with one to five arguments, any spaces after the
parenthesis and the commas and anything after the closing parenthesis, is split
into exactly that name and those arguments. -/
theorem C29_split_arguments (name : Str) (hn : (40 : UInt8) ∉ name) (k : Nat) (s : Str)
    (args : List Str) (h : ArgsText s args) (h5 : args.length ≤ 5) :
    parseFn (name ++ 40 :: (List.replicate k 32 ++ s)) = .ok (some (name, args)) := by
  unfold parseFn
  rw [splitAtByte_first 40 name _ hn]
  dsimp only
  rw [dropWhile_sp k s h.head, fnArgs_spec h _ [] ?_ (by simpa using h5)]
  · rfl
  · have := h.length_le
    simp
    omega

/-- C29. `name()` has no arguments. -/
theorem C29_no_arguments (name : Str) (hn : (40 : UInt8) ∉ name) (k : Nat) (rest : Str) :
    parseFn (name ++ 40 :: (List.replicate k 32 ++ 41 :: rest)) = .ok (some (name, [])) := by
  unfold parseFn
  rw [splitAtByte_first 40 name _ hn]
  dsimp only
  rw [dropWhile_sp k (41 :: rest) (by simp), fnArgs, scanArg_stop 41 (.inl rfl)]
  simp

/-- A sixth argument stops the daemon (assert at config.c:457). -/
theorem C29_six_arguments_assert : parseFn b!"f(a,b,c,d,e,f)" =
    .error (.assertFail "parse_fn: *nargs < 5") := by decide +kernel

/-- Non-vacuity: nested call with commas and an escaped parenthesis. -/
example : ArgsText b!"nav, timeout(a, 200, b), macro(\\)))" [b!"nav", b!"timeout(a, 200, b)", b!"macro(\\))"] ∧
    parseFn b!"f(nav, timeout(a, 200, b), macro(\\)))" =
      .ok (some (b!"f", [b!"nav", b!"timeout(a, 200, b)", b!"macro(\\))"])) := by
  constructor
  · exact ArgsText.more (a := b!"nav") 1 ⟨by repeat (first | exact .nil | refine .char (by decide) ?_), by simp, by simp⟩
      (ArgsText.more (a := b!"timeout(a, 200, b)") 1 ⟨by
        iterate 7 refine .char (by decide) ?_
        refine ArgText.paren (s := b!"a, 200, b") ?_ .nil
        repeat (first | exact .nil | refine .char (by decide) ?_), by simp, by simp⟩
      (ArgsText.last (a := b!"macro(\\))") (rest := []) ⟨by
        iterate 5 refine .char (by decide) ?_
        exact ArgText.paren (s := b!"\\)") (.esc .nil) .nil, by simp, by simp⟩))
  · decide +kernel

end Keyd
