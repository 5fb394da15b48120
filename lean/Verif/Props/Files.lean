import Verif.Spec.File
import Verif.Proofs.Sat

/-
  C47, C53: reading config files.
-/

set_option autoImplicit false

namespace Keyd

theorem prefix_line {p : Str} (hp : 10 ∉ p) (x : Str) : ∀ (l : Str), isPrefix p (l ++ 10 :: x) = isPrefix p l := by
  unfold isPrefix
  induction p with
  | nil => intro l; cases l <;> rfl
  | cons c p ih =>
    intro l
    have hc : c ≠ 10 := fun h => hp (h ▸ List.mem_cons_self ..)
    cases l with
    | nil =>
      show ((c == 10) && _) = false
      rw [beq_false_of_ne hc]
      rfl
    | cons a l =>
      show ((c == a) && p.isPrefixOf (l ++ 10 :: x)) = ((c == a) && p.isPrefixOf l)
      rw [ih (fun h => hp (List.mem_cons_of_mem _ h)) l]

theorem takeWhile_nul {l x : Str} (h : 0 ∉ l) : (l ++ 0 :: x).takeWhile (· ≠ 0) = l := by
  induction l with
  | nil => rfl
  | cons a l ih =>
    have ha : a ≠ 0 := fun e => h (e ▸ List.mem_cons_self ..)
    rw [List.cons_append, List.takeWhile_cons_of_pos (by simpa using ha), ih (fun m => h (List.mem_cons_of_mem _ m))]

theorem dropSpaces_nul (l x : Str) : (l ++ 0 :: x).dropWhile (· = 32) = l.dropWhile (· = 32) ++ 0 :: x := by
  induction l with
  | nil => rfl
  | cons a l ih =>
    by_cases ha : a = 32
    · rw [List.cons_append, List.dropWhile_cons_of_pos (by simpa using ha), List.dropWhile_cons_of_pos (by simpa using ha), ih]
    · rw [List.cons_append, List.dropWhile_cons_of_neg (by simpa using ha), List.dropWhile_cons_of_neg (by simpa using ha)]
      rfl

theorem strlenIn_nul {l x : Str} (h : 0 ∉ l) (what : String) : strlenIn (l ++ 0 :: x) what = .ok l.length := by
  unfold strlenIn
  rw [if_pos (by simp), takeWhile_nul h]

theorem fgets_line (rest : Str) : ∀ (l : Str) (n : Nat), 10 ∉ l → l.length < n → fgetsTake n (l ++ 10 :: rest) = (l ++ [10], rest)
  | [], n+1, _, _ => by unfold fgetsTake; rfl
  | a :: l, n+1, h, hn => by
    have ha : a ≠ 10 := fun e => h (e ▸ List.mem_cons_self ..)
    show (if a = 10 then ([10], l ++ 10 :: rest) else
      (a :: (fgetsTake n (l ++ 10 :: rest)).1, (fgetsTake n (l ++ 10 :: rest)).2)) = _
    rw [if_neg ha, fgets_line rest l n (fun m => h (List.mem_cons_of_mem _ m)) (Nat.lt_of_succ_lt_succ hn)]
    rfl

theorem fgets_last : ∀ (l : Str) (n : Nat), 10 ∉ l → l.length ≤ n → fgetsTake n l = (l, [])
  | [], 0, _, _ => rfl
  | [], n+1, _, _ => rfl
  | a :: l, n+1, h, hn => by
    have ha : a ≠ 10 := fun e => h (e ▸ List.mem_cons_self ..)
    show (if a = 10 then _ else _) = _
    rw [if_neg ha, fgets_last l n (fun m => h (List.mem_cons_of_mem _ m)) (Nat.le_of_succ_le_succ hn)]

theorem includeOf_prefix {l : Str} : includeOf l = (if isPrefix b!"include " l then some ((l.drop 8).dropWhile (· = 32)) else none) := by
  unfold includeOf isPrefix
  by_cases h : b!"include " <+: l
  · rw [if_pos h, if_pos (List.isPrefixOf_iff_prefix.2 h)]
  · rw [if_neg h, if_neg (fun h' => h (List.isPrefixOf_iff_prefix.1 h'))]

/-- The outcome for a terminated line stored in `line`. -/
theorem plain_line {l x text : Str} (h0 : 0 ∉ l) : readPlain ⟨l ++ 10 :: 0 :: x, text⟩ (l.length + 1) =
    if text.length + (l.length + 1) + 1 > MAX_FILE_SZ then .error (.oob "read_file: strcpy writes past buf")
    else .ok ⟨l ++ 10 :: 0 :: x, text ++ (l ++ [10])⟩ := by
  unfold readPlain
  dsimp only
  have e : strlenIn (l ++ 10 :: 0 :: x) "read_file: strcpy reads past line" = .ok (l.length + 1) := by
    have := strlenIn_nul (l := l ++ [10]) (x := x) (by simp [h0]) "read_file: strcpy reads past line"
    rw [List.append_assoc, List.length_append] at this
    exact this
  rw [e]
  show (if _ then _ else _) = _
  have e2 : (l ++ 10 :: 0 :: x).take (l.length + 1) = l ++ [10] := by
    have : l ++ 10 :: 0 :: x = (l ++ [10]) ++ 0 :: x := by rw [List.append_assoc]; rfl
    rw [this, List.take_left' (by simp)]
  rw [e2]

/-- The outcome for an include line stored in `line` (whatever comes after it). -/
theorem include_line {fs : Files} {path l x text : Str} (h0 : 0 ∉ l) (hp : isPrefix b!"include " l = true) :
    ∃ line', line'.length = l.length + 1 + x.length ∧ (x.getLast? = some 0 → line'.getLast? = some 0) ∧
      readInclude fs path ⟨l ++ 10 :: x, text⟩ (l.length + 1) = ⟨line', text ++ (expandLine fs path l).take (MAX_FILE_SZ - text.length)⟩ := by
  have h8 : b!"include ".length ≤ l.length := (List.isPrefixOf_iff_prefix.1 hp).length_le
  have h8 : 8 ≤ l.length := h8
  have e1 : (l ++ 10 :: x).set l.length 0 = l ++ 0 :: x := by
    rw [List.set_append_right _ _ (Nat.le_refl _), Nat.sub_self]
    rfl
  have e2 : (((l ++ 0 :: x).drop 8).dropWhile (· = 32)).takeWhile (· ≠ 0) = (l.drop 8).dropWhile (· = 32) := by
    rw [List.drop_append_of_le_length h8, dropSpaces_nul, takeWhile_nul]
    intro hm
    exact h0 (List.mem_of_mem_drop ((List.dropWhile_suffix _).mem hm))
  have e3 : expandLine fs path l = match resolveInclude fs path ((l.drop 8).dropWhile (· = 32)) with
      | none => [] | some p => (fs p).getD [] := by
    unfold expandLine
    rw [includeOf_prefix, if_pos hp]
    rfl
  refine ⟨l ++ 0 :: x, ?_, ?_, ?_⟩
  · rw [List.length_append, List.length_cons]
    omega
  · intro hx
    cases x with
    | nil => cases hx
    | cons a x =>
      rw [List.getLast?_append, List.getLast?_cons_cons, hx]
      rfl
  · unfold readInclude
    dsimp only
    rw [Nat.add_sub_cancel, e1, e2, e3]
    cases resolveInclude fs path ((l.drop 8).dropWhile (· = 32)) with
    | none => simp
    | some p => rfl

theorem bind_some {r : Res Reading} {r' : Reading} (h : r = .ok r') : (do return some (← r) : Res (Option Reading)) = .ok (some r') := by
  rw [h]; rfl

/-- One tidy line: too much, out of bounds by exactly one byte, or read. -/
theorem readLine_tidy {fs : Files} {path l x text : Str} (hl : TidyLine l) :
    (l.length + 1 + text.length > MAX_FILE_SZ ∧ readLine fs path ⟨l ++ 10 :: 0 :: x, text⟩ = .ok none) ∨
    (l.length + 1 + text.length = MAX_FILE_SZ ∧ includeOf l = none ∧
      readLine fs path ⟨l ++ 10 :: 0 :: x, text⟩ = .error (.oob "read_file: strcpy writes past buf")) ∨
    (∃ line', line'.length = l.length + 2 + x.length ∧ ((0 :: x).getLast? = some 0 → line'.getLast? = some 0) ∧
      (l.length + 1 + text.length ≤ MAX_FILE_SZ ∧ (includeOf l = none → l.length + 1 + text.length < MAX_FILE_SZ)) ∧
      readLine fs path ⟨l ++ 10 :: 0 :: x, text⟩ =
        .ok (some ⟨line', text ++ (expandLine fs path l).take (MAX_FILE_SZ - text.length)⟩)) := by
  obtain ⟨h1, h2, h3⟩ := hl
  have e0 : strlenIn (l ++ 10 :: 0 :: x) "read_file: strlen" = .ok (l.length + 1) := by
    have := strlenIn_nul (l := l ++ [10]) (x := x) (by simp [h2]) "read_file: strlen"
    rw [List.append_assoc, List.length_append] at this
    exact this
  have e1 : (l ++ 10 :: 0 :: x)[l.length]? = some 10 := by
    rw [List.getElem?_append_right (Nat.le_refl _), Nat.sub_self]; rfl
  have e2 : readLine fs path ⟨l ++ 10 :: 0 :: x, text⟩ =
      (if l.length + 1 + text.length > MAX_FILE_SZ then .ok none
      else if isPrefix b!"include " (l ++ 10 :: 0 :: x) then .ok (some (readInclude fs path ⟨l ++ 10 :: 0 :: x, text⟩ (l.length + 1)))
      else (do return some (← readPlain ⟨l ++ 10 :: 0 :: x, text⟩ (l.length + 1)) : Res (Option Reading))) := by
    unfold readLine
    dsimp only
    rw [e0, show ∀ (f : Nat → Res (Option Reading)), ((Except.ok (l.length + 1) : Res Nat) >>= f) = f (l.length + 1) from fun _ => rfl]
    rw [if_neg (Nat.succ_ne_zero _), Nat.add_sub_cancel, e1]
    rfl
  rw [e2]
  by_cases hbig : l.length + 1 + text.length > MAX_FILE_SZ
  · left
    rw [if_pos hbig]
    exact ⟨hbig, rfl⟩
  · right
    rw [if_neg hbig, prefix_line (by decide)]
    by_cases hp : isPrefix b!"include " l = true
    · right
      rw [if_pos hp]
      obtain ⟨line', g1, g2, g3⟩ := include_line (fs := fs) (path := path) (x := 0 :: x) (text := text) h2 hp
      refine ⟨line', ?_, g2, ⟨Nat.le_of_not_lt hbig, ?_⟩, ?_⟩
      · rw [g1, List.length_cons]; omega
      · rw [includeOf_prefix, if_pos hp]
        intro h; cases h
      · rw [g3]
    · rw [if_neg hp, plain_line h2]
      have hinc : includeOf l = none := by rw [includeOf_prefix, if_neg hp]
      by_cases hfull : text.length + (l.length + 1) + 1 > MAX_FILE_SZ
      · left
        rw [if_pos hfull]
        refine ⟨by omega, hinc, rfl⟩
      · right
        rw [if_neg hfull]
        refine ⟨l ++ 10 :: 0 :: x, ?_, ?_, ⟨Nat.le_of_not_lt hbig, fun _ => by omega⟩, ?_⟩
        · simp only [List.length_append, List.length_cons]; omega
        · intro hx
          rw [List.getLast?_append, List.getLast?_cons_cons, hx]
          rfl
        · unfold expandLine
          rw [hinc]
          dsimp only
          rw [List.take_of_length_le (by rw [List.length_append, List.length_singleton]; omega)]
          rfl

theorem overwrite_line {mem l : Str} (hm : mem.length = 257) : ∃ x, overwrite mem (l ++ [10] ++ [0]) = l ++ 10 :: 0 :: x ∧
    x.length = 257 - (l.length + 2) ∧ (mem.getLast? = some 0 → (0 :: x).getLast? = some 0) := by
  refine ⟨mem.drop (l.length + 2), ?_, ?_, ?_⟩
  · unfold overwrite
    simp [List.append_assoc]
  · rw [List.length_drop, hm]
  · intro h
    by_cases he : mem.drop (l.length + 2) = []
    · rw [he]; rfl
    · rw [List.getLast?_cons_of_ne_nil he, List.getLast?_drop, if_neg, h]
      intro hle
      exact he (List.drop_eq_nil_of_le hle)

theorem fileOf_cons (l : Str) (ls : List Str) : fileOf (l :: ls) = l ++ 10 :: fileOf ls := by
  unfold fileOf
  rw [List.map_cons, List.flatten_cons, List.append_assoc]
  rfl

theorem expand_cons (fs : Files) (path l : Str) (ls : List Str) : expand fs path (l :: ls) = expandLine fs path l ++ expand fs path ls := rfl

theorem readLoop_succ (fs : Files) (path : Str) (n : Nat) (s : Str) (r : Reading) : readLoop fs path (n + 1) s r =
    if s = [] then .ok (some r) else
      (readLine fs path ⟨overwrite r.line ((fgetsTake MAX_LINE_LEN s).1 ++ [0]), r.text⟩).bind (fun o => match o with
        | none => .ok none | some r => readLoop fs path n (fgetsTake MAX_LINE_LEN s).2 r) := rfl

/-- The loop over tidy lines, `tail` being what follows them in the file. -/
theorem readLoop_tidy {fs : Files} {path : Str} (tail : Str) : ∀ (ls : List Str) (n : Nat) (r : Reading), (∀ l ∈ ls, TidyLine l) → r.line.length = 257 →
    r.text.length ≤ MAX_FILE_SZ →
    (∃ r', readLoop fs path (n + ls.length) (fileOf ls ++ tail) r = readLoop fs path n tail r' ∧ r'.line.length = 257 ∧
      (r.line.getLast? = some 0 → r'.line.getLast? = some 0) ∧
      r'.text = (r.text ++ expand fs path ls).take MAX_FILE_SZ) ∨
    (readLoop fs path (n + ls.length) (fileOf ls ++ tail) r = .ok none ∧ (r.text ++ expand fs path ls).length + 256 > MAX_FILE_SZ) ∨
    (∃ e, readLoop fs path (n + ls.length) (fileOf ls ++ tail) r = .error e ∧ (r.text ++ expand fs path ls).length ≥ MAX_FILE_SZ)
  | [], n, r, _, h2, h3 => by
    left
    refine ⟨r, rfl, h2, id, ?_⟩
    rw [show expand fs path [] = [] from rfl, List.append_nil, List.take_of_length_le h3]
  | l :: ls, n, r, h1, h2, h3 => by
    have hl := h1 l (List.mem_cons_self ..)
    obtain ⟨x, e1, e2, e3⟩ := overwrite_line (l := l) h2
    have hstep : readLoop fs path (n + (l :: ls).length) (fileOf (l :: ls) ++ tail) r =
        (readLine fs path ⟨l ++ 10 :: 0 :: x, r.text⟩).bind (fun o => match o with
          | none => .ok none | some r => readLoop fs path (n + ls.length) (fileOf ls ++ tail) r) := by
      rw [List.length_cons, ← Nat.add_assoc, readLoop_succ, if_neg (by rw [fileOf_cons]; simp)]
      have : fgetsTake MAX_LINE_LEN (fileOf (l :: ls) ++ tail) = (l ++ [10], fileOf ls ++ tail) := by
        rw [fileOf_cons, List.append_assoc]
        exact fgets_line _ l _ hl.2.2 (Nat.lt_succ_of_le hl.1)
      rw [this]
      dsimp only
      rw [e1]
    rw [hstep]
    have elen : (r.text ++ expand fs path (l :: ls)).length = r.text.length + ((expandLine fs path l).length + (expand fs path ls).length) := by
      rw [expand_cons, List.length_append, List.length_append]
    rcases readLine_tidy (fs := fs) (path := path) (x := x) (text := r.text) hl with ⟨g1, g2⟩ | ⟨g1, g2, g3⟩ | ⟨line', g1, g2, g3, g4⟩
    · right; left
      rw [g2]
      refine ⟨rfl, ?_⟩
      have := hl.1
      omega
    · right; right
      rw [g3]
      refine ⟨_, rfl, ?_⟩
      have : expandLine fs path l = l ++ [10] := by unfold expandLine; rw [g2]
      rw [elen, this, List.length_append, List.length_singleton]
      omega
    · rw [g4]
      show _ ∨ (readLoop fs path (n + ls.length) (fileOf ls ++ tail) _ = _ ∧ _) ∨ _
      have ht : r.text ++ (expandLine fs path l).take (MAX_FILE_SZ - r.text.length) = (r.text ++ expandLine fs path l).take MAX_FILE_SZ := by
        rw [List.take_append, List.take_of_length_le h3]
      have hlen : ((r.text ++ expandLine fs path l).take MAX_FILE_SZ).length ≤ MAX_FILE_SZ := List.length_take_le _ _
      have ih := readLoop_tidy (fs := fs) (path := path) tail ls n ⟨line', (r.text ++ expandLine fs path l).take MAX_FILE_SZ⟩
        (fun l' hl' => h1 l' (List.mem_cons_of_mem _ hl')) (by dsimp only; rw [g1, e2]; have := hl.1; omega) hlen
      have hle : ((r.text ++ expandLine fs path l).take MAX_FILE_SZ ++ expand fs path ls).length ≤ (r.text ++ expand fs path (l :: ls)).length := by
        rw [elen, List.length_append, List.length_take, List.length_append]
        omega
      rw [ht]
      rcases ih with ⟨r', i1, i2, i3, i4⟩ | ⟨i1, i2⟩ | ⟨e, i1, i2⟩
      · left
        refine ⟨r', i1, i2, fun h => i3 (g2 (e3 h)), ?_⟩
        rw [i4, expand_cons, ← List.append_assoc]
        dsimp only
        rw [List.take_append, List.take_take, Nat.min_self, List.take_append (l₁ := r.text ++ expandLine fs path l), List.length_take]
        congr 2
        omega
      · right; left
        exact ⟨i1, Nat.lt_of_lt_of_le i2 (Nat.add_le_add_right hle _)⟩
      · right; right
        exact ⟨e, i1, Nat.le_trans i2 hle⟩

theorem readLoop_end (fs : Files) (path : Str) (n : Nat) (r : Reading) : readLoop fs path n [] r = .ok (some r) := by
  cases n with
  | zero => rfl
  | succ n => rw [readLoop_succ, if_pos rfl]

theorem length_le_fileOf : ∀ (ls : List Str), ls.length ≤ (fileOf ls).length
  | [] => Nat.le_refl _
  | l :: ls => by
    have := length_le_fileOf ls
    rw [fileOf_cons, List.length_append, List.length_cons, List.length_cons]
    omega

/-- The end of `read_file`. -/
def readEnd : Option Reading → Res (Option Str)
  | none => .ok none
  | some r => if r.text.length ≥ MAX_FILE_SZ then .error (.oob "read_file: buf[sz] = 0") else .ok (some r.text)

theorem readFile_eq {fs : Files} {stack path s : Str} (hf : fs path = some s) :
    readFile fs stack path = (readLoop fs path s.length s ⟨stack, []⟩).bind readEnd := by
  unfold readFile
  rw [hf]
  show (readLoop fs path s.length s ⟨stack, []⟩).bind _ = _
  congr 1

theorem readEnd_some (r : Reading) : (Except.ok (some r) : Res (Option Reading)).bind readEnd =
    if r.text.length ≥ MAX_FILE_SZ then .error (.oob "read_file: buf[sz] = 0") else .ok (some r.text) := rfl

/-- C47. A config file of ordinary lines, however many, with any includes: reading it fails cleanly, or gives the text it
stands for, which fits the buffer with its terminator; only if that text is 65536 bytes or longer can a byte be stored
outside the buffer. -/
theorem C47_tidy_partial {fs : Files} {stack path : Str} {ls : List Str} (hs : stack.length = 257) (hf : fs path = some (fileOf ls))
    (hl : ∀ l ∈ ls, TidyLine l) :
    readFile fs stack path = .ok none ∧ 65536 < (expand fs path ls).length + 256 ∨
    readFile fs stack path = .ok (some (expand fs path ls)) ∧ (expand fs path ls).length + 1 ≤ 65536 ∨
    (∃ e, readFile fs stack path = .error e) ∧ 65536 ≤ (expand fs path ls).length := by
  have hlen := length_le_fileOf ls
  have h := readLoop_tidy (fs := fs) (path := path) [] ls ((fileOf ls).length - ls.length) ⟨stack, []⟩ hl hs (Nat.zero_le _)
  rw [List.append_nil, Nat.sub_add_cancel hlen] at h
  rw [readFile_eq hf]
  rcases h with ⟨r', h1, h2, h3, h4⟩ | ⟨h1, h2⟩ | ⟨e, h1, h2⟩
  · rw [h1, readLoop_end, readEnd_some]
    have h4 : r'.text = (expand fs path ls).take MAX_FILE_SZ := h4
    by_cases hb : MAX_FILE_SZ ≤ (expand fs path ls).length
    · right; right
      refine ⟨⟨_, if_pos ?_⟩, hb⟩
      rw [h4, List.length_take, Nat.min_eq_left hb]
      exact Nat.le_refl _
    · right; left
      have hb := Nat.lt_of_not_le hb
      rw [h4, List.take_of_length_le (Nat.le_of_lt hb), if_neg (Nat.not_le.2 hb)]
      exact ⟨rfl, hb⟩
  · left
    rw [h1]
    exact ⟨rfl, h2⟩
  · right; right
    rw [h1]
    exact ⟨⟨e, rfl⟩, h2⟩

/-- C47, C53. So a file that leaves room for one more line is read, and what the parser gets is the text with
every include line replaced by the included file. -/
theorem C53_included {fs : Files} {stack path : Str} {ls : List Str} (hs : stack.length = 257) (hf : fs path = some (fileOf ls))
    (hl : ∀ l ∈ ls, TidyLine l) (room : (expand fs path ls).length + 256 ≤ 65536) :
    readFile fs stack path = .ok (some (expand fs path ls)) := by
  rcases C47_tidy_partial hs hf hl with ⟨_, h⟩ | ⟨h, _⟩ | ⟨_, h⟩
  · omega
  · exact h
  · omega

theorem nul_takeWhile : ∀ (l : Str), (0 : UInt8) ∉ l.takeWhile (· ≠ 0)
  | [] => List.not_mem_nil
  | a :: l => by
    by_cases ha : a = 0
    · rw [List.takeWhile_cons_of_neg (by simpa using ha)]
      exact List.not_mem_nil
    · rw [List.takeWhile_cons_of_pos (by simpa using ha)]
      intro h
      rcases List.mem_cons.1 h with h | h
      · exact ha h.symm
      · exact nul_takeWhile l h

/-- The last line without a newline, in memory. -/
theorem readLine_last {fs : Files} {path l x text : Str} (hl : TidyLine l) (hne : l ≠ []) (hx : x.getLast? = some 0)
    (hxl : l.length + 1 + x.length = 257) (room : text.length + (expandLine fs path l).length + 257 ≤ MAX_FILE_SZ) :
    ∃ line', readLine fs path ⟨l ++ 0 :: x, text⟩ = .ok (some ⟨line', text ++ expandLine fs path l⟩) := by
  obtain ⟨h1, h2, h3⟩ := hl
  have e0 := strlenIn_nul (x := x) h2 "read_file: strlen"
  have hpos : l.length ≠ 0 := fun h => hne (List.length_eq_zero_iff.1 h)
  have e1 : decide ((l ++ 0 :: x)[l.length - 1]? = some 10) = false := by
    apply decide_eq_false
    rw [List.getElem?_append_left (by omega)]
    intro h
    exact h3 (List.mem_of_getElem? h)
  have e3 : (l ++ 0 :: x).set l.length 10 = l ++ 10 :: x := by
    rw [List.set_append_right _ _ (Nat.le_refl _), Nat.sub_self]
    rfl
  have e2 : readLine fs path ⟨l ++ 0 :: x, text⟩ =
      (if l.length + 1 + text.length > MAX_FILE_SZ then .ok none
      else if isPrefix b!"include " (l ++ 10 :: x) then .ok (some (readInclude fs path ⟨l ++ 10 :: x, text⟩ (l.length + 1)))
      else (do return some (← readPlain ⟨l ++ 10 :: x, text⟩ (l.length + 1)) : Res (Option Reading))) := by
    unfold readLine
    dsimp only
    rw [e0, show ∀ (f : Nat → Res (Option Reading)), ((Except.ok l.length : Res Nat) >>= f) = f l.length from fun _ => rfl]
    rw [if_neg hpos, e1, if_neg (by rintro ⟨_, h⟩; exact absurd h (Nat.not_le.2 (Nat.lt_succ_of_le h1))), e3]
    rfl
  rw [e2, if_neg (by omega), prefix_line (by decide)]
  by_cases hp : isPrefix b!"include " l = true
  · rw [if_pos hp]
    obtain ⟨line', g1, g2, g3⟩ := include_line (fs := fs) (path := path) (x := x) (text := text) h2 hp
    refine ⟨line', ?_⟩
    rw [g3, List.take_of_length_le (by omega)]
  · rw [if_neg hp]
    have hinc : includeOf l = none := by rw [includeOf_prefix, if_neg hp]
    have hexp : expandLine fs path l = l ++ [10] := by unfold expandLine; rw [hinc]
    refine ⟨l ++ 10 :: x, bind_some ?_⟩
    unfold readPlain
    dsimp only
    have hc : (l ++ 10 :: x).contains 0 = true := by
      rw [List.contains_eq_mem]
      apply decide_eq_true
      exact List.mem_append_right _ (List.mem_cons_of_mem _ (List.mem_of_getLast? hx))
    have hn : ((l ++ 10 :: x).takeWhile (· ≠ 0)).length ≤ 257 := by
      refine Nat.le_trans (List.takeWhile_prefix _).length_le ?_
      rw [List.length_append, List.length_cons]
      omega
    have hn' : ((l ++ 10 :: x).takeWhile (· ≠ 0)).length ≠ 257 := by
      intro he
      have h5 := (List.takeWhile_prefix (· ≠ 0) (l := l ++ 10 :: x)).eq_of_length (by
        rw [he, List.length_append, List.length_cons]; omega)
      have h6 : (0 : UInt8) ∈ (l ++ 10 :: x).takeWhile (· ≠ 0) := by rw [h5]; simpa using hc
      exact nul_takeWhile _ h6
    unfold strlenIn
    rw [if_pos hc]
    show (if _ then _ else _) = _
    rw [if_neg (by omega), hexp]
    congr 2
    have : l ++ 10 :: x = (l ++ [10]) ++ x := by rw [List.append_assoc]; rfl
    rw [this, List.take_left' (by simp)]

/-- C47. A last line without a newline is read too, if the array `line` happens to end in a NUL byte. -/
theorem C53_last_line_partial {fs : Files} {stack path last : Str} {ls : List Str} (hs : stack.length = 257) (hz : stack.getLast? = some 0)
    (hf : fs path = some (fileOf ls ++ last)) (hl : ∀ l ∈ ls, TidyLine l) (ht : TidyLine last) (hne : last ≠ [])
    (room : (expand fs path (ls ++ [last])).length + 257 ≤ 65536) :
    readFile fs stack path = .ok (some (expand fs path (ls ++ [last]))) := by
  have hlen := length_le_fileOf ls
  have hexp : expand fs path (ls ++ [last]) = expand fs path ls ++ expandLine fs path last := by
    unfold expand
    rw [List.map_append, List.flatten_append]
    simp
  rw [hexp, List.length_append] at room
  have h := readLoop_tidy (fs := fs) (path := path) last ls ((fileOf ls ++ last).length - ls.length) ⟨stack, []⟩ hl hs (Nat.zero_le _)
  rw [Nat.sub_add_cancel (by rw [List.length_append]; omega)] at h
  rw [readFile_eq hf]
  have hM : MAX_FILE_SZ = 65536 := rfl
  rcases h with ⟨r', h1, h2, h3, h4⟩ | ⟨h1, h2⟩ | ⟨e, h1, h2⟩
  · have h4 : r'.text = (expand fs path ls).take MAX_FILE_SZ := h4
    rw [List.take_of_length_le (by omega)] at h4
    obtain ⟨n, hn⟩ : ∃ n, (fileOf ls ++ last).length - ls.length = n + 1 := by
      have : last.length ≠ 0 := fun h => hne (List.length_eq_zero_iff.1 h)
      refine ⟨(fileOf ls ++ last).length - ls.length - 1, ?_⟩
      rw [List.length_append]
      omega
    rw [h1, hn, readLoop_succ, if_neg hne, fgets_last last MAX_LINE_LEN ht.2.2 (Nat.le_succ_of_le ht.1)]
    dsimp only
    have hov : overwrite r'.line (last ++ [0]) = last ++ 0 :: r'.line.drop (last.length + 1) := by
      unfold overwrite
      simp [List.append_assoc]
    have h255 := ht.1
    have hlast : (r'.line.drop (last.length + 1)).getLast? = some 0 := by
      rw [List.getLast?_drop, if_neg (by omega)]
      exact h3 hz
    obtain ⟨line', hr⟩ := readLine_last (fs := fs) (path := path) (text := r'.text) ht hne hlast (by rw [List.length_drop]; omega)
      (by rw [h4]; omega)
    rw [hov, hr]
    show (readLoop fs path n [] _).bind readEnd = _
    rw [readLoop_end, readEnd_some, if_neg, h4, hexp]
    dsimp only
    rw [h4, List.length_append]
    omega
  · rw [show ([] : Str) ++ expand fs path ls = expand fs path ls from rfl] at h2
    omega
  · rw [show ([] : Str) ++ expand fs path ls = expand fs path ls from rfl] at h2
    omega

/-! ### Examples and the missing part -/

/-- C47 fails: a file of ordinary lines of exactly 65536 bytes passes the size checks, and the terminator is stored one
byte past the end of the buffer. -/
theorem C47_fails_full {fs : Files} {stack path : Str} {ls : List Str} (hs : stack.length = 257) (hf : fs path = some (fileOf ls))
    (hl : ∀ l ∈ ls, TidyLine l ∧ includeOf l = none) (full : (fileOf ls).length = 65536) :
    readFile fs stack path = .error (.oob "read_file: strcpy writes past buf") := by
  have key : ∀ (ls : List Str) (r : Reading) (n : Nat), (∀ l ∈ ls, TidyLine l ∧ includeOf l = none) → r.line.length = 257 → ls ≠ [] →
      r.text.length + (fileOf ls).length = MAX_FILE_SZ → readLoop fs path (n + ls.length) (fileOf ls) r = .error (.oob "read_file: strcpy writes past buf") := by
    intro ls
    induction ls with
    | nil => intro r n _ _ h; exact absurd rfl h
    | cons l ls ih =>
      intro r n h1 h2 _ h4
      obtain ⟨ht, hinc⟩ := h1 l (List.mem_cons_self ..)
      obtain ⟨x, e1, e2, e3⟩ := overwrite_line (l := l) h2
      have hfg : fgetsTake MAX_LINE_LEN (fileOf (l :: ls)) = (l ++ [10], fileOf ls) := by
        rw [fileOf_cons]
        exact fgets_line _ l _ ht.2.2 (Nat.lt_succ_of_le ht.1)
      have hstep : readLoop fs path (n + (l :: ls).length) (fileOf (l :: ls)) r =
          (readLine fs path ⟨l ++ 10 :: 0 :: x, r.text⟩).bind (fun o => match o with
            | none => .ok none | some r => readLoop fs path (n + ls.length) (fileOf ls) r) := by
        rw [List.length_cons, ← Nat.add_assoc, readLoop_succ, if_neg (by rw [fileOf_cons]; simp), hfg]
        dsimp only
        rw [e1]
      rw [hstep]
      rw [fileOf_cons, List.length_append, List.length_cons] at h4
      rcases readLine_tidy (fs := fs) (path := path) (x := x) (text := r.text) ht with ⟨g1, g2⟩ | ⟨g1, g2, g3⟩ | ⟨line', g1, g2, g3, g4⟩
      · omega
      · rw [g3]; rfl
      · rw [g4]
        have g5 := g3.2 hinc
        have hexp : expandLine fs path l = l ++ [10] := by unfold expandLine; rw [hinc]
        show readLoop fs path (n + ls.length) (fileOf ls) _ = _
        refine ih _ n (fun l' hl' => h1 l' (List.mem_cons_of_mem _ hl')) ?_ ?_ ?_
        · dsimp only; rw [g1, e2]; have := ht.1; omega
        · rintro rfl
          rw [show (fileOf []).length = 0 from rfl] at h4
          omega
        · dsimp only
          rw [hexp, List.take_of_length_le (by rw [List.length_append, List.length_singleton]; omega), List.length_append, List.length_append,
            List.length_singleton]
          omega
  have hlen := length_le_fileOf ls
  have h := key ls ⟨stack, []⟩ ((fileOf ls).length - ls.length) hl hs (by rintro rfl; cases full) (by
    show 0 + _ = _
    rw [full]; rfl)
  rw [Nat.sub_add_cancel hlen] at h
  rw [readFile_eq hf, h]
  rfl

/-- There are such files: 256 lines of 255 letters. -/
theorem C47_full_example : ∃ ls : List Str, (∀ l ∈ ls, TidyLine l ∧ includeOf l = none) ∧ (fileOf ls).length = 65536 := by
  refine ⟨List.replicate 256 (List.replicate 255 97), ?_, ?_⟩
  · intro l hl
    rw [(List.mem_replicate.1 hl).2]
    refine ⟨⟨by rw [List.length_replicate]; exact Nat.le_refl _, ?_, ?_⟩, ?_⟩
    · intro h; have := (List.mem_replicate.1 h).2; exact absurd this (by decide)
    · intro h; have := (List.mem_replicate.1 h).2; exact absurd this (by decide)
    · unfold includeOf
      rw [if_neg]
      rintro ⟨t, ht⟩
      rw [List.replicate_succ, List.cons_append] at ht
      injection ht with h1 h2
      exact absurd h1 (by decide)
  · unfold fileOf
    rw [List.map_replicate, List.length_flatten, List.map_replicate, List.sum_replicate_nat, List.length_append, List.length_replicate]
    rfl

def fileFs (text : Str) : Files := fun p => if p = b!"/etc/keyd/a.conf" then some text
  else if p = b!"/etc/keyd/common" then some b!"x = y\n"
  else if p = b!"/usr/local/share/keyd/layout" then some b!"q = w\n"
  else none

/-- C47 fails: a file without a final newline is copied from an array that need not contain a terminator (the first file is saved by what an earlier, longer line left there). -/
theorem C47_fails_unterminated : (match readFile (fileFs b!"[main]\na = b") (List.replicate 257 120) b!"/etc/keyd/a.conf" with
    | .error (.oob _) => false | _ => true) = true ∧
    (match readFile (fileFs b!"a = longer") (List.replicate 257 120) b!"/etc/keyd/a.conf" with
    | .error (.oob _) => true | _ => false) = true := by
  decide +kernel

/-- C47 fails: a line that begins with a NUL byte makes `read_file` look at `line[-1]`. -/
theorem C47_fails_nul : (match readFile (fileFs [97, 10, 0, 98, 10]) (List.replicate 257 0) b!"/etc/keyd/a.conf" with
    | .error (.oob _) => true | _ => false) = true := by
  decide +kernel

/-- Includes next to the config file and from the data directory, an unknown one, and one with an extension; the lines of an
included file are not searched for includes. -/
theorem C53_example : readFile (fileFs b!"[main]\ninclude  common\ninclude layout\ninclude none\ninclude common.conf\na = b\n")
    (List.replicate 257 120) b!"/etc/keyd/a.conf" = .ok (some b!"[main]\nx = y\nq = w\na = b\n") := by
  decide +kernel

/-- C53. An include name with a dot is not resolved. -/
theorem C53_no_extension {fs : Files} {path inc : Str} (h : 46 ∈ inc) : resolveInclude fs path inc = none := by
  unfold resolveInclude
  rw [if_pos (by simpa using h)]

/-- C53. A file in the directory of the config file is preferred to one in the data directory. -/
theorem C53_near_first {fs : Files} {dir name inc : Str} (hd : dir ≠ []) (hn : 47 ∉ name) (hi : 46 ∉ inc) :
    resolveInclude fs (dir ++ 47 :: name) inc =
      if (fs (dir ++ 47 :: inc)).isSome then some (dir ++ 47 :: inc)
      else if (fs (b!"/usr/local/share/keyd/" ++ inc)).isSome then some (b!"/usr/local/share/keyd/" ++ inc) else none := by
  have e : dirName (dir ++ 47 :: name) = dir := by
    unfold dirName
    have : ((dir ++ 47 :: name).reverse.dropWhile (· ≠ 47)).tail.reverse = dir := by
      rw [List.reverse_append, List.reverse_cons, List.append_assoc]
      have h : ∀ (l x : Str), 47 ∉ l → (l ++ 47 :: x).dropWhile (· ≠ 47) = 47 :: x := by
        intro l x hl
        induction l with
        | nil => rfl
        | cons a l ih =>
          have ha : a ≠ 47 := fun e => hl (e ▸ List.mem_cons_self ..)
          rw [List.cons_append, List.dropWhile_cons_of_pos (by simpa using ha), ih (fun m => hl (List.mem_cons_of_mem _ m))]
      rw [show ([47] : Str) ++ dir.reverse = 47 :: dir.reverse from rfl, h _ _ (by simpa using hn), List.tail_cons, List.reverse_reverse]
    rw [this]
    cases dir with
    | nil => exact absurd rfl hd
    | cons a l => rfl
  unfold resolveInclude
  rw [if_neg (by simpa using hi), e]
  rfl

end Keyd
