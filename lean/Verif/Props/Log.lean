import Verif.Model.Monitor

/-
  C79: the markup of log messages.
-/

set_option autoImplicit false

namespace Keyd

/-- A part of a message: text as it is, or text in a colour. -/
inductive Piece where
  | plain (text : Str)
  | coloured (colour : UInt8) (text : Str)

/-- The colours and the letter each is written with: red, green, yellow, blue, magenta, cyan, white. -/
def colourLetters : List (UInt8 × UInt8) := [(1, 114), (2, 103), (3, 121), (4, 98), (5, 109), (6, 99), (7, 119)]

/-- How a part is written in the source: `r{text}`. -/
inductive Marked : Piece → Str → Prop
  | plain (t : Str) (h : (123 : UInt8) ∉ t) : Marked (.plain t) t
  | coloured (n l : UInt8) (t : Str) (hl : (n, l) ∈ colourLetters) (h1 : (123 : UInt8) ∉ t) (h2 : (125 : UInt8) ∉ t) :
    Marked (.coloured n t) (l :: 123 :: (t ++ [125]))

/-- How it is shown: with the terminal's escape sequences for the colour and back, or without. -/
def Piece.shown (suppress : Bool) : Piece → Str
  | .plain t => t
  | .coloured n t => if suppress then t else [27, 91, 51, 48 + n, 109] ++ t ++ [27, 91, 48, 109]

/-- A message is written as the concatenation of its parts. -/
inductive MarkedText : List Piece → Str → Prop
  | nil : MarkedText [] []
  | cons {p : Piece} {ps : List Piece} {a b : Str} (h : Marked p a) (t : MarkedText ps b) : MarkedText (p :: ps) (a ++ b)

theorem colorizeLoop_nil (suppress inside : Bool) (out : Str) : colorizeLoop suppress [] inside out = out := by rw [colorizeLoop]

theorem colorizeLoop_step {suppress : Bool} {c : UInt8} {rest out : Str} {inside : Bool} (hl : out.length < 1024) (hr : rest.head? ≠ some 123)
    (hc : c = 125 → inside = false) : colorizeLoop suppress (c :: rest) inside out = colorizeLoop suppress rest inside (out ++ [c]) := by
  have hc2 : ¬ (c = 125 ∧ inside = true) := fun h => by rw [hc h.1] at h; cases h.2
  cases rest with
  | nil => rw [colorizeLoop_nil, colorizeLoop, if_pos hl, if_neg hc2]
  | cons c2 rest =>
    rw [colorizeLoop, if_pos hl, if_neg (fun h => hr (by rw [h.1]; rfl)), if_neg hc2]

theorem colorizeLoop_text {suppress : Bool} {inside : Bool} : ∀ (t rest out : Str), (123 : UInt8) ∉ t → (125 ∈ t → inside = false) →
    out.length + t.length ≤ 1024 → rest.head? ≠ some 123 →
    colorizeLoop suppress (t ++ rest) inside out = colorizeLoop suppress rest inside (out ++ t)
  | [], rest, out, _, _, _, _ => by simp
  | c :: t, rest, out, h1, h2, hl, hr => by
    rw [List.length_cons] at hl
    show colorizeLoop suppress (c :: (t ++ rest)) inside out = _
    rw [colorizeLoop_step (by omega) (by
      cases t with
      | nil => exact hr
      | cons d t => intro e; injection e with e; exact h1 (by rw [e]; simp)) (fun e => h2 (by rw [e]; exact List.mem_cons_self)),
      colorizeLoop_text t rest _ (fun h => h1 (List.mem_cons_of_mem _ h)) (fun h => h2 (List.mem_cons_of_mem _ h)) (by
        simp only [List.length_append, List.length_cons, List.length_nil]; omega) hr]
    simp

theorem markedText_head {ps : List Piece} {s : Str} (h : MarkedText ps s) : s.head? ≠ some 123 := by
  induction h with
  | nil => exact fun h => by cases h
  | @cons p ps a b h t ih =>
    cases h with
    | plain _ hn =>
      cases a with
      | nil => exact ih
      | cons c t => intro e; injection e with e; exact hn (by rw [e]; exact List.mem_cons_self)
    | coloured n l t hl h1 h2 =>
      intro e
      injection e with e
      rw [e] at hl
      revert hl
      simp only [colourLetters, List.mem_cons, Prod.mk.injEq, List.not_mem_nil, or_false]
      rintro (h | h | h | h | h | h | h) <;> exact absurd h.2 (by decide)

theorem colour_letter {n l : UInt8} (h : (n, l) ∈ colourLetters) : colourNumber l = n ∧ n ≠ 0 := by
  simp only [colourLetters, List.mem_cons, Prod.mk.injEq, List.not_mem_nil, or_false] at h
  rcases h with ⟨rfl, rfl⟩ | ⟨rfl, rfl⟩ | ⟨rfl, rfl⟩ | ⟨rfl, rfl⟩ | ⟨rfl, rfl⟩ | ⟨rfl, rfl⟩ | ⟨rfl, rfl⟩ <;> decide

theorem colorizeLoop_pieces (suppress : Bool) {ps : List Piece} {s : Str} (h : MarkedText ps s) : ∀ out : Str,
    out.length + (ps.flatMap (Piece.shown suppress)).length < 1024 →
    colorizeLoop suppress s false out = out ++ ps.flatMap (Piece.shown suppress) := by
  induction h with
  | nil => intro out _; simp [colorizeLoop]
  | @cons p ps a b h t ih =>
    intro out hl
    rw [List.flatMap_cons, List.length_append] at hl
    rw [List.flatMap_cons]
    cases h with
    | plain _ hn =>
      have hl2 : out.length + (a.length + (ps.flatMap (Piece.shown suppress)).length) < 1024 := hl
      rw [colorizeLoop_text a b out hn (fun _ => rfl) (by omega) (markedText_head t), ih _ (by
        rw [List.length_append]; omega)]
      simp [Piece.shown]
    | coloured n l t' hl' h1 h2 =>
      obtain ⟨e1, e2⟩ := colour_letter hl'
      have e : l :: 123 :: (t' ++ [125]) ++ b = l :: 123 :: (t' ++ 125 :: b) := by simp
      have hclose : ∀ o : Str, o.length < 1024 → colorizeLoop suppress (125 :: b) true o =
          colorizeLoop suppress b false (if ¬ suppress ∧ 1024 - o.length > 4 then o ++ [27, 91, 48, 109] else o) := by
        intro o ho
        cases b with
        | nil => rw [colorizeLoop_nil, colorizeLoop, if_pos ho, if_pos ⟨rfl, rfl⟩]
        | cons d b =>
          have hd : d ≠ 123 := fun h => markedText_head t (by rw [h]; rfl)
          rw [colorizeLoop, if_pos ho, if_neg (fun h => hd h.1), if_pos ⟨rfl, rfl⟩]
      rw [e, colorizeLoop, if_pos (by omega), if_pos ⟨rfl, by rw [e1]; exact e2⟩, e1]
      cases suppress with
      | true =>
        have hl2 : out.length + (t'.length + (ps.flatMap (Piece.shown true)).length) < 1024 := hl
        rw [if_neg (by simp), colorizeLoop_text t' (125 :: b) out h1 (fun h => absurd h h2) (by omega) (by
          intro h; injection h with h; exact absurd h (by decide)), hclose _ (by rw [List.length_append]; omega), if_neg (by simp), ih _ (by
          rw [List.length_append]; omega)]
        simp [Piece.shown]
      | false =>
        have hl2 : out.length + (([27, 91, 51, 48 + n, 109] ++ t' ++ [27, 91, 48, 109]).length + (ps.flatMap (Piece.shown false)).length) < 1024 := hl
        simp only [List.length_append, List.length_cons, List.length_nil] at hl2
        rw [if_pos ⟨by simp, by omega⟩, colorizeLoop_text t' (125 :: b) _ h1 (fun h => absurd h h2) (by
          simp only [List.length_append, List.length_cons, List.length_nil]; omega) (by
          intro h; injection h with h; exact absurd h (by decide)), hclose _ (by simp only [List.length_append, List.length_cons, List.length_nil]; omega),
          if_pos ⟨by simp, by simp only [List.length_append, List.length_cons, List.length_nil]; omega⟩, ih _ (by
          simp only [List.length_append, List.length_cons, List.length_nil]; omega)]
        simp [Piece.shown]

/-- C79. A message made of plain and coloured parts is shown as its parts in order: with colours, each coloured part between the escape sequences of its
colour and of the default; without, just the text; as long as what is shown is under 1024 bytes. -/
theorem C79_markup (suppress : Bool) {ps : List Piece} {s : Str} (h : MarkedText ps s)
    (hl : (ps.flatMap (Piece.shown suppress)).length < 1024) : colorize suppress s = .ok (ps.flatMap (Piece.shown suppress)) := by
  unfold colorize
  rw [colorizeLoop_pieces suppress h [] (by simpa using hl)]
  simp only [List.nil_append]
  rw [if_pos hl]

/-- C79 fails for a message of 1024 bytes: a NUL is written behind the buffer. -/
theorem C79_fails_long (suppress : Bool) (t : Str) (ht : (123 : UInt8) ∉ t) (hl : t.length = 1024) :
    colorize suppress t = .error (.oob "colorize: buf[n]") := by
  have h := colorizeLoop_text (suppress := suppress) (inside := false) t [] [] ht (fun _ => rfl) (by simp [hl]) (by simp)
  rw [List.append_nil] at h
  rw [colorizeLoop_nil, List.nil_append] at h
  unfold colorize
  rw [h]
  exact if_neg (by omega)

theorem C79_example : MarkedText [.coloured 1 b!"ERROR:", .plain b!" no } left"] b!"r{ERROR:} no } left" ∧
    (colorize false b!"r{ERROR:} no } left").toOption = some b!"\x1b[31mERROR:\x1b[0m no } left" ∧
    (colorize true b!"r{ERROR:} no } left").toOption = some b!"ERROR: no } left" := by
  refine ⟨?_, by decide +kernel, by decide +kernel⟩
  exact .cons (a := b!"r{ERROR:}") (.coloured 1 114 b!"ERROR:" (by decide) (by decide) (by decide))
    (.cons (a := b!" no } left") (b := []) (.plain b!" no } left" (by decide)) .nil)

end Keyd
