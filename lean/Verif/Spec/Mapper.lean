import Verif.Model.Mapper

/-
  What the application mapper is meant to do. Used only to state properties.
-/

set_option autoImplicit false

namespace Keyd

/-- `Spaced keep ws s`: the text consists of the words `ws`, made of the characters `keep` allows, with other characters
between them, and possibly around them. -/
inductive Spaced (keep : Nat → Bool) : List PyStr → PyStr → Prop
  | nil {g : PyStr} (hg : ∀ c ∈ g, keep c = false) : Spaced keep [] g
  | cons {g w s : PyStr} {ws : List PyStr} (hg : ∀ c ∈ g, keep c = false) (hw : w ≠ []) (hk : ∀ c ∈ w, keep c = true)
      (hs : ∀ c, s.head? = some c → keep c = false) (h : Spaced keep ws s) : Spaced keep (w :: ws) (g ++ w ++ s)

/-- The words joined by dashes. -/
def dashJoin : List PyStr → PyStr
  | [] => []
  | [w] => w
  | w :: ws => w ++ 45 :: dashJoin ws

/-- What may stand between the brackets of a bracket expression: possibly a `!`, then any character, then characters
other than `]`. -/
inductive Bracketed : PyStr → Prop
  | plain {c : Nat} {s : PyStr} (hc : c ≠ 33) (hs : 93 ∉ s) : Bracketed (c :: s)
  | not {c : Nat} {s : PyStr} (hs : 93 ∉ s) : Bracketed (33 :: c :: s)

/-- Shell-style patterns: `*` stands for any text, `?` for any character, `[…]` for one of the characters described, and
every other character for itself, including a `[` that begins no bracket expression. -/
inductive Glob (py : Py) : PyStr → PyStr → Prop
  | nil : Glob py [] []
  | star {p s : PyStr} (t : PyStr) (h : Glob py p s) : Glob py (42 :: p) (t ++ s)
  | any {p s : PyStr} (c : Nat) (h : Glob py p s) : Glob py (63 :: p) (c :: s)
  | lit {p s : PyStr} {c : Nat} (h1 : c ≠ 42) (h2 : c ≠ 63) (h3 : c ≠ 91) (h : Glob py p s) : Glob py (c :: p) (c :: s)
  | set {p s stuff : PyStr} {c : Nat} (hb : Bracketed stuff) (hc : py.inSet stuff c = true) (h : Glob py p s) :
      Glob py (91 :: (stuff ++ 93 :: p)) (c :: s)
  | «open» {p s : PyStr} (hn : ∀ stuff q, Bracketed stuff → p ≠ stuff ++ 93 :: q) (h : Glob py p s) : Glob py (91 :: p) (91 :: s)

/-- The bindings for a window: those of the sections whose patterns both fit, in the order of the file. -/
inductive Collected (py : Py) (cls title : PyStr) : List AppSection → List PyStr → Prop
  | nil : Collected py cls title [] []
  | hit {s : AppSection} {ss : List AppSection} {bs : List PyStr} (h1 : Glob py s.cls cls) (h2 : Glob py s.title title)
      (h : Collected py cls title ss bs) : Collected py cls title (s :: ss) (s.bindings ++ bs)
  | miss {s : AppSection} {ss : List AppSection} {bs : List PyStr} (h1 : ¬ (Glob py s.cls cls ∧ Glob py s.title title))
      (h : Collected py cls title ss bs) : Collected py cls title (s :: ss) bs

/-- A line with white space around it. -/
def Padded (py : Py) (x line : PyStr) : Prop :=
  ∃ a b, line = a ++ x ++ b ∧ (∀ c ∈ a, py.space c = true) ∧ (∀ c ∈ b, py.space c = true)

/-- A line of `app.conf` that says nothing: empty or a comment. -/
def AppFiller (py : Py) (line : PyStr) : Prop :=
  Padded py [] line ∨ ∃ s, Padded py (35 :: s) line

/-- A binding of `app.conf`: any text not taken for a comment or a heading. -/
def AppBinding (py : Py) (b : PyStr) : Prop :=
  b ≠ [] ∧ (∀ c, b.head? = some c → py.space c = false ∧ c ≠ 35) ∧ (∀ c, b.getLast? = some c → py.space c = false) ∧
  ¬ (b.head? = some 91 ∧ b.getLast? = some 93)

/-- A heading of `app.conf`: `[class]` or `[class|title]`. -/
inductive AppHeading : PyStr → PyStr → PyStr → Prop
  | cls {c : PyStr} (hc : 124 ∉ c) : AppHeading c [42] (91 :: c ++ [93])
  | both {c t : PyStr} (hc : 124 ∉ c) (ht : 124 ∉ t) : AppHeading c t (91 :: c ++ 124 :: t ++ [93])

/-- The lines below a heading, with the bindings they hold. -/
inductive AppBody (py : Py) : List PyStr → List PyStr → Prop
  | nil : AppBody py [] []
  | filler {l : PyStr} {ls bs : List PyStr} (h : AppFiller py l) (t : AppBody py ls bs) : AppBody py (l :: ls) bs
  | binding {l b : PyStr} {ls bs : List PyStr} (h : Padded py b l) (hb : AppBinding py b) (t : AppBody py ls bs) :
      AppBody py (l :: ls) (b :: bs)

/-- The lines of `app.conf`, with the sections they make up. -/
inductive AppDoc (py : Py) : List PyStr → List AppSection → Prop
  | nil : AppDoc py [] []
  | filler {l : PyStr} {ls : List PyStr} {ss : List AppSection} (h : AppFiller py l) (t : AppDoc py ls ss) : AppDoc py (l :: ls) ss
  | sect {l x c t : PyStr} {ls ms bs : List PyStr} {ss : List AppSection} (h : Padded py x l) (hx : AppHeading c t x)
      (hb : AppBody py ls bs) (hd : AppDoc py ms ss) : AppDoc py (l :: ls ++ ms) ({ cls := c, title := t, bindings := bs } :: ss)

/-- The text with these lines. -/
def textOf : List PyStr → PyStr
  | [] => []
  | [l] => l
  | l :: ls => l ++ 10 :: textOf ls

end Keyd
