import Verif.Model.Focus
import Verif.Props.Mapper
import Mathlib.Data.List.Induction

/-
  C97: the application mapper follows the focus (X). C98: … (Gnome). C99: edits of app.conf take effect.
-/

set_option autoImplicit false

namespace Keyd

/-! ### C97: X -/

mutual
/-- The windows of a screen from the front to the back, parents before children; each with its ancestors. -/
def XTree.listing (up : List XWin) : XTree → List (List XWin)
  | .node w cs => (w :: up) :: XTree.listings (w :: up) cs
def XTree.listings (up : List XWin) : List XTree → List (List XWin)
  | [] => []
  | t :: ts => XTree.listings up ts ++ t.listing up
end

/-- A window that is to be kept above the others and is no notification. -/
def OnTop (a : XAtoms) (w : XWin) : Prop := (∃ s, w.state = a.above :: s) ∧ ∀ ts, w.types = some ts → a.notification ∉ ts

/-- `x` is the first element of the list with `p`. -/
def FirstOf {α : Type} (p : α → Prop) (l : List α) (x : α) : Prop := ∃ before after, l = before ++ x :: after ∧ p x ∧ ∀ y ∈ before, ¬ p y

/-- The active window: the first window on top, or else the one with the input focus. -/
def IsActive (a : XAtoms) (d : XDisplay) (w : Option (List XWin)) : Prop :=
  (∃ x, FirstOf (fun c => ∃ v up, c = v :: up ∧ OnTop a v) (d.root.listing []) x ∧ w = some x) ∨
  ((∀ c ∈ d.root.listing [], ∀ v up, c = v :: up → ¬ OnTop a v) ∧ w = d.focus)

/-- Class and title under which a window goes: those of the nearest window around it that has a class. -/
inductive KnownAs : List XWin → PyStr × PyStr → Prop
  | root : KnownAs [] (pyText "root", [])
  | own {w : XWin} {up : List XWin} {c : PyStr} : w.cls = some c → KnownAs (w :: up) (c, (w.netName.orElse fun _ => w.wmName).getD [])
  | parent {w : XWin} {up : List XWin} {x : PyStr × PyStr} : w.cls = none → KnownAs up x → KnownAs (w :: up) x

theorem floatsAbove_iff (a : XAtoms) (w : XWin) : floatsAbove a w = true ↔ OnTop a w := by
  unfold floatsAbove OnTop
  rw [Bool.and_eq_true]
  refine and_congr ?_ ?_
  · cases hs : w.state with
    | nil => simp
    | cons x s => simp
  · cases w.types with
    | none => simp
    | some ts => simp

theorem listings_eq (up : List XWin) (cs : List XTree) : XTree.listings up cs = (xChildren up cs).flatMap fun x => x.1.listing x.2 := by
  induction cs with
  | nil => rfl
  | cons t cs ih =>
    rw [XTree.listings, ih]
    unfold xChildren
    rw [List.reverse_cons, List.map_append, List.flatMap_append]
    congr 1
    rw [List.map_cons, List.map_nil, List.flatMap_cons, List.flatMap_nil, List.append_nil]

theorem floatingWindow_eq (a : XAtoms) (q : List (XTree × List XWin)) :
    floatingWindow a q = (q.flatMap fun x => x.1.listing x.2).find? (fun c => match c with | [] => false | v :: _ => floatsAbove a v) := by
  induction q using floatingWindow.induct a with
  | case1 => rw [floatingWindow]; rfl
  | case2 w cs up q h => rw [floatingWindow, if_pos h, List.flatMap_cons]; simp only [XTree.listing, List.cons_append, List.find?_cons, h]
  | case3 w cs up q h ih =>
    rw [floatingWindow, if_neg h, ih, List.flatMap_append, List.flatMap_cons, ← listings_eq]
    have h' : floatsAbove a w = false := by simpa using h
    simp only [XTree.listing, List.cons_append, List.find?_cons, h']

theorem find_first {α : Type} (p : α → Bool) (l : List α) : (∃ x, l.find? p = some x ∧ FirstOf (fun y => p y = true) l x) ∨ (l.find? p = none ∧ ∀ y ∈ l, p y = false) := by
  induction l with
  | nil => exact .inr ⟨rfl, fun _ h => (List.not_mem_nil h).elim⟩
  | cons y l ih =>
    cases hy : p y with
    | true => exact .inl ⟨y, by rw [List.find?_cons, hy], [], l, rfl, hy, fun _ h => (List.not_mem_nil h).elim⟩
    | false =>
      rcases ih with ⟨x, hx, before, after, e, px, hb⟩ | ⟨hn, hall⟩
      · refine .inl ⟨x, by rw [List.find?_cons, hy]; exact hx, y :: before, after, by rw [e]; rfl, px, fun z hz => ?_⟩
        rcases List.mem_cons.1 hz with rfl | hz
        · show ¬ p z = true
          rw [hy]; decide
        · exact hb z hz
      · refine .inr ⟨by rw [List.find?_cons, hy]; exact hn, fun z hz => ?_⟩
        rcases List.mem_cons.1 hz with rfl | hz
        · exact hy
        · exact hall z hz

theorem onTop_pred (a : XAtoms) (c : List XWin) : (match c with | [] => false | v :: _ => floatsAbove a v) = true ↔ ∃ v up, c = v :: up ∧ OnTop a v := by
  cases c with
  | nil => exact ⟨(fun h => by cases h), (fun ⟨_, _, h, _⟩ => by cases h)⟩
  | cons v up =>
    rw [show (match v :: up with | [] => false | v :: _ => floatsAbove a v) = floatsAbove a v from rfl, floatsAbove_iff]
    exact ⟨fun h => ⟨v, up, rfl, h⟩, fun ⟨_, _, e, h⟩ => by cases e; exact h⟩

/-- C97: the window the mapper looks at is the active one. -/
theorem C97_active (a : XAtoms) (d : XDisplay) : IsActive a d (activeWindow a d) := by
  unfold activeWindow
  rw [floatingWindow_eq]
  rw [show ([(d.root, [])] : List (XTree × List XWin)).flatMap (fun x => x.1.listing x.2) = d.root.listing [] from by simp]
  rcases find_first (fun c => match c with | [] => false | v :: _ => floatsAbove a v) (d.root.listing []) with ⟨x, hx, before, after, e, px, hb⟩ | ⟨hn, hall⟩
  · rw [hx]
    exact .inl ⟨x, ⟨before, after, e, (onTop_pred a x).1 px, fun y hy h => hb y hy ((onTop_pred a y).2 h)⟩, rfl⟩
  · rw [hn]
    refine .inr ⟨fun c hc v up e h => ?_, rfl⟩
    have := hall c hc
    rw [(onTop_pred a c).2 ⟨v, up, e, h⟩] at this
    cases this

/-- C97: and it goes by the class and title of the nearest window around it that has a class. -/
theorem C97_known (c : List XWin) : KnownAs c (windowInfo c) := by
  induction c with
  | nil => exact .root
  | cons w up ih =>
    unfold windowInfo
    cases hc : w.cls with
    | none => exact .parent hc ih
    | some c =>
      have : xTitle w = (w.netName.orElse fun _ => w.wmName).getD [] := by
        unfold xTitle
        cases w.netName with
        | some t => rfl
        | none => cases w.wmName <;> rfl
      dsimp only
      rw [this]
      exact .own hc

theorem KnownAs.unique {c : List XWin} {x y : PyStr × PyStr} (h : KnownAs c x) (h' : KnownAs c y) : x = y := by
  induction h with
  | root => cases h'; rfl
  | own hc => cases h' with
    | own hc' => rw [hc] at hc'; cases hc'; rfl
    | parent hc' _ => rw [hc] at hc'; cases hc'
  | parent hc _ ih => cases h' with
    | own hc' => rw [hc] at hc'; cases hc'
    | parent _ h'' => exact ih h''

theorem IsActive.unique {a : XAtoms} {d : XDisplay} {v w : Option (List XWin)} (h : IsActive a d v) (h' : IsActive a d w) : v = w := by
  rcases h with ⟨x, ⟨b, f, e, px, hb⟩, rfl⟩ | ⟨hn, rfl⟩
  · rcases h' with ⟨y, ⟨b', f', e', py', hb'⟩, rfl⟩ | ⟨hn', _⟩
    · rw [e] at e'
      rcases List.append_eq_append_iff.1 e' with ⟨m, rfl, hm⟩ | ⟨m, rfl, hm⟩
      · cases m with
        | nil => cases hm; rfl
        | cons z m => cases hm; exact absurd px (hb' x (by simp))
      · cases m with
        | nil => cases hm; rfl
        | cons z m => cases hm; exact absurd py' (hb y (by simp))
    · obtain ⟨v, up, e2, h2⟩ := px
      exact absurd h2 (hn' x (by rw [e]; simp) v up e2)
  · rcases h' with ⟨y, ⟨b', f', e', py', hb'⟩, rfl⟩ | ⟨_, rfl⟩
    · obtain ⟨v, up, e2, h2⟩ := py'
      exact absurd h2 (hn y (by rw [e']; simp) v up e2)
    · rfl

/-- What an event shows: class and title of the active window, if there is one and the server's answers could be had. -/
def Shows (a : XAtoms) (e : XEvent) (x : Option (PyStr × PyStr)) : Prop :=
  match e with
  | .event (some d) => ∃ w, IsActive a d w ∧ match w with | none => x = none | some c => ∃ y, KnownAs c y ∧ x = some y
  | _ => x = none

theorem shows_exists (a : XAtoms) (e : XEvent) : ∃ x, Shows a e x := by
  cases e with
  | signal => exact ⟨none, rfl⟩
  | event o => cases o with
    | none => exact ⟨none, rfl⟩
    | some d =>
      cases hw : activeWindow a d with
      | none => exact ⟨none, none, hw ▸ C97_active a d, rfl⟩
      | some c => exact ⟨some (windowInfo c), some c, hw ▸ C97_active a d, windowInfo c, C97_known c, rfl⟩

theorem xRun_concat (a : XAtoms) (es : List XEvent) (e : XEvent) :
    xRun a (es ++ [e]) = ((xStep a (xRun a es).1 e).1, (xRun a es).2 ++ (xStep a (xRun a es).1 e).2.toList) := by
  unfold xRun
  rw [List.foldl_append]
  rfl

theorem xStep_shows {a : XAtoms} {e : XEvent} {x : Option (PyStr × PyStr)} (h : Shows a e x) (last : PyStr × PyStr) (hs : e ≠ .signal) :
    xStep a last e = x.elim (last, none) fun y => if y = last then (last, none) else (y, some y) := by
  cases e with
  | signal => exact absurd rfl hs
  | event o => cases o with
    | none => cases (show x = none from h); rfl
    | some d =>
      obtain ⟨w, ha, hw⟩ := h
      have := ha.unique (C97_active a d)
      subst this
      unfold xStep
      dsimp only
      cases hc : activeWindow a d with
      | none =>
        rw [hc] at hw
        cases (show x = none from hw)
        rfl
      | some c =>
        rw [hc] at hw
        obtain ⟨y, hy, rfl⟩ : ∃ y, KnownAs c y ∧ x = some y := hw
        have := hy.unique (C97_known c)
        subst this
        dsimp only [Option.elim]
        by_cases hl : windowInfo c = last
        · rw [if_neg (by rw [hl]; simp), if_pos hl]
        · rw [if_neg hl, if_pos ?_]
          by_cases h1 : (windowInfo c).1 = last.1
          · exact .inr fun h2 => hl (Prod.ext h1 h2)
          · exact .inl h1

theorem xRun_last (a : XAtoms) (es : List XEvent) : (xRun a es).1 = ((xRun a es).2.getLast?).getD ([], []) := by
  induction es using List.reverseRecOn with
  | nil => rfl
  | append_singleton es e ih =>
    rw [xRun_concat]
    cases e with
    | signal =>
      show (xRun a es).1 = (((xRun a es).2 ++ [(xRun a es).1]).getLast?).getD _
      simp
    | event o =>
      obtain ⟨x, hx⟩ := shows_exists a (.event o)
      rw [xStep_shows hx _ (by intro h; cases h)]
      cases x with
      | none =>
        dsimp only [Option.elim]
        rw [Option.toList_none, List.append_nil]
        exact ih
      | some y =>
        dsimp only [Option.elim]
        by_cases hy : y = (xRun a es).1
        · rw [if_pos hy]
          dsimp only
          rw [Option.toList_none, List.append_nil]
          exact ih
        · rw [if_neg hy]
          dsimp only
          simp

/-- C97: after an event that shows a window, that window is the one reported last (before the first report it counts as without class and title).
A window is not reported again while it stays active; an event that shows none reports nothing; and a signal repeats the last report. -/
theorem C97_reports (a : XAtoms) (es : List XEvent) :
    let reported := fun es => (xRun a es).2
    let current := fun es => ((reported es).getLast?).getD ([], [])
    (∀ e y, Shows a e (some y) → current (es ++ [e]) = y ∧
      (y = current es → reported (es ++ [e]) = reported es) ∧ (y ≠ current es → reported (es ++ [e]) = reported es ++ [y])) ∧
    (∀ e, e ≠ .signal → Shows a e none → reported (es ++ [e]) = reported es) ∧
    reported (es ++ [.signal]) = reported es ++ [current es] := by
  dsimp only
  refine ⟨fun e y h => ?_, fun e hne h => ?_, ?_⟩
  · have hne : e ≠ .signal := by intro c; subst c; cases (show some y = none from h)
    have e1 := xRun_concat a es e
    rw [xStep_shows h _ hne] at e1
    dsimp only [Option.elim] at e1
    rw [← xRun_last, ← xRun_last, e1]
    by_cases hy : y = (xRun a es).1
    · rw [if_pos hy]
      exact ⟨hy.symm, fun _ => by simp, fun c => absurd hy c⟩
    · rw [if_neg hy]
      exact ⟨rfl, fun c => absurd c hy, fun _ => by simp⟩
  · rw [xRun_concat, xStep_shows h _ hne]
    simp
  · rw [xRun_concat, ← xRun_last]
    rfl

/-- Two windows side by side and a notification, then a dialog that is kept above. -/
def xDemo (dialog : Bool) : XDisplay :=
  let mail : XWin := { cls := some (pyText "Mail"), netName := some (pyText "Inbox") }
  let frame : XWin := {}
  let dunst : XWin := { cls := some (pyText "Dunst"), state := [7], types := some [3, 9] }
  let ask : XWin := { cls := some (pyText "Ask"), wmName := some (pyText "Sure?"), state := [7, 8] }
  { root := .node {} [.node frame [.node mail []], .node { cls := some (pyText "Term") } (if dialog then [.node ask []] else []), .node dunst []],
    focus := some [{}, mail, frame, {}] }

theorem C97_example :
    (xRun ⟨7, 9⟩ [.event (some (xDemo false)), .event (some (xDemo false)), .event none, .event (some (xDemo true)), .signal, .event (some (xDemo false))]).2 =
      [(pyText "Mail", pyText "Inbox"), (pyText "Ask", pyText "Sure?"), (pyText "Ask", pyText "Sure?"), (pyText "Mail", pyText "Inbox")] := by
  decide +kernel

/-! ### C98: Gnome -/

/-- What the extension writes when a window gets the focus. -/
def gnomeText (x : PyStr × PyStr) : PyStr := x.1 ++ 9 :: (x.2 ++ [10])

/-- No tab and no newline. -/
def GnomePlain (x : PyStr × PyStr) : Prop := 9 ∉ x.1 ∧ 10 ∉ x.1 ∧ 9 ∉ x.2 ∧ 10 ∉ x.2

/-- What happens: the extension tells of a window, or the mapper gets a turn. -/
def gnomeHist (hist : List (Option (PyStr × PyStr))) : List GnomeEvent := hist.map fun o => o.elim .turn fun x => .write (gnomeText x)

theorem pySplit_none {c : Nat} {s : PyStr} (h : c ∉ s) : pySplit c s = [s] := by
  induction s with
  | nil => rfl
  | cons x s ih =>
    rw [pySplit, if_neg (fun e => h (by rw [e]; exact List.mem_cons_self ..)), ih fun hm => h (List.mem_cons_of_mem _ hm)]

theorem pySplit_at {c : Nat} {s t : PyStr} (h : c ∉ s) : pySplit c (s ++ c :: t) = s :: pySplit c t := by
  induction s with
  | nil => rw [List.nil_append, pySplit, if_pos rfl]
  | cons x s ih =>
    rw [List.cons_append, pySplit, if_neg (fun e => h (by rw [e]; exact List.mem_cons_self ..)), ih fun hm => h (List.mem_cons_of_mem _ hm)]

theorem dropWhile_keep {f : Nat → Bool} {s : PyStr} (h : ∀ x ∈ s, f x = false) : s.dropWhile f = s := by
  cases s with
  | nil => rfl
  | cons x s => rw [List.dropWhile_cons_of_neg (by rw [h x (List.mem_cons_self ..)]; decide)]

theorem gnomeLine_text (g : GnomeMon) {x : PyStr × PyStr} (h : GnomePlain x) :
    gnomeLine g (gnomeText x) = { g with last := x, calls := g.calls ++ [x] } := by
  obtain ⟨h1, h2, h3, h4⟩ := h
  have hn : ∀ y ∈ x.1 ++ 9 :: x.2, decide (y = 10) = false := by
    intro y hy
    rw [decide_eq_false_iff_not]
    rintro rfl
    rcases List.mem_append.1 hy with hy | hy
    · exact h2 hy
    · rcases List.mem_cons.1 hy with hy | hy
      · cases hy
      · exact h4 hy
  have e : pyStrip (fun c => decide (c = 10)) (gnomeText x) = x.1 ++ 9 :: x.2 := by
    have e0 : gnomeText x = (x.1 ++ 9 :: x.2) ++ [10] := by simp [gnomeText]
    unfold pyStrip
    rw [e0]
    have d1 : List.dropWhile (fun c => decide (c = 10)) ((x.1 ++ 9 :: x.2) ++ [10]) = (x.1 ++ 9 :: x.2) ++ [10] := by
      generalize hq : x.1 ++ 9 :: x.2 = q at hn ⊢
      cases q with
      | nil => cases hx : x.1 <;> rw [hx] at hq <;> cases hq
      | cons z q => rw [List.cons_append, List.dropWhile_cons_of_neg (by rw [hn z (List.mem_cons_self ..)]; decide)]
    rw [d1, List.reverse_append, List.reverse_cons, List.reverse_nil, List.nil_append, List.cons_append, List.nil_append,
      List.dropWhile_cons_of_pos (by decide), dropWhile_keep (fun y hy => hn y (List.mem_reverse.1 hy)), List.reverse_reverse]
  unfold gnomeLine
  rw [e, pySplit_at h1, pySplit_none h3]

theorem firstLine_text {x : PyStr × PyStr} (h : GnomePlain x) (s : PyStr) : firstLine (gnomeText x ++ s) = (gnomeText x, s) := by
  have hn : ∀ y ∈ x.1 ++ 9 :: x.2, y ≠ 10 := by
    rintro y hy rfl
    rcases List.mem_append.1 hy with hy | hy
    · exact h.2.1 hy
    · rcases List.mem_cons.1 hy with hy | hy
      · cases hy
      · exact h.2.2.2 hy
  have key : ∀ q : PyStr, (∀ y ∈ q, y ≠ 10) → firstLine (q ++ 10 :: s) = (q ++ [10], s) := by
    intro q hq
    unfold firstLine
    induction q with
    | nil => rfl
    | cons y q ih =>
      have hy := hq y (List.mem_cons_self ..)
      have := ih fun z hz => hq z (List.mem_cons_of_mem _ hz)
      rw [Prod.mk.injEq] at this
      rw [List.cons_append, List.takeWhile_cons_of_pos (by simpa using hy), List.dropWhile_cons_of_pos (by simpa using hy), List.cons_append, this.1, this.2]
      rfl
  have e0 : gnomeText x ++ s = (x.1 ++ 9 :: x.2) ++ 10 :: s := by simp [gnomeText]
  have e1 : gnomeText x = (x.1 ++ 9 :: x.2) ++ [10] := by simp [gnomeText]
  rw [e0, key _ hn, e1]

theorem mem_gnomeText (x : PyStr × PyStr) (s : PyStr) : 10 ∈ gnomeText x ++ s := by simp [gnomeText]

/-- What has been told and not yet reported. -/
def GnomeInv (told : List (PyStr × PyStr)) (g : GnomeMon) : Prop :=
  g.closed = false ∧ ∃ held pipe, told = g.calls ++ (held ++ pipe) ∧ g.held = held.flatMap gnomeText ∧ g.pipe = pipe.flatMap gnomeText

theorem gnome_turn {told : List (PyStr × PyStr)} {g : GnomeMon} (hp : ∀ x ∈ told, GnomePlain x) (h : GnomeInv told g) :
    GnomeInv told (gnomeStep g .turn) ∧ ((g.pipe ≠ [] → ∃ x, (gnomeStep g .turn).calls = g.calls ++ [x]) ∧
      (g.held = [] → ∀ x, g.pipe = gnomeText x → GnomePlain x → (gnomeStep g .turn).held = [] ∧ (gnomeStep g .turn).pipe = [] ∧ (gnomeStep g .turn).calls = g.calls ++ [x])) := by
  obtain ⟨hc, held, pipe, ht, hh, hpi⟩ := h
  by_cases hb : g.pipe = []
  · have e : gnomeStep g .turn = g := by unfold gnomeStep; dsimp only; rw [if_pos ⟨hb, hc⟩]
    rw [e]
    refine ⟨⟨hc, held, pipe, ht, hh, hpi⟩, fun c => absurd hb c, fun _ x hx => ?_⟩
    rw [hb] at hx
    have := congrArg List.length hx
    simp [gnomeText] at this
  · have hb' : ¬ (g.pipe = [] ∧ g.closed = false) := fun c => hb c.1
    cases held with
    | cons y held =>
      have hy : GnomePlain y := hp y (by rw [ht]; simp)
      have hm : 10 ∈ g.held := by rw [hh, List.flatMap_cons]; exact mem_gnomeText y _
      have e : gnomeStep g .turn = { g with held := held.flatMap gnomeText, last := y, calls := g.calls ++ [y] } := by
        unfold gnomeStep
        dsimp only
        rw [if_neg hb', if_pos hm, if_pos hm, hh, List.flatMap_cons, firstLine_text hy]
        dsimp only
        rw [gnomeLine_text _ hy]
      rw [e]
      refine ⟨⟨hc, held, pipe, by rw [ht]; simp, rfl, hpi⟩, fun _ => ⟨y, rfl⟩, fun hz => ?_⟩
      rw [hz] at hm
      cases hm
    | nil =>
      cases pipe with
      | nil => exact absurd hpi hb
      | cons y pipe =>
        have hy : GnomePlain y := hp y (by rw [ht]; simp)
        have hm0 : ¬ 10 ∈ g.held := by rw [hh]; exact fun c => by cases c
        have hm : 10 ∈ g.held ++ g.pipe := by rw [hh, hpi, List.flatMap_cons]; exact mem_gnomeText y _
        have e : gnomeStep g .turn = { g with held := pipe.flatMap gnomeText, pipe := [], last := y, calls := g.calls ++ [y] } := by
          unfold gnomeStep
          dsimp only
          rw [if_neg hb', if_neg hm0]
          dsimp only
          rw [if_pos hm, hh, hpi, List.flatMap_nil, List.nil_append, List.flatMap_cons, firstLine_text hy]
          dsimp only
          rw [gnomeLine_text _ hy]
        rw [e]
        refine ⟨⟨hc, pipe, [], by rw [ht]; simp, rfl, rfl⟩, fun _ => ⟨y, rfl⟩, fun hz x hx hpx => ?_⟩
        have e1 : firstLine g.pipe = (gnomeText x, []) := by
          have := firstLine_text hpx []
          rw [List.append_nil] at this
          rw [hx]
          exact this
        have e3 : firstLine g.pipe = (gnomeText y, pipe.flatMap gnomeText) := by rw [hpi, List.flatMap_cons, firstLine_text hy]
        rw [e3, Prod.mk.injEq] at e1
        have e2 := gnomeLine_text {} hy
        rw [e1.1, gnomeLine_text {} hpx] at e2
        injection e2 with _ _ e2
        subst e2
        exact ⟨e1.2, rfl, rfl⟩

theorem gnome_concat (es : List GnomeEvent) (e : GnomeEvent) : gnomeRun (es ++ [e]) = gnomeStep (gnomeRun es) e := by
  unfold gnomeRun
  rw [List.foldl_append]
  rfl

theorem gnome_inv (hist : List (Option (PyStr × PyStr))) (hp : ∀ x ∈ hist.filterMap id, GnomePlain x) :
    GnomeInv (hist.filterMap id) (gnomeRun (gnomeHist hist)) := by
  induction hist using List.reverseRecOn with
  | nil => exact ⟨rfl, [], [], rfl, rfl, rfl⟩
  | append_singleton hist o ih =>
    rw [List.filterMap_append] at hp ⊢
    have ih := ih fun x hx => hp x (List.mem_append_left _ hx)
    rw [show gnomeHist (hist ++ [o]) = gnomeHist hist ++ [o.elim .turn fun x => .write (gnomeText x)] from by simp [gnomeHist], gnome_concat]
    cases o with
    | none =>
      rw [show List.filterMap id [(none : Option (PyStr × PyStr))] = [] from rfl, List.append_nil]
      exact (gnome_turn (fun x hx => hp x (List.mem_append_left _ hx)) ih).1
    | some x =>
      obtain ⟨hc, held, pipe, ht, hh, hpi⟩ := ih
      refine ⟨hc, held, pipe ++ [x], ?_, hh, ?_⟩
      · rw [ht]
        show _ = (gnomeRun (gnomeHist hist)).calls ++ _
        simp
      · show _ ++ gnomeText x = _
        rw [hpi, List.flatMap_append]
        simp

/-- C98: what the mapper reports is what it was told, in order and without gaps; and whenever there is something in the pipe and the mapper gets a turn,
it makes one report. -/
theorem C98_order (hist : List (Option (PyStr × PyStr))) (hp : ∀ x ∈ hist.filterMap id, GnomePlain x) :
    (gnomeRun (gnomeHist hist)).calls <+: hist.filterMap id ∧
    ((gnomeRun (gnomeHist hist)).pipe ≠ [] → ∃ x, (gnomeRun (gnomeHist (hist ++ [none]))).calls = (gnomeRun (gnomeHist hist)).calls ++ [x]) := by
  have hi := gnome_inv hist hp
  refine ⟨?_, fun hb => ?_⟩
  · obtain ⟨_, held, pipe, ht, _⟩ := hi
    exact ⟨_, ht.symm⟩
  · rw [show gnomeHist (hist ++ [none]) = gnomeHist hist ++ [.turn] from by simp [gnomeHist], gnome_concat]
    exact (gnome_turn hp hi).2.1 hb

/-- C98: if the mapper gets its turn after each window before it is told of the next one, it has reported every window: the last one it has reported
is the focused one. -/
theorem C98_focus_partial (wins : List (PyStr × PyStr)) (hp : ∀ x ∈ wins, GnomePlain x) :
    (gnomeRun (gnomeHist (wins.flatMap fun x => [some x, none]))).calls = wins := by
  suffices h : ∀ ws : List (PyStr × PyStr), (∀ x ∈ ws, GnomePlain x) →
      let g := gnomeRun (gnomeHist (ws.flatMap fun x => [some x, none]))
      g.calls = ws ∧ g.held = [] ∧ g.pipe = [] ∧ g.closed = false from (h wins hp).1
  intro ws
  induction ws using List.reverseRecOn with
  | nil => intro _; exact ⟨rfl, rfl, rfl, rfl⟩
  | append_singleton ws x ih =>
    intro hp
    obtain ⟨h1, h2, h3, h4⟩ := ih fun y hy => hp y (List.mem_append_left _ hy)
    dsimp only
    rw [show gnomeHist ((ws ++ [x]).flatMap fun x => [some x, none]) = (gnomeHist (ws.flatMap fun x => [some x, none]) ++ [.write (gnomeText x)]) ++ [.turn] from by
      simp [gnomeHist], gnome_concat, gnome_concat]
    generalize gnomeRun (gnomeHist (ws.flatMap fun x => [some x, none])) = g at h1 h2 h3 h4
    have hx : GnomePlain x := hp x (by simp)
    have hg : GnomeInv (ws ++ [x]) (gnomeStep g (.write (gnomeText x))) := by
      refine ⟨h4, [], [x], ?_, h2, ?_⟩
      · show _ = g.calls ++ _
        rw [h1]; rfl
      · show g.pipe ++ _ = _
        rw [h3]; simp
    have ht := gnome_turn hp hg
    obtain ⟨q1, q2, q3⟩ := ht.2.2 h2 x (by show g.pipe ++ _ = _; rw [h3]; rfl) hx
    refine ⟨?_, q1, q2, ht.1.1⟩
    rw [q3]
    show g.calls ++ _ = _
    rw [h1]

theorem C98_example : GnomePlain (pyText "mail", pyText "Inbox") ∧
    (gnomeRun (gnomeHist [some (pyText "mail", pyText "Inbox"), none, some (pyText "term", []), none])).calls = [(pyText "mail", pyText "Inbox"), (pyText "term", [])] := by
  refine ⟨⟨by decide, by decide, by decide, by decide⟩, by decide +kernel⟩

/-- What is missing: of two windows told at once only the first is reported, however often the mapper gets a turn; the second one is reported when a
third gets the focus. -/
theorem C98_fails_behind (n : Nat) :
    (gnomeRun (gnomeHist (some (pyText "a", []) :: some (pyText "b", []) :: none :: List.replicate n none))).calls = [(pyText "a", [])] ∧
    (gnomeRun (gnomeHist [some (pyText "a", []), some (pyText "b", []), none, some (pyText "c", []), none])).calls = [(pyText "a", []), (pyText "b", [])] := by
  refine ⟨?_, by decide +kernel⟩
  have : ∀ n, gnomeRun (gnomeHist (some (pyText "a", []) :: some (pyText "b", []) :: none :: List.replicate n none)) =
      gnomeRun (gnomeHist [some (pyText "a", []), some (pyText "b", []), none]) := by
    intro n
    induction n with
    | zero => rfl
    | succ n ih =>
      rw [List.replicate_succ', show some (pyText "a", []) :: some (pyText "b", []) :: none :: (List.replicate n none ++ [none]) =
        (some (pyText "a", []) :: some (pyText "b", []) :: none :: List.replicate n none) ++ [none] from rfl]
      rw [show ∀ h, gnomeHist (h ++ [none]) = gnomeHist h ++ [.turn] from fun h => by simp [gnomeHist], gnome_concat, ih]
      decide +kernel
  rw [this]
  decide +kernel

/-- … a window with a tab in its title is reported without class and title, and a signal then repeats the window before it … -/
theorem C98_fails_tab :
    (gnomeRun [.write (gnomeText (pyText "a", pyText "x")), .turn, .write (gnomeText (pyText "b", pyText "1\t2")), .turn, .signal]).calls =
      [(pyText "a", pyText "x"), ([], []), (pyText "a", pyText "x")] := by
  decide +kernel

/-- … and once the extension has closed the pipe, every turn is a report. -/
theorem C98_fails_closed : (gnomeRun [.write (gnomeText (pyText "a", [])), .turn, .close, .turn, .turn, .turn]).calls = [(pyText "a", []), ([], []), ([], []), ([], [])] := by
  decide +kernel

/-! ### C99: edits of app.conf -/

/-- Calls in the order of time: the file has the text `ver t` at time `t`, which is also its modification time from the edit on until the next one. A call is given by
the window and by the time of the file when its time is taken and when it is read. -/
def Timely (t : Nat) : List ((PyStr × PyStr) × Nat × Nat) → Prop
  | [] => True
  | (_, t1, t2) :: cs => t ≤ t1 ∧ t1 ≤ t2 ∧ Timely t2 cs

def callsOf (ver : Nat → PyStr) (cs : List ((PyStr × PyStr) × Nat × Nat)) : List AppCall :=
  cs.map fun c => { win := c.1, stat := some ⟨c.2.1, ver c.2.1⟩, read := some ⟨c.2.2, ver c.2.2⟩ }

/-- The command run for a window is the one that the file calls for as it is during the call; there is none only if the file cannot be parsed. -/
def UpToDate (py : Py) (ver : Nat → PyStr) (c : (PyStr × PyStr) × Nat × Nat) (o : Option (List Str)) : Prop :=
  match o with
  | some cmd => ∃ v config, c.2.1 ≤ v ∧ v ≤ c.2.2 ∧ parseApp py (ver v) = some config ∧ cmd = onWindowChange py config c.1.1 c.1.2
  | none => parseApp py (ver c.2.2) = none

theorem windowChanges_upToDate (py : Py) (ver : Nat → PyStr) : ∀ (cs : List ((PyStr × PyStr) × Nat × Nat)) (st : AppState) (now v : Nat),
    st.mtime ≤ v → v ≤ now → parseApp py (ver v) = some st.config → Timely now cs →
    List.Forall₂ (UpToDate py ver) cs (windowChanges py st (callsOf ver cs)) := by
  intro cs
  induction cs with
  | nil => intro st now v _ _ _ _; exact .nil
  | cons c cs ih =>
    intro st now v h1 h2 h3 ht
    obtain ⟨win, t1, t2⟩ := c
    obtain ⟨g1, g2, g3⟩ := ht
    show List.Forall₂ _ _ ((windowChange py st (some ⟨t1, ver t1⟩) (some ⟨t2, ver t2⟩) win).2 ::
      windowChanges py (windowChange py st (some ⟨t1, ver t1⟩) (some ⟨t2, ver t2⟩) win).1 (callsOf ver cs))
    unfold windowChange
    dsimp only [Option.bind]
    by_cases hm : t1 = st.mtime
    · rw [if_neg (fun c => c hm)]
      have hv : v = t1 := by omega
      exact .cons ⟨v, st.config, by show t1 ≤ v; omega, by show v ≤ t2; omega, h3, rfl⟩ (ih st t2 v h1 (by omega) h3 g3)
    · rw [if_pos hm]
      cases hp : parseApp py (ver t2) with
      | none => exact .cons hp (ih st t2 v h1 (by omega) h3 g3)
      | some c => exact .cons ⟨t2, c, g2, Nat.le_refl _, hp, rfl⟩ (ih _ t2 t2 g2 (Nat.le_refl _) hp g3)

/-- C99: if app.conf is not edited while the mapper starts, every window change is handled with the text the file has at that moment, whatever was edited before and
also after an edit that could not be parsed. -/
theorem C99_edits_partial (py : Py) (ver : Nat → PyStr) (t0 : Nat) (st : AppState) (cs : List ((PyStr × PyStr) × Nat × Nat))
    (hst : appStart py (some ⟨t0, ver t0⟩) (some ⟨t0, ver t0⟩) = some st) (ht : Timely t0 cs) :
    List.Forall₂ (UpToDate py ver) cs (windowChanges py st (callsOf ver cs)) := by
  unfold appStart at hst
  dsimp only at hst
  cases hp : parseApp py (ver t0) with
  | none => rw [hp] at hst; cases hst
  | some c =>
    rw [hp] at hst
    cases hst
    exact windowChanges_upToDate py ver cs _ t0 t0 (Nat.le_refl _) (Nat.le_refl _) hp ht

/-- Three versions of the file; the second cannot be parsed. -/
def editDemo (t : Nat) : PyStr :=
  if t < 5 then pyText "[mail]\na = b\n" else if t < 8 then pyText "oops\n" else pyText "[mail]\na = c\n"

theorem C99_example :
    (appStart asciiPy (some ⟨1, editDemo 1⟩) (some ⟨1, editDemo 1⟩)).map
      (fun st => windowChanges asciiPy st (callsOf editDemo [((pyText "mail", []), 1, 1), ((pyText "term", []), 5, 5), ((pyText "mail", []), 5, 8), ((pyText "mail", []), 8, 8)])) =
    some [some [b!"bind", b!"reset", b!"a = b"], none, some [b!"bind", b!"reset", b!"a = c"], some [b!"bind", b!"reset", b!"a = c"]] := by
  decide +kernel

/-- What is missing: an edit after the first reading and before the time is first taken goes unnoticed until the next edit. -/
theorem C99_fails_start :
    (appStart asciiPy (some ⟨1, editDemo 1⟩) (some ⟨8, editDemo 8⟩)).map
      (fun st => windowChanges asciiPy st (callsOf editDemo [((pyText "mail", []), 8, 8), ((pyText "mail", []), 8, 8)])) =
    some [some [b!"bind", b!"reset", b!"a = b"], some [b!"bind", b!"reset", b!"a = b"]] := by
  decide +kernel

end Keyd
