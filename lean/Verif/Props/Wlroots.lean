import Verif.Model.Mapper
import Verif.Proofs.LayerOps

/-
  C87: the application mapper learns of the focused window (wlroots compositors).
-/

set_option autoImplicit false

namespace Keyd

/-- The windows as the compositor describes them: title and class of each, and which one has the focus: the one last
announced as activated, until it is announced as not activated or closed. -/
structure Desktop where
  win : Nat → Option (PyStr × PyStr) := fun _ => none
  focus : Option Nat := none

def Desktop.step (s : Desktop) : WlEvent → Desktop
  | .toplevel i => { s with win := upd s.win i (some ([], [])) }
  | .title i t => { s with win := upd s.win i ((s.win i).map fun x => (t, x.2)) }
  | .appid i a => { s with win := upd s.win i ((s.win i).map fun x => (x.1, a)) }
  | .state i activated =>
    match s.win i with
    | none => s
    | some _ => { s with focus := if activated then some i else if s.focus = some i then none else s.focus }
  | .done _ => s
  | .closed i => { win := upd s.win i none, focus := if s.focus = some i then none else s.focus }

/-- What the mapper is to be told: class and title of the focused window, whenever the compositor has finished describing
it. -/
def Desktop.told (s : Desktop) : WlEvent → List (PyStr × PyStr)
  | .done i => if s.focus = some i then (s.win i).toList.map (fun x => (x.2, x.1)) else []
  | _ => []

def Desktop.tolds : Desktop → List WlEvent → List (PyStr × PyStr)
  | _, [] => []
  | s, e :: es => s.told e ++ (s.step e).tolds es

/-- A new window has a new number, and no message but its title and class comes from a window that has the same title
and class as the focused one. -/
def Desktop.distinct (s : Desktop) : WlEvent → Prop
  | .toplevel i => s.win i = none
  | .title _ _ => True
  | .appid _ _ => True
  | .state i _ => ∀ j, s.focus = some j → j ≠ i → s.win i ≠ s.win j
  | .done i => ∀ j, s.focus = some j → j ≠ i → s.win i ≠ s.win j
  | .closed i => ∀ j, s.focus = some j → j ≠ i → s.win i ≠ s.win j

def Distinguished : Desktop → List WlEvent → Prop
  | _, [] => True
  | s, e :: es => s.distinct e ∧ Distinguished (s.step e) es

/-- The mapper's picture of the windows. -/
structure Pictures (w : Wl) (s : Desktop) : Prop where
  win : ∀ i, s.win i = (w.windows i).map w.obj
  inj : ∀ i j r, w.windows i = some r → w.windows j = some r → i = j
  range : ∀ i r, w.windows i = some r → r < w.objs.length
  focus : (w.active = none ∧ s.focus = none) ∨ ∃ j r, s.focus = some j ∧ w.windows j = some r ∧ w.active = some r

theorem Wl.obj_set (w : Wl) (r q : Nat) (x : PyStr × PyStr) (h : r < w.objs.length) :
    ({ w with objs := w.objs.set r x } : Wl).obj q = if q = r then x else w.obj q := by
  unfold Wl.obj
  by_cases e : q = r
  · subst e
    rw [if_pos rfl, List.getD_eq_getElem?_getD, List.getElem?_set_self (by simpa using h)]
    rfl
  · rw [if_neg e, List.getD_eq_getElem?_getD, List.getD_eq_getElem?_getD, List.getElem?_set_ne (fun h => e h.symm)]

/-- Another window is not taken for the focused one. -/
theorem Pictures.isActive {w : Wl} {s : Desktop} (h : Pictures w s) {i r : Nat} (hr : w.windows i = some r)
    (hd : ∀ j, s.focus = some j → j ≠ i → s.win i ≠ s.win j) : w.isActive r = decide (s.focus = some i) := by
  unfold Wl.isActive
  rcases h.focus with ⟨h1, h2⟩ | ⟨j, q, h1, h2, h3⟩
  · rw [h1, h2]
    rfl
  · rw [h3, h1]
    dsimp only
    by_cases e : j = i
    · subst e
      rw [h2] at hr
      cases hr
      simp
    · have h4 := hd j h1 e
      rw [h.win i, h.win j, hr, h2] at h4
      have h5 : w.obj q ≠ w.obj r := fun h' => h4 (by simp [h'])
      rw [beq_eq_false_iff_ne.2 h5]
      symm
      rw [decide_eq_false_iff_not]
      intro h'
      cases h'
      exact e rfl

theorem pictures_obj {w : Wl} {s : Desktop} (h : Pictures w s) {i r : Nat} (hr : w.windows i = some r) (x : PyStr × PyStr) :
    Pictures { w with objs := w.objs.set r x } { s with win := upd s.win i (some x) } where
  win j := by
    show upd s.win i (some x) j = _
    by_cases e : j = i
    · subst e
      rw [upd_same]
      show _ = (w.windows j).map _
      rw [hr]
      show _ = some (Wl.obj _ r)
      rw [Wl.obj_set w r r x (h.range _ r hr), if_pos rfl]
    · rw [upd_other _ _ e]
      show _ = (w.windows j).map _
      rw [h.win j]
      cases hj : w.windows j with
      | none => rfl
      | some q =>
        show some (w.obj q) = some (Wl.obj _ q)
        rw [Wl.obj_set w r q x (h.range i r hr), if_neg (fun e' : q = r => e (h.inj j i r (e' ▸ hj) hr))]
  inj := h.inj
  range j q hj := by
    show q < (w.objs.set r x).length
    rw [List.length_set]
    exact h.range j q hj
  focus := h.focus

theorem wl_step {w : Wl} {s : Desktop} (h : Pictures w s) (e : WlEvent) (hd : s.distinct e) :
    Pictures (wlStep w e).1 (s.step e) ∧ (wlStep w e).2.toList = s.told e := by
  cases e with
  | toplevel i =>
    have hn : w.windows i = none := by
      have h1 : s.win i = none := hd
      rw [h.win i] at h1
      cases hw : w.windows i with
      | none => rfl
      | some r => rw [hw] at h1; cases h1
    have ho : ∀ j r, w.windows j = some r →
        ({ w with objs := w.objs ++ [([], [])], windows := upd w.windows i (some w.objs.length) } : Wl).obj r = w.obj r := by
      intro j r hj
      unfold Wl.obj
      rw [List.getD_eq_getElem?_getD, List.getD_eq_getElem?_getD, List.getElem?_append_left (h.range j r hj)]
    refine ⟨⟨fun j => ?_, fun j1 j2 r h1 h2 => ?_, fun j r hj => ?_, ?_⟩, rfl⟩
    · show upd s.win i _ j = (upd w.windows i _ j).map _
      by_cases e : j = i
      · subst e
        rw [upd_same, upd_same]
        show _ = some (Wl.obj _ _)
        unfold Wl.obj
        simp [wlStep]
      · rw [upd_other _ _ e, upd_other _ _ e, h.win j]
        cases hj : w.windows j with
        | none => rfl
        | some r => exact congrArg some (ho j r hj).symm
    · have h1 : upd w.windows i (some w.objs.length) j1 = some r := h1
      have h2 : upd w.windows i (some w.objs.length) j2 = some r := h2
      by_cases e1 : j1 = i
      · by_cases e2 : j2 = i
        · rw [e1, e2]
        · subst e1
          rw [upd_same] at h1
          rw [upd_other _ _ e2] at h2
          cases h1
          exact absurd (h.range _ _ h2) (Nat.lt_irrefl _)
      · rw [upd_other _ _ e1] at h1
        by_cases e2 : j2 = i
        · subst e2
          rw [upd_same] at h2
          cases h2
          exact absurd (h.range j1 _ (by assumption)) (Nat.lt_irrefl _)
        · rw [upd_other _ _ e2] at h2
          exact h.inj _ _ _ h1 h2
    · have hj : upd w.windows i (some w.objs.length) j = some r := hj
      show r < (w.objs ++ [([], [])]).length
      rw [List.length_append]
      by_cases e1 : j = i
      · subst e1
        rw [upd_same] at hj
        cases hj
        simp
      · rw [upd_other _ _ e1] at hj
        have := h.range _ _ hj
        simp
        omega
    · rcases h.focus with ⟨h1, h2⟩ | ⟨j, q, h1, h2, h3⟩
      · exact .inl ⟨h1, h2⟩
      · refine .inr ⟨j, q, h1, ?_, h3⟩
        show upd w.windows i _ j = some q
        rw [upd_other _ _ (fun e => by rw [e, hn] at h2; cases h2)]
        exact h2
  | title i t =>
    have hw := h.win i
    cases hr : w.windows i with
    | none =>
      rw [hr] at hw
      have e1 : wlStep w (.title i t) = (w, none) := by simp only [wlStep, WlEvent.id, hr]
      have e2 : s.step (.title i t) = s := by
        show { s with win := upd s.win i ((s.win i).map _) } = s
        rw [hw]
        have : upd s.win i (none : Option (PyStr × PyStr)) = s.win := (congrArg (upd s.win i) hw.symm).trans (upd_eta _ _)
        show { s with win := upd s.win i none } = s
        rw [this]
      rw [e1, e2]
      exact ⟨h, rfl⟩
    | some r =>
      rw [hr] at hw
      have e1 : wlStep w (.title i t) = ({ w with objs := w.objs.set r (t, (w.obj r).2) }, none) := by
        simp only [wlStep, WlEvent.id, hr]
      have e2 : s.step (.title i t) = { s with win := upd s.win i (some (t, (w.obj r).2)) } := by
        show { s with win := upd s.win i ((s.win i).map _) } = _
        rw [hw]
        rfl
      rw [e1, e2]
      exact ⟨pictures_obj h hr _, rfl⟩
  | appid i t =>
    have hw := h.win i
    cases hr : w.windows i with
    | none =>
      rw [hr] at hw
      have e1 : wlStep w (.appid i t) = (w, none) := by simp only [wlStep, WlEvent.id, hr]
      have e2 : s.step (.appid i t) = s := by
        show { s with win := upd s.win i ((s.win i).map _) } = s
        rw [hw]
        have : upd s.win i (none : Option (PyStr × PyStr)) = s.win := (congrArg (upd s.win i) hw.symm).trans (upd_eta _ _)
        show { s with win := upd s.win i none } = s
        rw [this]
      rw [e1, e2]
      exact ⟨h, rfl⟩
    | some r =>
      rw [hr] at hw
      have e1 : wlStep w (.appid i t) = ({ w with objs := w.objs.set r ((w.obj r).1, t) }, none) := by
        simp only [wlStep, WlEvent.id, hr]
      have e2 : s.step (.appid i t) = { s with win := upd s.win i (some ((w.obj r).1, t)) } := by
        show { s with win := upd s.win i ((s.win i).map _) } = _
        rw [hw]
        rfl
      rw [e1, e2]
      exact ⟨pictures_obj h hr _, rfl⟩
  | state i b =>
    have hw := h.win i
    cases hr : w.windows i with
    | none =>
      rw [hr] at hw
      have e1 : wlStep w (.state i b) = (w, none) := by simp only [wlStep, WlEvent.id, hr]
      have e2 : s.step (.state i b) = s := by
        show (match s.win i with | none => s | some _ => _) = s
        rw [hw]
        rfl
      rw [e1, e2]
      exact ⟨h, rfl⟩
    | some r =>
      rw [hr] at hw
      have ha := h.isActive hr hd
      have e2 : s.step (.state i b) =
          { s with focus := if b then some i else if s.focus = some i then none else s.focus } := by
        show (match s.win i with | none => s | some _ => _) = _
        rw [hw]
        rfl
      have e1 : wlStep w (.state i b) =
          ({ w with active := if b then some r else if s.focus = some i then none else w.active }, none) := by
        simp only [wlStep, WlEvent.id, hr, ha]
        by_cases hf : s.focus = some i <;> cases b <;> simp [hf]
      rw [e1, e2]
      refine ⟨⟨h.win, h.inj, h.range, ?_⟩, rfl⟩
      cases b with
      | true => exact .inr ⟨i, r, rfl, hr, rfl⟩
      | false =>
        by_cases hf : s.focus = some i
        · exact .inl ⟨if_pos hf, if_pos hf⟩
        · rcases h.focus with ⟨h1, h2⟩ | ⟨j, q, h1, h2, h3⟩
          · exact .inl ⟨(if_neg hf).trans h1, (if_neg hf).trans h2⟩
          · exact .inr ⟨j, q, (if_neg hf).trans h1, h2, (if_neg hf).trans h3⟩
  | done i =>
    have hw := h.win i
    have e2 : s.told (.done i) = if s.focus = some i then (s.win i).toList.map (fun x => (x.2, x.1)) else [] := rfl
    cases hr : w.windows i with
    | none =>
      rw [hr] at hw
      have e1 : wlStep w (.done i) = (w, none) := by simp only [wlStep, WlEvent.id, hr]
      rw [e1, e2, hw]
      exact ⟨h, by split <;> rfl⟩
    | some r =>
      rw [hr] at hw
      have ha := h.isActive hr hd
      rcases h.focus with ⟨h1, h2⟩ | ⟨j, q, h1, h2, h3⟩
      · have e1 : wlStep w (.done i) = (w, none) := by simp only [wlStep, WlEvent.id, hr, h1]
        rw [e1, e2, h2]
        exact ⟨h, rfl⟩
      · have e1 : wlStep w (.done i) = if w.isActive r then (w, some ((w.obj q).2, (w.obj q).1)) else (w, none) := by
          simp only [wlStep, WlEvent.id, hr, h3]
        rw [e1, e2, ha]
        by_cases hf : s.focus = some i
        · rw [if_pos (by simpa using hf), if_pos hf, hw]
          refine ⟨h, ?_⟩
          rw [hf] at h1
          cases h1
          rw [hr] at h2
          cases h2
          rfl
        · rw [if_neg (by simpa using hf), if_neg hf]
          exact ⟨h, rfl⟩
  | closed i =>
    have hw := h.win i
    cases hr : w.windows i with
    | none =>
      rw [hr] at hw
      have e1 : wlStep w (.closed i) = (w, none) := by simp only [wlStep, WlEvent.id, hr]
      have hf : s.focus ≠ some i := by
        intro hf
        rcases h.focus with ⟨h1, h2⟩ | ⟨j, q, h1, h2, h3⟩
        · rw [h2] at hf; cases hf
        · rw [hf] at h1
          cases h1
          rw [hr] at h2
          cases h2
      have e2 : s.step (.closed i) = s := by
        show (⟨upd s.win i none, if s.focus = some i then none else s.focus⟩ : Desktop) = s
        have : upd s.win i (none : Option (PyStr × PyStr)) = s.win := (congrArg (upd s.win i) hw.symm).trans (upd_eta _ _)
        rw [this, if_neg hf]
      rw [e1, e2]
      exact ⟨h, rfl⟩
    | some r =>
      have ha := h.isActive hr hd
      have e1 : wlStep w (.closed i) =
          ({ w with windows := upd w.windows i none, active := if s.focus = some i then none else w.active }, none) := by
        simp only [wlStep, WlEvent.id, hr, ha]
        by_cases hf : s.focus = some i <;> simp [hf]
      rw [e1]
      refine ⟨⟨fun j => ?_, fun j1 j2 q h1 h2 => ?_, fun j q hj => ?_, ?_⟩, rfl⟩
      · show upd s.win i none j = (upd w.windows i none j).map w.obj
        by_cases e : j = i
        · subst e
          rw [upd_same, upd_same]
          rfl
        · rw [upd_other _ _ e, upd_other _ _ e]
          exact h.win j
      · have h1 : upd w.windows i none j1 = some q := h1
        have h2 : upd w.windows i none j2 = some q := h2
        by_cases n1 : j1 = i
        · subst n1; rw [upd_same] at h1; cases h1
        · by_cases n2 : j2 = i
          · subst n2; rw [upd_same] at h2; cases h2
          · rw [upd_other _ _ n1] at h1
            rw [upd_other _ _ n2] at h2
            exact h.inj _ _ _ h1 h2
      · have hj : upd w.windows i none j = some q := hj
        by_cases n1 : j = i
        · subst n1; rw [upd_same] at hj; cases hj
        · rw [upd_other _ _ n1] at hj
          exact h.range _ _ hj
      · show ((if s.focus = some i then none else w.active) = none ∧ (if s.focus = some i then none else s.focus) = none) ∨
          ∃ j q, (if s.focus = some i then none else s.focus) = some j ∧ upd w.windows i none j = some q ∧
            (if s.focus = some i then none else w.active) = some q
        by_cases hf : s.focus = some i
        · rw [if_pos hf, if_pos hf]
          exact .inl ⟨rfl, rfl⟩
        · rw [if_neg hf, if_neg hf]
          rcases h.focus with ⟨h1, h2⟩ | ⟨j, q, h1, h2, h3⟩
          · exact .inl ⟨h1, h2⟩
          · refine .inr ⟨j, q, h1, ?_, h3⟩
            rw [upd_other _ _ (fun e : j = i => hf (e ▸ h1))]
            exact h2

theorem wl_run : ∀ (es : List WlEvent) (w : Wl) (s : Desktop), Pictures w s → Distinguished s es → (wlRun w es).2 = s.tolds es
  | [], _, _, _, _ => rfl
  | e :: es, w, s, h, hd => by
    obtain ⟨h1, h2⟩ := wl_step h e hd.1
    have ih := wl_run es _ _ h1 hd.2
    show (wlStep w e).2.toList ++ (wlRun (wlStep w e).1 es).2 = _
    rw [h2, ih]
    rfl

/-- C87 (partial). Whatever the compositor says of the windows, the mapper is told of the class and title of the focused
window each time the compositor has finished describing it, and of nothing else, as long as no other window has the same
title and class. Full statement: without that condition. It is false of the code: `C87_fails_twins`. -/
theorem C87_focus_partial (es : List WlEvent) (hd : Distinguished {} es) : (wlRun {} es).2 = Desktop.tolds {} es :=
  wl_run es {} {} ⟨fun _ => rfl, fun _ _ _ h => (by cases h), fun _ _ h => (by cases h), .inl ⟨rfl, rfl⟩⟩ hd

/-- A browser and a terminal; the focus goes from one to the other, and then the title of the terminal changes. -/
def wlDemo : List WlEvent :=
  [.toplevel 5, .title 5 [66], .appid 5 [98], .state 5 true, .done 5,
   .toplevel 6, .title 6 [84], .appid 6 [116], .state 6 true, .state 5 false, .done 6, .done 5,
   .title 6 [85], .done 6, .closed 6]

theorem C87_example : Distinguished {} wlDemo ∧ (wlRun {} wlDemo).2 = [([98], [66]), ([116], [84]), ([116], [85])] := by
  refine ⟨?_, by decide⟩
  simp [Distinguished, wlDemo, Desktop.distinct, Desktop.step, upd]

/-- Two windows with the same title and class. The second gets the focus, and the first is then said to have lost it: the
mapper takes it for the second, and from then on knows of no focused window. When the title of the focused window changes
it is not told. -/
theorem C87_fails_twins :
    (wlRun {} [.toplevel 5, .title 5 [84], .appid 5 [116], .state 5 true, .done 5,
      .toplevel 6, .title 6 [84], .appid 6 [116], .state 6 true, .state 5 false, .done 6, .title 6 [85], .done 6]).2 =
        [([116], [84])] ∧
    Desktop.tolds {} [.toplevel 5, .title 5 [84], .appid 5 [116], .state 5 true, .done 5,
      .toplevel 6, .title 6 [84], .appid 6 [116], .state 6 true, .state 5 false, .done 6, .title 6 [85], .done 6] =
        [([116], [84]), ([116], [84]), ([116], [85])] := by decide

end Keyd
