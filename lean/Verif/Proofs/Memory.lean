import Verif.Proofs.Balance
import Verif.Spec.Log
import Mathlib.Data.List.Forall2

/-
  What processing an action can change: the table of held keys, the key pressed last, the start of
  the current overload and the pending key.
-/

set_option autoImplicit false

namespace Keyd

/-- Nothing but the `layer` field of the entries for key `x` changes in the table of held keys; the
pending key, the key pressed last and the start of the overload are the same. -/
structure Gentle (x : Code) (k k' : Kbd) : Prop where
  steps : k'.steps = k.steps
  pending : k'.pending = k.pending
  config : k'.config = k.config
  last : k'.lastPressedCode = k.lastPressedCode
  start : k'.overloadStartTime = k.overloadStartTime
  cache : List.Forall₂ (fun e e' : CacheEntry => e'.strip = e.strip ∧ (e.code ≠ x → e' = e)) k.cache k'.cache

theorem forall₂_refl {α : Type} {R : α → α → Prop} (h : ∀ a, R a a) : ∀ l : List α, List.Forall₂ R l l
  | [] => .nil
  | a :: l => .cons (h a) (forall₂_refl h l)

theorem forall₂_trans {α : Type} {R S T : α → α → Prop} (h : ∀ a b c, R a b → S b c → T a c) :
    ∀ {l m n : List α}, List.Forall₂ R l m → List.Forall₂ S m n → List.Forall₂ T l n
  | _, _, _, .nil, .nil => .nil
  | _, _, _, .cons h1 t1, .cons h2 t2 => .cons (h _ _ _ h1 h2) (forall₂_trans h t1 t2)

theorem forall₂_mem {α : Type} {R : α → α → Prop} {P : α → Prop} : ∀ {l m : List α}, (∀ a ∈ l, P a) →
    List.Forall₂ R l m → List.Forall₂ (fun a b => P a ∧ R a b) l m
  | _, _, _, .nil => .nil
  | _, _, hp, .cons h t => .cons ⟨hp _ List.mem_cons_self, h⟩ (forall₂_mem (fun a ha => hp a (List.mem_cons_of_mem _ ha)) t)

namespace Gentle

variable {x : Code}

theorem same {k k' : Kbd} (h1 : k'.steps = k.steps) (h2 : k'.pending = k.pending) (h3 : k'.config = k.config)
    (h4 : k'.lastPressedCode = k.lastPressedCode) (h5 : k'.overloadStartTime = k.overloadStartTime)
    (h6 : k'.cache = k.cache) : Gentle x k k' :=
  ⟨h1, h2, h3, h4, h5, by rw [h6]; exact forall₂_refl (fun _ => ⟨rfl, fun _ => rfl⟩) _⟩

theorem refl (k : Kbd) : Gentle x k k := same rfl rfl rfl rfl rfl rfl

theorem trans {a b c : Kbd} (h : Gentle x a b) (h' : Gentle x b c) : Gentle x a c := by
  refine ⟨h'.1.trans h.1, h'.2.trans h.2, h'.3.trans h.3, h'.4.trans h.4, h'.5.trans h.5, forall₂_trans ?_ h.6 h'.6⟩
  rintro e1 e2 e3 ⟨p1, p2⟩ ⟨q1, q2⟩
  refine ⟨q1.trans p1, fun hne => ?_⟩
  have := p2 hne
  subst this
  exact q2 hne

theorem of_frame {k k' : Kbd} (h : KeyFrame k k') : Gentle x k k' :=
  same h.steps h.pending h.config h.lastPressedCode h.overloadStartTime h.cache

theorem modL (k : Kbd) (i : Nat) (f : LayerSt → LayerSt) : Gentle x k (k.modLayer i f) :=
  same rfl rfl rfl rfl rfl rfl

theorem bind {k : Kbd} {r : Res Kbd} {f : Kbd → Res Kbd} (h : Sat r (Gentle x k) AnyErr)
    (hf : ∀ k', Gentle x k k' → Sat (f k') (Gentle x k') AnyErr) : Sat (r >>= f) (Gentle x k) AnyErr :=
  Sat.bind h (fun k' h' => (hf k' h').imp (fun _ h'' => h'.trans h''))

theorem modifyFirst_gentle (x : Code) (i : Nat) : ∀ l : List CacheEntry,
    List.Forall₂ (fun e e' : CacheEntry => e'.strip = e.strip ∧ (e.code ≠ x → e' = e)) l
      (modifyFirst (fun e => e.code = x) (fun e => { e with layer := i }) l)
  | [] => .nil
  | e :: l => by
    unfold modifyFirst
    split
    · rename_i h
      refine .cons ⟨rfl, fun hne => absurd (by simpa using h) hne⟩ (forall₂_refl (fun _ => ⟨rfl, fun _ => rfl⟩) _)
    · exact .cons ⟨rfl, fun _ => rfl⟩ (modifyFirst_gentle x i l)

theorem activate (k : Kbd) (i : Nat) : Sat (activateLayer k x i) (Gentle x k) AnyErr := by
  unfold activateLayer
  dsimp only
  split
  · trivial
  · exact ⟨rfl, rfl, rfl, rfl, rfl, modifyFirst_gentle x i k.cache⟩

theorem deactivate (k : Kbd) (i : Nat) : Sat (deactivateLayer k i) (Gentle x k) AnyErr := by
  unfold deactivateLayer
  dsimp only
  split
  · trivial
  · exact same rfl rfl rfl rfl rfl rfl

theorem clearOneshotLayer (i : Nat) : ∀ (n : Nat) (k : Kbd), Sat (clearOneshotLayer i n k) (Gentle x k) AnyErr
  | 0, k => refl k
  | n+1, k => by
    unfold Keyd.clearOneshotLayer
    exact (deactivate (x := x) k i).bind (fun k1 h1 => (clearOneshotLayer i n _).imp (fun k2 h2 =>
      h1.trans ((modL (x := x) _ _ _).trans h2)))

theorem clearOneshotLayers : ∀ (l : List Nat) (k : Kbd), Sat (clearOneshotLayers l k) (Gentle x k) AnyErr
  | [], k => refl k
  | i :: is, k => by
    unfold Keyd.clearOneshotLayers
    exact bind (clearOneshotLayer (x := x) i _ k) (fun k1 _ => clearOneshotLayers is k1)

theorem clearOneshot (k : Kbd) : Sat (clearOneshot k) (Gentle x k) AnyErr := by
  unfold Keyd.clearOneshot
  exact (clearOneshotLayers (x := x) _ k).bind (fun k1 h1 => h1.trans (same rfl rfl rfl rfl rfl rfl))

theorem clearToggled : ∀ (l : List Nat) (k : Kbd), Sat (clearToggled l k) (Gentle x k) AnyErr
  | [], k => refl k
  | i :: is, k => by
    unfold Keyd.clearToggled
    split
    · refine (deactivate (x := x) _ i).bind (fun k1 h1 => (clearToggled is k1).imp (fun k2 h2 => ?_))
      exact (modL (x := x) _ _ _).trans (h1.trans h2)
    · exact clearToggled is k

theorem clear (k : Kbd) : Sat (clear k) (Gentle x k) AnyErr := by
  unfold Keyd.clear
  refine bind (clearOneshot (x := x) k) (fun k1 _ => ?_)
  refine (clearToggled (x := x) _ k1).bind (fun k2 h2 => ?_)
  refine h2.trans (trans ?_ (of_frame (x := x) (.resetKeystate _)))
  exact same rfl rfl rfl rfl rfl rfl

theorem foldl {α : Type} {f : Kbd → α → Kbd} (h : ∀ k a, Gentle x k (f k a)) :
    ∀ (l : List α) (k : Kbd), Gentle x k (l.foldl f k)
  | [], k => refl k
  | a :: l, k => (h k a).trans (foldl h l _)

theorem setlayout (k : Kbd) (i : Nat) : Sat (setlayout k i) (Gentle x k) AnyErr := by
  unfold Keyd.setlayout
  refine bind (clear (x := x) k) (fun k1 _ => ?_)
  have h2 : Gentle x k1 ((nonMainLayers k1).foldl (fun k i =>
      if (k.config.layer i).type = .layout then k.modLayer i fun s => { s with active := 0 } else k) k1) := by
    refine foldl ?_ _ _
    intro k c
    split
    · exact same rfl rfl rfl rfl rfl rfl
    · exact refl k
  revert h2
  dsimp only
  generalize (nonMainLayers k1).foldl _ k1 = k2
  intro h2
  split
  · exact h2.trans (same rfl rfl rfl rfl rfl rfl)
  · exact h2.trans (same rfl rfl rfl rfl rfl rfl)

theorem schedule (k : Kbd) (t : Int) : Sat (scheduleTimeout k t) (Gentle x k) AnyErr := by
  unfold scheduleTimeout
  split
  · exact same rfl rfl rfl rfl rfl rfl
  · trivial

theorem pdKeyseq (k : Kbd) (c : Code) (m : UInt8) (dl : Nat) (p : Bool) (t : Int) :
    Sat (pdKeyseq k c m dl p t) (Gentle x k) AnyErr := by
  unfold Keyd.pdKeyseq
  refine Sat.bind (Q := Gentle x k) ?_ (fun k1 h1 => ?_)
  · split
    · dsimp only
      refine (clearOneshot (x := x) _).imp (fun k1 h1 => trans ?_ h1)
      refine of_frame (KeyFrame.trans ?_ ((KeyFrame.updateMods _ _ _).trans (.send _ _ _)))
      split
      · exact .send _ _ _
      · exact .refl _
    · exact of_frame ((KeyFrame.send _ _ _).trans (.updateMods _ _ _))
  · show Gentle x k _
    split
    · exact h1.trans (same rfl rfl rfl rfl rfl rfl)
    · exact h1

theorem pdLayer (k : Kbd) (l : Nat) (p : Bool) : Sat (pdLayer k x l p) (Gentle x k) AnyErr := by
  unfold Keyd.pdLayer
  refine Sat.bind (Q := Gentle x k) ?_ (fun k1 h1 => ?_)
  · split
    · exact activate _ _
    · exact deactivate _ _
  · split
    · have h2 : Gentle x k1 { k1 with inhibitModifierGuard := true } := same rfl rfl rfl rfl rfl rfl
      have h3 := (h1.trans h2).trans (of_frame (x := x) (.updateMods _ none 0))
      exact h3.trans (same rfl rfl rfl rfl rfl rfl)
    · exact h1.trans (of_frame (x := x) (.updateMods _ _ _))

theorem pdOneshot (k : Kbd) (l dl : Nat) (p : Bool) (t : Int) :
    Sat (pdOneshot k x l dl p t) (Gentle x k) AnyErr := by
  unfold Keyd.pdOneshot
  split
  · refine (activate (x := x) _ _).bind (fun k1 h1 => ?_)
    exact h1.trans ((of_frame (x := x) (.updateMods k1 (some dl) 0)).trans (same rfl rfl rfl rfl rfl rfl))
  · split
    · dsimp only
      split
      · trivial
      · split
        · refine (schedule (x := x) _ _).imp (fun k1 h1 => trans ?_ h1)
          exact same rfl rfl rfl rfl rfl rfl
        · exact same rfl rfl rfl rfl rfl rfl
    · exact (deactivate (x := x) _ _).bind (fun k1 h1 => h1.trans (of_frame (x := x) (.updateMods _ _ _)))

theorem pdMacro (k : Kbd) (m : Nat) (tm iv : Int) (dl : Nat) (t : Int) :
    Sat (pdMacro k m tm iv dl t) (Gentle x k) AnyErr := by
  unfold Keyd.pdMacro
  dsimp only
  refine Sat.bind (Q := Gentle x k) ((clearOneshot (x := x) _).imp (fun k1 h1 => by refine trans ?_ h1; exact same rfl rfl rfl rfl rfl rfl))
    (fun k1 h1 => ?_)
  refine (schedule (x := x) _ _).imp (fun k2 h2 => trans (h1.trans (of_frame (x := x) (.executeMacro k1 dl (k1.config.mac m)))) (trans ?_ h2))
  exact same rfl rfl rfl rfl rfl rfl

theorem pdToggle (k : Kbd) (l : Nat) : Sat (pdToggle k x l) (Gentle x k) AnyErr := by
  unfold Keyd.pdToggle
  dsimp only
  refine Sat.bind (Q := Gentle x k) ?_ (fun k1 h1 => (clearOneshot (x := x) _).imp (fun k2 h2 =>
    (h1.trans (of_frame (x := x) (.updateMods k1 none 0))).trans h2))
  split
  · exact (activate (x := x) _ _).imp (fun k1 h1 => (modL (x := x) _ _ _).trans h1)
  · exact (deactivate (x := x) _ _).imp (fun k1 h1 => (modL (x := x) _ _ _).trans h1)

theorem pdCommand (k : Kbd) (c : Nat) : Sat (pdCommand k c) (Gentle x k) AnyErr := by
  unfold Keyd.pdCommand
  dsimp only
  refine Sat.bind (Q := Gentle x k) ((clearOneshot (x := x) _).imp (fun k1 h1 => by refine trans ?_ h1; exact same rfl rfl rfl rfl rfl rfl))
    (fun k1 h1 => h1.trans (of_frame (x := x) (.updateMods _ _ _)))

theorem stepTimers (k : Kbd) (c : Code) (t : Int) : Sat (stepTimers k c t) (Gentle x k) AnyErr := by
  unfold Keyd.stepTimers
  refine Sat.bind (Q := Gentle x k) ?_ (fun k1 h1 => ?_)
  · split
    · exact (clearOneshot (x := x) k).bind (fun k1 h1 => h1.trans (of_frame (x := x) (.updateMods _ _ _)))
    · exact refl k
  · split
    · exact h1
    · split
      · refine h1.trans (trans ?_ (of_frame (x := x) (.updateMods _ _ _)))
        exact same rfl rfl rfl rfl rfl rfl
      · split
        · rename_i m _ _ _
          refine (schedule (x := x) _ _).imp (fun k2 h2 => ?_)
          refine trans (h1.trans (of_frame (x := x) (.executeMacro k1 k1.activeMacroLayer (k1.config.mac m)))) (trans ?_ h2)
          exact same rfl rfl rfl rfl rfl rfl
        · exact h1

end Gentle

theorem strip_code {e e' : CacheEntry} (h : e'.strip = e.strip) : e'.code = e.code := by
  have := congrArg CacheEntry.code h; exact this
theorem strip_dl {e e' : CacheEntry} (h : e'.strip = e.strip) : e'.dl = e.dl := by
  have := congrArg CacheEntry.dl h; exact this
theorem strip_d {e e' : CacheEntry} (h : e'.strip = e.strip) : e'.d = e.d := by
  have := congrArg CacheEntry.d h; exact this

theorem modifyFirst_pos {q : CacheEntry → Bool} (f : CacheEntry → CacheEntry) {e : CacheEntry} (l : List CacheEntry)
    (h : q e = true) : modifyFirst q f (e :: l) = f e :: l := by
  conv => lhs; unfold modifyFirst
  rw [if_pos h]

theorem modifyFirst_neg {q : CacheEntry → Bool} (f : CacheEntry → CacheEntry) {e : CacheEntry} (l : List CacheEntry)
    (h : q e = false) : modifyFirst q f (e :: l) = e :: modifyFirst q f l := by
  conv => lhs; unfold modifyFirst
  rw [if_neg (by rw [h]; exact Bool.false_ne_true)]

/-- No two entries for the same key. -/
def Uniq (l : List CacheEntry) : Prop := l.Pairwise (fun a b => a.code = b.code → a.code = 0)

/-- What processing the binding `d` of key `code` may change. -/
structure Acts (code : Code) (d : Desc) (p : Bool) (t : Int) (k k' : Kbd) : Prop where
  steps : k'.steps = k.steps
  config : k'.config = k.config
  cache : List.Forall₂ (fun e e' : CacheEntry => e'.code = e.code ∧ e'.dl = e.dl ∧
    (e'.d = e.d ∨ e'.d.steady = false ∨ (e.code = code ∧ k'.pending = k.pending)) ∧
    (e.code ≠ 0 → e.layer = 0 → (e.code ≠ code ∨ d.steady = true) → e' = e)) k.cache k'.cache
  last : p = false → k'.lastPressedCode = k.lastPressedCode
  start : k'.overloadStartTime = k.overloadStartTime ∨
    (k'.overloadStartTime = t ∧ d.steady = false ∧ (p = false → k.lastPressedCode = code))
  pending : k'.pending = k.pending ∨
    (d.steady = false ∧ k'.pending.code = code ∧ k'.pending.queue = k.pending.queue ∧
      k'.pending.tapExpiry = k.pending.tapExpiry)

namespace Acts

variable {code : Code} {d : Desc} {p : Bool} {t : Int}

theorem of_gentle {k k' : Kbd} (h : Gentle code k k') (hd : d.steady = true → k'.cache = k.cache) :
    Acts code d p t k k' := by
  refine ⟨h.steps, h.config, ?_, fun _ => h.last, .inl h.start, .inl h.pending⟩
  by_cases hs : d.steady = true
  · rw [hd hs]
    exact forall₂_refl (fun e => ⟨rfl, rfl, .inl rfl, fun _ _ _ => rfl⟩) _
  · refine h.cache.imp ?_
    rintro e e' ⟨h1, h2⟩
    refine ⟨strip_code h1, strip_dl h1, .inl (strip_d h1), fun _ _ hc => ?_⟩
    rcases hc with hc | hc
    · exact h2 hc
    · exact absurd hc hs

/-- Changes in which only entries of other keys that hold a layer are involved. -/
theorem of_gentle_zero {k k' : Kbd} (h : Gentle 0 k k') : Acts code d p t k k' := by
  refine ⟨h.steps, h.config, ?_, fun _ => h.last, .inl h.start, .inl h.pending⟩
  refine h.cache.imp ?_
  rintro e e' ⟨h1, h2⟩
  exact ⟨strip_code h1, strip_dl h1, .inl (strip_d h1), fun h0 _ _ => h2 h0⟩

theorem frame_right {k k' k'' : Kbd} (h : Acts code d p t k k') (hf : KeyFrame k' k'') : Acts code d p t k k'' := by
  refine ⟨hf.steps.trans h.steps, hf.config.trans h.config, ?_, fun hp => hf.lastPressedCode.trans (h.last hp), ?_, ?_⟩
  · rw [hf.cache, hf.pending]; exact h.cache
  · rw [hf.overloadStartTime]; exact h.start
  · rw [hf.pending]; exact h.pending

theorem codes {k k' : Kbd} (h : Acts code d p t k k') : k'.cache.map CacheEntry.code = k.cache.map CacheEntry.code := by
  have : ∀ {l l' : List CacheEntry} {R : CacheEntry → CacheEntry → Prop},
      List.Forall₂ (fun e e' : CacheEntry => e'.code = e.code ∧ R e e') l l' →
      l'.map CacheEntry.code = l.map CacheEntry.code := by
    intro l l' R h
    induction h with
    | nil => rfl
    | cons h1 _ ih => rw [List.map_cons, List.map_cons, h1.1, ih]
  exact this h.cache

end Acts

theorem uniq_iff {l : List CacheEntry} :
    Uniq l ↔ (l.map CacheEntry.code).Pairwise (fun a b => a = b → a = 0) := by
  unfold Uniq
  rw [List.pairwise_map]

theorem Uniq.of_codes {l l' : List CacheEntry} (h : Uniq l) (hc : l'.map CacheEntry.code = l.map CacheEntry.code) : Uniq l' := by
  rw [uniq_iff] at h ⊢
  rw [hc]
  exact h

theorem Uniq.eq {l : List CacheEntry} (h : Uniq l) {a b : CacheEntry} (ha : a ∈ l) (hb : b ∈ l) (hc : a.code = b.code)
    (h0 : a.code ≠ 0) : a = b := by
  induction l with
  | nil => cases ha
  | cons e l ih =>
    rw [Uniq, List.pairwise_cons] at h
    rcases List.mem_cons.1 ha with rfl | ha'
    · rcases List.mem_cons.1 hb with rfl | hb'
      · rfl
      · exact absurd (h.1 b hb' hc) h0
    · rcases List.mem_cons.1 hb with rfl | hb'
      · exact absurd (h.1 a ha' hc.symm) (by rw [← hc]; exact h0)
      · exact ih h.2 ha' hb'

/-- The swap: the key that holds the layer is bound to the other one. -/
theorem swap_cache {l : List CacheEntry} (hu : Uniq l) (q : CacheEntry → Bool) (idx : Nat) {ce : CacheEntry}
    (hq : ∀ e, q e = true → e.code ≠ 0 ∧ e.layer ≠ 0) (hce : l.find? q = some ce) (code : Code) (d : Desc) (P : Prop) :
    List.Forall₂ (fun e e' : CacheEntry => e'.code = e.code ∧ e'.dl = e.dl ∧
      (e'.d = e.d ∨ e'.d.steady = false ∨ (e.code = code ∧ P)) ∧
      (e.code ≠ 0 → e.layer = 0 → (e.code ≠ code ∨ d.steady = true) → e' = e)) l
      (modifyFirst (fun e => e.code = ce.code) (fun e => { e with layer := idx })
        (modifyFirst q (fun e => { e with d := .layer idx }) l)) := by
  have hm := List.mem_of_find?_eq_some hce
  have hqc := hq ce (List.find?_some hce)
  have key : ∀ (m : List CacheEntry), (∀ e ∈ m, e.code = ce.code → e = ce) →
      List.Forall₂ (fun e e' : CacheEntry => e'.code = e.code ∧ e'.dl = e.dl ∧
        (e'.d = e.d ∨ e'.d.steady = false ∨ (e.code = code ∧ P)) ∧
        (e.code ≠ 0 → e.layer = 0 → (e.code ≠ code ∨ d.steady = true) → e' = e)) m
        (modifyFirst (fun e => e.code = ce.code) (fun e => { e with layer := idx }) m) := by
    intro m
    induction m with
    | nil => intro _; exact .nil
    | cons e m ih =>
      intro h
      unfold modifyFirst
      split
      · rename_i hc
        have := h e List.mem_cons_self (by simpa using hc)
        subst this
        refine .cons ⟨rfl, rfl, .inl rfl, fun _ hl => absurd hl hqc.2⟩ (forall₂_refl (fun e => ⟨rfl, rfl, .inl rfl, fun _ _ _ => rfl⟩) _)
      · exact .cons ⟨rfl, rfl, .inl rfl, fun _ _ _ => rfl⟩ (ih (fun e' he => h e' (List.mem_cons_of_mem _ he)))
  have huq : ∀ e ∈ l, e.code = ce.code → e = ce := fun e he hc => hu.eq he hm hc (by rw [hc]; exact hqc.1)
  clear hu hm
  induction l with
  | nil => cases hce
  | cons e l ih =>
    rw [List.find?_cons] at hce
    by_cases hqe : q e = true
    · rw [hqe] at hce
      cases hce
      rw [modifyFirst_pos _ _ hqe, modifyFirst_pos _ _ (by simp)]
      refine .cons ⟨rfl, rfl, .inr (.inl rfl), fun _ hl => absurd hl hqc.2⟩ (forall₂_refl (fun e => ⟨rfl, rfl, .inl rfl, fun _ _ _ => rfl⟩) _)
    · have hqf : q e = false := by simpa using hqe
      rw [hqf] at hce
      have hne : e.code ≠ ce.code := by
        intro hc
        have := huq e List.mem_cons_self hc
        subst this
        exact hqe (List.find?_some hce)
      rw [modifyFirst_neg _ _ hqf, modifyFirst_neg _ _ (by simpa using hne)]
      exact .cons ⟨rfl, rfl, .inl rfl, fun _ _ _ => rfl⟩ (ih hce (fun e' he => huq e' (List.mem_cons_of_mem _ he)))

theorem Acts.of_frame {code : Code} {d : Desc} {p : Bool} {t : Int} {k k' : Kbd} (h : KeyFrame k k') : Acts code d p t k k' :=
  .of_gentle (.of_frame h) (fun _ => h.cache)

theorem Acts.frame_left {code : Code} {d : Desc} {p : Bool} {t : Int} {k k' k'' : Kbd} (hf : KeyFrame k k')
    (h : Acts code d p t k' k'') : Acts code d p t k k'' := by
  refine ⟨h.steps.trans hf.steps, h.config.trans hf.config, ?_, fun hp => (h.last hp).trans hf.lastPressedCode, ?_, ?_⟩
  · have := h.cache
    rw [hf.cache, hf.pending] at this
    exact this
  · have := h.start
    rw [hf.overloadStartTime, hf.lastPressedCode] at this
    exact this
  · have := h.pending
    rw [hf.pending] at this
    exact this

theorem acts_swap (code : Code) (d : Desc) (k : Kbd) (l : Nat) (m : Option Macro) (dl : Nat) (p : Bool) (t : Int) (hu : Uniq k.cache) :
    Sat (pdSwap k l m dl p) (Acts code d p t k) AnyErr := by
  unfold pdSwap
  refine Sat.ite (fun _ => ?_) (fun _ => ?_)
  · refine Sat.bind (Q := Acts code d p t k) ?_ (fun k1 h1 => ?_)
    · unfold pdSwapLayer
      refine Sat.ite (fun _ => ?_) (fun _ => ?_)
      · refine Sat.bind (Gentle.deactivate (x := 0) k dl) (fun k1 h1 => ?_)
        refine Sat.bind (Gentle.activate (x := 0) _ l) (fun k2 h2 => ?_)
        exact .of_gentle_zero ((h1.trans ((Gentle.modL _ _ _).trans h2)).trans ((Gentle.modL _ _ _).trans (.of_frame (.updateMods _ _ _))))
      · refine Sat.ite (fun _ => ?_) (fun _ => ?_)
        · refine Sat.bind (Gentle.deactivate (x := 0) k dl) (fun k1 h1 => ?_)
          refine Sat.bind (Gentle.activate (x := 0) _ l) (fun k2 h2 => ?_)
          exact .of_gentle_zero ((h1.trans ((Gentle.modL _ _ _).trans h2)).trans ((Gentle.modL _ _ _).trans (.of_frame (.updateMods _ _ _))))
        · cases hce : k.cache.find? (swapHolder k dl) with
          | none => exact .of_gentle_zero (.refl k)
          | some ce =>
            dsimp only
            refine Sat.bind_eq (Q := fun _ => True) (Sat.intro (fun _ _ => trivial)) (fun k1 e1 _ => ?_)
            refine Sat.bind_eq (Q := fun _ => True) (Sat.intro (fun _ _ => trivial)) (fun k2 e2 _ => ?_)
            have : Acts code d p t k k2 := by
              unfold deactivateLayer at e1
              dsimp only at e1
              split at e1
              · cases e1
              · injection e1 with e1
                subst e1
                unfold activateLayer at e2
                dsimp only at e2
                split at e2
                · cases e2
                · injection e2 with e2
                  subst e2
                  refine ⟨rfl, rfl, ?_, fun _ => rfl, .inl rfl, .inl rfl⟩
                  refine swap_cache hu (swapHolder k dl) l (fun e he => ?_) hce code d _
                  unfold swapHolder at he
                  simp only [ne_eq, decide_eq_true_eq] at he
                  exact ⟨he.1, he.2.2.2⟩
            exact this.frame_right (.updateMods _ _ _)
    · cases m with
      | none => exact h1
      | some m => exact h1.frame_right (.executeMacro _ _ _)
  · refine Acts.of_frame ?_
    split
    · split
      · exact (KeyFrame.send _ _ _).trans (.updateMods _ _ _)
      · exact .refl _
    · exact .refl _

/-- Processing an action of key `code` acts only as described; a press makes it the key pressed
last. -/
def ActsPd (pd : Kbd → Code → Desc → Nat → Bool → Int → Res Kbd) : Prop :=
  ∀ k code d dl p t, Uniq k.cache → (p = false → ∀ e ∈ k.cache, e.code ≠ code) →
    Sat (pd k code d dl p t) (fun k' => Acts code d p t k k' ∧ (p = true → k'.lastPressedCode = code)) AnyErr

theorem acts_idle {pd : Kbd → Code → Desc → Nat → Bool → Int → Res Kbd} (hpd : ActsPd pd) (k : Kbd) (code : Code)
    (d1 d2 T dl : Nat) (t : Int) (hu : Uniq k.cache) :
    Sat (pdOverloadIdle pd k code d1 d2 T dl t) (Acts code (.overloadIdle d1 d2 T) true t k) AnyErr := by
  unfold pdOverloadIdle
  dsimp only
  refine Sat.bind (hpd k code _ dl true t hu (fun h => (by cases h))) (fun k1 h1 => ?_)
  obtain ⟨h1, _⟩ := h1
  generalize idleAction k d1 d2 T t = a at *
  refine ⟨h1.steps, h1.config, ?_, fun h => (by cases h), ?_, ?_⟩
  · have hm : ∀ l : List CacheEntry, List.Forall₂ (fun e e' : CacheEntry => e'.code = e.code ∧ e'.dl = e.dl ∧
        (e' = e ∨ (e.code = code ∧ e'.d = a))) l (modifyFirst (fun e => e.code = code) (fun e => { e with d := a }) l) := by
      intro l
      induction l with
      | nil => exact .nil
      | cons e l ih =>
        by_cases hc : e.code = code
        · rw [modifyFirst_pos _ _ (by simpa using hc)]
          exact .cons ⟨rfl, rfl, .inr ⟨hc, rfl⟩⟩ (forall₂_refl (fun e => ⟨rfl, rfl, .inl rfl⟩) _)
        · rw [modifyFirst_neg _ _ (by simpa using hc)]
          exact .cons ⟨rfl, rfl, .inl rfl⟩ ih
    refine forall₂_trans ?_ h1.cache (hm k1.cache)
    rintro e e1 e2 ⟨p1, p2, p3, p4⟩ ⟨q1, q2, q3⟩
    refine ⟨q1.trans p1, q2.trans p2, ?_, ?_⟩
    · rcases q3 with rfl | ⟨q3, q4⟩
      · exact p3
      · rcases h1.pending with hp | ⟨hp, _⟩
        · exact .inr (.inr ⟨p1 ▸ q3, hp⟩)
        · exact .inr (.inl (by rw [q4]; exact hp))
    · intro h0 hl hor
      rcases hor with hor | hor
      · rcases q3 with rfl | ⟨q3, _⟩
        · exact p4 h0 hl (.inl hor)
        · exact absurd (p1 ▸ q3) hor
      · cases hor
  · rcases h1.start with h | ⟨h, _, _⟩
    · exact .inl h
    · exact .inr ⟨h, rfl, fun h => (by cases h)⟩
  · rcases h1.pending with h | ⟨_, h⟩
    · exact .inl h
    · exact .inr ⟨rfl, h⟩

theorem acts_release {pd : Kbd → Code → Desc → Nat → Bool → Int → Res Kbd} (hpd : ActsPd pd) (k : Kbd) (code : Code)
    (l a dl : Nat) (t : Int) (hu : Uniq k.cache) (hown : ∀ e ∈ k.cache, e.code ≠ code) :
    Sat (pdOverloadRelease pd k code l a dl t) (Acts code (.overload l a) false t k) AnyErr := by
  unfold pdOverloadRelease
  dsimp only
  refine Sat.bind (Gentle.deactivate (x := 0) k l) (fun k1 h1 => ?_)
  have hA := h1.trans (.of_frame (KeyFrame.updateMods k1 none 0))
  generalize updateMods k1 none 0 = k2 at hA ⊢
  have hB : Acts code (.overload l a) false t k k2 := .of_gentle_zero hA
  refine Sat.ite (fun htap => ?_) (fun _ => hB)
  have hlast : k.lastPressedCode = code := by
    unfold isTap at htap
    simp only [decide_eq_true_eq] at htap
    rw [← hA.last]
    exact htap.1
  have hgen : Sat (do
      let k' ← pd k2 code (k.config.desc a) dl true t
      pd k' code (k.config.desc a) dl false t) (Acts code (.overload l a) false t k) AnyErr := by
    have hown2 : ∀ e ∈ k2.cache, e.code ≠ code := by
      intro e he hc
      have : code ∈ k2.cache.map CacheEntry.code := List.mem_map.2 ⟨e, he, hc⟩
      rw [hB.codes] at this
      obtain ⟨e', he', hc'⟩ := List.mem_map.1 this
      exact hown e' he' hc'
    refine Sat.bind (hpd k2 code (k.config.desc a) dl true t (hu.of_codes hB.codes) (fun h => (by cases h))) (fun k3 h3 => ?_)
    obtain ⟨h3, hl3⟩ := h3
    have hl3 := hl3 rfl
    refine (hpd k3 code (k.config.desc a) dl false t (hu.of_codes (h3.codes.trans hB.codes)) (fun _ e he hc => ?_)).imp
      (fun k4 h4 => ?_)
    · have : code ∈ k3.cache.map CacheEntry.code := List.mem_map.2 ⟨e, he, hc⟩
      rw [h3.codes] at this
      obtain ⟨e', he', hc'⟩ := List.mem_map.1 this
      exact hown2 e' he' hc'
    · obtain ⟨h4, _⟩ := h4
      refine ⟨h4.steps.trans (h3.steps.trans hB.steps), h4.config.trans (h3.config.trans hB.config), ?_,
        fun _ => by rw [h4.last rfl, hl3, hlast], ?_, ?_⟩
      · have c1 := forall₂_mem hown hB.cache
        refine forall₂_trans (S := fun e e' : CacheEntry => e'.code = e.code ∧ e'.dl = e.dl ∧
            (e.code ≠ code → (e'.d = e.d ∨ e'.d.steady = false) ∧ (e.code ≠ 0 → e.layer = 0 → e' = e))) ?_ c1
          (forall₂_trans ?_ h3.cache h4.cache)
        · rintro e e1 e2 ⟨p0, p1, p2, p3, p4⟩ ⟨q1, q2, q3⟩
          have q3 := q3 (by rw [p1]; exact p0)
          refine ⟨q1.trans p1, q2.trans p2, ?_, fun h0 hl _ => ?_⟩
          · rcases q3.1 with q | q
            · rcases p3 with p | p | ⟨p, _⟩
              · exact .inl (q.trans p)
              · exact .inr (.inl (by rw [q]; exact p))
              · exact absurd p p0
            · exact .inr (.inl q)
          · have := p4 h0 hl (.inl p0)
            subst this
            exact q3.2 h0 hl
        · rintro e e1 e2 ⟨p1, p2, p3, p4⟩ ⟨q1, q2, q3, q4⟩
          refine ⟨q1.trans p1, q2.trans p2, fun hne => ⟨?_, fun h0 hl => ?_⟩⟩
          · rcases q3 with q | q | ⟨q, _⟩
            · rcases p3 with p | p | ⟨p, _⟩
              · exact .inl (q.trans p)
              · exact .inr (by rw [q]; exact p)
              · exact absurd p hne
            · exact .inr q
            · exact absurd (p1 ▸ q) hne
          · have := p4 h0 hl (.inl hne)
            subst this
            exact q4 h0 hl (.inl hne)
      · rcases h4.start with h | ⟨h, _⟩
        · rcases h3.start with h' | ⟨h', _⟩
          · exact .inl (by rw [h, h', hA.start])
          · exact .inr ⟨by rw [h, h'], rfl, fun _ => hlast⟩
        · exact .inr ⟨h, rfl, fun _ => hlast⟩
      · rcases h4.pending with h | ⟨_, h, h', h''⟩
        · rcases h3.pending with g | ⟨_, g, g', g''⟩
          · exact .inl (by rw [h, g, hA.pending])
          · exact .inr ⟨rfl, by rw [h, g], by rw [h, g', hA.pending], by rw [h, g'', hA.pending]⟩
        · refine .inr ⟨rfl, h, ?_, ?_⟩
          · rcases h3.pending with g | ⟨_, _, g', _⟩
            · rw [h', g, hA.pending]
            · rw [h', g', hA.pending]
          · rcases h3.pending with g | ⟨_, _, _, g''⟩
            · rw [h'', g, hA.pending]
            · rw [h'', g'', hA.pending]
  cases hact : k.config.desc a with
  | «macro» m => exact hB.frame_right (.executeMacro _ _ _)
  | _ => rw [hact] at hgen; exact hgen

theorem acts_pending {d : Desc} {code : Code} {t : Int} {k : Kbd} {pk : PendingKey} {e : Int} (hd : d.steady = false)
    (h1 : pk.code = code) (h2 : pk.queue = k.pending.queue) (h3 : pk.tapExpiry = k.pending.tapExpiry) :
    Sat (scheduleTimeout { k with pending := pk } e) (Acts code d true t k) AnyErr := by
  unfold scheduleTimeout
  refine Sat.ite (fun _ => ?_) (fun _ => trivial)
  refine ⟨rfl, rfl, ?_, fun h => (by cases h), .inl rfl, .inr ⟨hd, h1, h2, h3⟩⟩
  exact forall₂_refl (fun e => ⟨rfl, rfl, .inl rfl, fun _ _ _ => rfl⟩) _

theorem acts_switch {pd : Kbd → Code → Desc → Nat → Bool → Int → Res Kbd} (hpd : ActsPd pd) (k : Kbd) (code : Code)
    (d : Desc) (dl : Nat) (p : Bool) (t : Int) (hu : Uniq k.cache) (hown : p = false → ∀ e ∈ k.cache, e.code ≠ code) :
    Sat (pdSwitch pd k code d dl p t) (Acts code d p t k) AnyErr := by
  have g0 : ∀ {r : Res Kbd}, Sat r (Gentle 0 k) AnyErr → Sat r (Acts code d p t k) AnyErr :=
    fun h => h.imp (fun _ h => .of_gentle_zero h)
  have g1 : d.steady = false → ∀ {r : Res Kbd}, Sat r (Gentle code k) AnyErr → Sat r (Acts code d p t k) AnyErr :=
    fun hd _ h => h.imp (fun _ h => .of_gentle h (fun h => by rw [hd] at h; cases h))
  have ok : Sat (.ok k : Res Kbd) (Acts code d p t k) AnyErr := Acts.of_gentle_zero (.refl k)
  unfold pdSwitch
  cases d with
  | none => exact ok
  | keyseq c m => exact g0 (Gentle.pdKeyseq _ _ _ _ _ _)
  | scroll s => exact Acts.of_gentle_zero (.same rfl rfl rfl rfl rfl rfl)
  | scrollToggle s => exact Acts.of_gentle_zero (.same rfl rfl rfl rfl rfl rfl)
  | overloadIdle d1 d2 T =>
    refine Sat.ite (fun hp => ?_) (fun _ => ok)
    subst hp
    exact acts_idle hpd k code d1 d2 T dl t hu
  | overloadTimeout l a T =>
    refine Sat.ite (fun hp => ?_) (fun _ => ok)
    subst hp
    exact acts_pending rfl rfl rfl rfl
  | overloadTimeoutTap l a T =>
    refine Sat.ite (fun hp => ?_) (fun _ => ok)
    subst hp
    exact acts_pending rfl rfl rfl rfl
  | layout l => exact Sat.ite (fun _ => g0 (Gentle.setlayout _ _)) (fun _ => ok)
  | layer l => exact g1 rfl (Gentle.pdLayer _ _ _)
  | layerm l m => exact g1 rfl (Gentle.pdLayer _ _ _)
  | clear => exact Sat.ite (fun _ => g0 (Gentle.clear _)) (fun _ => ok)
  | clearm m =>
    refine Sat.ite (fun _ => ?_) (fun _ => ok)
    exact g0 (Sat.bind (Gentle.clear _) (fun k1 h1 => h1.trans (.of_frame (.executeMacro _ _ _))))
  | overload l a =>
    refine Sat.ite (fun hp => ?_) (fun hp => ?_)
    · subst hp
      unfold pdOverloadPress
      dsimp only
      refine Sat.bind (Gentle.activate (x := code) _ l) (fun k1 h1 => ?_)
      have h2 := h1.trans (.of_frame (KeyFrame.updateMods k1 none 0))
      refine ⟨h2.steps, h2.config, ?_, fun h => (by cases h), .inr ⟨h2.start, rfl, fun h => (by cases h)⟩, .inl h2.pending⟩
      refine h2.cache.imp ?_
      rintro e e' ⟨p1, p2⟩
      refine ⟨strip_code p1, strip_dl p1, .inl (strip_d p1), fun _ _ h => ?_⟩
      rcases h with h | h
      · exact p2 h
      · cases h
    · have hp : p = false := by simpa using hp
      subst hp
      exact acts_release hpd k code l a dl t hu (hown rfl)
  | oneshot l => exact g1 rfl (Gentle.pdOneshot _ _ _ _ _)
  | oneshotm l m => exact g1 rfl (Gentle.pdOneshot _ _ _ _ _)
  | «macro» m => exact Sat.ite (fun _ => g0 (Gentle.pdMacro _ _ _ _ _ _)) (fun _ => ok)
  | macro2 a b m => exact Sat.ite (fun _ => g0 (Gentle.pdMacro _ _ _ _ _ _)) (fun _ => ok)
  | toggle l => exact Sat.ite (fun _ => g1 rfl (Gentle.pdToggle _ _)) (fun _ => ok)
  | togglem l m => exact Sat.ite (fun _ => g1 rfl (Gentle.pdToggle _ _)) (fun _ => ok)
  | timeout d1 T d2 =>
    refine Sat.ite (fun hp => ?_) (fun _ => ok)
    subst hp
    exact acts_pending rfl rfl rfl rfl
  | command c => exact Sat.ite (fun _ => g0 (Gentle.pdCommand _ _)) (fun _ => ok)
  | swap l => exact acts_swap code _ k l none dl p t hu
  | swapm l m => exact acts_swap code _ k l _ dl p t hu

theorem acts_descriptor : ∀ n, ActsPd (processDescriptor n)
  | 0 => fun _ _ _ _ _ _ _ _ => trivial
  | n+1 => by
    intro k code d dl p t hu hown
    unfold processDescriptor
    dsimp only
    have hf := Calm.pdMacroPrefix k d dl p
    generalize pdMacroPrefix k d dl p = k1 at hf ⊢
    refine Sat.bind (acts_switch (acts_descriptor n) k1 code d dl p t (by rw [hf.cache]; exact hu)
      (by rw [hf.cache]; exact hown)) (fun k2 h2 => ?_)
    have h3 := Acts.frame_left hf h2
    cases p with
    | false => exact ⟨h3, fun h => (by cases h)⟩
    | true =>
      refine ⟨⟨h3.steps, h3.config, h3.cache, fun h => (by cases h), h3.start, h3.pending⟩, fun _ => rfl⟩

/-! ### The invariant -/

/-- What may be logged, given the log so far. -/
def StepOk : Step → List Step → Prop
  | .key c true _ (some _), rest => ∀ d dl, lastUse c rest ≠ some (.pressed d dl)
  | .key c false _ (some (d, dl)), rest => ∃ d0 dl0, (lastUse c rest = some (.pressed d0 dl0) ∨ lastUse c rest = some (.decided d0 dl0)) ∧
      dl = dl0 ∧ (d0.steady = true → d = d0)
  | .key c false _ none, rest => ∀ d dl, lastUse c rest ≠ some (.pressed d dl)
  | .resolve c _ _ _, rest => ∀ d dl, lastUse c rest = some (.pressed d dl) ∨ lastUse c rest = some (.decided d dl) → d.steady = false
  | _, _ => True

def LogOk : List Step → Prop
  | [] => True
  | s :: rest => StepOk s rest ∧ LogOk rest

/-- The table of held keys agrees with the latest use of a key. -/
def HeldAs (l : List CacheEntry) (code : Code) : Option Use → Prop
  | some (.pressed d dl) => ∃ e ∈ l, e.code = code ∧ e.dl = dl ∧ (d.steady = true → e.d = d ∧ e.layer = 0)
  | some (.decided d dl) => ∀ e ∈ l, e.code = code → e.dl = dl ∧ (d.steady = true → e.d = d ∧ e.layer = 0)
  | _ => ∀ e ∈ l, e.code ≠ code

structure MemInv (k : Kbd) : Prop where
  uniq : Uniq k.cache
  last : k.lastPressedCode = newestPress k.steps
  start : ∀ c t, openOverload k.steps = some (c, t) → k.overloadStartTime = t
  held : ∀ code, code ≠ 0 → HeldAs k.cache code (lastUse code k.steps)
  pend : k.pending.code ≠ 0 → ∀ d dl, lastUse k.pending.code k.steps = some (.pressed d dl) ∨
    lastUse k.pending.code k.steps = some (.decided d dl) → d.steady = false
  tap : k.pending.tapExpiry = 0
  log : LogOk k.steps

theorem forall₂_right {α : Type} {R : α → α → Prop} : ∀ {l m : List α}, List.Forall₂ R l m → ∀ b ∈ m, ∃ a ∈ l, R a b
  | _, _, .nil, _, h => by cases h
  | _, _, .cons h t, b, hb => by
    rcases List.mem_cons.1 hb with rfl | hb
    · exact ⟨_, List.mem_cons_self, h⟩
    · obtain ⟨a, ha, hr⟩ := forall₂_right t b hb
      exact ⟨a, List.mem_cons_of_mem _ ha, hr⟩

theorem forall₂_left {α : Type} {R : α → α → Prop} : ∀ {l m : List α}, List.Forall₂ R l m → ∀ a ∈ l, ∃ b ∈ m, R a b
  | _, _, .nil, _, h => by cases h
  | _, _, .cons h t, a, ha => by
    rcases List.mem_cons.1 ha with rfl | ha
    · exact ⟨_, List.mem_cons_self, h⟩
    · obtain ⟨b, hb, hr⟩ := forall₂_left t a ha
      exact ⟨b, List.mem_cons_of_mem _ hb, hr⟩

/-- Entries that process_descriptor leaves alone keep agreeing. -/
theorem HeldAs.acts {code c : Code} {d : Desc} {p : Bool} {t : Int} {k k' : Kbd} {u : Option Use}
    (ha : Acts code d p t k k') (hc : c ≠ 0) (hsafe : c = code → ∀ d0 dl0, u = some (.pressed d0 dl0) ∨ u = some (.decided d0 dl0) →
      d0.steady = true → d.steady = true)
    (h : HeldAs k.cache c u) : HeldAs k'.cache c u := by
  have safe : ∀ d0 dl0, u = some (.pressed d0 dl0) ∨ u = some (.decided d0 dl0) → d0.steady = true → ∀ e : CacheEntry, e.code = c →
      (e.code ≠ code ∨ d.steady = true) := by
    intro d0 dl0 hu hs e he
    by_cases hcc : c = code
    · exact .inr (hsafe hcc d0 dl0 hu hs)
    · exact .inl (by rw [he]; exact hcc)
  have none_case : (∀ e ∈ k.cache, e.code ≠ c) → ∀ e ∈ k'.cache, e.code ≠ c := by
    intro h e he
    obtain ⟨e0, he0, hr⟩ := forall₂_right ha.cache e he
    rw [hr.1]
    exact h e0 he0
  match u, h, safe with
  | none, h, _ => exact none_case h
  | some .released, h, _ => exact none_case h
  | some (.pressed d0 dl0), h, safe =>
    obtain ⟨e, he, h1, h2, h3⟩ := h
    obtain ⟨e', he', r1, r2, _, r4⟩ := forall₂_left ha.cache e he
    refine ⟨e', he', r1.trans h1, r2.trans h2, fun hs => ?_⟩
    obtain ⟨h4, h5⟩ := h3 hs
    rw [r4 (by rw [h1]; exact hc) h5 (safe d0 dl0 (.inl rfl) hs e h1)]
    exact ⟨h4, h5⟩
  | some (.decided d0 dl0), h, safe =>
    intro e' he' hec
    obtain ⟨e, he, r1, r2, _, r4⟩ := forall₂_right ha.cache e' he'
    have h1 : e.code = c := by rw [← r1]; exact hec
    obtain ⟨h2, h3⟩ := h e he h1
    refine ⟨r2.trans h2, fun hs => ?_⟩
    obtain ⟨h4, h5⟩ := h3 hs
    rw [r4 (by rw [h1]; exact hc) h5 (safe d0 dl0 (.inr rfl) hs e h1)]
    exact ⟨h4, h5⟩

/-- A press, or a decision: `k1` is the state with the new entry and the new step. -/
theorem MemInv.pressed {k0 k1 k2 : Kbd} {code : Code} {d : Desc} {dl : Nat} {t : Int} {s : Step} (h : MemInv k0)
    (hs : (∃ t', s = .key code true t' (some (d, dl))) ∨ ∃ t', s = .resolve code d dl t') (hcode : code ≠ 0)
    (hu : Uniq k1.cache) (hsteps : k1.steps = s :: k0.steps)
    (hown : ∀ e ∈ k1.cache, e.code = code → e = ⟨code, d, dl, 0⟩)
    (hpres : (∃ t', s = .key code true t' (some (d, dl))) → ∃ e ∈ k1.cache, e.code = code)
    (hto : ∀ e ∈ k1.cache, e.code ≠ code → e.code ≠ 0 → e ∈ k0.cache)
    (hfrom : ∀ e ∈ k0.cache, e.code ≠ code → e.code ≠ 0 → e ∈ k1.cache)
    (hp : k1.pending.code = 0) (htap : k1.pending.tapExpiry = 0) (hok : StepOk s k0.steps)
    (ha : Acts code d true t k1 k2) (hl : k2.lastPressedCode = code)
    (hstart : ∀ c t', openOverload (s :: k0.steps) = some (c, t') → k2.overloadStartTime = t') : MemInv k2 := by
  have hst : k2.steps = s :: k0.steps := ha.steps.trans hsteps
  have hlast : lastUse code (s :: k0.steps) = some (.pressed d dl) ∧ (∃ t', s = .key code true t' (some (d, dl))) ∨
      lastUse code (s :: k0.steps) = some (.decided d dl) := by
    rcases hs with ⟨t', rfl⟩ | ⟨t', rfl⟩
    · exact .inl ⟨by simp [lastUse], t', rfl⟩
    · exact .inr (by simp [lastUse])
  have hother : ∀ c, c ≠ code → lastUse c (s :: k0.steps) = lastUse c k0.steps := by
    intro c hne
    rcases hs with ⟨t', rfl⟩ | ⟨t', rfl⟩
    · show (if code = c then _ else _) = _
      rw [if_neg (fun h => hne h.symm)]
    · show (if code = c then _ else _) = _
      rw [if_neg (fun h => hne h.symm)]
  refine ⟨hu.of_codes ha.codes, ?_, ?_, ?_, ?_, ?_, ?_⟩
  · rw [hl, hst]
    rcases hs with ⟨t', rfl⟩ | ⟨t', rfl⟩ <;> rfl
  · intro c t' ho
    rw [hst] at ho
    exact hstart c t' ho
  · intro c hc
    rw [hst]
    refine HeldAs.acts ha hc ?_ ?_
    · rintro rfl d0 dl0 hu hsd
      rcases hlast with ⟨h1, _⟩ | h1
      · rw [h1] at hu
        rcases hu with hu | hu
        · cases hu; exact hsd
        · cases hu
      · rw [h1] at hu
        rcases hu with hu | hu
        · cases hu
        · cases hu; exact hsd
    · by_cases hcc : c = code
      · subst hcc
        rcases hlast with ⟨h1, h2⟩ | h1
        · rw [h1]
          obtain ⟨e, he, hec⟩ := hpres h2
          have := hown e he hec
          exact ⟨e, he, hec, by rw [this], fun _ => by rw [this]; exact ⟨rfl, rfl⟩⟩
        · rw [h1]
          intro e he hec
          have := hown e he hec
          exact ⟨by rw [this], fun _ => by rw [this]; exact ⟨rfl, rfl⟩⟩
      · rw [hother c hcc]
        have h0 := h.held c hc
        generalize lastUse c k0.steps = u at h0
        match u, h0 with
        | none, h0 => exact fun e he hec => h0 e (hto e he (by rw [hec]; exact hcc) (by rw [hec]; exact hc)) hec
        | some .released, h0 => exact fun e he hec => h0 e (hto e he (by rw [hec]; exact hcc) (by rw [hec]; exact hc)) hec
        | some (.pressed d0 dl0), ⟨e, he, h1, h2⟩ =>
          exact ⟨e, hfrom e he (by rw [h1]; exact hcc) (by rw [h1]; exact hc), h1, h2⟩
        | some (.decided d0 dl0), h0 =>
          exact fun e he hec => h0 e (hto e he (by rw [hec]; exact hcc) (by rw [hec]; exact hc)) hec
  · intro hpc d0 dl0 hu
    rcases ha.pending with hq | ⟨hd, hq, _⟩
    · rw [hq] at hpc
      exact absurd hp hpc
    · rw [hq, hst] at hu
      rcases hlast with ⟨h1, _⟩ | h1
      · rw [h1] at hu
        rcases hu with hu | hu
        · cases hu; exact hd
        · cases hu
      · rw [h1] at hu
        rcases hu with hu | hu
        · cases hu
        · cases hu; exact hd
  · rcases ha.pending with hq | ⟨_, _, _, hq⟩
    · rw [hq]; exact htap
    · rw [hq]; exact htap
  · rw [hst]
    exact ⟨hok, h.log⟩

theorem overload_start (n : Nat) (k : Kbd) (code : Code) (l a dl : Nat) (t : Int) :
    Sat (processDescriptor n k code (.overload l a) dl true t) (fun k' => k'.overloadStartTime = t) AnyErr := by
  cases n with
  | zero => trivial
  | succ n =>
    unfold processDescriptor
    dsimp only
    refine Sat.bind (Q := fun k' => k'.overloadStartTime = t) ?_ (fun k1 h1 => by exact h1)
    show Sat (pdOverloadPress _ code l t) _ _
    unfold pdOverloadPress
    dsimp only
    refine Sat.bind (Gentle.activate (x := code) _ l) (fun k1 h1 => ?_)
    exact (KeyFrame.updateMods k1 none 0).overloadStartTime.trans h1.start

theorem uniq_replace {pre post : List CacheEntry} {x y : CacheEntry} (h : Uniq (pre ++ x :: post))
    (hy : y.code = x.code ∨ y.code = 0 ∨ ∀ e ∈ pre ++ x :: post, e.code ≠ y.code) : Uniq (pre ++ y :: post) := by
  unfold Uniq at *
  rw [List.pairwise_append, List.pairwise_cons] at *
  obtain ⟨h1, ⟨h2, h3⟩, h4⟩ := h
  refine ⟨h1, ⟨fun e he hc => ?_, h3⟩, fun a ha b hb hc => ?_⟩
  · rcases hy with hy | hy | hy
    · rw [hy] at hc ⊢; exact h2 e he hc
    · exact hy
    · exact absurd hc.symm (hy e (List.mem_append_right _ (List.mem_cons_of_mem _ he)))
  · rcases List.mem_cons.1 hb with rfl | hb
    · rcases hy with hy | hy | hy
      · exact h4 a ha x List.mem_cons_self (hc.trans hy)
      · rw [hc]; exact hy
      · exact absurd hc (hy a (List.mem_append_left _ ha))
    · exact h4 a ha b (List.mem_cons_of_mem _ hb) hc

/-- The table after an entry for `code` has been made. -/
theorem cacheSet_entry {k k' : Kbd} {code : Code} {d : Desc} {dl : Nat} (hu : Uniq k.cache) (hc : code ≠ 0)
    (h : cacheSet k code (some { d := d, dl := dl, layer := 0 }) = some k') :
    k' = { k with cache := k'.cache } ∧ Uniq k'.cache ∧ (∀ e ∈ k'.cache, e.code = code → e = ⟨code, d, dl, 0⟩) ∧
    (∃ e ∈ k'.cache, e.code = code) ∧ (∀ e ∈ k'.cache, e.code ≠ code → e.code ≠ 0 → e ∈ k.cache) ∧
    (∀ e ∈ k.cache, e.code ≠ code → e.code ≠ 0 → e ∈ k'.cache) := by
  obtain ⟨pre, x, post, h1, rfl, h3⟩ := cacheSet_some_split h
  dsimp only
  rw [h1] at hu h3
  refine ⟨rfl, ?_, ?_, ?_, ?_, ?_⟩
  · refine uniq_replace hu ?_
    rcases h3 with h3 | h3
    · exact .inl h3.symm
    · exact .inr (.inr h3.2)
  · intro e he hec
    rw [List.mem_append, List.mem_cons] at he
    have absurd_case : e ∈ pre ∨ e ∈ post → False := by
      intro hm
      have hin : e ∈ pre ++ x :: post := by
        rw [List.mem_append, List.mem_cons]
        rcases hm with hm | hm
        · exact .inl hm
        · exact .inr (.inr hm)
      rcases h3 with h3 | ⟨_, h3⟩
      · unfold Uniq at hu
        rw [List.pairwise_append, List.pairwise_cons] at hu
        obtain ⟨_, ⟨h5, _⟩, h6⟩ := hu
        rcases hm with hm | hm
        · exact hc (by rw [← hec]; exact h6 e hm x List.mem_cons_self (hec.trans h3.symm))
        · exact hc (by rw [← h3]; exact h5 e hm (h3.trans hec.symm))
      · exact h3 e hin hec
    rcases he with he | he | he
    · exact (absurd_case (.inl he)).elim
    · exact he
    · exact (absurd_case (.inr he)).elim
  · exact ⟨_, List.mem_append_right _ List.mem_cons_self, rfl⟩
  · intro e he hne _
    rw [h1, List.mem_append, List.mem_cons]
    rw [List.mem_append, List.mem_cons] at he
    rcases he with he | he | he
    · exact .inl he
    · rw [he] at hne; exact absurd rfl hne
    · exact .inr (.inr he)
  · intro e he hne h0
    rw [List.mem_append, List.mem_cons]
    rw [h1, List.mem_append, List.mem_cons] at he
    rcases he with he | he | he
    · exact .inl he
    · subst he
      rcases h3 with h3 | h3
      · exact absurd h3 hne
      · exact absurd h3.1 h0
    · exact .inr (.inr he)

theorem cacheGet_none {k : Kbd} {code : Code} : cacheGet k code = none ↔ ∀ e ∈ k.cache, e.code ≠ code := by
  unfold cacheGet
  rw [List.find?_eq_none]
  simp

theorem cacheSlot_none {code : Code} : ∀ (l : List CacheEntry) (i : Nat) (acc : Option Nat), cacheSlot code l i acc = none →
    ∀ e ∈ l, e.code ≠ code
  | [], _, _, _, _, h => by cases h
  | x :: l, i, acc, h, e, he => by
    unfold cacheSlot at h
    split at h
    · cases h
    · rename_i hx
      rcases List.mem_cons.1 he with rfl | he
      · exact hx
      · exact cacheSlot_none l _ _ h e he

theorem cacheSet_none_iff {k : Kbd} {code : Code} {e : CacheEntry} (h : cacheSet k code (some e) = none) :
    ∀ e ∈ k.cache, e.code ≠ code := by
  unfold cacheSet at h
  split at h
  · rename_i hs
    exact cacheSlot_none _ _ _ hs
  · cases h

theorem MemInv.quiet {k k' : Kbd} (h : MemInv k) (h1 : k'.cache = k.cache) (h2 : k'.lastPressedCode = k.lastPressedCode)
    (h3 : k'.overloadStartTime = k.overloadStartTime) (h4 : k'.steps = k.steps) (h5 : k'.pending.code = k.pending.code)
    (h6 : k'.pending.tapExpiry = k.pending.tapExpiry) : MemInv k' := by
  refine ⟨by rw [h1]; exact h.uniq, by rw [h2, h4]; exact h.last, ?_, ?_, ?_, by rw [h6]; exact h.tap, by rw [h4]; exact h.log⟩
  · intro c t ho
    rw [h4] at ho
    rw [h3]
    exact h.start c t ho
  · intro c hc
    rw [h1, h4]
    exact h.held c hc
  · rw [h4, h5]
    exact h.pend

/-- A step that is not a use of a key. -/
theorem MemInv.log_other {k : Kbd} (h : MemInv k) {s : Step} (hs : StepOk s k.steps)
    (h1 : ∀ c rest, lastUse c (s :: rest) = lastUse c rest) (h2 : ∀ rest, newestPress (s :: rest) = newestPress rest)
    (h3 : ∀ rest, openOverload (s :: rest) = openOverload rest) : MemInv (k.log s) := by
  refine ⟨h.uniq, ?_, ?_, ?_, ?_, h.tap, hs, h.log⟩
  · show _ = newestPress (s :: k.steps)
    rw [h2]; exact h.last
  · intro c t ho
    change openOverload (s :: k.steps) = _ at ho
    rw [h3] at ho
    exact h.start c t ho
  · intro c hc
    show HeldAs _ _ (lastUse c (s :: k.steps))
    rw [h1]
    exact h.held c hc
  · intro hp d dl hu
    change lastUse k.pending.code (s :: k.steps) = _ ∨ lastUse k.pending.code (s :: k.steps) = _ at hu
    rw [h1] at hu
    exact h.pend hp d dl hu

theorem HeldAs.use {l : List CacheEntry} (hu : Uniq l) {code : Code} (hc : code ≠ 0) {u : Option Use} (h : HeldAs l code u) {e : CacheEntry}
    (he : e ∈ l) (hec : e.code = code) :
    ∃ d0 dl0, (u = some (.pressed d0 dl0) ∨ u = some (.decided d0 dl0)) ∧ e.dl = dl0 ∧
      (d0.steady = true → e.d = d0 ∧ e.layer = 0) := by
  match u, h with
  | none, h => exact absurd hec (h e he)
  | some .released, h => exact absurd hec (h e he)
  | some (.pressed d dl), ⟨e', he', h1, h2, h3⟩ =>
    have := hu.eq he he' (hec.trans h1.symm) (by rw [hec]; exact hc)
    subst this
    exact ⟨d, dl, .inl rfl, h2, h3⟩
  | some (.decided d dl), h => exact ⟨d, dl, .inr rfl, h e he hec⟩

theorem openOverload_code : ∀ (l : List Step) (c : Code) (t : Int), openOverload l = some (c, t) → newestPress l = c
  | [], _, _, h => by cases h
  | .key c true t0 (some (d, dl)) :: rest, c', t, h => by
    show c = c'
    cases d <;> first | (cases h; rfl) | cases h
  | .key c true t0 none :: rest, c', t, h => openOverload_code rest c' t h
  | .key c false t0 none :: rest, c', t, h => openOverload_code rest c' t h
  | .key c false t0 (some u) :: rest, c', t, h => by
    show newestPress rest = c'
    change (match openOverload rest with
      | some (c', t) => if c' = c then none else some (c', t)
      | none => none) = _ at h
    cases ho : openOverload rest with
    | none => rw [ho] at h; cases h
    | some r =>
      obtain ⟨c1, t1⟩ := r
      rw [ho] at h
      dsimp only at h
      split at h
      · cases h
      · cases h
        exact openOverload_code rest _ _ ho
  | .resolve _ _ _ _ :: rest, c', t, h => by cases h
  | .passed _ :: rest, c', t, h => openOverload_code rest c' t h
  | .swallowed _ :: rest, c', t, h => openOverload_code rest c' t h

theorem MemInv.key {k : Kbd} (h : MemInv k) (code : Code) (p : Bool) (t : Int) (hp : PassesPending k code p) :
    Sat (stepKey k code p t) MemInv AnyErr := by
  unfold stepKey
  by_cases hc : code = 0
  · rw [if_pos hc]; exact h
  rw [if_neg hc]
  cases p with
  | true =>
    have hp0 : k.pending.code = 0 := by
      rcases hp with hp | hp | ⟨hp, _⟩
      · exact absurd hp hc
      · exact hp
      · cases hp
    rw [if_pos rfl]
    have ignored : MemInv (k.log (.key code true t none)) :=
      h.log_other trivial (fun _ _ => rfl) (fun _ => rfl) (fun _ => rfl)
    refine Sat.ite (fun _ => ignored) (fun hn => ?_)
    have hnone : ∀ e ∈ k.cache, e.code ≠ code := by
      refine cacheGet_none.1 ?_
      cases hg : cacheGet k code with
      | none => rfl
      | some e => rw [hg] at hn; exact absurd rfl hn
    cases hlk : lookupDescriptor k code with
    | mk d dl =>
      dsimp only
      cases hs : cacheSet k code (some { d := d, dl := dl, layer := 0 }) with
      | none => exact ignored
      | some k1 =>
        dsimp only
        obtain ⟨e1, e2, e3, e4, e5, e6⟩ := cacheSet_entry h.uniq hc hs
        have hst : (k1.log (.key code true t (some (d, dl)))).steps = .key code true t (some (d, dl)) :: k.steps := by
          rw [e1]; rfl
        have hq := acts_descriptor (descBudget (k1.log (.key code true t (some (d, dl))))) (k1.log (.key code true t (some (d, dl))))
          code d dl true t e2 (fun h => (by cases h))
        have hov : Sat (processDescriptor (descBudget (k1.log (.key code true t (some (d, dl))))) (k1.log (.key code true t (some (d, dl))))
            code d dl true t) (fun k' => ∀ l a, d = .overload l a → k'.overloadStartTime = t) AnyErr := by
          by_cases hd : ∃ l a, d = .overload l a
          · obtain ⟨l, a, rfl⟩ := hd
            exact (overload_start _ _ _ _ _ _ _).imp (fun k' h' _ _ _ => h')
          · exact Sat.intro (fun k' _ l a hla => absurd ⟨l, a, hla⟩ hd)
        refine (hq.and hov).imp ?_
        rintro k2 ⟨⟨ha, hl⟩, hv⟩
        refine MemInv.pressed (k1 := k1.log (.key code true t (some (d, dl)))) h (.inl ⟨t, rfl⟩) hc e2 hst e3 (fun _ => e4) e5 e6 ?_ ?_ ?_ ha (hl rfl) ?_
        · show k1.pending.code = 0
          rw [e1]; exact hp0
        · show k1.pending.tapExpiry = 0
          rw [e1]; exact h.tap
        · intro d0 dl0 hlu
          have := h.held code hc
          rw [hlu] at this
          obtain ⟨e, he, hec, _⟩ := this
          exact hnone e he hec
        · intro c t' ho
          cases d <;> first | (cases ho; exact hv _ _ rfl) | cases ho
  | false =>
    rw [if_neg (by simp)]
    cases hg : cacheGet k code with
    | none =>
      refine h.log_other ?_ (fun _ _ => rfl) (fun _ => rfl) (fun _ => rfl)
      intro d0 dl0 hlu
      have := h.held code hc
      rw [hlu] at this
      obtain ⟨e, he, hec, _⟩ := this
      exact cacheGet_none.1 hg e he hec
    | some ce =>
      obtain ⟨pre, post, c1, c2, c3, c4⟩ := cacheSet_none_split hg
      rw [c4]
      dsimp only [Option.getD_some]
      have hu := h.uniq
      rw [c1] at hu
      have hmem : ce ∈ k.cache := by rw [c1]; exact List.mem_append_right _ List.mem_cons_self
      obtain ⟨d0, dl0, hlu, hdl, hst0⟩ := (h.held code hc).use h.uniq hc hmem c2
      have hown : ∀ e ∈ pre ++ { ce with code := 0 } :: post, e.code ≠ code := by
        intro e he hec
        rw [List.mem_append, List.mem_cons] at he
        unfold Uniq at hu
        rw [List.pairwise_append, List.pairwise_cons] at hu
        obtain ⟨_, ⟨h5, _⟩, h6⟩ := hu
        rcases he with he | he | he
        · exact c3 e he hec
        · rw [he] at hec; exact hc hec.symm
        · exact hc (by rw [← c2]; exact h5 e he (c2.trans hec.symm))
      refine (acts_descriptor _ _ code ce.d ce.dl false t (uniq_replace hu (.inr (.inl rfl))) (fun _ => hown)).imp ?_
      rintro k2 ⟨ha, _⟩
      have hst : k2.steps = .key code false t (some (ce.d, ce.dl)) :: k.steps := ha.steps
      refine ⟨(uniq_replace hu (.inr (.inl rfl))).of_codes ha.codes, ?_, ?_, ?_, ?_, ?_, ?_⟩
      · rw [ha.last rfl, hst]
        exact h.last
      · intro c t' ho
        rw [hst] at ho
        change (match openOverload k.steps with
          | some (c', t) => if c' = code then none else some (c', t)
          | none => none) = _ at ho
        cases hoo : openOverload k.steps with
        | none => rw [hoo] at ho; cases ho
        | some r =>
          obtain ⟨c', t1⟩ := r
          rw [hoo] at ho
          dsimp only at ho
          split at ho
          · cases ho
          · rename_i hne
            cases ho
            have hs := h.start _ _ hoo
            rcases ha.start with g | ⟨_, _, g⟩
            · rw [g]; exact hs
            · have hl : k.lastPressedCode = code := g rfl
              rw [h.last, openOverload_code _ _ _ hoo] at hl
              exact absurd hl hne
      · intro c hcc
        rw [hst]
        refine HeldAs.acts ha hcc ?_ ?_
        · rintro rfl d1 dl1 hu1
          exfalso
          simp [lastUse] at hu1
        · by_cases hce : c = code
          · subst hce
            simp only [lastUse, if_true]
            exact hown
          · have hlu' : lastUse c (.key code false t (some (ce.d, ce.dl)) :: k.steps) = lastUse c k.steps := by
              show (if code = c then _ else _) = _
              rw [if_neg (fun h => hce h.symm)]
            rw [hlu']
            have h0 := h.held c hcc
            have hto : ∀ e ∈ pre ++ { ce with code := 0 } :: post, e.code = c → e ∈ k.cache := by
              intro e he hec
              rw [c1, List.mem_append, List.mem_cons]
              rw [List.mem_append, List.mem_cons] at he
              rcases he with he | he | he
              · exact .inl he
              · rw [he] at hec; exact absurd hec.symm hcc
              · exact .inr (.inr he)
            have hfrom : ∀ e ∈ k.cache, e.code = c → e ∈ pre ++ { ce with code := 0 } :: post := by
              intro e he hec
              rw [List.mem_append, List.mem_cons]
              rw [c1, List.mem_append, List.mem_cons] at he
              rcases he with he | he | he
              · exact .inl he
              · rw [he, c2] at hec; exact absurd hec.symm hce
              · exact .inr (.inr he)
            show HeldAs (pre ++ { ce with code := 0 } :: post) c _
            generalize lastUse c k.steps = u at h0
            match u, h0 with
            | none, h0 => exact fun e he hec => h0 e (hto e he hec) hec
            | some .released, h0 => exact fun e he hec => h0 e (hto e he hec) hec
            | some (.pressed d0 dl0), ⟨e, he, h1, h2⟩ => exact ⟨e, hfrom e he h1, h1, h2⟩
            | some (.decided d0 dl0), h0 => exact fun e he hec => h0 e (hto e he hec) hec
      · intro hpc d1 dl1 hu1
        rw [hst] at hu1
        by_cases hpk : k2.pending.code = code
        · rw [hpk] at hu1
          simp [lastUse] at hu1
        · have hq : k2.pending = k.pending := by
            rcases ha.pending with hq | ⟨_, hq, _⟩
            · exact hq
            · exact absurd hq hpk
          have hlu' : lastUse k2.pending.code (.key code false t (some (ce.d, ce.dl)) :: k.steps) = lastUse k2.pending.code k.steps := by
            show (if code = k2.pending.code then _ else _) = _
            rw [if_neg (fun h => hpk h.symm)]
          rw [hlu', hq] at hu1
          rw [hq] at hpc
          exact h.pend hpc d1 dl1 hu1
      · rcases ha.pending with hq | ⟨_, _, _, hq⟩
        · rw [hq]; exact h.tap
        · rw [hq]; exact h.tap
      · rw [hst]
        refine ⟨⟨d0, dl0, hlu, hdl, fun hs => (hst0 hs).1⟩, h.log⟩

theorem MemInv.resolve {k : Kbd} (h : MemInv k) (a : Desc) (t : Int) (hp : k.pending.code ≠ 0) :
    Sat (resolvePendingStep k a t) (fun r => MemInv r.1) AnyErr := by
  unfold resolvePendingStep
  dsimp only
  have h0 : MemInv { k with pending := { k.pending with code := 0, queue := [], tapExpiry := 0 } } :=
    ⟨h.uniq, h.last, h.start, h.held, fun hx => absurd rfl hx, rfl, h.log⟩
  generalize hk0 : ({ k with pending := { k.pending with code := 0, queue := [], tapExpiry := 0 } } : Kbd) = k0 at h0 ⊢
  have hpc : k0.pending.code = 0 := by rw [← hk0]
  have hpt : k0.pending.tapExpiry = 0 := by rw [← hk0]
  have hcache : k0.cache = k.cache := by rw [← hk0]
  have hsteps : k0.steps = k.steps := by rw [← hk0]
  generalize hcode : k.pending.code = code at *
  generalize k.pending.dl = dl at *
  have hok : StepOk (.resolve code a dl t) k0.steps := by
    intro d0 dl0 hu
    rw [hsteps, ← hcode] at hu
    exact h.pend (by rw [hcode]; exact hp) d0 dl0 hu
  cases hs : cacheSet k0 code (some { d := a, dl := dl, layer := 0 }) with
  | none =>
    have hno := cacheSet_none_iff hs
    dsimp only [Option.getD_none]
    refine Sat.bind (acts_descriptor _ (k0.log (.resolve code a dl t)) code a dl true t h0.uniq (fun h => (by cases h))) ?_
    rintro k2 ⟨ha, hl⟩
    refine MemInv.pressed (k1 := k0.log (.resolve code a dl t)) h0 (.inr ⟨_, rfl⟩) hp h0.uniq rfl (fun e he hec => absurd hec (hno e he))
      (fun ⟨_, hx⟩ => by cases hx) (fun e he _ _ => he) (fun e he _ _ => he) hpc hpt hok ha (hl rfl) (fun c t' ho => by cases ho)
  | some k1 =>
    obtain ⟨e1, e2, e3, e4, e5, e6⟩ := cacheSet_entry h0.uniq hp hs
    dsimp only [Option.getD_some]
    refine Sat.bind (acts_descriptor _ (k1.log (.resolve code a dl t)) code a dl true t e2 (fun h => (by cases h))) ?_
    rintro k2 ⟨ha, hl⟩
    refine MemInv.pressed (k1 := k1.log (.resolve code a dl t)) h0 (.inr ⟨_, rfl⟩) hp e2 ?_ e3
      (fun ⟨_, hx⟩ => by cases hx) e5 e6 ?_ ?_ hok ha (hl rfl) (fun c t' ho => by cases ho)
    · rw [e1]; rfl
    · show k1.pending.code = 0
      rw [e1]; exact hpc
    · show k1.pending.tapExpiry = 0
      rw [e1]; exact hpt

theorem MemInv.gentle {k k' : Kbd} (h : MemInv k) (g : Gentle 0 k k') : MemInv k' := by
  have ha : Acts 0 .none false 0 k k' := .of_gentle_zero g
  refine ⟨h.uniq.of_codes ha.codes, by rw [g.last, g.steps]; exact h.last, ?_, ?_, ?_, by rw [g.pending]; exact h.tap,
    by rw [g.steps]; exact h.log⟩
  · intro c t ho
    rw [g.steps] at ho
    rw [g.start]
    exact h.start c t ho
  · intro c hc
    rw [g.steps]
    exact HeldAs.acts ha hc (fun h0 => absurd h0 hc) (h.held c hc)
  · rw [g.pending, g.steps]
    exact h.pend

theorem mem_engineInv : EngineInv MemInv AnyErr where
  errs _ _ := trivial
  chord _ _ h := h.quiet rfl rfl rfl rfl rfl rfl
  timeouts _ _ h := h.quiet rfl rfl rfl rfl rfl rfl
  passed _ _ h := h.log_other trivial (fun _ _ => rfl) (fun _ => rfl) (fun _ => rfl)
  swallowed k evs h := by
    have : ∀ (l : List KeyEvent) (k : Kbd), MemInv k → MemInv { k with steps := (l.map Step.swallowed) ++ k.steps } := by
      intro l
      induction l with
      | nil => intro k h; exact h
      | cons e l ih =>
        intro k h
        exact (ih k h).log_other (s := .swallowed e) trivial (fun _ _ => rfl) (fun _ => rfl) (fun _ => rfl)
    have h2 := this evs.reverse k h
    rw [List.map_reverse] at h2
    exact h2
  install k p h := by
    unfold installChord
    dsimp only
    cases freeChordSlot k.activeChords 0 with
    | none => trivial
    | some i => exact h.quiet rfl rfl rfl rfl rfl rfl
  strike _ _ _ _ h := h.quiet rfl rfl rfl rfl rfl rfl
  enqueue _ _ h _ := h.quiet rfl rfl rfl rfl rfl rfl
  resolve k a t h hp _ _ := h.resolve a t hp
  timers k c t h := (Gentle.stepTimers (x := 0) k c t).imp (fun k' g => h.gentle g)
  key k c p t h hp := h.key c p t hp

end Keyd
