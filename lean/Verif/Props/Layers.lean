import Verif.Proofs.LayerInv

/-
  C12 (layouts), C08 (binding lookup): which layers are active and which one
  supplies the binding of a key.
-/

set_option autoImplicit false

namespace Keyd

attribute [local irreducible] configInit

/-! ### Specification -/

/-- Layer `i` exists and is not a layout. -/
def ordinary (c : Config) (i : Nat) : Bool :=
  match c.layers[i]? with
  | some l => decide (l.type ≠ .layout)
  | none => false

/-- Layer `i` exists and is a layout (main is one). -/
def isLayout (c : Config) (i : Nat) : Bool :=
  match c.layers[i]? with
  | some l => decide (l.type = .layout)
  | none => false

/-- The number of activations of ordinary layers announced. -/
def activations (c : Config) : List Out → Nat
  | [] => 0
  | .layer i true :: tr => (if ordinary c i then 1 else 0) + activations c tr
  | _ :: tr => activations c tr

/-- The number of the latest activation of layer `j` (announcements newest
first), counting activations of ordinary layers from 1; 0 when there is none. -/
def rank (c : Config) (j : Nat) : List Out → Nat
  | [] => 0
  | .layer i true :: tr => if i = j then 1 + activations c tr else rank c j tr
  | _ :: tr => rank c j tr

/-- The layout last selected (announcements newest first), `dflt` if none was. -/
def selectedLayout (c : Config) (dflt : Nat) : List Out → Nat
  | [] => dflt
  | .layer i true :: tr => if isLayout c i then i else selectedLayout c dflt tr
  | _ :: tr => selectedLayout c dflt tr

/-- The layout a new keyboard starts with besides main; 0 (main) if none. -/
def initialLayout (c : Config) : Nat :=
  if c.defaultLayout = [] then 0 else (findLayout c.defaultLayout c.layers 0).getD 0

/-! ### Announcements and the rest of the trace -/

theorem activations_filter (c : Config) : ∀ tr, activations c (tr.filter Out.isLayer) = activations c tr
  | [] => rfl
  | o :: tr => by
    have ih := activations_filter c tr
    cases o with
    | layer i b => cases b <;> simp [List.filter_cons, Out.isLayer, activations, ih]
    | key a b => simp [Out.isLayer, activations, ih]
    | command a => simp [Out.isLayer, activations, ih]
    | sleep a => simp [Out.isLayer, activations, ih]

theorem rank_filter (c : Config) (j : Nat) : ∀ tr, rank c j (tr.filter Out.isLayer) = rank c j tr
  | [] => rfl
  | o :: tr => by
    have ih := rank_filter c j tr
    have ih2 := activations_filter c tr
    cases o with
    | layer i b => cases b <;> simp [List.filter_cons, Out.isLayer, rank, ih, ih2]
    | key a b => simp [Out.isLayer, rank, ih]
    | command a => simp [Out.isLayer, rank, ih]
    | sleep a => simp [Out.isLayer, rank, ih]

theorem selectedLayout_filter (c : Config) (d : Nat) : ∀ tr,
    selectedLayout c d (tr.filter Out.isLayer) = selectedLayout c d tr
  | [] => rfl
  | o :: tr => by
    have ih := selectedLayout_filter c d tr
    cases o with
    | layer i b => cases b <;> simp [List.filter_cons, Out.isLayer, selectedLayout, ih]
    | key a b => simp [Out.isLayer, selectedLayout, ih]
    | command a => simp [Out.isLayer, selectedLayout, ih]
    | sleep a => simp [Out.isLayer, selectedLayout, ih]

theorem rank_le (c : Config) (j : Nat) (hj : ordinary c j = true) : ∀ tr, rank c j tr ≤ activations c tr
  | [] => Nat.le_refl _
  | o :: tr => by
    have ih := rank_le c j hj tr
    cases o with
    | layer i b =>
      cases b
      · exact ih
      · show (if i = j then 1 + activations c tr else rank c j tr) ≤
          (if ordinary c i then 1 else 0) + activations c tr
        split
        · rename_i h; subst h; rw [hj]; exact Nat.le_refl _
        · omega
    | key a b => exact ih
    | command a => exact ih
    | sleep a => exact ih

/-- Two different ordinary layers never share a rank, unless neither was ever
activated. -/
theorem rank_inj (c : Config) (i j : Nat) (hi : ordinary c i = true) (hj : ordinary c j = true) :
    ∀ tr, rank c i tr = rank c j tr → rank c i tr ≠ 0 → i = j
  | [], _, h => absurd rfl h
  | o :: tr, h, h0 => by
    have ih := rank_inj c i j hi hj tr
    have l1 := rank_le c i hi tr
    have l2 := rank_le c j hj tr
    cases o with
    | layer a b =>
      cases b
      · exact ih h h0
      · unfold rank at h h0
        by_cases h1 : a = i
        · by_cases h2 : a = j
          · rw [← h1, ← h2]
          · rw [if_pos h1, if_neg h2] at h; omega
        · by_cases h2 : a = j
          · rw [if_neg h1, if_pos h2] at h; omega
          · rw [if_neg h1, if_neg h2] at h
            rw [if_neg h1] at h0
            exact ih h h0
    | key a b => exact ih h h0
    | command a => exact ih h h0
    | sleep a => exact ih h h0

/-! ### The invariant -/

/-- What the layer state means in terms of the announcements. -/
structure LayerFacts (c : Config) (k : Kbd) : Prop where
  shape : SameShape c k.config
  clock : k.clock = 1 + activations c k.layerTrace
  main : (k.layerState 0).active = 1 ∧ 0 ≤ (k.layerState 0).activationTime ∧ (k.layerState 0).activationTime ≤ 1
  layouts : ∀ i, i ≠ 0 → isLayout c i = true → (k.layerState i).active ≤ 1 ∧
    ((k.layerState i).active ≠ 0 ↔ i = selectedLayout c (initialLayout c) k.layerTrace) ∧
    ((k.layerState i).active ≠ 0 → (k.layerState i).activationTime = 1)
  times : ∀ i, ordinary c i = true → (k.layerState i).activationTime = rank c i k.layerTrace ∧
    ((k.layerState i).active ≠ 0 → rank c i k.layerTrace ≠ 0)
  outside : ∀ i, c.layers.length ≤ i → (k.layerState i).active = 0

theorem ordinary_of_target {c : Config} {i : Nat} (h : LayerTarget c i) : ordinary c i = true := by
  obtain ⟨l, hl, ht⟩ := h
  unfold ordinary
  rw [hl]; simp [ht]

theorem isLayout_not_ordinary {c : Config} {i : Nat} (h : isLayout c i = true) : ordinary c i = false := by
  unfold isLayout at h; unfold ordinary
  split at h <;> simp_all

theorem ordinary_not_layout {c : Config} {i : Nat} (h : ordinary c i = true) : isLayout c i = false := by
  unfold ordinary at h; unfold isLayout
  split at h <;> simp_all

theorem lt_of_isLayout {c : Config} {i : Nat} (h : isLayout c i = true) : i < c.layers.length := by
  by_contra hge
  unfold isLayout at h
  rw [List.getElem?_eq_none (by omega)] at h
  cases h

theorem lt_of_ordinary {c : Config} {i : Nat} (h : ordinary c i = true) : i < c.layers.length := by
  by_contra hge
  unfold ordinary at h
  rw [List.getElem?_eq_none (by omega)] at h
  cases h

theorem main_isLayout {c : Config} (hw : WF c) : isLayout c 0 = true := by
  obtain ⟨l, ls, h, _, ht⟩ := hw.mainFirst
  unfold isLayout
  rw [h]; simp [ht]

theorem isLayout_type {c : Config} {i : Nat} (h : i < c.layers.length) :
    (c.layer i).type = .layout ↔ isLayout c i = true := by
  unfold isLayout Config.layer
  rw [List.getD_eq_getElem?_getD, List.getElem?_eq_getElem h]
  simp

theorem isLayout_of_layoutTarget {c : Config} (hw : WF c) {i : Nat} (h : LayoutTarget c i) :
    isLayout c i = true := by
  obtain ⟨l, hl, h0 | ht⟩ := h
  · subst h0; exact main_isLayout hw
  · unfold isLayout; rw [hl]; simp [ht]

theorem findLayout_some {name : Str} : ∀ {ls : List Layer} {n i : Nat}, findLayout name ls n = some i →
    n ≤ i ∧ ∃ l, ls[i - n]? = some l ∧ l.type = .layout ∧ l.name = name
  | [], _, _, h => by cases h
  | l :: ls, n, i, h => by
    unfold findLayout at h
    split at h
    · rename_i hl
      cases h
      exact ⟨Nat.le_refl _, l, by simp, hl.1, hl.2⟩
    · obtain ⟨h1, l', h2, h3⟩ := findLayout_some h
      refine ⟨by omega, l', ?_, h3⟩
      have : i - n = (i - (n+1)) + 1 := by omega
      rw [this, List.getElem?_cons_succ]
      exact h2

theorem layerTrace_emit (k : Kbd) (i : Nat) (b : Bool) :
    (k.emit (.layer i b)).layerTrace = .layer i b :: k.layerTrace := by
  unfold Kbd.layerTrace Kbd.emit
  rw [List.filter_cons]; rfl

theorem mem_nonMain {k : Kbd} {i : Nat} : i ∈ nonMainLayers k ↔ i ≠ 0 ∧ i < k.config.layers.length := by
  unfold nonMainLayers
  rw [List.range_eq_range', List.drop_range', List.mem_range'_1]
  omega

theorem SameShape.isLayout {a b : Config} (h : SameShape a b) (i : Nat) : isLayout b i = isLayout a i := by
  by_cases hi : i < a.layers.length
  · have h1 := isLayout_type hi
    have h2 := isLayout_type (c := b) (i := i) (by rw [h.1]; exact hi)
    rw [h.type i, h1] at h2
    cases ha : Keyd.isLayout a i <;> cases hb : Keyd.isLayout b i <;> simp_all
  · unfold Keyd.isLayout
    have := h.1
    rw [List.getElem?_eq_none (by omega), List.getElem?_eq_none (by omega)]

theorem layerFacts_inv {c : Config} (hw : WF c) :
    LayerInv (LayerTarget c) (LayoutTarget c) (LayerFacts c) where
  view := by
    intro k k' v h
    refine ⟨by rw [v.config]; exact h.shape, by rw [v.clock, v.trace]; exact h.clock,
      by rw [v.layerState]; exact h.main, ?_, ?_, by rw [v.layerState]; exact h.outside⟩
    · rw [v.layerState, v.trace]; exact h.layouts
    · rw [v.layerState, v.trace]; exact h.times
  deact := by
    intro k i hi ha h
    have ho := ordinary_of_target hi
    have hne : ∀ j, isLayout c j = true → j ≠ i := by
      rintro j hj rfl
      rw [ordinary_not_layout ho] at hj; cases hj
    have hl : ∀ j, j ≠ i → (deactStep k i).layerState j = k.layerState j := fun j hj => upd_other _ _ hj
    have ht : (deactStep k i).layerTrace = .layer i false :: k.layerTrace := layerTrace_emit _ _ _
    refine ⟨h.shape, ?_, ?_, ?_, ?_, ?_⟩
    · rw [ht]; exact h.clock
    · rw [hl 0 (hne 0 (main_isLayout hw))]; exact h.main
    · intro j h0 hj
      rw [hl j (hne j hj), ht]; exact h.layouts j h0 hj
    · intro j hj
      rw [ht]
      by_cases hji : j = i
      · subst hji
        have : (deactStep k j).layerState j = { k.layerState j with active := (k.layerState j).active - 1 } :=
          upd_same _ _ _
        rw [this]
        exact ⟨(h.times j hj).1, fun _ => (h.times j hj).2 ha⟩
      · rw [hl j hji]; exact h.times j hj
    · intro j hj
      rw [hl j (by rintro rfl; have := lt_of_ordinary ho; omega)]
      exact h.outside j hj
  act := by
    intro k i hi h
    have ho := ordinary_of_target hi
    have hne : ∀ j, isLayout c j = true → j ≠ i := by
      rintro j hj rfl
      rw [ordinary_not_layout ho] at hj; cases hj
    have hl : ∀ j, j ≠ i → (actStep k i).layerState j = k.layerState j := fun j hj => upd_other _ _ hj
    have ht : (actStep k i).layerTrace = .layer i true :: k.layerTrace := layerTrace_emit _ _ _
    refine ⟨h.shape, ?_, ?_, ?_, ?_, ?_⟩
    · rw [ht]
      show k.clock + 1 = 1 + (((if ordinary c i then 1 else 0) + activations c k.layerTrace : Nat) : Int)
      rw [ho, h.clock]
      simp
      omega
    · rw [hl 0 (hne 0 (main_isLayout hw))]; exact h.main
    · intro j h0 hj
      rw [hl j (hne j hj), ht]
      have : selectedLayout c (initialLayout c) (.layer i true :: k.layerTrace)
          = selectedLayout c (initialLayout c) k.layerTrace := by
        show (if isLayout c i then i else _) = _
        rw [ordinary_not_layout ho]; rfl
      rw [this]; exact h.layouts j h0 hj
    · intro j hj
      rw [ht]
      by_cases hji : j = i
      · subst hji
        have : (actStep k j).layerState j =
            { k.layerState j with active := (k.layerState j).active + 1, activationTime := k.clock } :=
          upd_same _ _ _
        rw [this]
        have hr : rank c j (.layer j true :: k.layerTrace) = 1 + activations c k.layerTrace := by
          show (if j = j then _ else _) = _
          rw [if_pos rfl]
        rw [hr]
        refine ⟨?_, by omega⟩
        show k.clock = _
        rw [h.clock]; simp
      · rw [hl j hji]
        have hr : rank c j (.layer i true :: k.layerTrace) = rank c j k.layerTrace := by
          show (if i = j then _ else _) = _
          rw [if_neg (fun e => hji e.symm)]
        rw [hr]
        exact h.times j hj
    · intro j hj
      rw [hl j (by rintro rfl; have := lt_of_ordinary ho; omega)]
      exact h.outside j hj
  flags := by
    intro k i f hi hf h
    have hs : ∀ j, ((k.modLayer i f).layerState j).active = (k.layerState j).active ∧
        ((k.modLayer i f).layerState j).activationTime = (k.layerState j).activationTime := by
      intro j
      by_cases hji : j = i
      · subst hji
        have : (k.modLayer j f).layerState j = f (k.layerState j) := upd_same _ _ _
        rw [this]; exact hf _
      · have : (k.modLayer i f).layerState j = k.layerState j := upd_other _ _ hji
        rw [this]; exact ⟨rfl, rfl⟩
    refine ⟨h.shape, h.clock, ?_, ?_, ?_, ?_⟩
    · rw [(hs 0).1, (hs 0).2]; exact h.main
    · intro j; rw [(hs j).1, (hs j).2]; exact h.layouts j
    · intro j; rw [(hs j).1, (hs j).2]; exact h.times j
    · intro j; rw [(hs j).1]; exact h.outside j
  layout := by
    intro k idx hY h
    have hy := isLayout_of_layoutTarget hw hY
    obtain ⟨ls, h1, h2⟩ := layoutStep_spec k idx
    have ht : (layoutStep k idx).layerTrace = .layer idx true :: k.layerTrace := by
      rw [h1]; exact layerTrace_emit _ _ _
    have hls : (layoutStep k idx).layerState = ls := by rw [h1]; rfl
    have hc : (layoutStep k idx).clock = k.clock := by rw [h1]; rfl
    have hcf : (layoutStep k idx).config = k.config := by rw [h1]; rfl
    have hno := isLayout_not_ordinary hy
    refine ⟨by rw [hcf]; exact h.shape, ?_, ?_, ?_, ?_, ?_⟩
    · rw [hc, ht]
      show k.clock = 1 + (((if ordinary c idx then 1 else 0) + activations c k.layerTrace : Nat) : Int)
      rw [hno, h.clock]
      simp
    · rw [hls, h2 0, if_neg (by rintro ⟨e, e'⟩; exact e' e.symm), if_neg (by rintro ⟨e, _⟩; exact (mem_nonMain.1 e).1 rfl)]
      exact h.main
    · intro j h0 hj
      rw [hls, ht]
      have hsel : selectedLayout c (initialLayout c) (.layer idx true :: k.layerTrace) = idx := by
        show (if isLayout c idx then idx else _) = _
        rw [hy]; rfl
      rw [hsel]
      by_cases hji : j = idx
      · rw [h2 j, if_pos ⟨hji, by rw [← hji]; exact h0⟩]
        simp [hji]
      · rw [h2 j, if_neg (by tauto), if_pos]
        · simp [hji]
        · refine ⟨mem_nonMain.2 ⟨h0, by rw [h.shape.1]; exact lt_of_isLayout hj⟩, ?_⟩
          rw [h.shape.type]
          exact (isLayout_type (lt_of_isLayout hj)).2 hj
    · intro j hj
      have hnl := ordinary_not_layout hj
      have hji : j ≠ idx := by rintro rfl; rw [hy] at hnl; cases hnl
      rw [hls, ht, h2 j, if_neg (by tauto), if_neg]
      · have hr : rank c j (.layer idx true :: k.layerTrace) = rank c j k.layerTrace := by
          show (if idx = j then _ else _) = _
          rw [if_neg (fun e => hji e.symm)]
        rw [hr]
        exact h.times j hj
      · rintro ⟨_, e⟩
        rw [h.shape.type, isLayout_type (lt_of_ordinary hj), hnl] at e
        cases e
    · intro j hj
      have hji : j ≠ idx := by rintro rfl; have := lt_of_isLayout hy; omega
      rw [hls, h2 j, if_neg (by tauto)]
      split
      · rfl
      · exact h.outside j hj

theorem initialLayout_isLayout {c : Config} (hw : WF c) : isLayout c (initialLayout c) = true := by
  unfold initialLayout
  split
  · exact main_isLayout hw
  · cases h : findLayout c.defaultLayout c.layers 0 with
    | none => exact main_isLayout hw
    | some i =>
      obtain ⟨_, l, hl, ht, _⟩ := findLayout_some h
      show isLayout c i = true
      unfold isLayout
      rw [Nat.sub_zero] at hl
      rw [hl]; simp [ht]

/-- The layers of a new keyboard. -/
theorem newKeyboard_layers (c : Config) (i : Nat) :
    (newKeyboard c).layerState i =
      if i = initialLayout c ∧ (i ≠ 0 ∨ (c.defaultLayout ≠ [] ∧ findLayout c.defaultLayout c.layers 0 = some 0)) then { active := 1, activationTime := 1 }
      else if i = 0 then { active := 1 } else {} := by
  unfold newKeyboard initialLayout
  dsimp only
  by_cases hd : c.defaultLayout = []
  · simp [hd, upd_apply]
  · simp only [hd, ne_eq, not_false_eq_true, if_true, if_false, true_and]
    cases hf : findLayout c.defaultLayout c.layers 0 with
    | none =>
      simp [upd_apply]
    | some j =>
      simp [upd_apply]
      by_cases hij : i = j
      · subst hij
        by_cases hi : i = 0 <;> simp [hi]
      · simp [hij]

theorem layerFacts_new {c : Config} (hw : WF c) : LayerFacts c (newKeyboard c) := by
  have hil := initialLayout_isLayout hw
  have hs := newKeyboard_layers c
  refine ⟨.refl c, rfl, ?_, ?_, ?_, ?_⟩
  · rw [hs 0]
    split
    · decide
    · rw [if_pos rfl]; decide
  · intro i h0 hi
    show _ ∧ (_ ↔ i = initialLayout c) ∧ _
    rw [hs i]
    by_cases hii : i = initialLayout c
    · rw [if_pos ⟨hii, .inl h0⟩]
      simp [← hii]
    · rw [if_neg (by tauto), if_neg h0]
      simp [hii]
  · intro i hi
    show _ = ((0 : Nat) : Int) ∧ _
    have h1 : i ≠ initialLayout c := by
      rintro rfl
      rw [ordinary_not_layout hi] at hil; cases hil
    have h2 : i ≠ 0 := by
      rintro rfl
      have := main_isLayout hw
      rw [ordinary_not_layout hi] at this; cases this
    rw [hs i, if_neg (by tauto), if_neg h2]
    exact ⟨rfl, fun h => absurd rfl h⟩
  · intro i hi
    have h1 : i ≠ initialLayout c := by
      rintro rfl
      have := lt_of_isLayout hil; omega
    have h2 : i ≠ 0 := by
      rintro rfl
      have := lt_of_isLayout (main_isLayout hw); omega
    rw [hs i, if_neg (by tauto), if_neg h2]

/-- The facts hold throughout every history. -/
theorem layerFacts_history {c : Config} (hw : WF c) {k : Kbd} (h : HistoryOf c k) :
    Lineage c k ∧ LayerFacts c k ∧ OnlyL (LayerTarget c) k := by
  refine LayerInv.history hw (layerFacts_inv hw) (layerFacts_new hw) ?_ h
  intro k c' hs hf
  exact ⟨hf.shape.trans hs, hf.clock, hf.main, hf.layouts, hf.times, hf.outside⟩

/-! ### C12 -/

/-- C12. At every point of every history at most one layout other than main is
active. -/
theorem C12_at_most_one_layout (c : Config) (hb : Bound c) (k : Kbd) (h : HistoryOf c k) (i j : Nat)
    (hi : isLayout k.config i = true) (hj : isLayout k.config j = true) (hi0 : i ≠ 0) (hj0 : j ≠ 0)
    (ai : k.isActive i = true) (aj : k.isActive j = true) : i = j := by
  have hf := (layerFacts_history (C27_wellformed c hb) h).2.1
  rw [hf.shape.isLayout] at hi hj
  unfold Kbd.isActive at ai aj
  rw [decide_eq_true_eq] at ai aj
  rw [((hf.layouts i hi0 hi).2.1).1 ai, ((hf.layouts j hj0 hj).2.1).1 aj]

/-- C12. The active layout besides main is exactly the one selected last: the
one named by the latest layout announcement, initially the default layout. -/
theorem C12_active_layout_is_selected (c : Config) (hb : Bound c) (k : Kbd) (h : HistoryOf c k) (i : Nat)
    (hi : isLayout k.config i = true) (hi0 : i ≠ 0) :
    k.isActive i = true ↔ i = selectedLayout c (initialLayout c) k.outputs.reverse := by
  have hf := (layerFacts_history (C27_wellformed c hb) h).2.1
  rw [hf.shape.isLayout] at hi
  have := (hf.layouts i hi0 hi).2.1
  unfold Kbd.layerTrace at this
  rw [selectedLayout_filter] at this
  unfold Kbd.isActive Kbd.outputs
  rw [decide_eq_true_eq, List.reverse_reverse]
  exact this

/-- C12. The main layer is active at every point. -/
theorem C12_main_always_active (c : Config) (hb : Bound c) (k : Kbd) (h : HistoryOf c k) :
    (k.layerState 0).active = 1 :=
  (layerFacts_history (C27_wellformed c hb) h).2.1.main.1

/-- C12. `setlayout(L)` makes L the only active layout besides main, and
`setlayout(main)` leaves none, whatever the state. -/
theorem C12_setlayout (k k' : Kbd) (idx : Nat) (run : setlayout k idx = .ok k') (i : Nat)
    (hi : isLayout k.config i = true) (hi0 : i ≠ 0) :
    k'.isActive i = true ↔ i = idx := by
  unfold setlayout at run
  rw [bind_eq_ok] at run
  obtain ⟨k1, h1, h2⟩ := run
  have hc : k1.config = k.config := ((Calm.clear k).of_ok h1).config
  have h2 : layoutStep k1 idx = k' := by
    rw [← Except.ok.injEq (ε := Err)]; exact h2
  obtain ⟨ls, g1, g2⟩ := layoutStep_spec k1 idx
  have : k'.layerState i = ls i := by rw [← h2, g1]; rfl
  unfold Kbd.isActive
  rw [this, g2 i]
  by_cases hii : i = idx
  · rw [if_pos ⟨hii, by rw [← hii]; exact hi0⟩]
    simp [hii]
  · rw [if_neg (by tauto), if_pos]
    · simp [hii]
    · refine ⟨mem_nonMain.2 ⟨hi0, by rw [hc]; exact lt_of_isLayout hi⟩, ?_⟩
      rw [hc]; exact (isLayout_type (lt_of_isLayout hi)).2 hi

end Keyd
