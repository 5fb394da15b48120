import Verif.Props.Layers
import Verif.Spec.Witness

/-
  C08: which binding is chosen for a pressed key.
-/

set_option autoImplicit false

namespace Keyd

attribute [local irreducible] configInit

/-! ### Specification -/

/-- A composite layer all of whose constituents are active and which binds the
key. -/
def CompositeCand (k : Kbd) (code : Code) (i : Nat) : Prop :=
  ∃ l : Layer, k.config.layers[i]? = some l ∧ l.type = .composite ∧ l.constituents ≠ [] ∧
    (∀ j ∈ l.constituents, k.isActive j = true) ∧ l.keymap code ≠ .none

/-- An active layer which binds the key. -/
def LayerCand (k : Kbd) (code : Code) (i : Nat) : Prop :=
  ∃ l : Layer, k.config.layers[i]? = some l ∧ k.isActive i = true ∧ l.keymap code ≠ .none

/-- Number of constituents of a layer. -/
def size (k : Kbd) (i : Nat) : Nat := (k.config.layer i).constituents.length

/-- Precedence of active layers: main is lowest, then the selected layout, which
ranks with the first activation ever; other layers by their latest activation. -/
def precedence (c : Config) (outs : List Out) (i : Nat) : Nat :=
  if i = 0 then 0 else if isLayout c i then 1 else rank c i outs.reverse

/-! ### The scans -/

theorem layer_getElem {c : Config} {i : Nat} {l : Layer} (h : c.layers[i]? = some l) : c.layer i = l :=
  layer_of_getElem h

theorem getElem_of_lt {c : Config} {i : Nat} (h : i < c.layers.length) : c.layers[i]? = some (c.layer i) := by
  unfold Config.layer
  rw [List.getD_eq_getElem?_getD, List.getElem?_eq_getElem h]; rfl

theorem lt_of_getElem {c : Config} {i : Nat} {l : Layer} (h : c.layers[i]? = some l) : i < c.layers.length := by
  by_contra hge
  rw [List.getElem?_eq_none (by omega)] at h
  cases h

/-- The scan over the first `n` active layers. -/
theorem activeScan_spec (k : Kbd) (code : Code)
    (hpos : ∀ i, k.isActive i = true → 0 ≤ (k.layerState i).activationTime) : ∀ n : Nat,
    let r := (List.range n).foldl (fun (acc : Option (Desc × Nat) × Int) i =>
      let d := (k.config.layer i).keymap code
      let t := (k.layerState i).activationTime
      if k.isActive i ∧ d ≠ .none ∧ t ≥ acc.2 then (some (d, i), t) else acc) (none, 0)
    (r.1 = none ∧ r.2 = 0 ∧ ∀ i < n, ¬ (k.isActive i = true ∧ (k.config.layer i).keymap code ≠ .none)) ∨
    (∃ l, l < n ∧ r.1 = some ((k.config.layer l).keymap code, l) ∧ r.2 = (k.layerState l).activationTime ∧
      k.isActive l = true ∧ (k.config.layer l).keymap code ≠ .none ∧
      ∀ i < n, k.isActive i = true → (k.config.layer i).keymap code ≠ .none →
        (k.layerState i).activationTime < (k.layerState l).activationTime ∨
        ((k.layerState i).activationTime = (k.layerState l).activationTime ∧ i ≤ l))
  | 0 => .inl ⟨rfl, rfl, by omega⟩
  | n+1 => by
    have ih := activeScan_spec k code hpos n
    rw [List.range_succ, List.foldl_append]
    revert ih
    dsimp only
    generalize (List.range n).foldl _ _ = acc
    intro ih
    rw [List.foldl_cons, List.foldl_nil]
    by_cases hc : k.isActive n = true ∧ (k.config.layer n).keymap code ≠ .none
    · by_cases ht : (k.layerState n).activationTime ≥ acc.2
      · rw [if_pos ⟨hc.1, hc.2, ht⟩]
        right
        refine ⟨n, by omega, rfl, rfl, hc.1, hc.2, ?_⟩
        intro i hi ha hb
        by_cases hin : i = n
        · subst hin; exact .inr ⟨rfl, Nat.le_refl _⟩
        · rcases ih with ⟨_, _, h3⟩ | ⟨l, h1, h2, h3, h4, h5, h6⟩
          · exact absurd ⟨ha, hb⟩ (h3 i (by omega))
          · rw [h3] at ht
            rcases h6 i (by omega) ha hb with h7 | h7 <;> omega
      · rw [if_neg (by tauto)]
        rcases ih with ⟨_, h2, h3⟩ | ⟨l, h1, h2, h3, h4, h5, h6⟩
        · have := hpos n hc.1
          rw [h2] at ht
          omega
        · right
          refine ⟨l, by omega, h2, h3, h4, h5, ?_⟩
          intro i hi ha hb
          by_cases hin : i = n
          · subst hin; rw [h3] at ht; left; omega
          · exact h6 i (by omega) ha hb
    · rw [if_neg (by tauto)]
      rcases ih with ⟨h1, h2, h3⟩ | ⟨l, h1, h2, h3, h4, h5, h6⟩
      · left
        refine ⟨h1, h2, ?_⟩
        intro i hi
        by_cases hin : i = n
        · subst hin; exact hc
        · exact h3 i (by omega)
      · right
        refine ⟨l, by omega, h2, h3, h4, h5, ?_⟩
        intro i hi ha hb
        by_cases hin : i = n
        · subst hin; exact absurd ⟨ha, hb⟩ hc
        · exact h6 i (by omega) ha hb

/-- The condition tested by the composite scan. -/
def compositeTest (k : Kbd) (code : Code) (i : Nat) : Prop :=
  (k.config.layer i).type = .composite ∧ (k.config.layer i).constituents.all k.isActive = true ∧
    (k.config.layer i).keymap code ≠ .none ∧ (k.config.layer i).constituents ≠ []

theorem compositeScan_spec (k : Kbd) (code : Code) (start : Option (Desc × Nat)) : ∀ n : Nat,
    let r := (List.range n).foldl (fun (acc : Option (Desc × Nat) × Nat) i =>
      let l := k.config.layer i
      if l.type = .composite ∧ l.constituents.all k.isActive ∧ l.keymap code ≠ .none ∧
          l.constituents.length > acc.2 then
        (some (l.keymap code, i), l.constituents.length)
      else acc) (start, 0)
    (r.1 = start ∧ r.2 = 0 ∧ ∀ i < n, ¬ compositeTest k code i) ∨
    (∃ l, l < n ∧ r.1 = some ((k.config.layer l).keymap code, l) ∧ r.2 = size k l ∧ compositeTest k code l ∧
      ∀ i < n, compositeTest k code i → size k i < size k l ∨ (size k i = size k l ∧ l ≤ i))
  | 0 => .inl ⟨rfl, rfl, by omega⟩
  | n+1 => by
    have ih := compositeScan_spec k code start n
    rw [List.range_succ, List.foldl_append]
    revert ih
    dsimp only
    generalize (List.range n).foldl _ _ = acc
    intro ih
    rw [List.foldl_cons, List.foldl_nil]
    by_cases hc : compositeTest k code n
    · obtain ⟨c1, c2, c3, c4⟩ := hc
      have hpos : 0 < size k n := List.length_pos_iff.2 c4
      by_cases ht : size k n > acc.2
      · rw [if_pos ⟨c1, c2, c3, ht⟩]
        right
        refine ⟨n, by omega, rfl, rfl, ⟨c1, c2, c3, c4⟩, ?_⟩
        intro i hi hti
        by_cases hin : i = n
        · subst hin; exact .inr ⟨rfl, Nat.le_refl _⟩
        · rcases ih with ⟨_, _, h3⟩ | ⟨l, h1, h2, h3, h4, h5⟩
          · exact absurd hti (h3 i (by omega))
          · rcases h5 i (by omega) hti with h6 | h6 <;> (left; omega)
      · rw [if_neg (fun h => ht h.2.2.2)]
        rcases ih with ⟨_, h2, h3⟩ | ⟨l, h1, h2, h3, h4, h5⟩
        · omega
        · right
          refine ⟨l, by omega, h2, h3, h4, ?_⟩
          intro i hi hti
          by_cases hin : i = n
          · subst hin
            by_cases he : size k i = size k l
            · exact .inr ⟨he, by omega⟩
            · left; omega
          · exact h5 i (by omega) hti
    · rw [if_neg]
      · rcases ih with ⟨h1, h2, h3⟩ | ⟨l, h1, h2, h3, h4, h5⟩
        · left
          refine ⟨h1, h2, ?_⟩
          intro i hi
          by_cases hin : i = n
          · subst hin; exact hc
          · exact h3 i (by omega)
        · right
          refine ⟨l, by omega, h2, h3, h4, ?_⟩
          intro i hi hti
          by_cases hin : i = n
          · subst hin; exact absurd hti hc
          · exact h5 i (by omega) hti
      · rintro ⟨c1, c2, c3, c4⟩
        exact hc ⟨c1, c2, c3, by intro e; rw [e] at c4; simp at c4⟩

theorem compositeTest_iff (k : Kbd) (code : Code) (i : Nat) :
    (i < k.config.layers.length ∧ compositeTest k code i) ↔ CompositeCand k code i := by
  constructor
  · rintro ⟨h0, h1, h2, h3, h4⟩
    refine ⟨k.config.layer i, getElem_of_lt h0, h1, h4, ?_, h3⟩
    intro j hj
    exact List.all_eq_true.1 h2 j hj
  · rintro ⟨l, h0, h1, h2, h3, h4⟩
    have := layer_getElem h0
    refine ⟨lt_of_getElem h0, ?_⟩
    unfold compositeTest
    rw [this]
    exact ⟨h1, List.all_eq_true.2 h3, h4, h2⟩

theorem layerCand_iff (k : Kbd) (code : Code) (i : Nat) :
    (i < k.config.layers.length ∧ k.isActive i = true ∧ (k.config.layer i).keymap code ≠ .none) ↔
      LayerCand k code i := by
  constructor
  · rintro ⟨h0, h1, h2⟩
    exact ⟨k.config.layer i, getElem_of_lt h0, h1, h2⟩
  · rintro ⟨l, h0, h1, h2⟩
    have := layer_getElem h0
    refine ⟨lt_of_getElem h0, h1, ?_⟩
    rw [this]; exact h2

/-- Not one of the codes standing for an active chord. -/
def NotChordCode (code : Code) : Prop := ¬ (KEYD.CHORD_1 ≤ code ∧ code ≤ KEYD.CHORD_MAX)

/-- C08. If some composite layer is fully active and binds the key, the binding
comes from one of those with the most constituents, the first declared among
equals. -/
theorem C08_most_specific_composite (k : Kbd) (code : Code) (hc : NotChordCode code) (i : Nat)
    (hi : CompositeCand k code i) :
    ∃ l, lookupDescriptor k code = ((k.config.layer l).keymap code, l) ∧ CompositeCand k code l ∧
      (size k i < size k l ∨ (size k i = size k l ∧ l ≤ i)) := by
  unfold lookupDescriptor
  rw [if_neg hc]
  have := compositeScan_spec k code (lookupActive k code).1 k.config.layers.length
  unfold lookupComposite
  revert this
  dsimp only
  generalize (List.range _).foldl _ _ = r
  intro h
  obtain ⟨h0, h1⟩ := (compositeTest_iff k code i).2 hi
  rcases h with ⟨_, _, h3⟩ | ⟨l, g1, g2, _, g4, g5⟩
  · exact absurd h1 (h3 i h0)
  · rw [g2]
    exact ⟨l, rfl, (compositeTest_iff k code l).1 ⟨g1, g4⟩, g5 i h0 h1⟩

/-- Without composite candidates the scan over active layers decides. -/
theorem lookup_plain (k : Kbd) (code : Code) (hc : NotChordCode code) (hn : ∀ i, ¬ CompositeCand k code i) :
    lookupDescriptor k code = match (lookupActive k code).1 with
      | some r => r
      | none => (.keyseq code 0, 0) := by
  unfold lookupDescriptor
  rw [if_neg hc]
  have := compositeScan_spec k code (lookupActive k code).1 k.config.layers.length
  unfold lookupComposite
  revert this
  dsimp only
  generalize (List.range _).foldl _ _ = r
  intro h
  rcases h with ⟨h1, _, _⟩ | ⟨l, g1, g2, _, g4, g5⟩
  · rw [h1]
    cases (lookupActive k code).1 <;> rfl
  · exact absurd ((compositeTest_iff k code l).1 ⟨g1, g4⟩) (hn l)

/-- C08. A key bound nowhere in the active layers is itself, unmodified. -/
theorem C08_unbound_is_itself (k : Kbd) (code : Code) (hc : NotChordCode code)
    (hn : ∀ i, ¬ CompositeCand k code i) (hn' : ∀ i, ¬ LayerCand k code i)
    (hpos : ∀ i, k.isActive i = true → 0 ≤ (k.layerState i).activationTime) :
    lookupDescriptor k code = (.keyseq code 0, 0) := by
  rw [lookup_plain k code hc hn]
  have := activeScan_spec k code hpos k.config.layers.length
  unfold lookupActive
  revert this
  dsimp only
  generalize (List.range _).foldl _ _ = r
  intro h
  rcases h with ⟨h1, _, _⟩ | ⟨l, g1, _, _, g4, g5, _⟩
  · rw [h1]
  · exact absurd ((layerCand_iff k code l).1 ⟨g1, g4, g5⟩) (hn' l)

theorem times_pos {c : Config} {k : Kbd} (hf : LayerFacts c k) (i : Nat) (ha : k.isActive i = true) :
    0 ≤ (k.layerState i).activationTime := by
  unfold Kbd.isActive at ha
  rw [decide_eq_true_eq] at ha
  by_cases h0 : i = 0
  · subst h0; exact hf.main.2.1
  · by_cases hl : isLayout c i = true
    · rw [(hf.layouts i h0 hl).2.2 ha]; decide
    · by_cases ho : ordinary c i = true
      · rw [(hf.times i ho).1]; exact Int.natCast_nonneg _
      · exfalso
        apply ha
        apply hf.outside i
        by_contra hlt
        unfold isLayout at hl
        unfold ordinary at ho
        rw [List.getElem?_eq_getElem (by omega)] at hl ho
        simp at hl ho
        exact hl ho

/-- C08 in every history: a key that no fully active composite layer and no active
layer binds is itself, unmodified. -/
theorem C08_unbound_history (c : Config) (hb : Bound c) (k : Kbd) (h : HistoryOf c k) (code : Code)
    (hc : NotChordCode code) (hn : ∀ i, ¬ CompositeCand k code i) (hn' : ∀ i, ¬ LayerCand k code i) :
    lookupDescriptor k code = (.keyseq code 0, 0) :=
  C08_unbound_is_itself k code hc hn hn' (times_pos (layerFacts_history (C27_wellformed c hb) h).2.1)

/-- C08. Otherwise the binding comes from the active layer of highest precedence
that binds the key; equal precedence goes to the layer declared later. -/
theorem C08_highest_precedence (c : Config) (hb : Bound c) (k : Kbd) (h : HistoryOf c k) (code : Code)
    (hc : NotChordCode code) (hn : ∀ i, ¬ CompositeCand k code i) (i : Nat) (hi : LayerCand k code i) :
    ∃ l, lookupDescriptor k code = ((k.config.layer l).keymap code, l) ∧ LayerCand k code l ∧
      (precedence c k.outputs i < precedence c k.outputs l ∨
        (precedence c k.outputs i = precedence c k.outputs l ∧ i ≤ l)) := by
  have hw := C27_wellformed c hb
  have hf := (layerFacts_history hw h).2.1
  rw [lookup_plain k code hc hn]
  have := activeScan_spec k code (times_pos hf) k.config.layers.length
  unfold lookupActive
  revert this
  dsimp only
  generalize (List.range _).foldl _ _ = r
  intro hr
  obtain ⟨h0, h1, h2⟩ := (layerCand_iff k code i).2 hi
  rcases hr with ⟨_, _, h3⟩ | ⟨l, g1, g2, _, g4, g5, g6⟩
  · exact absurd ⟨h1, h2⟩ (h3 i h0)
  · rw [g2]
    refine ⟨l, rfl, (layerCand_iff k code l).1 ⟨g1, g4, g5⟩, ?_⟩
    -- precedence is the activation time, except that main may have time 1
    have prec : ∀ j, j < k.config.layers.length → k.isActive j = true →
        (j ≠ 0 → (k.layerState j).activationTime = precedence c k.outputs j ∧ 1 ≤ precedence c k.outputs j) := by
      intro j hj ha h0
      rw [hf.shape.1] at hj
      unfold Kbd.isActive at ha
      rw [decide_eq_true_eq] at ha
      unfold precedence
      rw [if_neg h0]
      by_cases hl : isLayout c j = true
      · rw [if_pos hl, (hf.layouts j h0 hl).2.2 ha]
        decide
      · rw [if_neg hl]
        have ho : ordinary c j = true := by
          unfold isLayout at hl
          unfold ordinary
          rw [List.getElem?_eq_getElem hj] at hl ⊢
          simpa using hl
        have ht := hf.times j ho
        unfold Kbd.layerTrace at ht
        rw [rank_filter] at ht
        unfold Kbd.outputs
        rw [List.reverse_reverse]
        exact ⟨ht.1, Nat.pos_of_ne_zero (ht.2 ha)⟩
    have p0 : precedence c k.outputs 0 = 0 := by unfold precedence; rw [if_pos rfl]
    have hm := hf.main.2
    by_cases hi0 : i = 0
    · subst hi0
      by_cases hl0 : l = 0
      · subst hl0; exact .inr ⟨rfl, Nat.le_refl _⟩
      · left
        have := prec l g1 g4 hl0
        omega
    · have pi := prec i h0 h1 hi0
      by_cases hl0 : l = 0
      · subst hl0
        rcases g6 i h0 h1 h2 with h | h <;> omega
      · have pl := prec l g1 g4 hl0
        rcases g6 i h0 h1 h2 with h | h
        · left; omega
        · right; omega

/-- C08. Among ordinary layers there are no ties: the binding comes from the one
whose latest activation is the most recent. -/
theorem C08_most_recently_activated (c : Config) (hb : Bound c) (k : Kbd) (h : HistoryOf c k) (code : Code)
    (hc : NotChordCode code) (hn : ∀ i, ¬ CompositeCand k code i) (i l : Nat) (hi : LayerCand k code i)
    (hl : lookupDescriptor k code = ((k.config.layer l).keymap code, l)) (hne : i ≠ l)
    (oi : ordinary c i = true) (ol : ordinary c l = true) :
    rank c i k.outputs.reverse < rank c l k.outputs.reverse := by
  have hw := C27_wellformed c hb
  have hf := (layerFacts_history hw h).2.1
  obtain ⟨l', h1, h2, h3⟩ := C08_highest_precedence c hb k h code hc hn i hi
  rw [hl] at h1
  have hll : l = l' := by rw [Prod.mk.injEq] at h1; exact h1.2
  subst hll
  have nz : ∀ j, ordinary c j = true → j ≠ 0 := by
    rintro j hj rfl
    have := main_isLayout hw
    rw [ordinary_not_layout hj] at this; cases this
  have pr : ∀ j, ordinary c j = true → precedence c k.outputs j = rank c j k.outputs.reverse := by
    intro j hj
    unfold precedence
    rw [if_neg (nz j hj), ordinary_not_layout hj]; rfl
  rw [pr i oi, pr l ol] at h3
  rcases h3 with h3 | ⟨h3, _⟩
  · exact h3
  · exfalso
    apply hne
    refine rank_inj c i l oi ol _ h3 ?_
    obtain ⟨_, ha, _⟩ := (layerCand_iff k code i).2 hi
    unfold Kbd.isActive at ha
    rw [decide_eq_true_eq] at ha
    have := (hf.times i oi).2 ha
    unfold Kbd.layerTrace at this
    rw [rank_filter] at this
    unfold Kbd.outputs
    rw [List.reverse_reverse]
    exact this

/-- C08 (partial). An ordinary layer takes precedence over main and over the
selected layout. Full statement: without the hypothesis `hr`. Missing: the case
that the layer's latest activation is the first one since the keyboard was
created, for which the claim is false of the code:
`C08_first_activation_ties_with_layout` below. -/
theorem C08_ordinary_over_layout_partial (c : Config) (hb : Bound c) (k : Kbd) (h : HistoryOf c k) (code : Code)
    (hc : NotChordCode code) (hn : ∀ i, ¬ CompositeCand k code i) (i l : Nat) (hi : LayerCand k code i)
    (hl : lookupDescriptor k code = ((k.config.layer l).keymap code, l))
    (oi : ordinary c i = true) (hr : rank c i k.outputs.reverse ≠ 1) : isLayout c l = false := by
  have hw := C27_wellformed c hb
  have hf := (layerFacts_history hw h).2.1
  obtain ⟨l', h1, h2, h3⟩ := C08_highest_precedence c hb k h code hc hn i hi
  rw [hl] at h1
  have hll : l = l' := by rw [Prod.mk.injEq] at h1; exact h1.2
  subst hll
  have h0 : i ≠ 0 := by
    rintro rfl
    have := main_isLayout hw
    rw [ordinary_not_layout oi] at this; cases this
  have hp : precedence c k.outputs i = rank c i k.outputs.reverse := by
    unfold precedence
    rw [if_neg h0, ordinary_not_layout oi]; rfl
  have hnz : rank c i k.outputs.reverse ≠ 0 := by
    obtain ⟨_, ha, _⟩ := (layerCand_iff k code i).2 hi
    unfold Kbd.isActive at ha
    rw [decide_eq_true_eq] at ha
    have := (hf.times i oi).2 ha
    unfold Kbd.layerTrace at this
    rw [rank_filter] at this
    unfold Kbd.outputs
    rw [List.reverse_reverse]
    exact this
  by_contra hlay
  rw [Bool.not_eq_false] at hlay
  have hpl : precedence c k.outputs l ≤ 1 := by
    unfold precedence
    rw [hlay]
    split
    · omega
    · exact Nat.le_refl _
  omega

/-- C08. A code standing for an active chord has the chord's binding. -/
theorem C08_chord_code (k : Kbd) (code : Code) (h1 : KEYD.CHORD_1 ≤ code) (h2 : code ≤ KEYD.CHORD_MAX) :
    lookupDescriptor k code =
      ((k.activeChords.getD (code.toNat - KEYD.CHORD_1.toNat) {}).chord.d,
       (k.activeChords.getD (code.toNat - KEYD.CHORD_1.toNat) {}).layer) := by
  unfold lookupDescriptor
  rw [if_pos ⟨h1, h2⟩]

/-! ### Concrete cases -/

/-- Two ordinary layers, a layer made of both, and a layout. -/
def lookupText : Str := b!"[ids]\n*\n[global]\ndefault_layout = dv\n[main]\nd = layer(x)\nf = layer(y)\n[x]\na = b\ng = h\n[y]\na = c\ng = i\n[x+y]\na = e\n[dv:layout]\na = o\ng = p\nz = q\n"

/-- With both layers held: `a` comes from the composite layer (8), `g` from the
layer activated last (7), `z` from the layout (9), `s` from nowhere. -/
example : ∃ c k, Bound c ∧ HistoryOf c k ∧ lookupDescriptor k 30 = (.keyseq 18 0, 8) ∧
    lookupDescriptor k 34 = (.keyseq 23 0, 7) ∧ lookupDescriptor k 44 = (.keyseq 16 0, 9) ∧
    lookupDescriptor k 31 = (.keyseq 31 0, 0) ∧ k.isActive 6 = true ∧ k.isActive 7 = true ∧ k.isActive 9 = true ∧
    ordinary c 6 = true ∧ ordinary c 7 = true ∧ isLayout c 9 = true ∧
    rank c 6 k.outputs.reverse = 1 ∧ rank c 7 k.outputs.reverse = 2 ∧
    selectedLayout c (initialLayout c) k.outputs.reverse = 9 := by
  have h : checkRun lookupText [press 32 1, press 33 2]
      (fun c => ordinary c 6 && ordinary c 7 && isLayout c 9 && initialLayout c == 9)
      (fun k => lookupDescriptor k 30 == (.keyseq 18 0, 8) && lookupDescriptor k 34 == (.keyseq 23 0, 7) &&
        lookupDescriptor k 44 == (.keyseq 16 0, 9) && lookupDescriptor k 31 == (.keyseq 31 0, 0) &&
        k.isActive 6 && k.isActive 7 && k.isActive 9 &&
        k.outputs == [.layer 6 true, .layer 7 true]) = true := by
    set_option maxRecDepth 100000 in decide +kernel
  obtain ⟨c, k, hb, hh, hc, hk, _⟩ := checkRun_history h
  simp only [Bool.and_eq_true, beq_iff_eq] at hc hk
  obtain ⟨⟨⟨h6, h7⟩, h9⟩, hi⟩ := hc
  obtain ⟨⟨⟨⟨⟨⟨⟨k1, k2⟩, k3⟩, k4⟩, k5⟩, k6⟩, k7⟩, k8⟩ := hk
  refine ⟨c, k, hb, hh, k1, k2, k3, k4, k5, k6, k7, h6, h7, h9, ?_, ?_, ?_⟩
  · rw [k8]; simp [rank, activations]
  · rw [k8]; simp [rank, activations, h6]
  · rw [k8]; simp [selectedLayout, ordinary_not_layout h6, ordinary_not_layout h7, hi]

/-- What C08 does not promise, and the code does not do: the very first layer
activation ranks equal with the selected layout, so a layout declared later hides
it. Here the layer `x` (6), just activated, binds `g` to `h`, but the layout (9)
wins. After the next activation of the layer the result is `h`. -/
theorem C08_first_activation_ties_with_layout :
    runText lookupText [press 32 1, press 34 2, release 34 3, release 32 4, press 32 5, press 34 6] =
      some [.layer 6 true, .key 25 true, .key 25 false, .layer 6 false, .layer 6 true, .key 35 true] := by
  set_option maxRecDepth 100000 in decide +kernel

end Keyd
