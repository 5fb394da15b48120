import Verif.Spec.WellFormed
import Verif.Proofs.Sat

/-
  Parsing keeps binding tables well-formed.
-/

set_option autoImplicit false

namespace Keyd

abbrev AnyError : Err → Prop := fun _ => True

/-- `c'` is `c` with more entries at the end of the auxiliary tables. -/
structure Extends (c c' : Config) : Prop where
  same : c' = { c with descriptors := c'.descriptors, macros := c'.macros, commands := c'.commands }
  descs : c.descriptors <+: c'.descriptors
  macros : c.macros <+: c'.macros
  commands : c.commands <+: c'.commands

theorem Extends.refl (c : Config) : Extends c c :=
  ⟨rfl, List.prefix_refl _, List.prefix_refl _, List.prefix_refl _⟩

theorem Extends.trans {a b c : Config} (h : Extends a b) (h' : Extends b c) : Extends a c :=
  ⟨by rw [h'.same, h.same], h.descs.trans h'.descs, h.macros.trans h'.macros, h.commands.trans h'.commands⟩

theorem Extends.layers {c c' : Config} (h : Extends c c') : c'.layers = c.layers := by rw [h.same]
theorem Extends.aliases {c c' : Config} (h : Extends c c') : c'.aliases = c.aliases := by rw [h.same]
theorem Extends.layer {c c' : Config} (h : Extends c c') (i : Nat) : c'.layer i = c.layer i := by
  unfold Config.layer; rw [h.layers]
theorem Extends.layerIndex {c c' : Config} (h : Extends c c') (n : Str) :
    c'.layerIndex n = c.layerIndex n := by
  unfold Config.layerIndex; rw [h.layers]

theorem Extends.addDesc (c : Config) (d : Desc) :
    Extends c { c with descriptors := c.descriptors ++ [d] } :=
  ⟨rfl, List.prefix_append _ _, List.prefix_refl _, List.prefix_refl _⟩
theorem Extends.addMacro (c : Config) (m : Macro) :
    Extends c { c with macros := c.macros ++ [m] } :=
  ⟨rfl, List.prefix_refl _, List.prefix_append _ _, List.prefix_refl _⟩
theorem Extends.addCommand (c : Config) (m : Str) :
    Extends c { c with commands := c.commands ++ [m] } :=
  ⟨rfl, List.prefix_refl _, List.prefix_refl _, List.prefix_append _ _⟩

theorem LayerTarget.ext {c c' : Config} (h : Extends c c') {i : Nat} (ht : LayerTarget c i) :
    LayerTarget c' i := by
  unfold LayerTarget at *; rw [h.layers]; exact ht

theorem LayoutTarget.ext {c c' : Config} (h : Extends c c') {i : Nat} (ht : LayoutTarget c i) :
    LayoutTarget c' i := by
  unfold LayoutTarget at *; rw [h.layers]; exact ht

theorem DescOK.ext {c c' : Config} (h : Extends c c') {b b' : Nat} (hb : b ≤ b') {d : Desc}
    (hd : DescOK c b d) : DescOK c' b' d := by
  have h1 := h.macros.length_le
  have h2 := h.commands.length_le
  have ht : ∀ i, LayerTarget c i → LayerTarget c' i := fun _ => LayerTarget.ext h
  have hl : ∀ i, LayoutTarget c i → LayoutTarget c' i := fun _ => LayoutTarget.ext h
  cases d <;> simp only [DescOK] at * <;>
    first
      | trivial
      | exact ht _ hd
      | exact hl _ hd
      | omega
      | exact ⟨ht _ hd.1, by omega⟩
      | exact ⟨ht _ hd.1, by omega, by omega⟩

theorem WF.tables {c c' : Config} (hw : WF c) (h : Extends c c')
    (hn : ∀ i d, c'.descriptors[i]? = some d → DescOK c' i d)
    (h1 : c'.descriptors.length ≤ 1024) (h2 : c'.macros.length ≤ 256) (h3 : c'.commands.length ≤ 64)
    (h4 : ∀ m ∈ c'.macros, m.length ≤ 256) : WF c' := by
  have hl := h.layers
  have hd := h.descs.length_le
  refine ⟨?_, ?_, ?_, ?_, ?_, ?_, ?_, ?_, hn, h1, h2, h3, h4⟩
  · rw [hl]; exact hw.layersLe
  · rw [hl]; exact hw.names
  · rw [hl]; exact hw.mainFirst
  · rw [hl]; exact hw.modLayers
  · rw [hl]; exact fun l hl' code => (hw.keymaps l hl' code).ext h hd
  · rw [hl]; exact fun l hl' ch hch => ⟨(hw.chords l hl' ch hch).1.ext h hd, (hw.chords l hl' ch hch).2⟩
  · rw [hl]; exact hw.chordsLe
  · rw [hl]; exact hw.constituents

theorem WF.addMacro {c : Config} (hw : WF c) (m : Macro) (h : c.macros.length < 256)
    (hm : m.length ≤ 256) : WF { c with macros := c.macros ++ [m] } :=
  hw.tables (.addMacro c m) (fun i d hd => (hw.nested i d hd).ext (.addMacro c m) (Nat.le_refl _))
    hw.descsLe (by simp; omega) hw.commandsLe (by
      intro m' hm'
      simp only [List.mem_append, List.mem_singleton] at hm'
      rcases hm' with hm' | rfl
      · exact hw.macroLe m' hm'
      · exact hm)

theorem WF.addCommand {c : Config} (hw : WF c) (m : Str) (h : c.commands.length < 64) :
    WF { c with commands := c.commands ++ [m] } :=
  hw.tables (.addCommand c m) (fun i d hd => (hw.nested i d hd).ext (.addCommand c m) (Nat.le_refl _))
    hw.descsLe hw.macrosLe (by simp; omega) hw.macroLe

theorem WF.addDesc {c : Config} (hw : WF c) (d : Desc) (h : c.descriptors.length < 1024)
    (hd : DescOK c c.descriptors.length d) : WF { c with descriptors := c.descriptors ++ [d] } :=
  hw.tables (.addDesc c d) (by
      intro i d' hd'
      dsimp only at hd'
      rw [List.getElem?_append] at hd'
      split at hd'
      · exact (hw.nested i d' hd').ext (.addDesc c d) (Nat.le_refl _)
      · rename_i hi
        have : i - c.descriptors.length = 0 := by
          rcases Nat.eq_zero_or_pos (i - c.descriptors.length) with h0 | h0
          · exact h0
          · rw [List.getElem?_eq_none (by simp; omega)] at hd'; cases hd'
        rw [this] at hd'
        simp at hd'
        subst hd'
        exact hd.ext (.addDesc c d) (by omega))
    (by simp; omega) hw.macrosLe hw.commandsLe hw.macroLe

/-! ### Layer lookup -/

theorem findLayer_some (name : Str) : ∀ (ls : List Layer) (i j : Nat),
    findLayer name ls i = some j → ∃ l, ls[j - i]? = some l ∧ l.name = name ∧ i ≤ j
  | [], _, _, h => by simp [findLayer] at h
  | l :: ls, i, j, h => by
    unfold findLayer at h
    split at h
    · rename_i hn
      cases h
      exact ⟨l, by simp, hn, Nat.le_refl _⟩
    · obtain ⟨l', h1, h2, h3⟩ := findLayer_some name ls (i+1) j h
      refine ⟨l', ?_, h2, by omega⟩
      have : j - i = (j - (i+1)) + 1 := by omega
      rw [this]
      simpa using h1

theorem layerIndex_some {c : Config} {name : Str} {i : Nat} (h : c.layerIndex name = some i) :
    ∃ l, c.layers[i]? = some l ∧ l.name = name := by
  obtain ⟨l, h1, h2, _⟩ := findLayer_some _ _ _ _ h
  exact ⟨l, by simpa using h1, h2⟩

theorem findLayer_none (name : Str) : ∀ (ls : List Layer) (i : Nat),
    findLayer name ls i = none ↔ ∀ l ∈ ls, l.name ≠ name
  | [], _ => by simp [findLayer]
  | l :: ls, i => by
    unfold findLayer
    split
    · rename_i hn; simp [hn]
    · rename_i hn
      rw [findLayer_none name ls (i+1)]
      simp [hn]

theorem layerIndex_none {c : Config} {name : Str} :
    c.layerIndex name = none ↔ ∀ l ∈ c.layers, l.name ≠ name := findLayer_none _ _ _

theorem layer_of_getElem {c : Config} {i : Nat} {l : Layer} (h : c.layers[i]? = some l) :
    c.layer i = l := by
  unfold Config.layer
  rw [List.getD_eq_getElem?_getD, h]
  rfl

/-- With distinct names, looking up the name of layer `i` finds `i`. -/
theorem layerIndex_of_nodup {c : Config} (hn : (c.layers.map (·.name)).Nodup) {i : Nat} {l : Layer}
    (h : c.layers[i]? = some l) : c.layerIndex l.name = some i := by
  cases hx : c.layerIndex l.name with
  | none => exact absurd rfl (layerIndex_none.1 hx l (List.mem_of_getElem? h))
  | some j =>
    obtain ⟨l', h1, h2⟩ := layerIndex_some hx
    have e1 : (c.layers.map (·.name))[i]? = some l.name := by simp [h]
    have e2 : (c.layers.map (·.name))[j]? = some l.name := by simp [h1, h2]
    have hi : i < (c.layers.map (·.name)).length := by
      by_cases hlt : i < (c.layers.map (·.name)).length
      · exact hlt
      · rw [List.getElem?_eq_none (by omega)] at e1; cases e1
    have := (List.getElem?_inj hi hn).1 (e1.trans e2.symm)
    rw [this]

end Keyd
