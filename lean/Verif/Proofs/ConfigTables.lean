import Verif.Proofs.ConfigParse
import Verif.Proofs.Actions
import Mathlib.Tactic.ByContra

/-
  Whole configurations and bind commands keep the binding tables well-formed.
-/

set_option autoImplicit false

namespace Keyd

theorem DescOK.mono {c c' : Config} {b b' : Nat}
    (ht : ∀ i, LayerTarget c i → LayerTarget c' i) (hl : ∀ i, LayoutTarget c i → LayoutTarget c' i)
    (hm : c.macros.length ≤ c'.macros.length) (hc : c.commands.length ≤ c'.commands.length)
    (hb : b ≤ b') {d : Desc} (hd : DescOK c b d) : DescOK c' b' d := by
  cases d <;> simp only [DescOK] at * <;>
    first
      | trivial
      | exact ht _ hd
      | exact hl _ hd
      | omega
      | exact ⟨ht _ hd.1, by omega⟩

/-- The binding part of a layer is legal in `c`. -/
def LayerOK (c : Config) (l : Layer) : Prop :=
  (∀ code, DescOK c c.descriptors.length (l.keymap code)) ∧
  (∀ ch ∈ l.chords, DescOK c c.descriptors.length ch.d ∧ ch.keys.length ≤ 8 ∧ ∀ x ∈ ch.keys, NamedKey x) ∧
  l.chords.length ≤ 64

theorem WF.layerOK {c : Config} (hw : WF c) {l : Layer} (hl : l ∈ c.layers) : LayerOK c l :=
  ⟨hw.keymaps l hl, hw.chords l hl, hw.chordsLe l hl⟩

/-- Replacing a layer by one with the same identity and legal bindings. -/
theorem WF.setLayer {c : Config} (hw : WF c) {idx : Nat} {l l' : Layer}
    (hl : c.layers[idx]? = some l) (hn : l'.name = l.name) (ht : l'.type = l.type)
    (hc : l'.constituents = l.constituents) (hok : LayerOK c l') :
    WF { c with layers := c.layers.set idx l' } := by
  have hlt : idx < c.layers.length := by
    by_contra h
    rw [List.getElem?_eq_none (by omega)] at hl
    cases hl
  have get : ∀ (i : Nat) (m : Layer), c.layers[i]? = some m →
      ∃ m' : Layer, (c.layers.set idx l')[i]? = some m' ∧ m'.name = m.name ∧ m'.type = m.type := by
    intro i m hm
    by_cases hi : idx = i
    · subst hi
      rw [hl] at hm
      cases hm
      exact ⟨l', by rw [List.getElem?_set_self hlt], hn, ht⟩
    · exact ⟨m, by rw [List.getElem?_set_ne hi]; exact hm, rfl, rfl⟩
  have htgt : ∀ i, LayerTarget c i → LayerTarget { c with layers := c.layers.set idx l' } i := by
    rintro i ⟨m, h1, h2⟩
    obtain ⟨m', h3, _, h5⟩ := get i m h1
    exact ⟨m', h3, by rw [h5]; exact h2⟩
  have hlay : ∀ i, LayoutTarget c i → LayoutTarget { c with layers := c.layers.set idx l' } i := by
    rintro i ⟨m, h1, h2⟩
    obtain ⟨m', h3, _, h5⟩ := get i m h1
    exact ⟨m', h3, by rw [h5]; exact h2⟩
  have hd : ∀ b d, DescOK c b d → DescOK { c with layers := c.layers.set idx l' } b d :=
    fun b d h => h.mono htgt hlay (Nat.le_refl _) (Nat.le_refl _) (Nat.le_refl _)
  have hall : ∀ m ∈ c.layers.set idx l', LayerOK c m ∧
      (m.constituents.length ≤ 8 ∧ ∀ i ∈ m.constituents, i < c.layers.length) := by
    intro m hm
    rcases List.mem_or_eq_of_mem_set hm with h | rfl
    · exact ⟨hw.layerOK h, hw.constituents m h⟩
    · refine ⟨hok, ?_⟩
      rw [hc]
      exact hw.constituents l (List.mem_of_getElem? hl)
  refine ⟨by simpa using hw.layersLe, ?_, ?_, ?_, ?_, ?_, ?_, ?_, ?_, hw.descsLe, hw.macrosLe,
    hw.commandsLe, hw.macroLe⟩
  · have : (c.layers.set idx l').map (·.name) = c.layers.map (·.name) := by
      apply List.ext_getElem?
      intro i
      rw [List.getElem?_map, List.getElem?_map]
      by_cases hi : idx = i
      · subst hi
        rw [List.getElem?_set_self hlt, hl]
        simp [hn]
      · rw [List.getElem?_set_ne hi]
    dsimp only
    rw [this]
    exact hw.names
  · obtain ⟨m, ms, h1, h2, h3⟩ := hw.mainFirst
    dsimp only
    cases idx with
    | zero =>
      rw [h1] at hl
      cases hl
      exact ⟨l', ms, by rw [h1]; rfl, by rw [hn, h2], by rw [ht, h3]⟩
    | succ n => exact ⟨m, ms.set n l', by rw [h1]; rfl, h2, h3⟩
  · intro n hn'
    obtain ⟨i, m, h1, h2, h3⟩ := hw.modLayers n hn'
    obtain ⟨m', h4, h5, h6⟩ := get i m h1
    exact ⟨i, m', h4, by rw [h5, h2], by rw [h6, h3]⟩
  · exact fun m hm code => hd _ _ ((hall m hm).1.1 code)
  · exact fun m hm ch hch => ⟨hd _ _ ((hall m hm).1.2.1 ch hch).1, ((hall m hm).1.2.1 ch hch).2⟩
  · exact fun m hm => (hall m hm).1.2.2
  · intro m hm
    simpa using (hall m hm).2
  · exact fun i d h => hd _ _ (hw.nested i d h)

/-- Appending a layer with a new name and no bindings. -/
theorem WF.addLayer {c : Config} (hw : WF c) {l : Layer} (hn : ∀ m ∈ c.layers, m.name ≠ l.name)
    (hlt : c.layers.length < 32) (hk : ∀ code, l.keymap code = .none) (hch : l.chords = [])
    (hc : l.constituents.length ≤ 8 ∧ ∀ i ∈ l.constituents, i < c.layers.length) :
    WF { c with layers := c.layers ++ [l] } := by
  have get : ∀ (i : Nat) (m : Layer), c.layers[i]? = some m → (c.layers ++ [l])[i]? = some m := by
    intro i m hm
    rw [List.getElem?_append_left]
    · exact hm
    · by_contra h
      rw [List.getElem?_eq_none (by omega)] at hm
      cases hm
  have hd : ∀ b d, DescOK c b d → DescOK { c with layers := c.layers ++ [l] } b d := by
    intro b d h
    refine DescOK.mono (c := c) (c' := { c with layers := c.layers ++ [l] }) ?_ ?_ (Nat.le_refl _)
      (Nat.le_refl _) (Nat.le_refl _) h
    · rintro i ⟨m, h1, h2⟩; exact ⟨m, get i m h1, h2⟩
    · rintro i ⟨m, h1, h2⟩; exact ⟨m, get i m h1, h2⟩
  refine ⟨by simp; omega, ?_, ?_, ?_, ?_, ?_, ?_, ?_, ?_, hw.descsLe, hw.macrosLe,
    hw.commandsLe, hw.macroLe⟩
  · simp only [List.map_append, List.map_cons, List.map_nil]
    rw [List.nodup_append]
    refine ⟨hw.names, by simp, ?_⟩
    intro a ha b hb
    simp only [List.mem_singleton] at hb
    subst hb
    obtain ⟨m, h1, rfl⟩ := List.mem_map.1 ha
    exact hn m h1
  · obtain ⟨m, ms, h1, h2, h3⟩ := hw.mainFirst
    exact ⟨m, ms ++ [l], by dsimp only; rw [h1]; rfl, h2, h3⟩
  · intro n hn'
    obtain ⟨i, m, h1, h2, h3⟩ := hw.modLayers n hn'
    exact ⟨i, m, get i m h1, h2, h3⟩
  · intro m hm code
    rcases List.mem_append.1 hm with h | h
    · exact hd _ _ (hw.keymaps m h code)
    · simp only [List.mem_singleton] at h
      subst h
      rw [hk]; trivial
  · intro m hm ch hch'
    rcases List.mem_append.1 hm with h | h
    · exact ⟨hd _ _ (hw.chords m h ch hch').1, (hw.chords m h ch hch').2⟩
    · simp only [List.mem_singleton] at h
      subst h
      rw [hch] at hch'; cases hch'
  · intro m hm
    rcases List.mem_append.1 hm with h | h
    · exact hw.chordsLe m h
    · simp only [List.mem_singleton] at h
      subst h
      rw [hch]; simp
  · intro m hm
    rcases List.mem_append.1 hm with h | h
    · obtain ⟨h1, h2⟩ := hw.constituents m h
      exact ⟨h1, fun i hi => by have := h2 i hi; simp; omega⟩
    · simp only [List.mem_singleton] at h
      subst h
      exact ⟨hc.1, fun i hi => by have := hc.2 i hi; simp; omega⟩
  · exact fun i d h => hd _ _ (hw.nested i d h)

/-- Fields that well-formedness does not look at. -/
theorem WF.frame {c c' : Config} (hw : WF c) (h1 : c'.layers = c.layers)
    (h2 : c'.descriptors = c.descriptors) (h3 : c'.macros = c.macros)
    (h4 : c'.commands = c.commands) : WF c' := by
  have hd : ∀ b d, DescOK c b d → DescOK c' b d := by
    intro b d h
    refine h.mono ?_ ?_ (by rw [h3]; exact Nat.le_refl _) (by rw [h4]; exact Nat.le_refl _)
      (Nat.le_refl _)
    · rintro i ⟨m, h1', h2'⟩; exact ⟨m, by rw [h1]; exact h1', h2'⟩
    · rintro i ⟨m, h1', h2'⟩; exact ⟨m, by rw [h1]; exact h1', h2'⟩
  refine ⟨?_, ?_, ?_, ?_, ?_, ?_, ?_, ?_, ?_, ?_, ?_, ?_, ?_⟩
  · rw [h1]; exact hw.layersLe
  · rw [h1]; exact hw.names
  · rw [h1]; exact hw.mainFirst
  · rw [h1]; exact hw.modLayers
  · rw [h1, h2]; exact fun l hl code => hd _ _ (hw.keymaps l hl code)
  · rw [h1, h2]; exact fun l hl ch hch => ⟨hd _ _ (hw.chords l hl ch hch).1, (hw.chords l hl ch hch).2⟩
  · rw [h1]; exact hw.chordsLe
  · rw [h1]; exact hw.constituents
  · rw [h2]; exact fun i d h => hd _ _ (hw.nested i d h)
  · rw [h2]; exact hw.descsLe
  · rw [h3]; exact hw.macrosLe
  · rw [h4]; exact hw.commandsLe
  · rw [h3]; exact hw.macroLe

/-! ### Bindings -/

theorem scanKey_spec (s : Str) : ∀ (t : List KeyEnt) (i j : Nat), scanKey s t i = some j →
    ∃ e, t[j - i]? = some e ∧ e.name.isSome = true ∧ i ≤ j
  | [], i, j, h => by cases h
  | e :: es, i, j, h => by
    unfold scanKey at h
    split at h
    · rename_i hc
      injection h with h
      subst h
      exact ⟨e, by simp, hc.1, Nat.le_refl _⟩
    · obtain ⟨e', h1, h2, h3⟩ := scanKey_spec s es (i+1) j h
      refine ⟨e', ?_, h2, by omega⟩
      have : j - i = (j - (i+1)) + 1 := by omega
      rw [this, List.getElem?_cons_succ]
      exact h1

/-- A key that can be named is a real key. -/
theorem lookupKeycode_real (s : Str) (h : lookupKeycode s ≠ 0) : NamedKey (lookupKeycode s) := by
  refine ⟨h, ?_⟩
  unfold lookupKeycode at h ⊢
  split at h
  · exact absurd rfl h
  · rename_i i hi
    obtain ⟨e, h1, h2, -⟩ := scanKey_spec s keycodeTable 0 i hi
    have hlen : i < keycodeTable.length := by
      rw [Nat.sub_zero] at h1
      exact (List.getElem?_eq_some_iff.1 h1).1
    have hl : keycodeTable.length = 256 := by decide +kernel
    have hnone : ∀ j : Nat, j < 256 → 197 ≤ j → j ≤ 199 → ((keycodeTable[j]?).bind (·.name)) = none := by
      intro j _ h1 h2
      have : j = 197 ∨ j = 198 ∨ j = 199 := by omega
      rcases this with h | h | h <;> subst h <;> decide +kernel
    rintro ⟨a, b⟩
    have a' : 197 ≤ i % 256 := by
      have := UInt8.le_iff_toNat_le.1 a
      simpa [KEYD.CHORD_1] using this
    have b' : i % 256 ≤ 199 := by
      have := UInt8.le_iff_toNat_le.1 b
      simpa [KEYD.CHORD_MAX] using this
    have hi256 : i % 256 = i := Nat.mod_eq_of_lt (by omega)
    rw [hi256] at a' b'
    have := hnone i (by omega) a' b'
    rw [Nat.sub_zero] at h1
    rw [h1] at this
    simp only [Option.bind_some] at this
    rw [this] at h2
    cases h2

theorem chordKeys_real : ∀ (toks : List Str) (acc ks : List Code), (∀ x ∈ acc, NamedKey x) →
    chordKeys toks acc = some ks → ∀ x ∈ ks, NamedKey x
  | [], acc, ks, h, he => by cases he; exact h
  | t :: ts, acc, ks, h, he => by
    unfold chordKeys at he
    dsimp only at he
    split at he
    · cases he
    · rename_i hne
      split at he
      · cases he
      · refine chordKeys_real ts _ ks ?_ he
        intro x hx
        rcases List.mem_append.1 hx with hx | hx
        · exact h x hx
        · rw [List.mem_singleton.1 hx]; exact lookupKeycode_real t hne

theorem chordKeys_le : ∀ (toks : List Str) (acc ks : List Code), acc.length ≤ 8 →
    chordKeys toks acc = some ks → ks.length ≤ 8
  | [], acc, ks, h, he => by cases he; exact h
  | t :: ts, acc, ks, h, he => by
    unfold chordKeys at he
    dsimp only at he
    split at he
    · cases he
    · split at he
      · cases he
      · exact chordKeys_le ts _ ks (by simp; omega) he

theorem setChord_ok {c : Config} {l l' : Layer} {key : Str} {d : Desc} (hl : LayerOK c l)
    (hd : DescOK c c.descriptors.length d) (h : setChord l key d = some l') :
    LayerOK c l' ∧ l'.name = l.name ∧ l'.type = l.type ∧ l'.constituents = l.constituents := by
  unfold setChord at h
  split at h
  · cases h
  · rename_i keys hk
    split at h
    · rename_i i _
      cases h
      refine ⟨⟨hl.1, ?_, by simpa using hl.2.2⟩, rfl, rfl, rfl⟩
      intro ch hch
      dsimp only at hch
      obtain ⟨n, hn, rfl⟩ := List.mem_iff_getElem.1 hch
      rw [List.getElem_modify]
      have hm := hl.2.1 (l.chords[n]'(by simpa using hn)) (List.getElem_mem _)
      split
      · exact ⟨hd, hm.2⟩
      · exact hm
    · split at h
      · cases h
      · cases h
        refine ⟨⟨hl.1, ?_, by simp; omega⟩, rfl, rfl, rfl⟩
        intro ch hch
        rcases List.mem_append.1 hch with h | h
        · exact hl.2.1 ch h
        · simp only [List.mem_singleton] at h
          subst h
          exact ⟨hd, chordKeys_le _ _ _ (by simp) hk, chordKeys_real _ _ _ (fun _ h => by cases h) hk⟩

theorem setLayerEntry_ok {c : Config} {l l' : Layer} {key : Str} {d : Desc} (hl : LayerOK c l)
    (hd : DescOK c c.descriptors.length d) (h : setLayerEntry c l key d = some l') :
    LayerOK c l' ∧ l'.name = l.name ∧ l'.type = l.type ∧ l'.constituents = l.constituents := by
  unfold setLayerEntry at h
  split at h
  · exact setChord_ok hl hd h
  · split at h
    · cases h
      refine ⟨⟨?_, hl.2⟩, rfl, rfl, rfl⟩
      intro code
      dsimp only
      split
      · exact hd
      · exact hl.1 code
    · dsimp only at h
      split at h
      · cases h
      · cases h
        refine ⟨⟨?_, hl.2⟩, rfl, rfl, rfl⟩
        intro code
        dsimp only
        unfold upd
        split
        · exact hd
        · exact hl.1 code

theorem configAddEntry_sat {c : Config} (hw : WF c) (exp : Str) :
    Sat (configAddEntry c exp) (fun r => WF r.1) ParseStop := by
  unfold configAddEntry
  split
  · exact hw
  · dsimp only
    split
    · exact hw
    · rename_i idx hidx
      refine Sat.bind (Sat.mono (parseDescriptor_stops hw _ (by
        have h1 := parseKvp_length (splitLayer exp).2
        have h2 := splitLayer_length exp
        omega)) (fun _ h => h) (fun e h => List.mem_append_left _ h)) ?_
      rintro ⟨c1, r⟩ ⟨h1, h2, h3⟩
      cases r with
      | none => exact h2
      | some d =>
        dsimp only
        split
        · exact h2
        · rename_i l' hset
          rw [← h1.layerIndex] at hidx
          obtain ⟨l, hl, _⟩ := layerIndex_some hidx
          rw [layer_of_getElem hl] at hset
          obtain ⟨ho, hn, ht, hc⟩ :=
            setLayerEntry_ok (h2.layerOK (List.mem_of_getElem? hl)) (h3 d rfl) hset
          exact h2.setLayer hl hn ht hc ho

/-! ### Sections -/

theorem constituentsOf_sat (c : Config) : ∀ (names : List Str) (acc : List Nat),
    acc.length ≤ 8 → (∀ i ∈ acc, i < c.layers.length) →
    Sat (constituentsOf c names acc) (fun r => ∀ cs, r = some cs →
      cs.length ≤ 8 ∧ ∀ i ∈ cs, i < c.layers.length) ParseStop
  | [], acc, h1, h2 => by intro cs h; cases h; exact ⟨h1, h2⟩
  | n :: ns, acc, h1, h2 => by
    unfold constituentsOf
    split
    · intro cs h; cases h
    · rename_i idx hidx
      split
      · simp [ParseStop, parseStops, actionStops]
      · refine constituentsOf_sat c ns _ (by simp; omega) ?_
        intro i hi
        rcases List.mem_append.1 hi with h | h
        · exact h2 i h
        · simp only [List.mem_singleton] at h
          subst h
          obtain ⟨l, hl, _⟩ := layerIndex_some hidx
          by_contra hge
          rw [List.getElem?_eq_none (by omega)] at hl
          cases hl

theorem newLayer_sat (c : Config) (s : Str) :
    Sat (newLayer c s) (fun r => ∀ l, r = some l →
      (tokens 58 s).head? = some l.name ∧ (∀ code, l.keymap code = .none) ∧ l.chords = [] ∧
      (l.constituents.length ≤ 8 ∧ ∀ i ∈ l.constituents, i < c.layers.length)) ParseStop := by
  unfold newLayer
  split
  · simp [ParseStop, parseStops, actionStops]
  · rename_i name more htok
    dsimp only
    rw [htok]
    split
    · split
      · intro l h; cases h
      · refine Sat.bind (constituentsOf_sat c _ [] (by simp) (by simp)) ?_
        intro r hr
        split
        · intro l h; cases h
        · rename_i cs
          intro l h
          cases h
          exact ⟨rfl, fun _ => rfl, rfl, hr cs rfl⟩
    · split
      · split
        · intro l h; cases h; exact ⟨rfl, fun _ => rfl, rfl, by simp⟩
        · split <;> (intro l h; cases h; exact ⟨rfl, fun _ => rfl, rfl, by simp⟩)
      · intro l h; cases h; exact ⟨rfl, fun _ => rfl, rfl, by simp⟩

theorem configAddLayer_sat {c : Config} (hw : WF c) (s : Str) :
    Sat (configAddLayer c s) (fun r => WF r.1) ParseStop := by
  unfold configAddLayer
  split
  · exact hw
  · dsimp only
    refine Sat.ite (fun _ => hw) (fun hnot => ?_)
    refine Sat.ite (fun _ => hw) (fun hlt => ?_)
    · · refine Sat.bind (newLayer_sat c s) ?_
        intro r hr
        split
        · exact hw
        · rename_i l
          obtain ⟨h1, h2, h3, h4⟩ := hr l rfl
          rw [h1] at hnot
          refine hw.addLayer ?_ (by omega) h2 h3 h4
          apply layerIndex_none.1
          cases hx : c.layerIndex l.name with
          | none => rfl
          | some i => dsimp only at hnot; rw [hx] at hnot; exact absurd rfl hnot

theorem globalEntry_sat {c : Config} (hw : WF c) (e : IniEntry) :
    Sat (globalEntry c e) WF ParseStop := by
  unfold globalEntry
  dsimp only
  refine Sat.ite (fun _ => by
    split
    · simp [ParseStop, parseStops, actionStops]
    · exact Sat.ok (WF.frame hw rfl rfl rfl rfl)) (fun _ => ?_)
  refine Sat.ite (fun _ => by
    split
    · simp [ParseStop, parseStops, actionStops]
    · exact Sat.ok (WF.frame hw rfl rfl rfl rfl)) (fun _ => ?_)
  refine Sat.ite (fun _ => by
    split
    · simp [ParseStop, parseStops, actionStops]
    · exact Sat.ok (WF.frame hw rfl rfl rfl rfl)) (fun _ => ?_)
  refine Sat.ite (fun _ => by
    split
    · simp [ParseStop, parseStops, actionStops]
    · exact Sat.ok (WF.frame hw rfl rfl rfl rfl)) (fun _ => ?_)
  refine Sat.ite (fun _ => by
    split
    · simp [ParseStop, parseStops, actionStops]
    · exact Sat.ok (WF.frame hw rfl rfl rfl rfl)) (fun _ => ?_)
  refine Sat.ite (fun _ => by
    split
    · simp [ParseStop, parseStops, actionStops]
    · exact Sat.ok (WF.frame hw rfl rfl rfl rfl)) (fun _ => ?_)
  refine Sat.ite (fun _ => Sat.ok (hw.frame rfl rfl rfl rfl)) (fun _ => ?_)
  refine Sat.ite (fun _ => by
    split
    · simp [ParseStop, parseStops, actionStops]
    · exact Sat.ok (WF.frame hw rfl rfl rfl rfl)) (fun _ => ?_)
  refine Sat.ite (fun _ => by
    split
    · simp [ParseStop, parseStops, actionStops]
    · exact Sat.ok (WF.frame hw rfl rfl rfl rfl)) (fun _ => ?_)
  exact Sat.ite (fun _ => by
    split
    · simp [ParseStop, parseStops, actionStops]
    · exact Sat.ok (WF.frame hw rfl rfl rfl rfl)) (fun _ => hw)

theorem parseGlobalSection_sat : ∀ (es : List IniEntry) {c : Config}, WF c →
    Sat (parseGlobalSection c es) WF ParseStop
  | [], _, hw => hw
  | e :: es, _, hw => by
    unfold parseGlobalSection
    exact Sat.bind (globalEntry_sat hw e) (fun _ h => parseGlobalSection_sat es h)

theorem idEntry_sat {c : Config} (hw : WF c) (e : IniEntry) : Sat (idEntry c e) WF ParseStop := by
  unfold idEntry
  dsimp only
  have add : ∀ f id, Sat (addId c f id) WF ParseStop := by
    intro f id
    unfold addId
    split
    · exact hw.frame rfl rfl rfl rfl
    · simp [ParseStop, parseStops, actionStops]
  repeat' split
  all_goals first | exact add _ _ | exact hw | exact hw.frame rfl rfl rfl rfl

theorem parseIdSection_sat : ∀ (es : List IniEntry) {c : Config}, WF c →
    Sat (parseIdSection c es) WF ParseStop
  | [], _, hw => hw
  | e :: es, _, hw => by
    unfold parseIdSection
    exact Sat.bind (idEntry_sat hw e) (fun _ h => parseIdSection_sat es h)

theorem aliasEntry_sat {c : Config} (hw : WF c) (e : IniEntry) :
    Sat (aliasEntry c e) WF ParseStop := by
  unfold aliasEntry
  dsimp only
  split
  · exact hw
  · split
    · simp [ParseStop, parseStops, actionStops]
    · split
      · exact hw
      · refine WF.frame (c := if lookupKeycode _ = 0 then c else _) ?_ rfl rfl rfl rfl
        split
        · exact hw
        · obtain ⟨m, ms, h1, h2, h3⟩ := hw.mainFirst
          rename_i code _ name _ _ _
          have hm : c.layers[0]? = some m := by rw [h1]; rfl
          have := hw.setLayer (idx := 0) (l := m) (l' := { m with
            keymap := upd m.keymap (lookupKeycode e.key) (.keyseq (lookupKeycode name) 0) }) hm rfl rfl rfl ?_
          · rw [h1] at this ⊢
            exact this
          · have hok := hw.layerOK (List.mem_of_getElem? hm)
            refine ⟨?_, hok.2⟩
            intro code
            dsimp only
            unfold upd
            split
            · trivial
            · exact hok.1 code

theorem parseAliasSection_sat : ∀ (es : List IniEntry) {c : Config}, WF c →
    Sat (parseAliasSection c es) WF ParseStop
  | [], _, hw => hw
  | e :: es, _, hw => by
    unfold parseAliasSection
    exact Sat.bind (aliasEntry_sat hw e) (fun _ h => parseAliasSection_sat es h)

theorem passOne_sat : ∀ (ss : List IniSection) {c : Config}, WF c → Sat (passOne c ss) WF ParseStop
  | [], _, hw => hw
  | s :: ss, _, hw => by
    unfold passOne
    refine Sat.bind (Q := WF) ?_ (fun _ h => passOne_sat ss h)
    split
    · exact parseIdSection_sat _ hw
    · split
      · exact parseAliasSection_sat _ hw
      · split
        · exact parseGlobalSection_sat _ hw
        · exact Sat.bind (configAddLayer_sat hw _) (fun _ h => h)

theorem sectionEntries_sat (n : Str) : ∀ (es : List IniEntry) {c : Config}, WF c →
    Sat (sectionEntries n c es) WF ParseStop
  | [], _, hw => hw
  | e :: es, _, hw => by
    unfold sectionEntries
    split
    · exact sectionEntries_sat n es hw
    · exact Sat.bind (configAddEntry_sat hw _) (fun _ h => sectionEntries_sat n es h)

theorem passTwo_sat : ∀ (ss : List IniSection) {c : Config}, WF c → Sat (passTwo c ss) WF ParseStop
  | [], _, hw => hw
  | s :: ss, _, hw => by
    unfold passTwo
    refine Sat.bind (Q := WF) ?_ (fun _ h => passTwo_sat ss h)
    split
    · exact hw
    · exact sectionEntries_sat _ _ hw

theorem iniLines_err : ∀ (ls : List Str) (acc : List IniSection),
    Sat (iniLines ls acc) (fun _ => True) ParseStop
  | [], _ => trivial
  | l :: ls, acc => by
    unfold iniLines
    repeat' split
    all_goals first
      | trivial
      | exact iniLines_err ls _
      | simp [ParseStop, parseStops, actionStops]

theorem configParseString_sat {c : Config} (hw : WF c) (text : Str) :
    Sat (configParseString c text) (fun r => ∀ c', r = some c' → WF c') ParseStop := by
  unfold configParseString iniParseString
  refine Sat.bind (Q := fun _ => True) ?_ ?_
  · refine Sat.bind (iniLines_err _ _) ?_
    intro r _
    split <;> trivial
  · intro r _
    split
    · intro c' h; cases h
    · refine Sat.bind (passOne_sat _ hw) ?_
      intro c1 h1
      refine Sat.bind (passTwo_sat _ h1) ?_
      intro c2 h2 c' h
      cases h
      exact h2

/-! ### The default configuration -/

/-- Decidable form of `DescOK`. -/
def layerTargetB (c : Config) (i : Nat) : Bool :=
  match c.layers[i]? with
  | some l => l.type ≠ .layout
  | none => false

theorem layerTargetB_sound {c : Config} {i : Nat} (h : layerTargetB c i = true) : LayerTarget c i := by
  unfold layerTargetB at h
  split at h
  · rename_i l hl; exact ⟨l, hl, by simpa using h⟩
  · cases h

/-- The bindings of the default configuration are of two simple kinds. -/
def simpleDescB (c : Config) : Desc → Bool
  | .none => true
  | .keyseq _ _ => true
  | .layer l => layerTargetB c l
  | _ => false

theorem simpleDescB_sound {c : Config} {b : Nat} {d : Desc} (h : simpleDescB c d = true) :
    DescOK c b d := by
  cases d <;> simp only [simpleDescB] at h <;> first | trivial | cases h | exact layerTargetB_sound h

/-- A sufficient check for well-formedness of a config with empty tables. -/
def wfCheck (c : Config) : Bool :=
  decide (c.layers.length ≤ 32) && decide ((c.layers.map (·.name)).Nodup) &&
  (match c.layers with
    | l :: _ => decide (l.name = b!"main") && decide (l.type = .layout)
    | [] => false) &&
  modifierLayers.all (fun n => (List.range c.layers.length).any fun i =>
    match c.layers[i]? with
    | some l => decide (l.name = n) && decide (l.type = .normal)
    | none => false) &&
  c.layers.all (fun l => allCodes.all (fun code => simpleDescB c (l.keymap code)) &&
    l.chords.isEmpty && l.constituents.isEmpty) &&
  c.descriptors.isEmpty && c.macros.isEmpty && c.commands.isEmpty

theorem mem_allCodes (c : Code) : c ∈ allCodes := by
  unfold allCodes
  rw [List.mem_map]
  exact ⟨c.toNat, by rw [List.mem_range]; exact c.toNat_lt, by simp⟩

theorem wfCheck_sound {c : Config} (h : wfCheck c = true) : WF c := by
  unfold wfCheck at h
  simp only [Bool.and_eq_true, decide_eq_true_eq, List.all_eq_true, List.isEmpty_iff] at h
  obtain ⟨⟨⟨⟨⟨⟨⟨h1, h2⟩, h3⟩, h4⟩, h5⟩, h6⟩, h7⟩, h8⟩ := h
  refine ⟨h1, h2, ?_, ?_, ?_, ?_, ?_, ?_, ?_, ?_, ?_, ?_, ?_⟩
  · split at h3
    · rename_i l ls hl
      simp only [Bool.and_eq_true, decide_eq_true_eq] at h3
      exact ⟨l, ls, hl, h3⟩
    · cases h3
  · intro n hn
    obtain ⟨i, _, hi⟩ := List.any_eq_true.1 (h4 n hn)
    split at hi
    · rename_i l hl
      simp only [Bool.and_eq_true, decide_eq_true_eq] at hi
      exact ⟨i, l, hl, hi⟩
    · cases hi
  · exact fun l hl code => simpleDescB_sound ((h5 l hl).1.1 code (mem_allCodes code))
  · intro l hl ch hch; rw [(h5 l hl).1.2] at hch; cases hch
  · intro l hl; rw [(h5 l hl).1.2]; simp
  · intro l hl; rw [(h5 l hl).2]; simp
  · intro i d hd; rw [h6] at hd; cases hd
  · rw [h6]; simp
  · rw [h7]; simp
  · rw [h8]; simp
  · rw [h7]; intro m hm; cases hm

def initCheck : Bool :=
  match configInit with
  | .ok c => wfCheck c
  | .error _ => false

set_option maxRecDepth 100000 in
theorem initCheck_true : initCheck = true := by decide +kernel

theorem configInit_wf : ∃ c, configInit = .ok c ∧ WF c := by
  have h := initCheck_true
  unfold initCheck at h
  revert h
  generalize configInit = r
  intro h
  cases r with
  | ok c => exact ⟨c, rfl, wfCheck_sound h⟩
  | error e => cases h

theorem configParse_sat_aux {r : Res Config} (h : ∃ c, r = .ok c ∧ WF c) (text : Str) :
    Sat (r >>= fun c => configParseString c text) (fun r => ∀ c, r = some c → WF c) ParseStop := by
  obtain ⟨c, rfl, hw⟩ := h
  exact configParseString_sat hw text

attribute [local irreducible] configInit in
theorem configParse_sat (text : Str) :
    Sat (configParse text) (fun r => ∀ c, r = some c → WF c) ParseStop :=
  configParse_sat_aux configInit_wf text

end Keyd
