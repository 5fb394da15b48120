import Verif.Props.Lookup
import Verif.Props.Arrivals
import Verif.Props.Devices
import Mathlib.Tactic.ByContra
import Mathlib.Tactic.Tauto

/-
  C19: which chord, if any, a series of key presses strikes, and what the engine does about it.
-/

set_option autoImplicit false

namespace Keyd

attribute [local irreducible] configInit

/-! ### Specification -/

/-- The keys pressed in a series of events, in order. -/
def downs (q : List KeyEvent) : List Code := (q.filter (·.pressed)).map (·.code)

/-- Every key pressed belongs to the chord, and there are as many presses as the chord has keys. -/
def FullyStruck (keys : List Code) (q : List KeyEvent) : Prop :=
  downs q ≠ [] ∧ (∀ x ∈ downs q, x ∈ keys) ∧ (downs q).length = keys.length

/-- Every key pressed belongs to the chord, but there are fewer or more presses than keys. -/
def PartlyStruck (keys : List Code) (q : List KeyEvent) : Prop :=
  downs q ≠ [] ∧ (∀ x ∈ downs q, x ∈ keys) ∧ (downs q).length ≠ keys.length

/-- Chord `i` of the active layer `l` is `ch`. -/
def ActiveLayerChord (k : Kbd) (l i : Nat) (ch : Chord) : Prop :=
  ∃ L : Layer, k.config.layers[l]? = some L ∧ k.isActive l = true ∧ L.chords[i]? = some ch

/-- Some chord of an active layer is fully struck by `q`. -/
def SomeFull (k : Kbd) (q : List KeyEvent) : Prop :=
  ∃ l i ch, ActiveLayerChord k l i ch ∧ FullyStruck ch.keys q

/-- Some chord of an active layer is partly struck by `q`. -/
def SomePartial (k : Kbd) (q : List KeyEvent) : Prop :=
  ∃ l i ch, ActiveLayerChord k l i ch ∧ PartlyStruck ch.keys q

/-- Chord `i` of layer `l` is fully struck, and every other fully struck chord is in a layer of
lower precedence (see C08), or in a layer of the same precedence declared earlier, or earlier in
the same layer. -/
def Winner (c : Config) (k : Kbd) (q : List KeyEvent) (l i : Nat) (ch : Chord) : Prop :=
  ActiveLayerChord k l i ch ∧ FullyStruck ch.keys q ∧
  ∀ l' i' ch', ActiveLayerChord k l' i' ch' → FullyStruck ch'.keys q →
    (l' = l ∧ i' ≤ i) ∨
    (l' ≠ l ∧ (precedence c k.outputs l' < precedence c k.outputs l ∨
      (precedence c k.outputs l' = precedence c k.outputs l ∧ l' < l)))

/-! ### One chord -/

theorem downs_length (q : List KeyEvent) : (downs q).length = (q.filter (·.pressed)).length := by
  unfold downs; rw [List.length_map]

theorem downs_all (keys : List Code) (q : List KeyEvent) :
    (q.filter (·.pressed)).any (fun e => !keys.contains e.code) = false ↔ ∀ x ∈ downs q, x ∈ keys := by
  unfold downs
  rw [List.any_eq_false]
  constructor
  · intro h x hx
    obtain ⟨e, he, rfl⟩ := List.mem_map.1 hx
    simpa using h e he
  · intro h e he
    simpa using h e.code (List.mem_map.2 ⟨e, he, rfl⟩)

/-- C19. The verdict on a single chord. -/
theorem C19_match (ch : Chord) (q : List KeyEvent) :
    (chordEventMatch ch q = .full ↔ FullyStruck ch.keys q) ∧
    (chordEventMatch ch q = .partialMatch ↔ PartlyStruck ch.keys q) ∧
    (chordEventMatch ch q = .no ↔ ¬ FullyStruck ch.keys q ∧ ¬ PartlyStruck ch.keys q) := by
  have hl := downs_length q
  have ha := downs_all ch.keys q
  have hn : downs q = [] ↔ (q.filter (·.pressed)).length = 0 := by
    rw [← hl]; exact List.length_eq_zero_iff.symm
  unfold chordEventMatch FullyStruck PartlyStruck
  dsimp only
  rw [← ha, hl, Ne, hn]
  generalize (q.filter (·.pressed)).any (fun e => !ch.keys.contains e.code) = b
  generalize (q.filter (·.pressed)).length = n
  generalize ch.keys.length = m
  cases b
  · rw [if_neg (by decide)]
    by_cases h0 : n = 0
    · rw [if_pos h0]
      exact ⟨⟨fun h => (by cases h), fun h => absurd h0 h.1⟩, ⟨fun h => (by cases h), fun h => absurd h0 h.1⟩,
        ⟨fun _ => ⟨fun h => absurd h0 h.1, fun h => absurd h0 h.1⟩, fun _ => rfl⟩⟩
    · rw [if_neg h0]
      by_cases h1 : n = m
      · rw [if_pos h1]
        exact ⟨⟨fun _ => ⟨h0, rfl, h1⟩, fun _ => rfl⟩, ⟨fun h => (by cases h), fun h => absurd h1 h.2.2⟩,
          ⟨fun h => (by cases h), fun h => absurd ⟨h0, rfl, h1⟩ h.1⟩⟩
      · rw [if_neg h1]
        exact ⟨⟨fun h => (by cases h), fun h => absurd h.2.2 h1⟩, ⟨fun _ => ⟨h0, rfl, h1⟩, fun _ => rfl⟩,
          ⟨fun h => (by cases h), fun h => absurd ⟨h0, rfl, h1⟩ h.2⟩⟩
  · rw [if_pos rfl]
    exact ⟨⟨fun h => (by cases h), fun h => (by cases h.2.1)⟩, ⟨fun h => (by cases h), fun h => (by cases h.2.1)⟩,
      ⟨fun _ => ⟨fun h => (by cases h.2.1), fun h => (by cases h.2.1)⟩, fun _ => rfl⟩⟩

/-! ### All chords -/

/-- The chords examined, in order. -/
def chordCands (k : Kbd) : List (Nat × Nat × Chord) :=
  (List.range k.config.layers.length).flatMap fun i =>
    if k.isActive i then (k.config.layer i).chords.zipIdx.map (fun p => (i, p.2, p.1)) else []

/-- One chord. -/
def candStep (k : Kbd) (acc : ChordScan) (c : Nat × Nat × Chord) : ChordScan :=
  chordScanStep k.chord.queue c.1 (k.layerState c.1).activationTime acc c.2

theorem chordScan_cands (k : Kbd) : chordScan k = (chordCands k).foldl (candStep k) {} := by
  unfold chordScan chordCands
  rw [List.foldl_flatMap]
  congr 1
  funext acc i
  split
  · rw [List.foldl_map, List.foldl_map]
    rfl
  · rfl

theorem mem_chordCands (k : Kbd) (l i : Nat) (ch : Chord) :
    (l, i, ch) ∈ chordCands k ↔ ActiveLayerChord k l i ch := by
  unfold chordCands ActiveLayerChord
  rw [List.mem_flatMap]
  constructor
  · rintro ⟨j, hj, hm⟩
    rw [List.mem_range] at hj
    split at hm
    · rename_i ha
      obtain ⟨p, hp, he⟩ := List.mem_map.1 hm
      injection he with h1 h2
      injection h2 with h2 h3
      subst h1; subst h2; subst h3
      exact ⟨_, getElem_of_lt hj, ha, List.mem_zipIdx_iff_getElem?.1 hp⟩
    · simp at hm
  · rintro ⟨L, hL, ha, hi⟩
    refine ⟨l, List.mem_range.2 (lt_of_getElem hL), ?_⟩
    rw [if_pos ha, layer_getElem hL]
    exact List.mem_map.2 ⟨(ch, i), List.mem_zipIdx_iff_getElem?.2 hi, rfl⟩

/-- Order of examination. -/
def lexLt (a b : Nat × Nat × Chord) : Prop := a.1 < b.1 ∨ (a.1 = b.1 ∧ a.2.1 < b.2.1)

theorem zipIdx_sorted {α : Type} : ∀ (l : List α) (n : Nat), (l.zipIdx n).Pairwise (fun a b => a.2 < b.2)
  | [], _ => List.Pairwise.nil
  | a :: l, n => by
    rw [List.zipIdx_cons]
    refine List.Pairwise.cons ?_ (zipIdx_sorted l (n+1))
    rintro ⟨b, m⟩ hb
    have := List.le_snd_of_mem_zipIdx hb
    dsimp only at this ⊢
    omega

theorem chordCands_sorted (k : Kbd) : (chordCands k).Pairwise lexLt := by
  unfold chordCands
  rw [List.pairwise_flatMap]
  constructor
  · intro i _
    split
    · rw [List.pairwise_map]
      exact (zipIdx_sorted _ 0).imp fun h => .inr ⟨rfl, h⟩
    · exact List.Pairwise.nil
  · refine List.pairwise_lt_range.imp ?_
    intro i j hij a ha b hb
    split at ha <;> split at hb <;> try (simp at ha hb; done)
    · obtain ⟨_, _, rfl⟩ := List.mem_map.1 ha
      obtain ⟨_, _, rfl⟩ := List.mem_map.1 hb
      exact .inl hij

/-- What the scan of a list of chords yields. -/
def ScanResult (k : Kbd) (cs : List (Nat × Nat × Chord)) (r : ChordScan) : Prop :=
  (r.part = true ↔ ∃ c ∈ cs, PartlyStruck c.2.2.keys k.chord.queue) ∧
  ((r.full = none ∧ r.maxts = -1 ∧ ∀ c ∈ cs, ¬ FullyStruck c.2.2.keys k.chord.queue) ∨
   (∃ pre c post, cs = pre ++ c :: post ∧ r.full = some (c.1, c.2.1) ∧ r.maxts = (k.layerState c.1).activationTime ∧
      FullyStruck c.2.2.keys k.chord.queue ∧
      (∀ x ∈ pre, FullyStruck x.2.2.keys k.chord.queue →
        (k.layerState x.1).activationTime ≤ (k.layerState c.1).activationTime) ∧
      (∀ x ∈ post, FullyStruck x.2.2.keys k.chord.queue →
        (k.layerState x.1).activationTime < (k.layerState c.1).activationTime)))

theorem candStep_result (k : Kbd) (cs : List (Nat × Nat × Chord)) (c : Nat × Nat × Chord) (r : ChordScan)
    (hpos : 0 ≤ (k.layerState c.1).activationTime) (h : ScanResult k cs r) :
    ScanResult k (cs ++ [c]) (candStep k r c) := by
  obtain ⟨hp, hf⟩ := h
  obtain ⟨m1, m2, m3⟩ := C19_match c.2.2 k.chord.queue
  have excl : FullyStruck c.2.2.keys k.chord.queue → ¬ PartlyStruck c.2.2.keys k.chord.queue :=
    fun a b => b.2.2 a.2.2
  have part_app : (∃ x ∈ cs ++ [c], PartlyStruck x.2.2.keys k.chord.queue) ↔
      (∃ x ∈ cs, PartlyStruck x.2.2.keys k.chord.queue) ∨ PartlyStruck c.2.2.keys k.chord.queue := by
    simp only [List.mem_append, List.mem_singleton, or_and_right, exists_or, exists_eq_left]
  have part_keep : ¬ PartlyStruck c.2.2.keys k.chord.queue →
      (r.part = true ↔ ∃ x ∈ cs ++ [c], PartlyStruck x.2.2.keys k.chord.queue) := fun hnp =>
    hp.trans (Iff.trans ⟨.inl, fun h => h.resolve_right hnp⟩ part_app.symm)
  unfold candStep chordScanStep
  match hm : chordEventMatch c.2.2 k.chord.queue with
  | .full =>
    have hfull := m1.1 hm
    have hnp := excl hfull
    dsimp only
    by_cases ht : r.maxts ≤ (k.layerState c.1).activationTime
    · rw [if_pos ht]
      refine ⟨part_keep hnp, .inr ⟨cs, c, [], rfl, rfl, rfl, hfull, ?_, by simp⟩⟩
      intro x hx hxf
      rcases hf with ⟨_, _, h3⟩ | ⟨pre, d, post, e, _, h2, _, h4, h5⟩
      · exact absurd hxf (h3 x hx)
      · rw [h2] at ht
        rw [e] at hx
        rcases List.mem_append.1 hx with hx | hx
        · have := h4 x hx hxf; omega
        · rcases List.mem_cons.1 hx with rfl | hx
          · exact ht
          · have := h5 x hx hxf; omega
    · rw [if_neg ht]
      refine ⟨part_keep hnp, ?_⟩
      rcases hf with ⟨_, h2, _⟩ | ⟨pre, d, post, e, h1, h2, h3, h4, h5⟩
      · omega
      · refine .inr ⟨pre, d, post ++ [c], by rw [e, List.append_assoc]; rfl, h1, h2, h3, h4, ?_⟩
        intro x hx hxf
        rcases List.mem_append.1 hx with hx | hx
        · exact h5 x hx hxf
        · rw [List.mem_singleton] at hx; subst hx; omega
  | .partialMatch =>
    have hpart := m2.1 hm
    have hnf : ¬ FullyStruck c.2.2.keys k.chord.queue := fun a => excl a hpart
    dsimp only
    refine ⟨⟨fun _ => part_app.2 (.inr hpart), fun _ => rfl⟩, ?_⟩
    rcases hf with ⟨h1, h2, h3⟩ | ⟨pre, d, post, e, h1, h2, h3, h4, h5⟩
    · refine .inl ⟨h1, h2, fun x hx => ?_⟩
      rcases List.mem_append.1 hx with hx | hx
      · exact h3 x hx
      · rw [List.mem_singleton] at hx; subst hx; exact hnf
    · refine .inr ⟨pre, d, post ++ [c], by rw [e, List.append_assoc]; rfl, h1, h2, h3, h4, fun x hx hxf => ?_⟩
      rcases List.mem_append.1 hx with hx | hx
      · exact h5 x hx hxf
      · rw [List.mem_singleton] at hx; subst hx; exact absurd hxf hnf
  | .no =>
    obtain ⟨hnf, hnp⟩ := m3.1 hm
    dsimp only
    refine ⟨part_keep hnp, ?_⟩
    rcases hf with ⟨h1, h2, h3⟩ | ⟨pre, d, post, e, h1, h2, h3, h4, h5⟩
    · refine .inl ⟨h1, h2, fun x hx => ?_⟩
      rcases List.mem_append.1 hx with hx | hx
      · exact h3 x hx
      · rw [List.mem_singleton] at hx; subst hx; exact hnf
    · refine .inr ⟨pre, d, post ++ [c], by rw [e, List.append_assoc]; rfl, h1, h2, h3, h4, fun x hx hxf => ?_⟩
      rcases List.mem_append.1 hx with hx | hx
      · exact h5 x hx hxf
      · rw [List.mem_singleton] at hx; subst hx; exact absurd hxf hnf

theorem scan_result (k : Kbd) (cs : List (Nat × Nat × Chord))
    (hpos : ∀ c ∈ cs, 0 ≤ (k.layerState c.1).activationTime) :
    ScanResult k cs (cs.foldl (candStep k) {}) := by
  revert hpos
  refine snoc_induction (P := fun cs => (∀ c ∈ cs, 0 ≤ (k.layerState c.1).activationTime) →
    ScanResult k cs (cs.foldl (candStep k) {})) ?_ ?_ cs
  · intro _
    exact ⟨by simp, .inl ⟨rfl, rfl, by simp⟩⟩
  · intro cs c ih hpos
    rw [List.foldl_append, List.foldl_cons, List.foldl_nil]
    exact candStep_result k cs c _ (hpos c (by simp)) (ih fun x hx => hpos x (by simp [hx]))

theorem precedence_of_time {c : Config} {k : Kbd} (hf : LayerFacts c k) {i l : Nat}
    (h0 : i < k.config.layers.length) (h1 : k.isActive i = true) (g1 : l < k.config.layers.length)
    (g4 : k.isActive l = true) :
    ((k.layerState i).activationTime < (k.layerState l).activationTime →
      precedence c k.outputs i < precedence c k.outputs l) ∧
    ((k.layerState i).activationTime = (k.layerState l).activationTime → i < l →
      precedence c k.outputs i ≤ precedence c k.outputs l) := by
  have prec : ∀ j, j < k.config.layers.length → k.isActive j = true →
      (j ≠ 0 → (k.layerState j).activationTime = precedence c k.outputs j ∧ 1 ≤ precedence c k.outputs j) := by
    intro j hj ha h0
    rw [hf.shape.1] at hj
    unfold Kbd.isActive at ha
    rw [decide_eq_true_eq] at ha
    unfold precedence
    rw [if_neg h0]
    by_cases hl : isLayout c j = true
    · rw [if_pos hl, (hf.layouts j h0 hl).2.2 ha]
      decide
    · rw [if_neg hl]
      have ho : ordinary c j = true := by
        unfold isLayout at hl
        unfold ordinary
        rw [List.getElem?_eq_getElem hj] at hl ⊢
        simpa using hl
      have ht := hf.times j ho
      unfold Kbd.layerTrace at ht
      rw [rank_filter] at ht
      unfold Kbd.outputs
      rw [List.reverse_reverse]
      exact ⟨ht.1, Nat.pos_of_ne_zero (ht.2 ha)⟩
  have p0 : precedence c k.outputs 0 = 0 := by unfold precedence; rw [if_pos rfl]
  have hm := hf.main.2
  by_cases hi0 : i = 0
  · subst hi0
    by_cases hl0 : l = 0
    · subst hl0; omega
    · have := prec l g1 g4 hl0
      omega
  · have pi := prec i h0 h1 hi0
    by_cases hl0 : l = 0
    · subst hl0; omega
    · have pl := prec l g1 g4 hl0
      omega

/-- The chord fully struck that wins, in terms of the scan. -/
theorem winner_of_scan {c : Config} {k : Kbd} (hf : LayerFacts c k) {pre post : List (Nat × Nat × Chord)}
    {x : Nat × Nat × Chord} (e : chordCands k = pre ++ x :: post) (hx : FullyStruck x.2.2.keys k.chord.queue)
    (h4 : ∀ y ∈ pre, FullyStruck y.2.2.keys k.chord.queue →
      (k.layerState y.1).activationTime ≤ (k.layerState x.1).activationTime)
    (h5 : ∀ y ∈ post, FullyStruck y.2.2.keys k.chord.queue →
      (k.layerState y.1).activationTime < (k.layerState x.1).activationTime) :
    Winner c k k.chord.queue x.1 x.2.1 x.2.2 := by
  have hmem : (x.1, x.2.1, x.2.2) ∈ chordCands k := by rw [e]; simp
  have hax := (mem_chordCands k x.1 x.2.1 x.2.2).1 hmem
  refine ⟨hax, hx, ?_⟩
  intro l' i' ch' ha' hf'
  have hm' := (mem_chordCands k l' i' ch').2 ha'
  obtain ⟨L, hL, hxa, _⟩ := hax
  obtain ⟨L', hL', hya, _⟩ := ha'
  have hP := precedence_of_time hf (lt_of_getElem hL') hya (lt_of_getElem hL) hxa
  have hs := chordCands_sorted k
  rw [e] at hm' hs
  rw [List.pairwise_append] at hs
  rcases List.mem_append.1 hm' with hm' | hm'
  · have hlt := hs.2.2 _ hm' x (by simp)
    have ht := h4 _ hm' hf'
    unfold lexLt at hlt
    dsimp only at hlt ht
    rcases hlt with hlt | ⟨hlt, hlt2⟩
    · right
      refine ⟨by omega, ?_⟩
      by_cases heq : (k.layerState l').activationTime = (k.layerState x.1).activationTime
      · have := hP.2 heq hlt; omega
      · left; exact hP.1 (by omega)
    · exact .inl ⟨hlt, by omega⟩
  · rcases List.mem_cons.1 hm' with hm' | hm'
    · rw [← hm']; exact .inl ⟨rfl, Nat.le_refl _⟩
    · right
      have ht := h5 _ hm' hf'
      dsimp only at ht
      refine ⟨fun h => ?_, .inl (hP.1 ht)⟩
      rw [h] at ht
      omega

/-- The state with the chord to fire noted. -/
def noted (k : Kbd) (l i : Nat) : Kbd := { k with chord := { k.chord with «match» := some (l, i), matchLayer := l } }

/-- C19. The verdict on all chords of the active layers together: whether one is fully struck and
which, and whether one is partly struck. -/
theorem C19_verdict (c : Config) (hb : Bound c) (k0 : Kbd) (h : HistoryOf c k0) (ch : ChordSt) :
    ((checkChordMatch { k0 with chord := ch }).1 = 0 ∧ ¬ SomeFull k0 ch.queue ∧ ¬ SomePartial k0 ch.queue ∧
      (checkChordMatch { k0 with chord := ch }).2 = { k0 with chord := ch }) ∨
    ((checkChordMatch { k0 with chord := ch }).1 = 1 ∧ ¬ SomeFull k0 ch.queue ∧ SomePartial k0 ch.queue ∧
      (checkChordMatch { k0 with chord := ch }).2 = { k0 with chord := ch }) ∨
    (∃ l i x, Winner c k0 ch.queue l i x ∧
      (checkChordMatch { k0 with chord := ch }).2 = noted { k0 with chord := ch } l i ∧
      (((checkChordMatch { k0 with chord := ch }).1 = 2 ∧ ¬ SomePartial k0 ch.queue) ∨
       ((checkChordMatch { k0 with chord := ch }).1 = 3 ∧ SomePartial k0 ch.queue))) := by
  have hf := (layerFacts_history (C27_wellformed c hb) h).2.1
  have hf1 : LayerFacts c { k0 with chord := ch } :=
    ⟨hf.shape, hf.clock, hf.main, hf.layouts, hf.times, hf.outside⟩
  have hr := scan_result { k0 with chord := ch } (chordCands { k0 with chord := ch }) (by
    rintro ⟨l, i, x⟩ hx
    obtain ⟨_, _, ha, _⟩ := (mem_chordCands _ l i x).1 hx
    exact times_pos hf1 l ha)
  rw [← chordScan_cands] at hr
  have key : ∀ P : List Code → Prop, (∃ x ∈ chordCands { k0 with chord := ch }, P x.2.2.keys) ↔
      ∃ l i x, ActiveLayerChord k0 l i x ∧ P x.keys := by
    intro P
    constructor
    · rintro ⟨⟨l, i, x⟩, hx, hp⟩
      exact ⟨l, i, x, (mem_chordCands { k0 with chord := ch } l i x).1 hx, hp⟩
    · rintro ⟨l, i, x, hx, hp⟩
      exact ⟨(l, i, x), (mem_chordCands { k0 with chord := ch } l i x).2 hx, hp⟩
  obtain ⟨hp, hfull⟩ := hr
  have hp' := hp.trans (key fun ks => PartlyStruck ks ch.queue)
  unfold checkChordMatch
  dsimp only
  rcases hfull with ⟨h1, _, h3⟩ | ⟨pre, x, post, e, h1, _, h3, h4, h5⟩
  · have hnf : ¬ SomeFull k0 ch.queue := by
      intro hs
      obtain ⟨x, hx, hxf⟩ := (key fun ks => FullyStruck ks ch.queue).2 hs
      exact h3 x hx hxf
    rw [h1]
    dsimp only
    by_cases hq : (chordScan { k0 with chord := ch }).part = true
    · rw [if_pos hq]
      exact .inr (.inl ⟨rfl, hnf, hp'.1 hq, rfl⟩)
    · rw [if_neg hq]
      exact .inl ⟨rfl, hnf, fun h => hq (hp'.2 h), rfl⟩
  · right; right
    have hw := winner_of_scan hf1 e h3 h4 h5
    rw [h1]
    dsimp only
    refine ⟨x.1, x.2.1, x.2.2, hw, rfl, ?_⟩
    by_cases hq : (chordScan { k0 with chord := ch }).part = true
    · rw [if_pos hq]
      exact .inr ⟨rfl, hp'.1 hq⟩
    · rw [if_neg hq]
      exact .inl ⟨rfl, fun h => hq (hp'.2 h)⟩

theorem Winner.someFull {c : Config} {k : Kbd} {q : List KeyEvent} {l i : Nat} {ch : Chord}
    (h : Winner c k q l i ch) : SomeFull k q := ⟨l, i, ch, h.1, h.2.1⟩

/-! ### What the engine does -/

/-- The rest of event processing, for an event that is not held back by a chord. -/
def afterChord (pe : PE) (k : Kbd) (code : Code) (pressed : Bool) (time : Int) : Res (Kbd × Int) := do
  let (k, handled) ← handlePendingKey pe (if code = 0 then k else k.log (.passed ⟨code, pressed, time⟩)) code pressed time
  let k ← (if handled then .ok k else do
    let k ← stepTimers k code time
    stepKey k code pressed time : Res Kbd)
  .ok (calculateMainLoopTimeout k time)

theorem processEvent_passed {n : Nat} {k k1 : Kbd} {code : Code} {pressed : Bool} {time : Int}
    (h : handleChord (processEvent n) k code pressed time = .ok (k1, false)) :
    processEvent (n+1) k code pressed time = afterChord (processEvent n) k1 code pressed time := by
  show processEventBody (processEvent n) k code pressed time = _
  unfold processEventBody afterChord
  rw [h, bind_ok]
  dsimp only
  rw [if_neg (by decide)]
  generalize handlePendingKey _ _ _ _ _ = r
  cases r with
  | error e => rfl
  | ok r =>
    rcases r with ⟨k2, b⟩
    cases b <;> rfl

theorem processEvent_kept {n : Nat} {k k1 : Kbd} {code : Code} {pressed : Bool} {time : Int}
    (h : handleChord (processEvent n) k code pressed time = .ok (k1, true)) :
    processEvent (n+1) k code pressed time = .ok (calculateMainLoopTimeout k1 time) := by
  show processEventBody (processEvent n) k code pressed time = _
  unfold processEventBody
  rw [h, bind_ok]
  rfl

theorem processEvent_error {n : Nat} {k : Kbd} {code : Code} {pressed : Bool} {time : Int} {e : Err}
    (h : handleChord (processEvent n) k code pressed time = .error e) :
    processEvent (n+1) k code pressed time = .error e := by
  show processEventBody (processEvent n) k code pressed time = _
  unfold processEventBody
  rw [h]
  rfl

/-- The events since the chord machine was last idle, with this press. -/
def strokes (k : Kbd) (code : Code) (time : Int) : List KeyEvent := k.behindChord ++ [⟨code, true, time⟩]

/-- The chord machine waiting in `mode` with these events held back, a chord to fire if none
grows, and a deadline. -/
def waitingState (k : Kbd) (ch : ChordSt) (mode : ChordState) (time after : Int) : Kbd :=
  { k with chord := { ch with state := mode, lastCodeTime := time }, timeouts := k.timeouts ++ [time + after] }

theorem schedule_cases (k : Kbd) (t : Int) :
    (k.timeouts.length < 64 ∧ scheduleTimeout k t = .ok { k with timeouts := k.timeouts ++ [t] }) ∨
    (64 ≤ k.timeouts.length ∧ scheduleTimeout k t = .error (.assertFail "nr_timeouts < ARRAY_SIZE(timeouts)")) := by
  unfold scheduleTimeout
  split
  · exact .inl ⟨by assumption, rfl⟩
  · exact .inr ⟨by omega, rfl⟩

theorem chordDecide_none {c : Config} (hb : Bound c) {k0 : Kbd} (h : HistoryOf c k0) (pe : PE) (ch : ChordSt)
    (time : Int) (f : Kbd → Res (Kbd × Bool)) (hf : ¬ SomeFull k0 ch.queue) (hp : ¬ SomePartial k0 ch.queue) :
    chordDecide pe { k0 with chord := ch } time f = f { k0 with chord := ch } := by
  have hv := C19_verdict c hb k0 h ch
  unfold chordDecide
  generalize checkChordMatch { k0 with chord := ch } = r at hv
  rcases r with ⟨n, k2⟩
  rcases hv with ⟨h1, _, _, h2⟩ | ⟨_, _, h2, _⟩ | ⟨l, i, x, hw, _⟩
  · dsimp only at h1 h2; subst h1; subst h2; rfl
  · exact absurd h2 hp
  · exact absurd hw.someFull hf

theorem chordDecide_partial {c : Config} (hb : Bound c) {k0 : Kbd} (h : HistoryOf c k0) (pe : PE) (ch : ChordSt)
    (time : Int) (f : Kbd → Res (Kbd × Bool)) (hp : SomePartial k0 ch.queue) :
    ∃ ch' : ChordSt, ch'.queue = ch.queue ∧
      (¬ SomeFull k0 ch.queue → ch'.match = ch.match ∧ ch'.matchLayer = ch.matchLayer) ∧
      (SomeFull k0 ch.queue → ∃ l i x, Winner c k0 ch.queue l i x ∧ ch'.match = some (l, i) ∧ ch'.matchLayer = l) ∧
      chordDecide pe { k0 with chord := ch } time f =
        (if k0.timeouts.length < 64 then
          .ok (waitingState k0 ch' .pendingDisambiguation time k0.config.chordInterkeyTimeout, true)
        else .error (.assertFail "nr_timeouts < ARRAY_SIZE(timeouts)")) := by
  have hv := C19_verdict c hb k0 h ch
  have fin : ∀ ch' : ChordSt, (do
        let k ← scheduleTimeout { k0 with chord := { ch' with state := .pendingDisambiguation, lastCodeTime := time } }
          (time + k0.config.chordInterkeyTimeout)
        Except.ok (k, true) : Res (Kbd × Bool)) =
      (if k0.timeouts.length < 64 then
          .ok (waitingState k0 ch' .pendingDisambiguation time k0.config.chordInterkeyTimeout, true)
        else .error (.assertFail "nr_timeouts < ARRAY_SIZE(timeouts)")) := by
    intro ch'
    rcases schedule_cases { k0 with chord := { ch' with state := .pendingDisambiguation, lastCodeTime := time } }
        (time + k0.config.chordInterkeyTimeout) with ⟨h1, h2⟩ | ⟨h1, h2⟩
    · rw [h2, bind_ok, if_pos h1]; rfl
    · rw [h2, if_neg (by dsimp only at h1; omega)]; rfl
  unfold chordDecide
  generalize checkChordMatch { k0 with chord := ch } = r at hv
  rcases r with ⟨n, k2⟩
  rcases hv with ⟨_, _, h2, _⟩ | ⟨h1, h2, _, h3⟩ | ⟨l, i, x, hw, h2, h3⟩
  · exact absurd hp h2
  · dsimp only at h1 h3; subst h1; subst h3
    exact ⟨ch, rfl, fun _ => ⟨rfl, rfl⟩, fun hs => absurd hs h2, fin ch⟩
  · dsimp only at h2; subst h2
    rcases h3 with ⟨_, h3⟩ | ⟨h3, _⟩
    · exact absurd hp h3
    · dsimp only at h3; subst h3
      exact ⟨{ ch with «match» := some (l, i), matchLayer := l }, rfl, fun hs => absurd hw.someFull hs,
        fun _ => ⟨l, i, x, hw, rfl, rfl⟩, fin _⟩

theorem chordDecide_full {c : Config} (hb : Bound c) {k0 : Kbd} (h : HistoryOf c k0) (pe : PE) (ch : ChordSt)
    (time : Int) (f : Kbd → Res (Kbd × Bool)) (hf : SomeFull k0 ch.queue) (hp : ¬ SomePartial k0 ch.queue) :
    ∃ l i x, Winner c k0 ch.queue l i x ∧
      chordDecide pe { k0 with chord := ch } time f =
        (if k0.config.chordHoldTimeout ≠ 0 then
          (if k0.timeouts.length < 64 then
            .ok (waitingState k0 { ch with «match» := some (l, i), matchLayer := l } .pendingHoldTimeout time
              k0.config.chordHoldTimeout, true)
           else .error (.assertFail "nr_timeouts < ARRAY_SIZE(timeouts)"))
        else do
          let k ← resolveChord pe { k0 with chord := { ch with «match» := some (l, i), matchLayer := l, lastCodeTime := time } }
          .ok (k, true)) := by
  have hv := C19_verdict c hb k0 h ch
  unfold chordDecide
  generalize checkChordMatch { k0 with chord := ch } = r at hv
  rcases r with ⟨n, k2⟩
  rcases hv with ⟨_, h2, _⟩ | ⟨_, h2, _⟩ | ⟨l, i, x, hw, h2, h3⟩
  · exact absurd hf h2
  · exact absurd hf h2
  · dsimp only at h2; subst h2
    rcases h3 with ⟨h3, _⟩ | ⟨_, h3⟩
    · dsimp only at h3; subst h3
      refine ⟨l, i, x, hw, ?_⟩
      by_cases hh : k0.config.chordHoldTimeout ≠ 0
      · rw [if_pos hh]
        show (if k0.config.chordHoldTimeout ≠ 0 then (do
            let k ← scheduleTimeout { k0 with chord := { ch with «match» := some (l, i), matchLayer := l, lastCodeTime := time, state := .pendingHoldTimeout } }
              (time + k0.config.chordHoldTimeout)
            Except.ok (k, true)) else (do
            let k ← resolveChord pe { k0 with chord := { ch with «match» := some (l, i), matchLayer := l, lastCodeTime := time } }
            Except.ok (k, true)) : Res (Kbd × Bool)) = _
        rw [if_pos hh]
        rcases schedule_cases { k0 with chord := { ch with «match» := some (l, i), matchLayer := l, lastCodeTime := time, state := .pendingHoldTimeout } }
            (time + k0.config.chordHoldTimeout) with ⟨h1, h2⟩ | ⟨h1, h2⟩
        · rw [h2, bind_ok, if_pos h1]; rfl
        · rw [h2, if_neg (by dsimp only at h1; omega)]; rfl
      · rw [if_neg hh]
        show (if k0.config.chordHoldTimeout ≠ 0 then (do
            let k ← scheduleTimeout { k0 with chord := { ch with «match» := some (l, i), matchLayer := l, lastCodeTime := time, state := .pendingHoldTimeout } }
              (time + k0.config.chordHoldTimeout)
            Except.ok (k, true)) else (do
            let k ← resolveChord pe { k0 with chord := { ch with «match» := some (l, i), matchLayer := l, lastCodeTime := time } }
            Except.ok (k, true)) : Res (Kbd × Bool)) = _
        rw [if_neg hh]
    · exact absurd h3 hp

/-- The chord machine after a press, before anything is decided. -/
def struckChord (k : Kbd) (code : Code) (time : Int) : ChordSt :=
  match k.chord.state with
  | .inactive => { k.chord with queue := [⟨code, true, time⟩], «match» := none, startCode := code }
  | _ => { k.chord with queue := k.chord.queue ++ [⟨code, true, time⟩] }

theorem struckChord_queue {k : Kbd} {code : Code} {time : Int}
    (hs : k.chord.state = .inactive ∨ k.chord.state = .pendingDisambiguation) :
    (struckChord k code time).queue = strokes k code time := by
  unfold struckChord strokes Kbd.behindChord
  rcases hs with hs | hs <;> rw [hs] <;> rfl

theorem struckChord_match {k : Kbd} {code : Code} {time : Int}
    (hs : k.chord.state = .inactive ∨ k.chord.state = .pendingDisambiguation) :
    (struckChord k code time).match = (if k.chord.state = .inactive then none else k.chord.match) := by
  unfold struckChord
  rcases hs with hs | hs <;> rw [hs] <;> rfl

theorem handleChord_press (pe : PE) (k : Kbd) (code : Code) (time : Int) :
    handleChord pe k code true time = chordMachine pe k code true time := by
  unfold handleChord
  rw [if_neg (by simp)]

theorem chordMachine_idle (pe : PE) (k : Kbd) (code : Code) (time : Int) (h0 : code ≠ 0)
    (hs : k.chord.state = .inactive) :
    chordMachine pe k code true time =
      chordDecide pe { k with chord := struckChord k code time } time (fun k => .ok (k, false)) := by
  unfold chordMachine
  rw [hs]
  dsimp only
  have he : enqueueChordEvent { k with chord := { k.chord with queue := [], «match» := none, startCode := code } } code true time =
      .ok { k with chord := { k.chord with queue := [⟨code, true, time⟩], «match» := none, startCode := code } } := by
    unfold enqueueChordEvent
    rw [if_neg h0]
    rfl
  have hst : struckChord k code time = { k.chord with queue := [⟨code, true, time⟩], «match» := none, startCode := code } := by
    unfold struckChord
    split
    · rfl
    · contradiction
  rw [hst]
  dsimp only at he ⊢
  rw [he, bind_ok]

theorem chordMachine_waiting (pe : PE) (k : Kbd) (code : Code) (time : Int) (h0 : code ≠ 0)
    (hs : k.chord.state = .pendingDisambiguation) :
    chordMachine pe k code true time = (if k.chord.queue.length < 32 then
      chordDecide pe { k with chord := struckChord k code time } time (fun k => do
        let k ← abortChord pe k
        .ok (k, true))
      else .error (.assertFail "chord.queue_sz < ARRAY_SIZE(chord.queue)")) := by
  unfold chordMachine
  rw [hs]
  dsimp only
  unfold enqueueChordEvent
  rw [if_neg h0, if_neg h0]
  split
  · rw [bind_ok]
    unfold struckChord
    rw [hs]
    rfl
  · rfl

/-- C19. A key that strikes no chord, not even partly, is handled at once as if there were no
chords. -/
theorem C19_no_chord (c : Config) (hb : Bound c) (k : Kbd) (h : HistoryOf c k) (n : Nat) (code : Code) (time : Int)
    (h0 : code ≠ 0) (hs : k.chord.state = .inactive) (hf : ¬ SomeFull k [⟨code, true, time⟩])
    (hp : ¬ SomePartial k [⟨code, true, time⟩]) :
    processEvent (n+1) k code true time =
      afterChord (processEvent n) { k with chord := struckChord k code time } code true time := by
  have hq : (struckChord k code time).queue = [⟨code, true, time⟩] := by unfold struckChord; rw [hs]
  apply processEvent_passed
  rw [handleChord_press, chordMachine_idle _ _ _ _ h0 hs, chordDecide_none hb h _ _ _ _ (by rwa [hq]) (by rwa [hq])]

/-- Everything held back is replayed as if there were no chords. -/
def replayed (pe : PE) (k : Kbd) (q : List KeyEvent) : Res Kbd := do
  let (k, _) ← processEventsWith pe { k with chord := { k.chord with state := .resolving, «match» := none } } q
  .ok { k with chord := { k.chord with state := .inactive } }

theorem abortChord_replayed (pe : PE) (k : Kbd) : abortChord pe k = replayed pe k k.chord.queue := by
  unfold abortChord resolveChord replayed
  dsimp only
  rw [bind_ok]
  dsimp only
  rw [if_neg (by omega), List.drop_zero]

/-- C19. A key that, with those before it, strikes no chord at all ends the wait: everything held
back is handled, in order, as if there were no chords. -/
theorem C19_chord_missed (c : Config) (hb : Bound c) (k : Kbd) (h : HistoryOf c k) (n : Nat) (code : Code) (time : Int)
    (h0 : code ≠ 0) (hs : k.chord.state = .pendingDisambiguation) (hl : k.behindChord.length < 32)
    (hf : ¬ SomeFull k (strokes k code time)) (hp : ¬ SomePartial k (strokes k code time)) :
    processEvent (n+1) k code true time = (do
      let k' ← replayed (processEvent n) { k with chord := struckChord k code time } (strokes k code time)
      .ok (calculateMainLoopTimeout k' time)) := by
  have hq := struckChord_queue (code := code) (time := time) (.inr hs)
  have hd : handleChord (processEvent n) k code true time = (do
      let k ← abortChord (processEvent n) { k with chord := struckChord k code time }
      .ok (k, true)) := by
    rw [handleChord_press, chordMachine_waiting _ _ _ _ h0 hs,
      if_pos (by unfold Kbd.behindChord at hl; rw [hs] at hl; exact hl),
      chordDecide_none hb h _ _ _ _ (by rwa [hq]) (by rwa [hq])]
  rw [abortChord_replayed] at hd
  dsimp only at hd
  rw [hq] at hd
  revert hd
  generalize replayed _ _ _ = r
  intro hd
  cases r with
  | error e => exact processEvent_error hd
  | ok k' => rw [bind_ok] at hd ⊢; exact processEvent_kept hd

/-- Nothing but the chord machine and the list of deadlines has changed. -/
structure HeldBack (k k' : Kbd) : Prop where
  outputs : k'.outputs = k.outputs
  steps : k'.steps = k.steps
  layers : k'.layerState = k.layerState
  cache : k'.cache = k.cache
  pending : k'.pending = k.pending
  active : k'.activeChords = k.activeChords
  keys : k'.keystate = k.keystate
  config : k'.config = k.config

theorem waiting_held (k : Kbd) (ch : ChordSt) (mode : ChordState) (time after now : Int) :
    HeldBack k (calculateMainLoopTimeout (waitingState k ch mode time after) now).1 :=
  ⟨rfl, rfl, rfl, rfl, rfl, rfl, rfl, rfl⟩

theorem waiting_deadline (k : Kbd) (ch : ChordSt) (mode : ChordState) (time after : Int) (h : 0 < after) :
    time + after ∈ (calculateMainLoopTimeout (waitingState k ch mode time after) time).1.timeouts := by
  unfold calculateMainLoopTimeout waitingState
  dsimp only
  rw [List.mem_filter]
  exact ⟨by simp, by simp; omega⟩

/-- C19. While some chord is partly struck the press is held back, and the engine waits for
another key or for the deadline. The chord to fire at the deadline is the winning fully struck
one; if none is fully struck, it is the one noted before. -/
theorem C19_undecided (c : Config) (hb : Bound c) (k : Kbd) (h : HistoryOf c k) (n : Nat) (code : Code) (time : Int)
    (h0 : code ≠ 0) (hs : k.chord.state = .inactive ∨ k.chord.state = .pendingDisambiguation)
    (hp : SomePartial k (strokes k code time)) (k' : Kbd) (w : Int)
    (run : processEvent (n+1) k code true time = .ok (k', w)) :
    HeldBack k k' ∧ k'.behindChord = strokes k code time ∧ k'.chord.state = .pendingDisambiguation ∧
    k'.chord.lastCodeTime = time ∧
    (0 < k.config.chordInterkeyTimeout → time + k.config.chordInterkeyTimeout ∈ k'.timeouts) ∧
    (¬ SomeFull k (strokes k code time) →
      k'.chord.match = if k.chord.state = .inactive then none else k.chord.match) ∧
    (SomeFull k (strokes k code time) → ∃ l i ch, Winner c k (strokes k code time) l i ch ∧
      k'.chord.match = some (l, i) ∧ k'.chord.matchLayer = l) := by
  have hq := struckChord_queue (code := code) (time := time) hs
  have hex : ∃ f, chordDecide (processEvent n) { k with chord := struckChord k code time } time f =
      handleChord (processEvent n) k code true time := by
    rcases hs with hs' | hs'
    · exact ⟨_, by rw [handleChord_press, chordMachine_idle _ _ _ _ h0 hs']⟩
    · by_cases hl : k.chord.queue.length < 32
      · exact ⟨_, by rw [handleChord_press, chordMachine_waiting _ _ _ _ h0 hs', if_pos hl]⟩
      · have he : handleChord (processEvent n) k code true time =
            .error (.assertFail "chord.queue_sz < ARRAY_SIZE(chord.queue)") := by
          rw [handleChord_press, chordMachine_waiting _ _ _ _ h0 hs', if_neg hl]
        rw [processEvent_error he] at run
        cases run
  obtain ⟨f, hd⟩ := hex
  obtain ⟨ch', e1, e2, e3, e4⟩ := chordDecide_partial hb h (processEvent n) (struckChord k code time) time f
    (by rwa [hq])
  rw [hd] at e4
  by_cases hl : k.timeouts.length < 64
  · rw [if_pos hl] at e4
    rw [processEvent_kept e4] at run
    injection run with run
    have hk : k' = (calculateMainLoopTimeout
      (waitingState k ch' .pendingDisambiguation time k.config.chordInterkeyTimeout) time).1 := by rw [run]
    rw [hq] at e1 e2 e3
    rw [hk]
    refine ⟨waiting_held _ _ _ _ _ _, e1, rfl, rfl, waiting_deadline _ _ _ _ _, fun hn => ?_, fun hy => ?_⟩
    · rw [← struckChord_match hs]; exact (e2 hn).1
    · obtain ⟨l, i, x, hw, e5, e6⟩ := e3 hy
      exact ⟨l, i, x, hw, e5, e6⟩
  · rw [if_neg hl] at e4
    rw [processEvent_error e4] at run
    cases run

/-- The press leads to a decision of the chord machine. -/
theorem press_decided {k : Kbd} {n : Nat} {code : Code} {time : Int} (h0 : code ≠ 0)
    (hs : k.chord.state = .inactive ∨ k.chord.state = .pendingDisambiguation) (hl : k.behindChord.length < 32) :
    ∃ f, handleChord (processEvent n) k code true time =
      chordDecide (processEvent n) { k with chord := struckChord k code time } time f := by
  rcases hs with hs' | hs'
  · exact ⟨_, by rw [handleChord_press, chordMachine_idle _ _ _ _ h0 hs']⟩
  · have hl' : k.chord.queue.length < 32 := by
      unfold Kbd.behindChord at hl
      rw [hs'] at hl
      exact hl
    exact ⟨_, by rw [handleChord_press, chordMachine_waiting _ _ _ _ h0 hs', if_pos hl']⟩

/-- C19. When a chord is fully struck and none partly, the press decides: the winning chord fires
at once, or, with `chord_hold_timeout`, after the keys have been held that long. -/
theorem C19_struck (c : Config) (hb : Bound c) (k : Kbd) (h : HistoryOf c k) (n : Nat) (code : Code) (time : Int)
    (h0 : code ≠ 0) (hs : k.chord.state = .inactive ∨ k.chord.state = .pendingDisambiguation)
    (hl : k.behindChord.length < 32) (ht : k.timeouts.length < 64)
    (hf : SomeFull k (strokes k code time)) (hp : ¬ SomePartial k (strokes k code time)) :
    ∃ l i ch, Winner c k (strokes k code time) l i ch ∧
      (k.config.chordHoldTimeout = 0 → processEvent (n+1) k code true time = (do
        let k' ← resolveChord (processEvent n) { k with chord := { struckChord k code time with
          «match» := some (l, i), matchLayer := l, lastCodeTime := time } }
        .ok (calculateMainLoopTimeout k' time))) ∧
      (k.config.chordHoldTimeout ≠ 0 → ∃ k' w, processEvent (n+1) k code true time = .ok (k', w) ∧
        HeldBack k k' ∧ k'.behindChord = strokes k code time ∧ k'.chord.state = .pendingHoldTimeout ∧
        k'.chord.lastCodeTime = time ∧ k'.chord.match = some (l, i) ∧ k'.chord.matchLayer = l ∧
        (0 < k.config.chordHoldTimeout → time + k.config.chordHoldTimeout ∈ k'.timeouts)) := by
  have hq := struckChord_queue (code := code) (time := time) hs
  obtain ⟨f, hd⟩ := press_decided (n := n) (time := time) h0 hs hl
  obtain ⟨l, i, x, hw, he⟩ := chordDecide_full hb h (processEvent n) (struckChord k code time) time f
    (by rwa [hq]) (by rwa [hq])
  rw [hq] at hw
  refine ⟨l, i, x, hw, fun hz => ?_, fun hz => ?_⟩
  · rw [if_neg (by rw [hz]; simp)] at he
    rw [he] at hd
    revert hd
    generalize resolveChord _ _ = r
    intro hd
    cases r with
    | error e => exact processEvent_error hd
    | ok k' => rw [bind_ok] at hd ⊢; exact processEvent_kept hd
  · rw [if_pos hz, if_pos ht] at he
    rw [he] at hd
    exact ⟨_, _, processEvent_kept hd, waiting_held _ _ _ _ _ _, hq, rfl, rfl, rfl, rfl, waiting_deadline _ _ _ _ _⟩

/-- The state in which the struck chord's action is pressed: the chord occupies slot `j` and the
presses that struck it are accounted for. -/
def firing (k : Kbd) (j : Nat) (ch : Chord) : Kbd :=
  { k with
    chord := { k.chord with state := .resolving }
    activeChords := k.activeChords.set j ⟨true, ch, k.chord.matchLayer⟩
    steps := ((k.chord.queue.take ch.keys.length).map Step.swallowed).reverse ++ k.steps }

/-- The chord machine becomes idle. -/
def chordIdle (k : Kbd) : Kbd := { k with chord := { k.chord with state := .inactive } }

/-- C19. A struck chord fires in a free slot: its own action is pressed, looked up under a code that
stands for it, at the time of the deciding press; what was held back after the presses that struck
it is then handled normally. When three chords are already active the daemon stops. -/
theorem C19_fires (pe : PE) (k : Kbd) (l i : Nat) (ch : Chord) (hm : k.chord.match = some (l, i))
    (hc : ActiveLayerChord k l i ch) (ha : k.activeChords.length = 3) :
    (∃ j, j < 3 ∧ (k.activeChords.getD j {}).active = false ∧
      lookupDescriptor (firing k j ch) (KEYD.CHORD_1 + UInt8.ofNat j) = (ch.d, k.chord.matchLayer) ∧
      resolveChord pe k = (do
        let (k', _) ← pe (firing k j ch) (KEYD.CHORD_1 + UInt8.ofNat j) true k.chord.lastCodeTime
        if k'.chord.queue.length < ch.keys.length then .error (.oob "chord.queue + queue_offset")
        else do
          let (k', _) ← processEventsWith pe k' (k'.chord.queue.drop ch.keys.length)
          .ok (chordIdle k'))) ∨
    ((∀ a ∈ k.activeChords, a.active = true) ∧ resolveChord pe k = .error (.assertFail "resolve_chord: code")) := by
  have hd : derefChord { k with chord := { k.chord with state := .resolving } } (l, i) = ch := by
    obtain ⟨L, hL, _, hi⟩ := hc
    unfold derefChord
    dsimp only
    rw [layer_getElem hL, List.getD_eq_getElem?_getD, hi]
    rfl
  have hr : resolveChord pe k = (do
      let (k, offset) ← (do
        let (k, code, sz) ← installChord { k with chord := { k.chord with state := .resolving } } (l, i)
        let k := k.logSwallowed (k.chord.queue.take sz)
        let (k, _) ← pe k code true k.chord.lastCodeTime
        .ok (k, sz) : Res (Kbd × Nat))
      if k.chord.queue.length < offset then .error (.oob "chord.queue + queue_offset")
      else do
        let (k, _) ← processEventsWith pe k (k.chord.queue.drop offset)
        .ok { k with chord := { k.chord with state := .inactive } }) := by
    unfold resolveChord
    dsimp only
    rw [hm]
  rw [hr]
  unfold installChord
  rw [hd]
  dsimp only
  match hfree : freeChordSlot k.activeChords 0 with
  | none =>
    right
    refine ⟨?_, rfl⟩
    clear hr hd hm hc ha
    have gen : ∀ (as : List ActiveChord) (i : Nat), freeChordSlot as i = none → ∀ a ∈ as, a.active = true := by
      intro as
      induction as with
      | nil => intro _ _ a ha; simp at ha
      | cons b as ih =>
        intro i h a ha
        unfold freeChordSlot at h
        split at h
        · rename_i hb
          rcases List.mem_cons.1 ha with rfl | ha
          · exact hb
          · exact ih (i+1) h a ha
        · cases h
    exact gen _ _ hfree
  | some j =>
    left
    obtain ⟨a, _, haj, hact⟩ := freeChordSlot_some _ _ _ hfree
    rw [Nat.sub_zero] at haj
    have hj : j < 3 := by rw [← ha]; exact lt_of_getElem? haj
    refine ⟨j, hj, ?_, ?_, ?_⟩
    · rw [List.getD_eq_getElem?_getD, haj]; exact hact
    · have hk : KEYD.CHORD_1 ≤ KEYD.CHORD_1 + UInt8.ofNat j ∧ KEYD.CHORD_1 + UInt8.ofNat j ≤ KEYD.CHORD_MAX ∧
          (KEYD.CHORD_1 + UInt8.ofNat j).toNat - KEYD.CHORD_1.toNat = j := by
        have : j = 0 ∨ j = 1 ∨ j = 2 := by omega
        rcases this with rfl | rfl | rfl <;> decide
      rw [C08_chord_code _ _ hk.1 hk.2.1, hk.2.2]
      unfold firing
      dsimp only
      rw [List.getD_eq_getElem?_getD, List.getElem?_set_self (by omega)]
      rfl
    · dsimp only
      rw [bind_ok]
      dsimp only
      unfold firing chordIdle Kbd.logSwallowed
      dsimp only
      generalize pe _ _ _ _ = r
      cases r with
      | error e => rfl
      | ok r => rfl

/-- C19. The deadline after a partly struck chord: if no chord was noted everything held back is
replayed; otherwise that chord fires, or waits for the rest of `chord_hold_timeout`. Before the
deadline a wakeup leaves the chord undecided. -/
theorem C19_deadline (k : Kbd) (n : Nat) (time : Int) (hs : k.chord.state = .pendingDisambiguation) :
    (time < k.chord.lastCodeTime + k.config.chordInterkeyTimeout →
      processEvent (n+1) k 0 false time = afterChord (processEvent n) k 0 false time) ∧
    (k.chord.lastCodeTime + k.config.chordInterkeyTimeout ≤ time →
      (k.chord.match = none → processEvent (n+1) k 0 false time = (do
        let k' ← replayed (processEvent n) k k.behindChord
        .ok (calculateMainLoopTimeout k' time))) ∧
      (∀ l i, k.chord.match = some (l, i) →
        (k.config.chordHoldTimeout ≤ k.config.chordInterkeyTimeout →
          processEvent (n+1) k 0 false time = (do
            let k' ← resolveChord (processEvent n) k
            .ok (calculateMainLoopTimeout k' time))) ∧
        (k.config.chordInterkeyTimeout < k.config.chordHoldTimeout → k.timeouts.length < 64 →
          ∃ k' w, processEvent (n+1) k 0 false time = .ok (k', w) ∧ HeldBack k k' ∧
            k'.behindChord = k.behindChord ∧ k'.chord.state = .pendingHoldTimeout ∧ k'.chord.match = some (l, i) ∧
            k'.chord.lastCodeTime = k.chord.lastCodeTime ∧
            time + (k.config.chordHoldTimeout - k.config.chordInterkeyTimeout) ∈ k'.timeouts))) := by
  have hd : handleChord (processEvent n) k 0 false time = chordMachine (processEvent n) k 0 false time := by
    unfold handleChord
    rw [if_neg (by simp)]
  have hbq : k.behindChord = k.chord.queue := by unfold Kbd.behindChord; rw [hs]
  have hm : chordMachine (processEvent n) k 0 false time =
      (if time - k.chord.lastCodeTime ≥ k.config.chordInterkeyTimeout then
        if k.chord.match.isSome then
          let timeleft := k.config.chordHoldTimeout - k.config.chordInterkeyTimeout
          if timeleft > 0 then do
            let k ← scheduleTimeout k (time + timeleft)
            .ok ({ k with chord := { k.chord with state := .pendingHoldTimeout } }, true)
          else do
            let k ← resolveChord (processEvent n) k
            .ok (k, true)
        else do
          let k ← abortChord (processEvent n) k
          .ok (k, true)
      else .ok (k, false)) := by
    unfold chordMachine
    split
    · rename_i h; rw [hs] at h; cases h
    · rename_i h; rw [hs] at h; cases h
    · rw [if_pos rfl]
    · rename_i h; rw [hs] at h; cases h
  rw [hm] at hd
  clear hm
  constructor
  · intro hlt
    rw [if_neg (by omega)] at hd
    exact processEvent_passed hd
  · intro hge
    rw [if_pos (by omega)] at hd
    constructor
    · intro hnone
      rw [hnone] at hd
      rw [if_neg (by simp), abortChord_replayed, ← hbq] at hd
      revert hd
      generalize replayed _ _ _ = r
      intro hd
      cases r with
      | error e => exact processEvent_error hd
      | ok k' => rw [bind_ok] at hd ⊢; exact processEvent_kept hd
    · intro l i hsome
      rw [hsome, if_pos (by rfl)] at hd
      dsimp only at hd
      constructor
      · intro hle
        rw [if_neg (by omega)] at hd
        revert hd
        generalize resolveChord _ _ = r
        intro hd
        cases r with
        | error e => exact processEvent_error hd
        | ok k' => rw [bind_ok] at hd ⊢; exact processEvent_kept hd
      · intro hlt hto
        rw [if_pos (by omega)] at hd
        rcases schedule_cases k (time + (k.config.chordHoldTimeout - k.config.chordInterkeyTimeout)) with ⟨_, h2⟩ | ⟨h1, _⟩
        · rw [h2, bind_ok] at hd
          refine ⟨_, _, processEvent_kept hd, ⟨rfl, rfl, rfl, rfl, rfl, rfl, rfl, rfl⟩, hbq.symm, rfl, hsome, rfl, ?_⟩
          show _ ∈ List.filter _ _
          rw [List.mem_filter]
          exact ⟨by simp, by simp; omega⟩
        · omega

/-- C19. The deadline of `chord_hold_timeout`: the noted chord fires; before it, nothing is
decided. -/
theorem C19_held_long_enough (k : Kbd) (n : Nat) (time : Int) (hs : k.chord.state = .pendingHoldTimeout) :
    (time < k.chord.lastCodeTime + k.config.chordHoldTimeout →
      processEvent (n+1) k 0 false time = afterChord (processEvent n) k 0 false time) ∧
    (k.chord.lastCodeTime + k.config.chordHoldTimeout ≤ time →
      processEvent (n+1) k 0 false time = (do
        let k' ← resolveChord (processEvent n) k
        .ok (calculateMainLoopTimeout k' time))) := by
  have hd : handleChord (processEvent n) k 0 false time = chordMachine (processEvent n) k 0 false time := by
    unfold handleChord
    rw [if_neg (by simp)]
  have hm : chordMachine (processEvent n) k 0 false time =
      (if time - k.chord.lastCodeTime ≥ k.config.chordHoldTimeout then do
        let k ← resolveChord (processEvent n) k
        .ok (k, true)
      else .ok (k, false)) := by
    unfold chordMachine
    split
    · rename_i h; rw [hs] at h; cases h
    · rename_i h; rw [hs] at h; cases h
    · rename_i h; rw [hs] at h; cases h
    · rw [if_pos rfl]
  rw [hm] at hd
  constructor
  · intro hlt
    rw [if_neg (by omega)] at hd
    exact processEvent_passed hd
  · intro hge
    rw [if_pos (by omega)] at hd
    revert hd
    generalize resolveChord _ _ = r
    intro hd
    cases r with
    | error e => exact processEvent_error hd
    | ok k' => rw [bind_ok] at hd ⊢; exact processEvent_kept hd

/-- C19. Releasing a key (not one of an active chord's) before a partly struck chord is decided
gives the chord up: everything held back is replayed. -/
theorem C19_released_early (k : Kbd) (n : Nat) (code : Code) (time : Int) (h0 : code ≠ 0)
    (hs : k.chord.state = .pendingDisambiguation) (hl : k.behindChord.length < 32)
    (hn : ∀ a ∈ k.activeChords, a.active = true → code ∉ a.chord.keys) :
    processEvent (n+1) k code false time = (do
      let k' ← replayed (processEvent n)
        { k with chord := { k.chord with queue := k.behindChord ++ [⟨code, false, time⟩] } }
        (k.behindChord ++ [⟨code, false, time⟩])
      .ok (calculateMainLoopTimeout k' time)) := by
  have hbq : k.behindChord = k.chord.queue := by unfold Kbd.behindChord; rw [hs]
  have hfind : findActiveChord code k.activeChords 0 = none := by
    match hx : findActiveChord code k.activeChords 0 with
    | none => rfl
    | some i =>
      exfalso
      obtain ⟨a, _, h1, h2, h3⟩ := findActiveChord_some _ _ _ _ hx
      exact hn a (List.mem_of_getElem? h1) h2 h3
  have hd : handleChord (processEvent n) k code false time = chordMachine (processEvent n) k code false time := by
    unfold handleChord
    rw [if_pos (by simp [h0]), hfind]
  have hm : chordMachine (processEvent n) k code false time = (do
      let k' ← abortChord (processEvent n) { k with chord := { k.chord with queue := k.chord.queue ++ [⟨code, false, time⟩] } }
      .ok (k', true)) := by
    unfold chordMachine
    split
    · rename_i h; rw [hs] at h; cases h
    · rename_i h; rw [hs] at h; cases h
    · rw [if_neg h0]
      unfold enqueueChordEvent
      rw [if_neg h0, if_pos (by rw [← hbq]; exact hl), bind_ok]
      rfl
    · rename_i h; rw [hs] at h; cases h
  rw [hm, abortChord_replayed] at hd
  dsimp only at hd
  rw [hbq]
  revert hd
  generalize replayed _ _ _ = r
  intro hd
  cases r with
  | error e => exact processEvent_error hd
  | ok k' => rw [bind_ok] at hd ⊢; exact processEvent_kept hd

/-! ### The theorems are not vacuous -/

/-- Decision procedures for the specification, used on concrete states only. -/
def someFullB (k : Kbd) (q : List KeyEvent) : Bool := (chordCands k).any fun x => chordEventMatch x.2.2 q == .full

def somePartialB (k : Kbd) (q : List KeyEvent) : Bool := (chordCands k).any fun x => chordEventMatch x.2.2 q == .partialMatch

theorem someFullB_iff (k : Kbd) (q : List KeyEvent) : someFullB k q = true ↔ SomeFull k q := by
  unfold someFullB SomeFull
  rw [List.any_eq_true]
  constructor
  · rintro ⟨⟨l, i, ch⟩, hx, hm⟩
    exact ⟨l, i, ch, (mem_chordCands k l i ch).1 hx, (C19_match ch q).1.1 (by simpa using hm)⟩
  · rintro ⟨l, i, ch, hx, hm⟩
    exact ⟨(l, i, ch), (mem_chordCands k l i ch).2 hx, by simpa using (C19_match ch q).1.2 hm⟩

theorem somePartialB_iff (k : Kbd) (q : List KeyEvent) : somePartialB k q = true ↔ SomePartial k q := by
  unfold somePartialB SomePartial
  rw [List.any_eq_true]
  constructor
  · rintro ⟨⟨l, i, ch⟩, hx, hm⟩
    exact ⟨l, i, ch, (mem_chordCands k l i ch).1 hx, (C19_match ch q).2.1.1 (by simpa using hm)⟩
  · rintro ⟨l, i, ch, hx, hm⟩
    exact ⟨(l, i, ch), (mem_chordCands k l i ch).2 hx, by simpa using (C19_match ch q).2.1.2 hm⟩

/-- Two overlapping chords, and one more in a layer. -/
def chordText : Str := b!"[main]\nj+k = x\nj+k+l = y\nc = layer(other)\n[other]\nj+k = z\n"

/-- `C19_no_chord`: `a` belongs to no chord. -/
example : ∃ c k, Bound c ∧ HistoryOf c k ∧ k.chord.state = .inactive ∧
    ¬ SomeFull k (strokes k 30 1000) ∧ ¬ SomePartial k (strokes k 30 1000) := by
  have h : checkRun chordText [press 48 900] (fun _ => true) (fun k => k.chord.state == .inactive &&
      (!someFullB k (strokes k 30 1000) && !somePartialB k (strokes k 30 1000))) = true := by
    set_option maxRecDepth 100000 in decide +kernel
  obtain ⟨c, k, hb, hh, _, hq, _⟩ := checkRun_history h
  simp only [Bool.and_eq_true, beq_iff_eq, Bool.not_eq_true'] at hq
  exact ⟨c, k, hb, hh, hq.1, fun h => by rw [(someFullB_iff _ _).2 h] at hq; exact absurd hq.2.1 (by decide),
    fun h => by rw [(somePartialB_iff _ _).2 h] at hq; exact absurd hq.2.2 (by decide)⟩

/-- `C19_chord_missed`: `j`, then `a`. -/
example : ∃ c k, Bound c ∧ HistoryOf c k ∧ k.chord.state = .pendingDisambiguation ∧ k.behindChord.length < 32 ∧
    ¬ SomeFull k (strokes k 30 1010) ∧ ¬ SomePartial k (strokes k 30 1010) := by
  have h : checkRun chordText [press 36 1000] (fun _ => true) (fun k => (k.chord.state == .pendingDisambiguation &&
      decide (k.behindChord.length < 32)) &&
      (!someFullB k (strokes k 30 1010) && !somePartialB k (strokes k 30 1010))) = true := by
    set_option maxRecDepth 100000 in decide +kernel
  obtain ⟨c, k, hb, hh, _, hq, _⟩ := checkRun_history h
  simp only [Bool.and_eq_true, beq_iff_eq, Bool.not_eq_true', decide_eq_true_eq] at hq
  exact ⟨c, k, hb, hh, hq.1.1, hq.1.2, fun h => by rw [(someFullB_iff _ _).2 h] at hq; exact absurd hq.2.1 (by decide),
    fun h => by rw [(somePartialB_iff _ _).2 h] at hq; exact absurd hq.2.2 (by decide)⟩

/-- `C19_undecided`: `j`, then `k`; `j+k` is fully struck in two layers and `j+k+l` partly; the chord
noted is the one of the layer activated last. -/
example : ∃ c k k' w, Bound c ∧ HistoryOf c k ∧ k.chord.state = .pendingDisambiguation ∧
    SomeFull k (strokes k 37 1010) ∧ SomePartial k (strokes k 37 1010) ∧
    processEvent 40 k 37 true 1010 = .ok (k', w) ∧ k'.chord.match = some (6, 0) := by
  have h : checkRun chordText [press 46 900, press 36 1000] (fun _ => true)
      (fun k => k.chord.state == .pendingDisambiguation &&
      ((someFullB k (strokes k 37 1010) && somePartialB k (strokes k 37 1010)) &&
      (match processEvent 40 k 37 true 1010 with | .ok r => r.1.chord.match == some (6, 0) | _ => false))) = true := by
    set_option maxRecDepth 100000 in decide +kernel
  obtain ⟨c, k, hb, hh, _, hq, _⟩ := checkRun_history h
  simp only [Bool.and_eq_true, beq_iff_eq] at hq
  obtain ⟨q1, ⟨q2, q3⟩, q4⟩ := hq
  split at q4
  · rename_i r hr
    exact ⟨c, k, r.1, r.2, hb, hh, q1, (someFullB_iff _ _).1 q2, (somePartialB_iff _ _).1 q3, hr, by simpa using q4⟩
  · cases q4

/-- `C19_struck`, `C19_fires`: `j`, `k`, then `l`. -/
example : ∃ c k, Bound c ∧ HistoryOf c k ∧ k.chord.state = .pendingDisambiguation ∧ k.behindChord.length < 32 ∧
    k.timeouts.length < 64 ∧ k.activeChords.length = 3 ∧
    SomeFull k (strokes k 38 1020) ∧ ¬ SomePartial k (strokes k 38 1020) ∧ k.config.chordHoldTimeout = 0 := by
  have h : checkRun chordText [press 36 1000, press 37 1010] (fun _ => true) (fun k => (k.chord.state == .pendingDisambiguation &&
      (decide (k.behindChord.length < 32) && (decide (k.timeouts.length < 64) && decide (k.activeChords.length = 3)))) &&
      ((someFullB k (strokes k 38 1020) && !somePartialB k (strokes k 38 1020)) && decide (k.config.chordHoldTimeout = 0))) = true := by
    set_option maxRecDepth 100000 in decide +kernel
  obtain ⟨c, k, hb, hh, _, hq, _⟩ := checkRun_history h
  simp only [Bool.and_eq_true, beq_iff_eq, Bool.not_eq_true', decide_eq_true_eq] at hq
  exact ⟨c, k, hb, hh, hq.1.1, hq.1.2.1, hq.1.2.2.1, hq.1.2.2.2, (someFullB_iff _ _).1 hq.2.1.1,
    fun h => by rw [(somePartialB_iff _ _).2 h] at hq; exact absurd hq.2.1.2 (by decide), hq.2.2⟩

/-- What the engine makes of these chords: the three-key chord, the two-key chord at the deadline,
the two-key chord of the layer activated last, and a missed chord. -/
theorem C19_examples :
    checkRun chordText [press 36 1000, press 37 1010, press 38 1020] (fun _ => true) (fun k => k.outputs == [.key 21 true]) = true ∧
    checkRun chordText [press 36 1000, press 37 1010, wakeup 1060] (fun _ => true) (fun k => k.outputs == [.key 45 true]) = true ∧
    checkRun chordText [press 46 900, press 36 1000, press 37 1010, wakeup 1060] (fun _ => true)
      (fun k => k.outputs == [.layer 6 true, .key 44 true]) = true ∧
    checkRun chordText [press 36 1000, press 30 1010] (fun _ => true) (fun k => k.outputs == [.key 36 true, .key 30 true]) = true ∧
    checkRun chordText [press 36 1000, release 36 1010] (fun _ => true) (fun k => k.outputs == [.key 36 true, .key 36 false]) = true := by
  refine ⟨?_, ?_, ?_, ?_, ?_⟩ <;> (set_option maxRecDepth 100000 in decide +kernel)

/-- `C19_held_long_enough`: waiting for `chord_hold_timeout`, with the chord noted. -/
example : ∃ c k, Bound c ∧ HistoryOf c k ∧ k.chord.state = .pendingHoldTimeout ∧ k.chord.match = some (0, 0) ∧
    k.chord.lastCodeTime + k.config.chordHoldTimeout = 1310 := by
  have h : checkRun b!"[global]\nchord_hold_timeout = 300\n[main]\nj+k = x\n" [press 36 1000, press 37 1010] (fun _ => true)
      (fun k => k.chord.state == .pendingHoldTimeout && (k.chord.match == some (0, 0) &&
        decide (k.chord.lastCodeTime + k.config.chordHoldTimeout = 1310))) = true := by
    set_option maxRecDepth 100000 in decide +kernel
  obtain ⟨c, k, hb, hh, _, hq, _⟩ := checkRun_history h
  simp only [Bool.and_eq_true, beq_iff_eq, decide_eq_true_eq] at hq
  exact ⟨c, k, hb, hh, hq.1, hq.2.1, hq.2.2⟩

/-- The keys of a chord need not have been struck within `chord_timeout` (50 ms) of each other: when
a hold-tap key is decided while a chord waits, the events queued behind it are counted as if they
had just been struck. Here `j` at 1010 and `k` at 1170 make the chord `j+k`. -/
theorem C19_fails_interval :
    checkRun b!"[main]\nj+k = x\nc = overloadt(shift, y, 200)\n"
      [press 46 1000, press 36 1010, wakeup 1060, press 37 1170, wakeup 1200] (fun c => c.chordInterkeyTimeout == 50)
      (fun k => k.absorbed == [press 37 1170, press 36 1010] && k.outputs == [.layer 2 true, .key 42 true, .key 45 true]) = true := by
  set_option maxRecDepth 100000 in decide +kernel

/-- A chord need not execute its own action: both chords are struck while a hold-tap key is
undecided, the second in the slot of the first. When the key is decided, the press of the first is
looked up in that slot, and `z` (44), the action of `d+f`, is executed twice; `x` (45), the action
of `j+k`, never. -/
theorem C19_fails_action :
    checkRun b!"[main]\nj+k = x\nd+f = z\nc = overloadt(shift, y, 500)\n"
      [press 46 1000, press 36 1010, press 37 1011, release 36 1020, release 37 1021, press 32 1030, press 33 1031, wakeup 1500]
      (fun _ => true)
      (fun k => k.absorbed == [press 36 1010, press 37 1011, release 36 1020, release 37 1021, press 32 1030, press 33 1031] &&
        k.outputs == [.layer 2 true, .key 42 true, .key 44 true, .key 44 false, .key 44 true]) = true := by
  set_option maxRecDepth 100000 in decide +kernel

end Keyd
