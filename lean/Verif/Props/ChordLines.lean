import Verif.Props.Headings
import Verif.Props.Actions
import Verif.Proofs.Balance

/-
  C67: what the chord lines of a document (`a+b = action`) mean.
-/

set_option autoImplicit false

namespace Keyd

attribute [local irreducible] configInit

/-! ### Specification -/

/-- The key of a chord line, and the codes of the keys it names: at most eight key names joined by `+`. (Aliases cannot be
used.) -/
def ChordText (key : Str) (codes : List Code) : Prop :=
  ∃ names : List (Str × Code), key = plusJoin (names.map Prod.fst) ∧ codes = names.map Prod.snd ∧
    2 ≤ names.length ∧ names.length ≤ 8 ∧ ∀ p ∈ names, (p.1, p.2, false) ∈ keyNames

/-- The chord is made of exactly these keys. -/
def Chord.madeOf (ch : Chord) (codes : List Code) : Prop := ∀ x, x ∈ ch.keys ↔ x ∈ codes

/-! ### Proofs -/

theorem chordName : ∀ e ∈ keyNames, e.2.2 = false → lookupKeycode e.1 = e.2.1 ∧ e.2.1 ≠ 0 ∧ (43 : UInt8) ∉ e.1 ∧ e.1 ≠ [] := by
  decide +kernel

theorem tokens_join : ∀ (parts : List Str), (∀ p ∈ parts, p ≠ [] ∧ (43 : UInt8) ∉ p) → tokens 43 (plusJoin parts) = parts
  | [], _ => rfl
  | [s], h => tokens_single 43 s (h s List.mem_cons_self).1 (h s List.mem_cons_self).2
  | s :: s2 :: ss, h => by
    show tokens 43 (s ++ 43 :: plusJoin (s2 :: ss)) = _
    rw [tokens_cons 43 s _ (h s List.mem_cons_self).1 (h s List.mem_cons_self).2,
      tokens_join (s2 :: ss) (fun p hp => h p (List.mem_cons_of_mem _ hp))]

theorem chordKeys_names : ∀ (names : List (Str × Code)) (acc : List Code), (∀ p ∈ names, (p.1, p.2, false) ∈ keyNames) →
    acc.length + names.length ≤ 8 → chordKeys (names.map Prod.fst) acc = some (acc ++ names.map Prod.snd)
  | [], acc, _, _ => by simp [chordKeys]
  | p :: ps, acc, h, hl => by
    obtain ⟨h1, h2, _, _⟩ := chordName _ (h p List.mem_cons_self) rfl
    simp only [List.length_cons] at hl
    show chordKeys (p.1 :: ps.map Prod.fst) acc = _
    unfold chordKeys
    dsimp only at h1 h2 ⊢
    rw [h1, if_neg h2, if_neg (by omega), chordKeys_names ps _ (fun q hq => h q (List.mem_cons_of_mem _ hq)) (by simp; omega)]
    simp

theorem ChordText.keys {key : Str} {codes : List Code} (h : ChordText key codes) :
    chordKeys (tokens 43 key) [] = some codes ∧ (43 : UInt8) ∈ key ∧ codes ≠ [] := by
  obtain ⟨names, rfl, rfl, h2, h8, hn⟩ := h
  have hp : ∀ p ∈ names.map Prod.fst, p ≠ [] ∧ (43 : UInt8) ∉ p := by
    intro p hp
    obtain ⟨q, hq, rfl⟩ := List.mem_map.1 hp
    obtain ⟨_, _, h1, h2⟩ := chordName _ (hn q hq) rfl
    exact ⟨h2, h1⟩
  refine ⟨?_, ?_, ?_⟩
  · rw [tokens_join _ hp, chordKeys_names names [] hn (by simpa using h8)]
    rfl
  · match names, h2 with
    | a :: b :: r, _ =>
      show (43 : UInt8) ∈ a.1 ++ 43 :: plusJoin (b.1 :: r.map Prod.fst)
      simp
  · match names, h2 with
    | a :: b :: r, _ => exact fun h => by cases h

theorem ChordText.inj {key : Str} {codes codes' : List Code} (h : ChordText key codes) (h' : ChordText key codes') : codes = codes' := by
  have e := h.keys.1
  rw [h'.keys.1] at e
  injection e with e
  exact e.symm

/-- What a chord line does to the chords of its layer: `codes = d`. -/
def upsert (codes : List Code) (d : Desc) (chords : List Chord) : List Chord :=
  match lookupChord codes chords 0 with
  | some i => chords.modify i (fun ch => { ch with d := d })
  | none => chords ++ [⟨codes, d⟩]

/-- One line: the chords stay, or the line is put among them. -/
inductive ChordStep (layer : Str) (b : BindingLine) (chords : List Chord) : List Chord → Prop
  | none : ChordStep layer b chords chords
  | put (d : Desc) (codes : List Code) (hl : layer = b.layer) (hc : chordKeys (tokens 43 b.key) [] = some codes) (hp : (43 : UInt8) ∈ b.key) :
      ChordStep layer b chords (upsert codes d chords)

theorem setChord_step {l l' : Layer} {key : Str} {d : Desc} (h : setChord l key d = some l') :
    ∃ codes, chordKeys (tokens 43 key) [] = some codes ∧ l' = { l with chords := upsert codes d l.chords } := by
  unfold setChord at h
  split at h
  · cases h
  · rename_i codes hc
    refine ⟨codes, hc, ?_⟩
    unfold upsert
    split at h
    · rename_i i hi
      rw [hi]
      injection h with h
      exact h.symm
    · rename_i hi
      rw [hi]
      split at h
      · cases h
      · injection h with h
        exact h.symm

theorem setLayerEntry_chords {c : Config} {l l' : Layer} {key : Str} {d : Desc} (h : setLayerEntry c l key d = some l') :
    l'.chords = l.chords ∨ ((43 : UInt8) ∈ key ∧ ∃ codes, chordKeys (tokens 43 key) [] = some codes ∧ l'.chords = upsert codes d l.chords) := by
  unfold setLayerEntry at h
  by_cases hp : (43 : UInt8) ∈ key
  · rw [if_pos hp] at h
    obtain ⟨codes, h1, h2⟩ := setChord_step h
    exact .inr ⟨hp, codes, h1, by rw [h2]⟩
  · rw [if_neg hp] at h
    left
    split at h
    · injection h with h
      rw [← h]
    · dsimp only at h
      split at h
      · cases h
      · injection h with h
        rw [← h]

theorem chord_line {c c' : Config} (hw : WF c) {b : BindingLine} (hb : b.Plain) {ok : Bool}
    (run : configAddEntry c (b.text.take 511) = .ok (c', ok)) {i : Nat} {l : Layer} (hl : c.layers[i]? = some l) :
    ∃ l', c'.layers[i]? = some l' ∧ l'.name = l.name ∧ ChordStep l.name b l.chords l'.chords ∧
      (∀ codes c1 d, l.name = b.layer → (43 : UInt8) ∈ b.key → chordKeys (tokens 43 b.key) [] = some codes →
        parseDescriptor c b.action = .ok (c1, some d) → (lookupChord codes l.chords 0).isSome = true ∨ l.chords.length < 64 →
        l'.chords = upsert codes d l.chords ∧ Grown c1 c') := by
  obtain ⟨e1, e2, e3⟩ := plain_split hb
  rw [e1] at run
  rcases configAddEntry_cases hw run with ⟨h0, h1, h2⟩ | ⟨_, _, idx, l0, l0', c1, d, h1, h2, h3, h4, h5, h6⟩
  · refine ⟨l, by rw [h1]; exact hl, rfl, .none, ?_⟩
    intro codes c1 d hn hplus hc hp room
    exfalso
    unfold configAddEntry at run
    rw [if_neg (by have := hb.short; omega)] at run
    dsimp only at run
    rw [e2, e3, ← hn, layerIndex_of_nodup hw.names hl] at run
    dsimp only [Option.getD_some] at run
    rw [hp, bind_ok] at run
    dsimp only at run
    have hll : c1.layer i = l := layer_of_getElem (by rw [(parseDescriptor_extends hw hp).layers]; exact hl)
    have hset : ∃ l', setLayerEntry c1 (c1.layer i) b.key d = some l' := by
      rw [hll]
      unfold setLayerEntry
      rw [if_pos hplus]
      unfold setChord
      rw [hc]
      dsimp only
      cases hi : lookupChord codes l.chords 0 with
      | some j => exact ⟨_, rfl⟩
      | none =>
        rw [hi] at room
        dsimp only
        rw [if_neg (by rcases room with h | h; cases h; omega)]
        exact ⟨_, rfl⟩
    obtain ⟨l', hl'⟩ := hset
    rw [hl'] at run
    dsimp only at run
    injection run with run
    injection run with _ r2
    rw [h0] at r2
    cases r2
  · rw [e2] at h1
    rw [e3] at h3 h4
    dsimp only [Option.getD_some] at h3
    have hname : l0.name = b.layer := by
      obtain ⟨l2, g1, g2⟩ := layerIndex_some h1
      rw [h2] at g1
      cases g1
      exact g2
    have hlt : idx < c.layers.length := (List.getElem?_eq_some_iff.1 h2).1
    have hget : ∀ i, c'.layers[i]? = if idx = i then some l0' else c.layers[i]? := by
      intro i
      rw [h5]
      show (c.layers.set idx l0')[i]? = _
      rw [List.getElem?_set]
      by_cases hi : idx = i
      · rw [if_pos hi, if_pos hi, if_pos hlt]
      · rw [if_neg hi, if_neg hi]
    by_cases hi : idx = i
    · subst hi
      rw [h2] at hl
      cases hl
      refine ⟨l0', by rw [hget, if_pos rfl], (setLayerEntry_same h4).1, ?_, ?_⟩
      · rcases setLayerEntry_chords h4 with h | ⟨hp, codes, hc, h⟩
        · rw [h]; exact .none
        · rw [h]; exact .put d codes hname hc hp
      · intro codes c2 d2 _ hplus hc hp _
        rw [hp] at h3
        injection h3 with h3
        injection h3 with e4 e5
        injection e5 with e5
        subst e4
        subst e5
        refine ⟨?_, ?_⟩
        · unfold setLayerEntry at h4
          rw [if_pos hplus] at h4
          obtain ⟨codes', g1, g2⟩ := setChord_step h4
          rw [hc] at g1
          injection g1 with g1
          rw [g2, g1]
        · refine ⟨?_, ?_, ?_, ?_, ?_⟩
          · rw [h5]; exact List.prefix_refl _
          · rw [h5]; exact List.prefix_refl _
          · rw [h5]; exact List.prefix_refl _
          · rw [h5]
          · rw [h6.layers, ← (bind_line hw hb (by rw [e1]; exact run)).2.1.shape]
    · refine ⟨l, by rw [hget, if_neg hi]; exact hl, rfl, .none, ?_⟩
      intro codes c2 d2 hn _ _ _ _
      exfalso
      have := layerIndex_of_nodup hw.names hl
      rw [hn, h1] at this
      injection this with this
      exact hi this

/-! ### The list of chords of a layer -/

/-- All these keys belong to the chord. -/
def Chord.covers (ch : Chord) (codes : List Code) : Prop := ∀ x ∈ codes, x ∈ ch.keys

theorem filter_all {codes : List Code} {p : Code → Bool} (h : (codes.filter p).length = codes.length) : ∀ x ∈ codes, p x = true := by
  induction codes with
  | nil => intro x hx; cases hx
  | cons a as ih =>
    by_cases ha : p a = true
    · rw [List.filter_cons_of_pos ha] at h
      simp only [List.length_cons, Nat.add_right_cancel_iff] at h
      intro x hx
      rcases List.mem_cons.1 hx with rfl | hx
      · exact ha
      · exact ih h x hx
    · rw [List.filter_cons_of_neg ha] at h
      have := List.length_filter_le p as
      simp only [List.length_cons] at h
      omega

theorem lookupChord_spec (codes : List Code) : ∀ (chords : List Chord) (n : Nat),
    match lookupChord codes chords n with
    | some i => ∃ pre ch post, chords = pre ++ ch :: post ∧ i = n + pre.length ∧ ch.covers codes ∧ ∀ p ∈ pre, ¬ p.covers codes
    | none => ∀ p ∈ chords, ¬ p.covers codes
  | [], n => by intro p hp; cases hp
  | ch :: rest, n => by
    unfold lookupChord
    by_cases h : (codes.filter (fun k => ch.keys.contains k)).length = codes.length
    · rw [if_pos h]
      refine ⟨[], ch, rest, rfl, rfl, fun x hx => ?_, by intro p hp; cases hp⟩
      have := filter_all h x hx
      simpa using this
    · rw [if_neg h]
      have hn : ¬ ch.covers codes := by
        intro hc
        apply h
        rw [List.filter_eq_self.2 (fun x hx => by simpa using hc x hx)]
      have := lookupChord_spec codes rest (n+1)
      split at this
      · rename_i i hi
        obtain ⟨pre, ch', post, e1, e2, e3, e4⟩ := this
        refine ⟨ch :: pre, ch', post, by rw [e1]; rfl, by simp only [List.length_cons]; omega, e3, ?_⟩
        intro p hp
        rcases List.mem_cons.1 hp with rfl | hp
        · exact hn
        · exact e4 p hp
      · rename_i hi
        intro p hp
        rcases List.mem_cons.1 hp with rfl | hp
        · exact hn
        · exact this p hp

theorem upsert_cases (codes : List Code) (d : Desc) (chords : List Chord) :
    (∃ pre ch post, chords = pre ++ ch :: post ∧ ch.covers codes ∧ upsert codes d chords = pre ++ { ch with d := d } :: post) ∨
    ((∀ p ∈ chords, ¬ p.covers codes) ∧ upsert codes d chords = chords ++ [⟨codes, d⟩]) := by
  have h := lookupChord_spec codes chords 0
  unfold upsert
  split at h
  · rename_i i hi
    obtain ⟨pre, ch, post, e1, e2, e3, _⟩ := h
    left
    refine ⟨pre, ch, post, e1, e3, ?_⟩
    rw [e1, e2, Nat.zero_add, modify_mid]
  · exact .inr ⟨h, rfl⟩

/-- No chord of the list has all its keys among those of an earlier one. -/
def Distinct (chords : List Chord) : Prop := chords.Pairwise (fun a b => ¬ a.covers b.keys)

theorem upsert_distinct {codes : List Code} {d : Desc} {chords : List Chord} (h : Distinct chords) : Distinct (upsert codes d chords) := by
  rcases upsert_cases codes d chords with ⟨pre, ch, post, e1, _, e3⟩ | ⟨e1, e2⟩
  · rw [e3]
    rw [e1] at h
    unfold Distinct at h ⊢
    rw [List.pairwise_append, List.pairwise_cons] at h ⊢
    obtain ⟨h1, ⟨h2, h3⟩, h4⟩ := h
    refine ⟨h1, ⟨h2, h3⟩, ?_⟩
    intro a ha b hb
    rcases List.mem_cons.1 hb with rfl | hb
    · exact h4 a ha ch List.mem_cons_self
    · exact h4 a ha b (List.mem_cons_of_mem _ hb)
  · rw [e2]
    unfold Distinct at h ⊢
    rw [List.pairwise_append]
    refine ⟨h, List.pairwise_singleton _ _, ?_⟩
    intro a ha b hb
    rw [List.mem_singleton.1 hb]
    exact e1 a ha

theorem upsert_keys {codes : List Code} {d : Desc} {chords : List Chord} : ∀ ch' ∈ upsert codes d chords,
    (ch' ∈ chords) ∨ (ch'.d = d ∧ ch'.covers codes ∧ ((∃ ch ∈ chords, ch.keys = ch'.keys) ∨ ch'.keys = codes)) := by
  intro ch' hm
  rcases upsert_cases codes d chords with ⟨pre, ch, post, e1, e2, e3⟩ | ⟨e1, e2⟩
  · rw [e3, List.mem_append, List.mem_cons] at hm
    rw [e1]
    rcases hm with hm | rfl | hm
    · exact .inl (List.mem_append_left _ hm)
    · exact .inr ⟨rfl, e2, .inl ⟨ch, List.mem_append_right _ List.mem_cons_self, rfl⟩⟩
    · exact .inl (List.mem_append_right _ (List.mem_cons_of_mem _ hm))
  · rw [e2, List.mem_append, List.mem_singleton] at hm
    rcases hm with hm | rfl
    · exact .inl hm
    · exact .inr ⟨rfl, fun x hx => hx, .inr rfl⟩

theorem upsert_keep {codes : List Code} {d : Desc} {chords : List Chord} : ∀ ch ∈ chords, ¬ ch.covers codes → ch ∈ upsert codes d chords := by
  intro ch hm hn
  rcases upsert_cases codes d chords with ⟨pre, ch', post, e1, e2, e3⟩ | ⟨_, e2⟩
  · rw [e3]
    rw [e1, List.mem_append, List.mem_cons] at hm
    rcases hm with hm | rfl | hm
    · exact List.mem_append_left _ hm
    · exact (hn e2).elim
    · exact List.mem_append_right _ (List.mem_cons_of_mem _ hm)
  · rw [e2]
    exact List.mem_append_left _ hm

theorem upsert_length {codes : List Code} {d : Desc} {chords : List Chord} : chords.length ≤ (upsert codes d chords).length := by
  rcases upsert_cases codes d chords with ⟨pre, ch', post, e1, e2, e3⟩ | ⟨_, e2⟩
  · rw [e3, e1]; simp
  · rw [e2]; simp

theorem upsert_put {codes : List Code} {d : Desc} {chords : List Chord} (h : ∀ ch ∈ chords, ch.covers codes → ∀ x ∈ ch.keys, x ∈ codes) :
    ∃ ch ∈ upsert codes d chords, ch.madeOf codes ∧ ch.d = d := by
  rcases upsert_cases codes d chords with ⟨pre, ch, post, e1, e2, e3⟩ | ⟨_, e2⟩
  · refine ⟨{ ch with d := d }, by rw [e3]; simp, fun x => ⟨?_, e2 x⟩, rfl⟩
    exact h ch (by rw [e1]; simp) e2 x
  · exact ⟨⟨codes, d⟩, by rw [e2]; simp, fun x => Iff.rfl, rfl⟩

theorem distinct_unique {chords : List Chord} (h : Distinct chords) {codes : List Code} : ∀ a ∈ chords, ∀ b ∈ chords,
    a.madeOf codes → b.madeOf codes → a = b := by
  unfold Distinct at h
  induction chords with
  | nil => intro a ha; cases ha
  | cons ch rest ih =>
    rw [List.pairwise_cons] at h
    intro a ha b hb h1 h2
    rcases List.mem_cons.1 ha with ea | ha' <;> rcases List.mem_cons.1 hb with eb | hb'
    · rw [ea, eb]
    · exact (h.1 b hb' (fun x hx => by rw [← ea]; exact (h1 x).2 ((h2 x).1 hx))).elim
    · exact (h.1 a ha' (fun x hx => by rw [← eb]; exact (h2 x).2 ((h1 x).1 hx))).elim
    · exact ih h.2 a ha' b hb' h1 h2

/-! ### A run of binding lines -/

/-- The binding line is a chord line of the layer, naming these keys. -/
def BindingLine.chordOf (b : BindingLine) (layer : Str) (codes : List Code) : Prop :=
  b.layer = layer ∧ (43 : UInt8) ∈ b.key ∧ chordKeys (tokens 43 b.key) [] = some codes

structure ChordRun (bs : List BindingLine) (layer : Str) (chords chords' : List Chord) : Prop where
  length : chords.length ≤ chords'.length
  distinct : Distinct chords → Distinct chords'
  keys : ∀ ch' ∈ chords', (∃ ch ∈ chords, ch.keys = ch'.keys) ∨ ∃ b ∈ bs, b.chordOf layer ch'.keys
  keep : ∀ ch ∈ chords, (∀ b ∈ bs, ∀ codes, b.chordOf layer codes → ¬ ch.covers codes) → ch ∈ chords'

theorem ChordStep.run {b : BindingLine} {layer : Str} {chords chords' : List Chord} (h : ChordStep layer b chords chords') :
    ChordRun [b] layer chords chords' := by
  cases h with
  | none => exact ⟨Nat.le_refl _, id, fun ch hch => .inl ⟨ch, hch, rfl⟩, fun ch hch _ => hch⟩
  | put d codes hl hc hp =>
    refine ⟨upsert_length, upsert_distinct, ?_, ?_⟩
    · intro ch' hm
      rcases upsert_keys ch' hm with h | ⟨_, _, h | h⟩
      · exact .inl ⟨ch', h, rfl⟩
      · exact .inl h
      · exact .inr ⟨b, List.mem_singleton_self _, hl.symm, hp, by rw [h]; exact hc⟩
    · intro ch hm hk
      exact upsert_keep ch hm (hk b (List.mem_singleton_self _) codes ⟨hl.symm, hp, hc⟩)

theorem ChordRun.trans {xs ys : List BindingLine} {layer : Str} {a b c : List Chord} (h : ChordRun xs layer a b) (h' : ChordRun ys layer b c) :
    ChordRun (xs ++ ys) layer a c := by
  refine ⟨Nat.le_trans h.length h'.length, fun x => h'.distinct (h.distinct x), ?_, ?_⟩
  · intro ch' hm
    rcases h'.keys ch' hm with ⟨ch, h1, h2⟩ | ⟨b, h1, h2⟩
    · rcases h.keys ch h1 with ⟨ch2, h3, h4⟩ | ⟨b, h3, h4⟩
      · exact .inl ⟨ch2, h3, h4.trans h2⟩
      · exact .inr ⟨b, List.mem_append_left _ h3, by rw [← h2]; exact h4⟩
    · exact .inr ⟨b, List.mem_append_right _ h1, h2⟩
  · intro ch hm hk
    exact h'.keep ch (h.keep ch hm (fun b hb => hk b (List.mem_append_left _ hb))) (fun b hb => hk b (List.mem_append_right _ hb))

theorem chord_lines : ∀ (bs : List BindingLine) {c c' : Config}, WF c → (∀ b ∈ bs, b.Plain) → bindLines c bs = .ok c' →
    ∀ (i : Nat) (l : Layer), c.layers[i]? = some l → ∃ l' : Layer, c'.layers[i]? = some l' ∧ l'.name = l.name ∧ ChordRun bs l.name l.chords l'.chords
  | [], c, c', _, _, run, i, l, hl => by
    injection run with run
    subst run
    exact ⟨l, hl, rfl, Nat.le_refl _, id, fun ch hch => .inl ⟨ch, hch, rfl⟩, fun ch hch _ => hch⟩
  | b :: bs, c, c', hw, hp, run, i, l, hl => by
    rw [bindLines_cons, bind_eq_ok] at run
    obtain ⟨⟨c1, ok⟩, h1, run⟩ := run
    obtain ⟨w1, _⟩ := bind_line hw (hp b List.mem_cons_self) h1
    obtain ⟨l1, e1, e2, e3, _⟩ := chord_line hw (hp b List.mem_cons_self) h1 hl
    obtain ⟨l2, f1, f2, f3⟩ := chord_lines bs w1 (fun b hb => hp b (List.mem_cons_of_mem _ hb)) run i l1 e1
    refine ⟨l2, f1, f2.trans e2, ?_⟩
    rw [e2] at f3
    exact e3.run.trans f3

/-! ### The first pass opens no chords -/

def Chordfree (c : Config) : Prop := ∀ l ∈ c.layers, l.chords = []

theorem Chordfree.of_layers {c c' : Config} (hc : Chordfree c) (h : c'.layers = c.layers) : Chordfree c' := by
  unfold Chordfree; rw [h]; exact hc

theorem entries_chordfree {f : Config → IniEntry → Res Config}
    (F : Config → List IniEntry → Res Config) (hF0 : ∀ c, F c [] = .ok c)
    (hF1 : ∀ c e es, F c (e :: es) = (f c e >>= fun c => F c es))
    (hf : ∀ c e, Chordfree c → Sat (f c e) (fun c' => Chordfree c') (fun _ => True)) :
    ∀ (es : List IniEntry) (c : Config), Chordfree c → Sat (F c es) (fun c' => Chordfree c') (fun _ => True)
  | [], c, h => by rw [hF0]; exact h
  | e :: es, c, h => by
    rw [hF1]
    exact Sat.bind (hf c e h) (fun c1 h1 => entries_chordfree F hF0 hF1 hf es c1 h1)

theorem aliasEntry_chordfree (c : Config) (e : IniEntry) (h : Chordfree c) : Sat (aliasEntry c e) (fun c' => Chordfree c') (fun _ => True) := by
  unfold aliasEntry
  dsimp only
  refine Sat.ite (fun _ => h) (fun _ => ?_)
  cases hv : e.val with
  | none => exact trivial
  | some v =>
    dsimp only
    refine Sat.ite (fun _ => h) (fun _ => ?_)
    by_cases hz : lookupKeycode v = 0
    · rw [if_pos hz]
      exact h.of_layers rfl
    · rw [if_neg hz]
      intro l hl
      rcases List.mem_modify' hl with hl | ⟨l0, h0, rfl⟩
      · exact h l hl
      · exact h l0 h0

theorem passOne_chordfree : ∀ (ss : List IniSection) (c : Config), Chordfree c →
    Sat (passOne c ss) (fun c' => Chordfree c') (fun _ => True)
  | [], c, h => h
  | s :: ss, c, h => by
    unfold passOne
    refine Sat.bind (Q := fun c' => Chordfree c') ?_ (fun c1 h1 => passOne_chordfree ss c1 h1)
    refine Sat.ite (fun _ => ?_) (fun _ => Sat.ite (fun ha => ?_) (fun _ => Sat.ite (fun _ => ?_) (fun _ => ?_)))
    · exact entries_chordfree parseIdSection (fun _ => rfl) (fun _ _ _ => rfl)
        (fun c e h => (idEntry_layers c e).imp (fun _ h' => h.of_layers h')) s.entries c h
    · exact entries_chordfree parseAliasSection (fun _ => rfl) (fun _ _ _ => rfl) aliasEntry_chordfree s.entries c h
    · exact entries_chordfree parseGlobalSection (fun _ => rfl) (fun _ _ _ => rfl)
        (fun c e h => (globalEntry_layers c e).imp (fun _ h' => h.of_layers h')) s.entries c h
    · refine Sat.bind (Q := fun r => Chordfree r.1) ?_ (fun r h => by obtain ⟨c2, ok⟩ := r; exact h)
      unfold configAddLayer
      refine Sat.ite (fun _ => h) (fun _ => ?_)
      dsimp only
      refine Sat.ite (fun _ => h) (fun _ => ?_)
      refine Sat.ite (fun _ => h) (fun _ => ?_)
      refine Sat.bind (newLayer_blank c s.name) ?_
      intro r hr
      cases r with
      | none => exact h
      | some l =>
        intro l' hl'
        rcases List.mem_append.1 hl' with hl' | hl'
        · exact h l' hl'
        · rw [List.mem_singleton.1 hl']
          exact (hr l rfl).2.1

theorem initChordfree : (match configInit with | .ok c => c.layers.all (fun l => l.chords.isEmpty) | .error _ => false) = true := by
  decide +kernel

theorem parse_chordfree {text : Str} {c : Config} (run : configParse text = .ok (some c)) :
    ∃ ss c1, iniParseString text = .ok (some ss) ∧ WF c1 ∧ Chordfree c1 ∧ bindLines c1 (bindingLines ss) = .ok c := by
  obtain ⟨c0, h0, hw, _⟩ := configInit_defaults
  have hf := initChordfree
  rw [h0] at hf
  dsimp only at hf
  have hf0 : Chordfree c0 := by
    intro l hl
    have := List.all_eq_true.1 hf l hl
    simpa using this
  unfold configParse at run
  rw [h0, bind_ok] at run
  unfold configParseString at run
  rw [bind_eq_ok] at run
  obtain ⟨r, hr, run⟩ := run
  cases r with
  | none => cases run
  | some ss =>
    dsimp only at run
    rw [bind_eq_ok] at run
    obtain ⟨c1, h1, run⟩ := run
    rw [bind_eq_ok] at run
    obtain ⟨c2, h2, run⟩ := run
    injection run with run
    injection run with run
    subst run
    rw [passTwo_lines] at h2
    exact ⟨ss, c1, hr, (passOne_sat ss hw).of_ok h1, (passOne_chordfree ss c0 hf0).of_ok h1, h2⟩

theorem grown_layer {c c' : Config} (g : Grown c c') {i : Nat} {l' : Layer} (hl : c'.layers[i]? = some l') :
    ∃ l, c.layers[i]? = some l ∧ l.name = l'.name := by
  have := congrArg (fun y => y[i]?) g.names
  simp only [List.getElem?_map, hl, Option.map_some] at this
  cases hc : c.layers[i]? with
  | none => rw [hc] at this; cases this
  | some l =>
    rw [hc] at this
    simp only [Option.map_some, Option.some.injEq] at this
    exact ⟨l, rfl, this.symm⟩

/-- C67. Every chord of a layer is the chord of some line of the layer's sections. -/
theorem C67_only (text : Str) (c : Config) (run : configParse text = .ok (some c))
    (ss : List IniSection) (hini : iniParseString text = .ok (some ss)) (hplain : ∀ b ∈ bindingLines ss, b.Plain)
    (i : Nat) (l : Layer) (hl : c.layers[i]? = some l)
    (hform : ∀ b ∈ bindingLines ss, b.layer = l.name → (43 : UInt8) ∈ b.key → ∃ codes, ChordText b.key codes) :
    (∀ ch ∈ l.chords, ∃ b ∈ bindingLines ss, b.layer = l.name ∧ ChordText b.key ch.keys) ∧
    (∀ a ∈ l.chords, ∀ b ∈ l.chords, (∀ x, x ∈ a.keys ↔ x ∈ b.keys) → a = b) := by
  obtain ⟨ss', c1, h1, hw, hf, hb⟩ := parse_chordfree run
  rw [hini] at h1
  injection h1 with h1
  injection h1 with h1
  subst h1
  obtain ⟨_, g, _⟩ := bind_lines _ hw hplain hb
  obtain ⟨l1, hl1, hn⟩ := grown_layer g hl
  obtain ⟨l', e1, e2, e3⟩ := chord_lines _ hw hplain hb i l1 hl1
  rw [hl] at e1
  cases e1
  have he : l1.chords = [] := hf l1 (List.mem_of_getElem? hl1)
  rw [he] at e3
  refine ⟨fun ch hch => ?_, fun a ha b hb hab => distinct_unique (e3.distinct List.Pairwise.nil) a ha b hb (codes := b.keys) hab (fun _ => Iff.rfl)⟩
  rcases e3.keys ch hch with ⟨_, h, _⟩ | ⟨b, h1, h2, h3, h4⟩
  · cases h
  · obtain ⟨codes, hc⟩ := hform b h1 (h2.trans hn) h3
    refine ⟨b, h1, h2.trans hn, ?_⟩
    have := hc.keys.1
    rw [h4] at this
    injection this with this
    rw [this]
    exact hc

/-- C67, for the chord lines that do not fall foul of a bigger or smaller chord of the layer: if no earlier chord line of the layer
names all the keys of this one and more, and no later one names only keys of this one, then the layer has exactly one chord made
of these keys and it stands for the line's action. (Without these conditions it is false: `C67_fails_subset`.) -/
theorem C67_chord_line_partial (text : Str) (c : Config) (run : configParse text = .ok (some c))
    (ss : List IniSection) (hini : iniParseString text = .ok (some ss)) (hplain : ∀ b ∈ bindingLines ss, b.Plain)
    (before after : List BindingLine) (b : BindingLine) (hlines : bindingLines ss = before ++ b :: after)
    (codes : List Code) (hkey : ChordText b.key codes)
    (hform : ∀ b' ∈ bindingLines ss, b'.layer = b.layer → (43 : UInt8) ∈ b'.key → ∃ codes', ChordText b'.key codes')
    (hbefore : ∀ b' ∈ before, b'.layer = b.layer → ∀ codes', ChordText b'.key codes' → (∀ x ∈ codes, x ∈ codes') → ∀ x ∈ codes', x ∈ codes)
    (hafter : ∀ b' ∈ after, b'.layer = b.layer → ∀ codes', ChordText b'.key codes' → ∃ x ∈ codes', x ∉ codes)
    (i : Nat) (l : Layer) (hl : c.layers[i]? = some l) (hname : l.name = b.layer) (hroom : l.chords.length < 64)
    (a : Action) (ha : Writes b.action a) (hu : Utf8 b.action) (hr : a.resolves c) (hf : a.fits c) :
    ∃ ch ∈ l.chords, ch.madeOf codes ∧ StandsFor c ch.d a ∧ ∀ ch' ∈ l.chords, ch'.madeOf codes → ch' = ch := by
  obtain ⟨ss', c1, h1, hw1, hfree, h2⟩ := parse_chordfree run
  rw [hini] at h1
  injection h1 with h1
  injection h1 with h1
  subst h1
  rw [hlines] at hplain hform
  rw [hlines, bindLines_append, bind_eq_ok] at h2
  obtain ⟨cm, h2, h3⟩ := h2
  have hpb : ∀ x ∈ before, x.Plain := fun b hb => hplain b (List.mem_append_left _ hb)
  have hpa : ∀ x ∈ after, x.Plain := fun b hb => hplain b (List.mem_append_right _ (List.mem_cons_of_mem _ hb))
  have hbp := hplain b (List.mem_append_right _ List.mem_cons_self)
  obtain ⟨wm, gm, _⟩ := bind_lines before hw1 hpb h2
  rw [bindLines_cons, bind_eq_ok] at h3
  obtain ⟨⟨cn, ok⟩, h3, h4⟩ := h3
  obtain ⟨wn, gn, _, _⟩ := bind_line wm hbp h3
  obtain ⟨_, ge, _⟩ := bind_lines after wn hpa h4
  have gmc := gn.trans ge
  obtain ⟨l1, hl1, hn1⟩ := grown_layer (gm.trans gmc) hl
  obtain ⟨lm, hlm, hnm, rm⟩ := chord_lines before hw1 hpb h2 i l1 hl1
  obtain ⟨ln, hln, hnn, sn, pn⟩ := chord_line wm hbp h3 hlm
  obtain ⟨le, hle, hne, re⟩ := chord_lines after wn hpa h4 i ln hln
  rw [hl] at hle
  cases hle
  have name1 : l1.name = b.layer := hn1.trans hname
  have namem : lm.name = b.layer := hnm.trans name1
  have namen : ln.name = b.layer := hnn.trans namem
  have he : l1.chords = [] := hfree l1 (List.mem_of_getElem? hl1)
  rw [he, name1] at rm
  obtain ⟨k1, k2, k3⟩ := hkey.keys
  -- the action
  have hshort : b.action.length < 512 := by
    have := hbp.short
    unfold BindingLine.text at this
    simp at this
    omega
  have hfit : a.fits cm := by
    obtain ⟨f1, f2, f3⟩ := hf
    have l1 := gmc.descs.length_le
    have l2 := gmc.macros.length_le
    have l3 := gmc.commands.length_le
    exact ⟨by omega, by omega, by omega⟩
  obtain ⟨c', d, hpd, hs, _⟩ := C56_actions b.action a ha hu hshort cm ((resolves_grown gmc).1 hr) hfit
  have hroom' : lm.chords.length < 64 := by
    have := sn.run.length
    have := re.length
    omega
  obtain ⟨e1, e2⟩ := pn codes c' d namem k2 k1 hpd (.inr hroom')
  have hput : ∃ ch ∈ ln.chords, ch.madeOf codes ∧ ch.d = d := by
    rw [e1]
    refine upsert_put (fun ch hch hcov x hx => ?_)
    rcases rm.keys ch hch with ⟨_, h, _⟩ | ⟨b', h1, h2, h3, h4⟩
    · cases h
    · obtain ⟨codes', hc⟩ := hform b' (List.mem_append_left _ h1) h2 h3
      have e := hc.keys.1
      rw [h4] at e
      injection e with e
      rw [← e] at hc
      exact hbefore b' h1 h2 ch.keys hc hcov x hx
  obtain ⟨ch, hch, hmade, hd⟩ := hput
  have hin : ch ∈ l.chords := by
    refine re.keep ch hch (fun b' hb' codes' h hcov => ?_)
    obtain ⟨h2, h3, h4⟩ := h
    rw [namen] at h2
    obtain ⟨codes2, hc⟩ := hform b' (List.mem_append_right _ (List.mem_cons_of_mem _ hb')) h2 h3
    have e := hc.keys.1
    rw [h4] at e
    injection e with e
    rw [← e] at hc
    obtain ⟨x, hx, hnx⟩ := hafter b' hb' h2 codes' hc
    exact hnx ((hmade x).1 (hcov x hx))
  refine ⟨ch, hin, hmade, by rw [hd]; exact hs.grown (e2.trans ge), fun ch' h1 h2 => ?_⟩
  exact distinct_unique (re.distinct (sn.run.distinct (rm.distinct List.Pairwise.nil))) ch' h1 ch hin h2 hmade

/-! ### Examples -/

def chordDocText : Str := b!"[ids]\n*\n[main]\nj+k = esc\nl+k+j = z\nx+y = b\n[nav]\nj+k = x\n"

def chordDoc : Config :=
  match configParse chordDocText with
  | .ok (some c) => c
  | _ => {}

def chordDocSections : List IniSection :=
  match iniParseString chordDocText with
  | .ok (some ss) => ss
  | _ => []

def chordDocLines : List BindingLine :=
  [⟨b!"main", b!"j+k", b!"esc"⟩, ⟨b!"main", b!"l+k+j", b!"z"⟩, ⟨b!"main", b!"x+y", b!"b"⟩, ⟨b!"nav", b!"j+k", b!"x"⟩]

def BindingLine.triple (b : BindingLine) : Str × Str × Str := (b.layer, b.key, b.action)

theorem triple_inj : ∀ (xs ys : List BindingLine), xs.map BindingLine.triple = ys.map BindingLine.triple → xs = ys
  | [], [], _ => rfl
  | [], _ :: _, h => by cases h
  | _ :: _, [], h => by cases h
  | ⟨a, b, c⟩ :: xs, ⟨a', b', c'⟩ :: ys, h => by
    simp only [List.map_cons, List.cons.injEq, BindingLine.triple, Prod.mk.injEq] at h
    obtain ⟨⟨rfl, rfl, rfl⟩, h⟩ := h
    rw [triple_inj xs ys h]

set_option maxRecDepth 100000 in
theorem chordDoc_checks :
    (match configParse chordDocText with | .ok (some _) => true | _ => false) = true ∧
    (match iniParseString chordDocText with | .ok (some _) => true | _ => false) = true ∧
    (bindingLines chordDocSections).map BindingLine.triple = chordDocLines.map BindingLine.triple ∧
    chordDocLines.all BindingLine.plainB = true ∧
    (chordDoc.layers[0]?.map fun l => (l.name, l.chords.map (fun ch => (ch.keys, ch.d)))) =
      some (b!"main", [([36, 37], .keyseq 1 0), ([38, 37, 36], .keyseq 44 0), ([45, 21], .keyseq 48 0)]) ∧
    chordDoc.descriptors.length = 0 ∧ chordDoc.macros.length = 0 ∧ chordDoc.commands.length = 0 := by
  decide +kernel

theorem chordDoc_parses : configParse chordDocText = .ok (some chordDoc) := by
  have h := chordDoc_checks.1
  unfold chordDoc
  split at h
  · rename_i c hc; rw [hc]
  · cases h

theorem chordDoc_ini : iniParseString chordDocText = .ok (some chordDocSections) := by
  have h := chordDoc_checks.2.1
  unfold chordDocSections
  split at h
  · rename_i c hc; rw [hc]
  · cases h

theorem chordText_jk : ChordText b!"j+k" [36, 37] := ⟨[(b!"j", 36), (b!"k", 37)], by decide, rfl, by decide, by decide, by decide +kernel⟩
theorem chordText_lkj : ChordText b!"l+k+j" [38, 37, 36] :=
  ⟨[(b!"l", 38), (b!"k", 37), (b!"j", 36)], by decide, rfl, by decide, by decide, by decide +kernel⟩
theorem chordText_xy : ChordText b!"x+y" [45, 21] := ⟨[(b!"x", 45), (b!"y", 21)], by decide, rfl, by decide, by decide, by decide +kernel⟩

/-- The hypotheses of `C67_chord_line_partial` hold of this document and its line `j+k = esc`. -/
example : ∃ (after : List BindingLine) (b : BindingLine) (l : Layer) (a : Action),
    configParse chordDocText = .ok (some chordDoc) ∧ iniParseString chordDocText = .ok (some chordDocSections) ∧
    (∀ b ∈ bindingLines chordDocSections, b.Plain) ∧ bindingLines chordDocSections = [] ++ b :: after ∧ after.length = 3 ∧
    ChordText b.key [36, 37] ∧
    (∀ b' ∈ bindingLines chordDocSections, b'.layer = b.layer → (43 : UInt8) ∈ b'.key → ∃ codes', ChordText b'.key codes') ∧
    (∀ b' ∈ after, b'.layer = b.layer → ∀ codes', ChordText b'.key codes' → ∃ x ∈ codes', x ∉ [(36 : Code), 37]) ∧
    chordDoc.layers[0]? = some l ∧ l.name = b.layer ∧ l.chords.length < 64 ∧
    Writes b.action a ∧ Utf8 b.action ∧ a.resolves chordDoc ∧ a.fits chordDoc := by
  obtain ⟨_, _, h3, h4, h5, h6, h7, h8⟩ := chordDoc_checks
  have hl := triple_inj _ _ h3
  obtain ⟨l, hl0, e⟩ : ∃ l, chordDoc.layers[0]? = some l ∧ (l.name, l.chords.map (fun ch => (ch.keys, ch.d))) =
      (b!"main", [([36, 37], Desc.keyseq 1 0), ([38, 37, 36], .keyseq 44 0), ([45, 21], .keyseq 48 0)]) := by
    cases h : chordDoc.layers[0]? with
    | none => rw [h] at h5; cases h5
    | some l => rw [h] at h5; exact ⟨l, rfl, by injection h5⟩
  injection e with e1 e2
  have hlen := congrArg List.length e2
  rw [List.length_map] at hlen
  refine ⟨chordDocLines.tail, ⟨b!"main", b!"j+k", b!"esc"⟩, l, .keys 1 0, chordDoc_parses, chordDoc_ini, ?_, by rw [hl]; rfl, rfl,
    chordText_jk, ?_, ?_, hl0, e1, by rw [hlen]; decide, ?_, Utf8.all_ascii (by decide), trivial, ?_⟩
  · rw [hl]
    intro b hb
    exact BindingLine.plain_of_check (List.all_eq_true.1 h4 b hb)
  · rw [hl]
    intro b hb _ _
    simp only [chordDocLines, List.mem_cons, List.not_mem_nil, or_false] at hb
    rcases hb with rfl | rfl | rfl | rfl
    · exact ⟨_, chordText_jk⟩
    · exact ⟨_, chordText_lkj⟩
    · exact ⟨_, chordText_xy⟩
    · exact ⟨_, chordText_jk⟩
  · intro b hb hbl codes hc
    simp only [chordDocLines, List.tail_cons, List.mem_cons, List.not_mem_nil, or_false] at hb
    rcases hb with rfl | rfl | rfl
    · rw [hc.inj chordText_lkj]; exact ⟨38, by decide, by decide⟩
    · rw [hc.inj chordText_xy]; exact ⟨45, by decide, by decide⟩
    · exact absurd hbl (by decide)
  · refine .keys ⟨[], 0, b!"esc", false, .nil, by decide +kernel, rfl, rfl⟩ ?_
    intro n hn
    simp only [bareModifiers, List.mem_cons, List.not_mem_nil, or_false, Prod.mk.injEq] at hn
    rcases hn with ⟨h, _⟩ | ⟨h, _⟩ | ⟨h, _⟩ | ⟨h, _⟩ | ⟨h, _⟩ <;> revert h <;> decide
  · refine ⟨?_, ?_, ?_⟩
    · rw [h6]; decide
    · rw [h7]; decide
    · rw [h8]; decide

/-- Written after a bigger chord, the line of a smaller one changes the bigger one's action and makes no chord of its own
(config.c:203-226, 263-264). -/
theorem C67_fails_subset :
    (match configParse b!"[ids]\n*\n[main]\nl+k+j = z\nj+k = esc\n" with
      | .ok (some c) => (c.layers.head?.map fun l => l.chords.map (fun ch => (ch.keys, ch.d)))
      | _ => none) = some [([38, 37, 36], .keyseq 1 0)] := by
  set_option maxRecDepth 100000 in
  decide +kernel

end Keyd
