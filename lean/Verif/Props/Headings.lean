import Verif.Props.Document
import Verif.Props.Layers

/-
  C65: section headings declare the layers.
-/

set_option autoImplicit false

namespace Keyd

attribute [local irreducible] configInit

/-! ### Specification -/

/-- What a heading declares about a layer: its name, its type, its modifiers, and for a composite layer
the names of the layers it is made of. -/
structure Shape where
  name : Str
  type : LayerType
  mods : UInt8
  parts : List Str
deriving DecidableEq

/-- The layers of a configuration as declared, in order. -/
def Config.shapes (c : Config) : List Shape :=
  c.layers.map fun l => ⟨l.name, l.type, l.mods, l.constituents.map fun i => (c.layer i).name⟩

/-- A name of an ordinary layer: not empty, without colon or plus. -/
def LayerName (s : Str) : Prop := s ≠ [] ∧ (58 : UInt8) ∉ s ∧ (43 : UInt8) ∉ s

/-- Names joined by `+`. -/
def plusJoin : List Str → Str
  | [] => []
  | [s] => s
  | s :: ss => s ++ 43 :: plusJoin ss

/-- The heading between the brackets, and what it declares: `[name]`, `[name:layout]`, `[name:C-A]`, `[a+b]`. An
unknown type is ignored. -/
inductive Heads : Str → Shape → Prop
  | plain {name : Str} (h : LayerName name) : Heads name ⟨name, .normal, 0, []⟩
  | layout {name : Str} (h : LayerName name) : Heads (name ++ b!":layout") ⟨name, .layout, 0, []⟩
  | mods {name t : Str} {m : UInt8} (h : LayerName name) (ht : t ≠ []) (hm : ModsetText t m) :
      Heads (name ++ 58 :: t) ⟨name, .normal, m, []⟩
  | unknown {name t : Str} (h : LayerName name) (ht : t ≠ []) (hc : (58 : UInt8) ∉ t) (hl : t ≠ b!"layout")
      (hm : ∀ m, ¬ ModsetText t m) : Heads (name ++ 58 :: t) ⟨name, .normal, 0, []⟩
  | composite {parts : List Str} (h2 : 2 ≤ parts.length) (h8 : parts.length ≤ 8) (hp : ∀ p ∈ parts, LayerName p) :
      Heads (plusJoin parts) ⟨plusJoin parts, .composite, 0, parts⟩

/-- The layers after one more heading: a name already declared is re-opened, a composite layer must be made
of layers declared before, and there are at most 32 layers. -/
def declare (ls : List Shape) (sh : Shape) : List Shape :=
  if ls.any (fun l => decide (l.name = sh.name)) then ls
  else if ls.length ≥ 32 then ls
  else if sh.parts.all (fun p => ls.any fun l => decide (l.name = p)) then ls ++ [sh]
  else ls

/-- The layers that exist before the first heading. -/
def builtinShapes : List Shape :=
  [⟨b!"main", .layout, 0, []⟩, ⟨b!"control", .normal, MOD_CTRL, []⟩, ⟨b!"shift", .normal, MOD_SHIFT, []⟩,
   ⟨b!"meta", .normal, MOD_SUPER, []⟩, ⟨b!"alt", .normal, MOD_ALT, []⟩, ⟨b!"altgr", .normal, MOD_ALT_GR, []⟩]

/-- The headings of a document that declare layers. -/
def layerHeadings (ss : List IniSection) : List Str :=
  (ss.map (·.name)).filter fun n => !decide (n = b!"ids" ∨ n = b!"aliases" ∨ n = b!"global")

/-! ### Proofs -/

/-- The declared part of a layer. -/
def Layer.raw (l : Layer) : Str × LayerType × UInt8 × List Nat := (l.name, l.type, l.mods, l.constituents)

def Config.raws (c : Config) : List (Str × LayerType × UInt8 × List Nat) := c.layers.map Layer.raw

theorem layer_name (c : Config) (i : Nat) : (c.layer i).name = (c.raws.map (·.1)).getD i [] := by
  unfold Config.layer Config.raws
  rw [List.map_map, List.getD_eq_getElem?_getD, List.getD_eq_getElem?_getD, List.getElem?_map]
  cases c.layers[i]? <;> rfl

theorem shapes_of_raws {c c' : Config} (h : c'.raws = c.raws) : c'.shapes = c.shapes := by
  have e : ∀ c : Config, c.shapes = c.raws.map (fun r => ⟨r.1, r.2.1, r.2.2.1, r.2.2.2.map fun i => (c.raws.map (·.1)).getD i []⟩) := by
    intro c
    unfold Config.shapes
    simp only [layer_name]
    generalize (c.raws.map (·.1)) = ns
    unfold Config.raws
    rw [List.map_map]
    rfl
  rw [e, e, h]

theorem raws_of_same {c c' : Config} (h : SameLayers c c') (hl : c'.layers.length = c.layers.length) : c'.raws = c.raws := by
  unfold Config.raws
  apply List.ext_getElem?
  intro i
  rw [List.getElem?_map, List.getElem?_map]
  cases hi : c.layers[i]? with
  | none =>
    rw [List.getElem?_eq_none_iff] at hi
    rw [List.getElem?_eq_none (by omega)]
  | some l =>
    obtain ⟨l', h1, h2, h3, h4, h5⟩ := h i l hi
    rw [h1]
    simp [Layer.raw, h2, h3, h4, h5]

theorem configAddEntry_raws {c : Config} (hw : WF c) (exp : Str) :
    Sat (configAddEntry c exp) (fun r => WF r.1 ∧ r.1.raws = c.raws) (fun _ => True) := by
  refine ((configAddEntry_same hw exp).and (Q' := fun r => r.1.layers.length = c.layers.length) ?_).imp
    (fun r h => ⟨h.1.1, raws_of_same h.1.2 h.2⟩)
  apply Sat.intro
  rintro ⟨c', ok⟩ run
  rcases configAddEntry_cases hw run with ⟨_, h1, _⟩ | ⟨_, _, idx, l, l', c1, d, h1, h2, h3, h4, h5, h6⟩
  · exact congrArg List.length h1
  · show c'.layers.length = c.layers.length
    rw [h5, List.length_set]

theorem aliasEntry_raws (c : Config) (e : IniEntry) : Sat (aliasEntry c e) (fun c' => c'.raws = c.raws) (fun _ => True) := by
  refine ((aliasEntry_same c e).and (Q' := fun c' => c'.layers.length = c.layers.length) ?_).imp (fun c' h => raws_of_same h.1 h.2)
  unfold aliasEntry
  dsimp only
  split
  · rfl
  · split
    · trivial
    · split
      · rfl
      · show List.length _ = _
        dsimp only
        split
        · rfl
        · simp

theorem foldSections_raws {f : Config → IniEntry → Res Config}
    (F : Config → List IniEntry → Res Config) (hF0 : ∀ c, F c [] = .ok c)
    (hF1 : ∀ c e es, F c (e :: es) = (f c e >>= fun c => F c es))
    (hf : ∀ c e, Sat (f c e) (fun c' => c'.raws = c.raws) (fun _ => True)) :
    ∀ (es : List IniEntry) (c : Config), Sat (F c es) (fun c' => c'.raws = c.raws) (fun _ => True)
  | [], c => by rw [hF0]; exact rfl
  | e :: es, c => by
    rw [hF1]
    exact Sat.bind (hf c e) (fun c1 h1 => (foldSections_raws F hF0 hF1 hf es c1).imp (fun c2 h2 => h2.trans h1))

theorem raws_of_layers {c c' : Config} (h : c'.layers = c.layers) : c'.raws = c.raws := by
  unfold Config.raws; rw [h]

theorem sectionEntries_raws (n : Str) : ∀ (es : List IniEntry) (c : Config), WF c →
    Sat (sectionEntries n c es) (fun c' => WF c' ∧ c'.raws = c.raws) (fun _ => True)
  | [], c, hw => ⟨hw, rfl⟩
  | e :: es, c, hw => by
    unfold sectionEntries
    split
    · exact sectionEntries_raws n es c hw
    · exact Sat.bind (configAddEntry_raws hw _) (fun r hr =>
        (sectionEntries_raws n es r.1 hr.1).imp (fun c2 h2 => ⟨h2.1, h2.2.trans hr.2⟩))

theorem passTwo_raws : ∀ (ss : List IniSection) (c : Config), WF c →
    Sat (passTwo c ss) (fun c' => WF c' ∧ c'.raws = c.raws) (fun _ => True)
  | [], c, hw => ⟨hw, rfl⟩
  | s :: ss, c, hw => by
    unfold passTwo
    refine Sat.bind (Q := fun c' => WF c' ∧ c'.raws = c.raws) ?_
      (fun c1 h => ((passTwo_raws ss c1 h.1).imp (fun c2 h2 => ⟨h2.1, h2.2.trans h.2⟩)))
    split
    · exact ⟨hw, rfl⟩
    · exact sectionEntries_raws _ _ _ hw

/-! Splitting headings. -/

theorem tokens_cons (d : UInt8) (s rest : Str) (hs : s ≠ []) (hd : d ∉ s) : tokens d (s ++ d :: rest) = s :: tokens d rest := by
  have gen : ∀ (s cur : Str), d ∉ s → (cur ≠ [] ∨ s ≠ []) →
      tokensAux d (s ++ d :: rest) cur = (cur.reverse ++ s) :: tokens d rest := by
    intro s
    induction s with
    | nil =>
      intro cur _ h
      have hc : cur ≠ [] := h.resolve_right (fun h => h rfl)
      simp [tokensAux, hc, tokens]
    | cons c s ih =>
      intro cur hn _
      have h1 : c ≠ d := by rintro rfl; exact hn (List.mem_cons_self ..)
      have h2 : d ∉ s := fun h => hn (List.mem_cons_of_mem _ h)
      rw [List.cons_append, tokensAux, if_neg h1, ih (c :: cur) h2 (.inl (by simp))]
      simp
  have := gen s [] hd (.inr hs)
  simpa [tokens] using this

theorem tokens_single (d : UInt8) (s : Str) (hs : s ≠ []) (hd : d ∉ s) : tokens d s = [s] := by
  have gen : ∀ (s cur : Str), d ∉ s → (cur ≠ [] ∨ s ≠ []) → tokensAux d s cur = [cur.reverse ++ s] := by
    intro s
    induction s with
    | nil =>
      intro cur _ h
      have hc : cur ≠ [] := h.resolve_right (fun h => h rfl)
      simp [tokensAux, hc]
    | cons c s ih =>
      intro cur hn _
      have h1 : c ≠ d := by rintro rfl; exact hn (List.mem_cons_self ..)
      have h2 : d ∉ s := fun h => hn (List.mem_cons_of_mem _ h)
      rw [tokensAux, if_neg h1, ih (c :: cur) h2 (.inl (by simp))]
      simp
  have := gen s [] hd (.inr hs)
  simpa [tokens] using this

theorem tokens_plusJoin : ∀ (parts : List Str), (∀ p ∈ parts, LayerName p) → tokens 43 (plusJoin parts) = parts
  | [], _ => rfl
  | [s], h => tokens_single 43 s (h s List.mem_cons_self).1 (h s List.mem_cons_self).2.2
  | s :: s2 :: ss, h => by
    show tokens 43 (s ++ 43 :: plusJoin (s2 :: ss)) = _
    rw [tokens_cons 43 s _ (h s List.mem_cons_self).1 (h s List.mem_cons_self).2.2,
      tokens_plusJoin (s2 :: ss) (fun p hp => h p (List.mem_cons_of_mem _ hp))]

theorem colon_plusJoin : ∀ (parts : List Str), (∀ p ∈ parts, LayerName p) → (58 : UInt8) ∉ plusJoin parts
  | [], _ => by simp [plusJoin]
  | [s], h => (h s List.mem_cons_self).2.1
  | s :: s2 :: ss, h => by
    show (58 : UInt8) ∉ s ++ 43 :: plusJoin (s2 :: ss)
    have h1 := (h s List.mem_cons_self).2.1
    have h2 := colon_plusJoin (s2 :: ss) (fun p hp => h p (List.mem_cons_of_mem _ hp))
    simp only [List.mem_append, List.mem_cons, not_or]
    exact ⟨h1, by decide, h2⟩

theorem plusJoin_ne : ∀ (parts : List Str), 2 ≤ parts.length → plusJoin parts ≠ [] ∧ (43 : UInt8) ∈ plusJoin parts
  | [], h => by simp at h
  | [_], h => by simp at h
  | s :: s2 :: ss, _ => by
    show s ++ 43 :: plusJoin (s2 :: ss) ≠ [] ∧ (43 : UInt8) ∈ s ++ 43 :: plusJoin (s2 :: ss)
    simp

theorem colon_modset {t : Str} {m : UInt8} (h : ModsetText t m) : (58 : UInt8) ∉ t := by
  induction h with
  | empty => simp
  | last h => cases h <;> decide
  | more h t ih =>
    simp only [List.mem_cons, not_or]
    refine ⟨?_, by decide, ih⟩
    cases h <;> decide

theorem not_modset_layout (m : UInt8) : ¬ ModsetText b!"layout" m := by
  rw [← C31_parse_modset]
  have : parseModset b!"layout" = none := by decide +kernel
  rw [this]
  exact fun h => nomatch h

/-! One heading. -/

theorem constituents_ok (c : Config) : ∀ (parts : List Str) (acc : List Nat), acc.length + parts.length ≤ 8 →
    (∃ idxs, constituentsOf c parts acc = .ok (some (acc ++ idxs)) ∧ idxs.map (fun i => (c.layer i).name) = parts ∧
      (∀ i ∈ idxs, i < c.layers.length) ∧ ∀ p ∈ parts, ∃ l ∈ c.layers, l.name = p) ∨
    (constituentsOf c parts acc = .ok none ∧ ∃ p ∈ parts, ∀ l ∈ c.layers, l.name ≠ p)
  | [], acc, _ => by
    left
    exact ⟨[], by simp [constituentsOf], rfl, (by simp), (by simp)⟩
  | p :: parts, acc, h => by
    unfold constituentsOf
    cases hi : c.layerIndex p with
    | none => exact .inr ⟨rfl, p, List.mem_cons_self, layerIndex_none.1 hi⟩
    | some i =>
      dsimp only
      rw [List.length_cons] at h
      rw [if_neg (by omega)]
      obtain ⟨l, hl, hn⟩ := layerIndex_some hi
      have hlt : i < c.layers.length := (List.getElem?_eq_some_iff.1 hl).1
      rcases constituents_ok c parts (acc ++ [i]) (by simp; omega) with ⟨idxs, e1, e2, e3, e4⟩ | ⟨e1, q, hq, e2⟩
      · left
        refine ⟨i :: idxs, by rw [e1]; simp, ?_, ?_, ?_⟩
        · rw [List.map_cons, e2, layer_of_getElem hl, hn]
        · intro j hj
          rcases List.mem_cons.1 hj with rfl | hj
          · exact hlt
          · exact e3 j hj
        · intro q hq
          rcases List.mem_cons.1 hq with rfl | hq
          · exact ⟨l, List.mem_of_getElem? hl, hn⟩
          · exact e4 q hq
      · exact .inr ⟨e1, q, List.mem_cons_of_mem _ hq, e2⟩

/-- All parts of a composite layer are declared. -/
def allDeclared (c : Config) (parts : List Str) : Bool := parts.all fun p => c.layers.any fun l => decide (l.name = p)

theorem allDeclared_shapes (c : Config) (parts : List Str) :
    (parts.all fun p => c.shapes.any fun l => decide (l.name = p)) = allDeclared c parts := by
  unfold allDeclared Config.shapes
  congr 1
  funext p
  rw [List.any_map]
  rfl

theorem newLayer_heads (c : Config) {s : Str} {sh : Shape} (h : Heads s sh) :
    (tokens 58 s).head? = some sh.name ∧
    newLayer c s = .ok (if allDeclared c sh.parts then some
      { name := sh.name, type := sh.type, mods := sh.mods, constituents := ((constituentsOf c sh.parts []).toOption.join.getD []) }
      else none) ∧
    (allDeclared c sh.parts = true → ((constituentsOf c sh.parts []).toOption.join.getD []).map (fun i => (c.layer i).name) = sh.parts ∧
      ∀ i ∈ (constituentsOf c sh.parts []).toOption.join.getD [], i < c.layers.length) := by
  have two : ∀ (name t : Str), LayerName name → t ≠ [] → (58 : UInt8) ∉ t → tokens 58 (name ++ 58 :: t) = [name, t] := by
    intro name t h ht hc
    rw [tokens_cons 58 name t h.1 h.2.1, tokens_single 58 t ht hc]
  cases h with
  | plain h =>
    have e := tokens_single 58 s h.1 h.2.1
    refine ⟨by rw [e]; rfl, ?_, fun _ => ⟨rfl, by intro i hi; cases hi⟩⟩
    unfold newLayer
    rw [e]
    dsimp only
    rw [if_neg h.2.2]
    rfl
  | @layout name h =>
    have e := two name b!"layout" h (by decide) (by decide)
    refine ⟨by rw [show name ++ b!":layout" = name ++ 58 :: b!"layout" from rfl, e]; rfl, ?_, fun _ => ⟨rfl, by intro i hi; cases hi⟩⟩
    unfold newLayer
    rw [show name ++ b!":layout" = name ++ 58 :: b!"layout" from rfl, e]
    dsimp only
    rw [if_neg h.2.2]
    dsimp only [List.head?_cons]
    rw [if_pos rfl]
    rfl
  | @mods name t m h ht hm =>
    have e := two name t h ht (colon_modset hm)
    refine ⟨by rw [e]; rfl, ?_, fun _ => ⟨rfl, by intro i hi; cases hi⟩⟩
    unfold newLayer
    rw [e]
    dsimp only
    rw [if_neg h.2.2]
    dsimp only [List.head?_cons]
    rw [if_neg (by rintro rfl; exact not_modset_layout m hm), (C31_parse_modset t m).2 hm]
    rfl
  | @unknown name t h ht hc hl hm =>
    have e := two name t h ht hc
    refine ⟨by rw [e]; rfl, ?_, fun _ => ⟨rfl, by intro i hi; cases hi⟩⟩
    have hp : parseModset t = none := by
      cases hq : parseModset t with
      | none => rfl
      | some m => exact absurd ((C31_parse_modset t m).1 hq) (hm m)
    unfold newLayer
    rw [e]
    dsimp only
    rw [if_neg h.2.2]
    dsimp only [List.head?_cons]
    rw [if_neg hl, hp]
    rfl
  | @composite parts h2 h8 hp =>
    obtain ⟨n1, n2⟩ := plusJoin_ne parts h2
    have e := tokens_single 58 (plusJoin parts) n1 (colon_plusJoin parts hp)
    have e2 := tokens_plusJoin parts hp
    have run : newLayer c (plusJoin parts) = (constituentsOf c parts [] >>= fun r => match r with
        | none => .ok none
        | some cs => .ok (some { name := plusJoin parts, type := .composite, constituents := cs })) := by
      unfold newLayer
      rw [e]
      dsimp only
      rw [if_pos n2, e2]
      rfl
    rw [run]
    refine ⟨by rw [e]; rfl, ?_⟩
    dsimp only
    rcases constituents_ok c parts [] (by simpa using h8) with ⟨idxs, a1, a2, a3, a4⟩ | ⟨a1, p, hp, a2⟩
    · have hd : allDeclared c parts = true := by
        unfold allDeclared
        rw [List.all_eq_true]
        intro p hp
        obtain ⟨l, hl, hn⟩ := a4 p hp
        rw [List.any_eq_true]
        exact ⟨l, hl, by simpa using hn⟩
      rw [hd, a1]
      exact ⟨rfl, fun _ => ⟨a2, a3⟩⟩
    · have hd : allDeclared c parts = false := by
        unfold allDeclared
        rw [List.all_eq_false]
        refine ⟨p, hp, ?_⟩
        rw [Bool.not_eq_true, List.any_eq_false]
        intro l hl
        simpa using a2 l hl
      rw [hd, a1]
      exact ⟨rfl, fun h => nomatch h⟩

theorem shapes_append (c : Config) (hw : WF c) (l : Layer) (hl : ∀ i ∈ l.constituents, i < c.layers.length) :
    ({ c with layers := c.layers ++ [l] } : Config).shapes =
      c.shapes ++ [⟨l.name, l.type, l.mods, l.constituents.map fun i => (c.layer i).name⟩] := by
  have e : ∀ i, i < c.layers.length → ({ c with layers := c.layers ++ [l] } : Config).layer i = c.layer i := by
    intro i hi
    unfold Config.layer
    dsimp only
    rw [List.getD_eq_getElem?_getD, List.getD_eq_getElem?_getD, List.getElem?_append_left hi]
  unfold Config.shapes
  dsimp only
  rw [List.map_append, List.map_singleton]
  congr 1
  · apply List.map_congr_left
    intro m hm
    congr 1
    apply List.map_congr_left
    intro i hi
    rw [e i ((hw.constituents m hm).2 i hi)]
  · congr 2
    apply List.map_congr_left
    intro i hi
    rw [e i (hl i hi)]

/-- C65, one heading. The heading does what it says, in every configuration; a new layer has no bindings. -/
theorem C65_heading (c : Config) (hw : WF c) {s : Str} {sh : Shape} (h : Heads s sh) (hlen : s.length < 65) :
    ∃ c' ok, configAddLayer c s = .ok (c', ok) ∧ c'.shapes = declare c.shapes sh ∧
      (ok = true ↔ ∃ l ∈ c'.shapes, l.name = sh.name) ∧
      (c' = c ∨ ∃ l, c' = { c with layers := c.layers ++ [l] } ∧ l.keymap = (fun _ => .none) ∧ l.chords = []) := by
  obtain ⟨h1, h2, h3⟩ := newLayer_heads c h
  have hany : (c.shapes.any fun l => decide (l.name = sh.name)) = (c.layerIndex sh.name).isSome := by
    rw [Bool.eq_iff_iff, List.any_eq_true]
    constructor
    · rintro ⟨l, hl, hn⟩
      unfold Config.shapes at hl
      obtain ⟨m, hm, rfl⟩ := List.mem_map.1 hl
      cases hi : c.layerIndex sh.name with
      | some i => rfl
      | none => exact absurd (of_decide_eq_true hn) (layerIndex_none.1 hi m hm)
    · intro hs
      cases hi : c.layerIndex sh.name with
      | none => rw [hi] at hs; cases hs
      | some i =>
        obtain ⟨l, hl, hn⟩ := layerIndex_some hi
        exact ⟨_, List.mem_map.2 ⟨l, List.mem_of_getElem? hl, rfl⟩, by simpa using hn⟩
  have hlen' : c.shapes.length = c.layers.length := by unfold Config.shapes; rw [List.length_map]
  unfold configAddLayer
  rw [if_neg (by omega), h1]
  dsimp only
  unfold declare
  rw [hany, hlen', allDeclared_shapes]
  by_cases e1 : (c.layerIndex sh.name).isSome = true
  · rw [if_pos e1, if_pos e1]
    refine ⟨c, true, rfl, rfl, ⟨fun _ => ?_, fun _ => rfl⟩, .inl rfl⟩
    rw [← hany, List.any_eq_true] at e1
    obtain ⟨l, hl, hn⟩ := e1
    exact ⟨l, hl, of_decide_eq_true hn⟩
  · have none_named : ¬ ∃ l ∈ c.shapes, l.name = sh.name := by
      rintro ⟨l, hl, hn⟩
      apply e1
      rw [← hany, List.any_eq_true]
      exact ⟨l, hl, by simpa using hn⟩
    rw [if_neg e1, if_neg e1]
    by_cases e2 : c.layers.length ≥ 32
    · rw [if_pos e2, if_pos e2]
      exact ⟨c, false, rfl, rfl, ⟨(fun h => (by cases h)), fun h => absurd h none_named⟩, .inl rfl⟩
    · rw [if_neg e2, if_neg e2, h2, bind_ok]
      by_cases e3 : allDeclared c sh.parts = true
      · obtain ⟨g1, g2⟩ := h3 e3
        rw [if_pos e3, if_pos e3]
        dsimp only
        refine ⟨_, true, rfl, ?_, ⟨fun _ => ?_, fun _ => rfl⟩, .inr ⟨_, rfl, rfl, rfl⟩⟩
        · rw [shapes_append c hw _ g2]
          dsimp only
          rw [g1]
        · rw [shapes_append c hw _ g2]
          exact ⟨_, List.mem_append_right _ (List.mem_singleton.2 rfl), rfl⟩
      · rw [if_neg e3, if_neg e3]
        dsimp only
        exact ⟨c, false, rfl, rfl, ⟨(fun h => (by cases h)), fun h => absurd h none_named⟩, .inl rfl⟩

theorem passOne_shapes : ∀ (ss : List IniSection) (c : Config), WF c → ∀ (hs : List (Str × Shape)),
    layerHeadings ss = hs.map (·.1) → (∀ p ∈ hs, Heads p.1 p.2 ∧ p.1.length < 65) →
    Sat (passOne c ss) (fun c' => WF c' ∧ c'.shapes = (hs.map (·.2)).foldl declare c.shapes) (fun _ => True)
  | [], c, hw, hs, h, _ => by
    have h' : [] = hs.map (·.1) := h
    cases hs with
    | nil => exact ⟨hw, rfl⟩
    | cons p hs => cases h' 
  | s :: ss, c, hw, hs, h, hl => by
    have stay : ∀ (c1 : Config), WF c1 → c1.raws = c.raws → decide (s.name = b!"ids" ∨ s.name = b!"aliases" ∨ s.name = b!"global") = true →
        Sat (passOne c1 ss) (fun c' => WF c' ∧ c'.shapes = (hs.map (·.2)).foldl declare c.shapes) (fun _ => True) := by
      intro c1 hw1 hr hn
      have e : layerHeadings (s :: ss) = layerHeadings ss := by
        unfold layerHeadings
        rw [List.map_cons, List.filter_cons_of_neg (by rw [hn]; simp)]
      rw [e] at h
      have := passOne_shapes ss c1 hw1 hs h hl
      rw [shapes_of_raws hr] at this
      exact this
    unfold passOne
    by_cases hn : s.name = b!"ids" ∨ s.name = b!"aliases" ∨ s.name = b!"global"
    · refine Sat.bind (Q := fun c1 => WF c1 ∧ c1.raws = c.raws) ?_ (fun c1 h1 => stay c1 h1.1 h1.2 (decide_eq_true hn))
      split
      · exact ((parseIdSection_sat s.entries hw).mono (fun _ h => h) (fun _ _ => trivial)).and
          (foldSections_raws parseIdSection (fun _ => rfl) (fun _ _ _ => rfl)
            (fun c e => (idEntry_layers c e).imp (fun _ h => raws_of_layers h)) _ _)
      · split
        · exact ((parseAliasSection_sat s.entries hw).mono (fun _ h => h) (fun _ _ => trivial)).and
            (foldSections_raws parseAliasSection (fun _ => rfl) (fun _ _ _ => rfl) aliasEntry_raws _ _)
        · split
          · exact ((parseGlobalSection_sat s.entries hw).mono (fun _ h => h) (fun _ _ => trivial)).and
              (foldSections_raws parseGlobalSection (fun _ => rfl) (fun _ _ _ => rfl)
                (fun c e => (globalEntry_layers c e).imp (fun _ h => raws_of_layers h)) _ _)
          · rename_i h1 h2 h3
            rcases hn with hn | hn | hn
            · exact absurd hn h1
            · exact absurd hn h2
            · exact absurd hn h3
    · have e : layerHeadings (s :: ss) = s.name :: layerHeadings ss := by
        unfold layerHeadings
        rw [List.map_cons, List.filter_cons_of_pos (by rw [decide_eq_false hn]; rfl)]
      rw [e] at h
      cases hs with
      | nil => cases h
      | cons p hs =>
        obtain ⟨n, sh⟩ := p
        injection h with h1 h2
        dsimp only at h1
        subst h1
        obtain ⟨hh, hlen⟩ := hl _ List.mem_cons_self
        rw [if_neg (fun h => hn (.inl h)), if_neg (fun h => hn (.inr (.inl h))), if_neg (fun h => hn (.inr (.inr h)))]
        obtain ⟨c', ok, run, he, _, _⟩ := C65_heading c hw hh hlen
        have hw' := (configAddLayer_sat hw s.name).of_ok run
        rw [run]
        show Sat (passOne c' ss) _ _
        have := passOne_shapes ss c' hw' hs h2 (fun n hm => hl n (List.mem_cons_of_mem _ hm))
        rw [he] at this
        exact this

theorem configInit_shapes : (match configInit with | .ok c => decide (c.shapes = builtinShapes) | .error _ => false) = true := by
  decide +kernel

/-- C65. After reading a configuration, the layers are exactly the built-in ones and those its headings declare, in
order, each with the name, type, modifiers and parts of its first heading. -/
theorem C65_layers (text : Str) (c : Config) (run : configParse text = .ok (some c)) :
    ∃ ss, iniParseString text = .ok (some ss) ∧ ∀ hs : List (Str × Shape),
      layerHeadings ss = hs.map (·.1) → (∀ p ∈ hs, Heads p.1 p.2 ∧ p.1.length < 65) →
      c.shapes = (hs.map (·.2)).foldl declare builtinShapes := by
  unfold configParse at run
  rw [bind_eq_ok] at run
  obtain ⟨c0, h0, run⟩ := run
  have hs0 : c0.shapes = builtinShapes := by
    have := configInit_shapes
    rw [h0] at this
    exact of_decide_eq_true this
  have hw0 : WF c0 := by
    obtain ⟨c0', h0', hw, _⟩ := configInit_defaults
    rw [h0] at h0'
    cases h0'
    exact hw
  unfold configParseString at run
  rw [bind_eq_ok] at run
  obtain ⟨r, hini, run⟩ := run
  cases r with
  | none => cases run
  | some ss =>
    refine ⟨ss, hini, fun hs h hl => ?_⟩
    dsimp only at run
    rw [bind_eq_ok] at run
    obtain ⟨c1, h1, run⟩ := run
    rw [bind_eq_ok] at run
    obtain ⟨c2, h2, run⟩ := run
    cases run
    obtain ⟨w1, e1⟩ := (passOne_shapes ss c0 hw0 hs h hl).of_ok h1
    rw [shapes_of_raws ((passTwo_raws ss c1 w1).of_ok h2).2, e1, hs0]

/-- C65, refused headings. A heading of 65 or more bytes, and a composite layer with a type, change nothing. -/
theorem C65_refused (c : Config) (s : Str) :
    (65 ≤ s.length → configAddLayer c s = .ok (c, false)) ∧
    (∀ parts t, 2 ≤ parts.length → (∀ p ∈ parts, LayerName p) → t ≠ [] → (58 : UInt8) ∉ t → s = plusJoin parts ++ 58 :: t →
      c.layerIndex (plusJoin parts) = none → configAddLayer c s = .ok (c, false)) := by
  refine ⟨fun h => ?_, fun parts t h2 hp ht hc hs hi => ?_⟩
  · unfold configAddLayer
    rw [if_pos h]
  · obtain ⟨n1, n2⟩ := plusJoin_ne parts h2
    have e : tokens 58 s = [plusJoin parts, t] := by
      rw [hs, tokens_cons 58 _ t n1 (colon_plusJoin parts hp), tokens_single 58 t ht hc]
    unfold configAddLayer
    by_cases h : s.length ≥ 65
    · rw [if_pos h]
    · rw [if_neg h, e]
      dsimp only [List.head?_cons]
      rw [if_neg (by rw [hi]; decide)]
      split
      · rfl
      · unfold newLayer
        rw [e]
        dsimp only
        rw [if_pos n2]
        rfl

theorem findLayout_eq (name : Str) : ∀ (ls : List Layer) (n : Nat),
    (∀ i, findLayout name ls n = some i → n ≤ i ∧ ∃ l, ls[i - n]? = some l ∧ l.type = .layout ∧ l.name = name) ∧
    (findLayout name ls n = none → ∀ l ∈ ls, l.type = .layout → l.name ≠ name)
  | [], n => ⟨(fun i h => by cases h), (by intro _ l hl; cases hl)⟩
  | l :: ls, n => by
    obtain ⟨h1, h2⟩ := findLayout_eq name ls (n + 1)
    unfold findLayout
    split
    · rename_i h
      refine ⟨fun i hi => ?_, fun hi => nomatch hi⟩
      injection hi with hi
      subst hi
      exact ⟨Nat.le_refl _, l, by simp, h.1, h.2⟩
    · rename_i h
      refine ⟨fun i hi => ?_, fun hi m hm ht hn => ?_⟩
      · obtain ⟨g1, m, g2, g3⟩ := h1 i hi
        refine ⟨by omega, m, ?_, g3⟩
        rw [show i - n = (i - (n + 1)) + 1 by omega]
        exact g2
      · rcases List.mem_cons.1 hm with rfl | hm
        · exact h ⟨ht, hn⟩
        · exact h2 hi m hm ht hn

/-- C65, at the start. A new keyboard has exactly these layers active: `main`, and the layout named by `default_layout`
if there is one. -/
theorem C65_initial (c : Config) (hw : WF c) (i : Nat) (l : Layer) (hl : c.layers[i]? = some l) :
    ((newKeyboard c).layerState i).active ≠ 0 ↔
      i = 0 ∨ (c.defaultLayout ≠ [] ∧ l.type = .layout ∧ l.name = c.defaultLayout) := by
  rw [newKeyboard_layers]
  obtain ⟨f1, f2⟩ := findLayout_eq c.defaultLayout c.layers 0
  have uniq : ∀ j m, c.layers[j]? = some m → m.name = l.name → j = i := by
    intro j m hm hn
    have hj : j < c.layers.length := (List.getElem?_eq_some_iff.1 hm).1
    have hi : i < c.layers.length := (List.getElem?_eq_some_iff.1 hl).1
    have e : (c.layers.map (·.name))[j]'(by simpa using hj) = (c.layers.map (·.name))[i]'(by simpa using hi) := by
      rw [List.getElem_map, List.getElem_map, (List.getElem?_eq_some_iff.1 hm).2, (List.getElem?_eq_some_iff.1 hl).2, hn]
    exact (List.getElem_inj hw.names).1 e
  by_cases h0 : i = 0
  · subst h0
    split
    · simp
    · simp
  · by_cases hd : c.defaultLayout = []
    · unfold initialLayout
      rw [if_pos hd, if_neg (fun h => h0 h.1), if_neg h0]
      simp [h0, hd]
    · unfold initialLayout
      rw [if_neg hd]
      cases hf : findLayout c.defaultLayout c.layers 0 with
      | none =>
        rw [if_neg (fun h => h0 h.1), if_neg h0]
        simp only [ne_eq, not_true_eq_false, false_iff, not_or, not_and, h0, hd, not_false_eq_true, true_and, forall_const]
        intro ht hn
        exact f2 hf l (List.mem_of_getElem? hl) ht hn
      | some j =>
        obtain ⟨_, m, hm, mt, mn⟩ := f1 j hf
        rw [Nat.sub_zero] at hm
        by_cases hij : i = j
        · subst hij
          rw [hl] at hm
          cases hm
          rw [if_pos ⟨rfl, .inl h0⟩]
          simp [hd, mt, mn]
        · rw [if_neg (fun h => hij h.1), if_neg h0]
          simp only [ne_eq, not_true_eq_false, false_iff, not_or, not_and, h0, hd, not_false_eq_true, true_and, forall_const]
          intro ht hn
          exact hij (uniq j m hm (mn.trans hn.symm)).symm

/-! A concrete document. -/

def headingsText : Str := b!"[global]\ndefault_layout = dvorak\n[nav:C-A]\nx = y\n[dvorak:layout]\n[nav+shift]\na = b\n[nav:M]\n[sym:what]\n[sym+gone]\n"

theorem C65_witness_run : (match configParse headingsText with
    | .ok (some c) => decide (c.shapes = builtinShapes ++ [⟨b!"nav", .normal, MOD_CTRL ||| MOD_ALT, []⟩, ⟨b!"dvorak", .layout, 0, []⟩,
        ⟨b!"nav+shift", .composite, 0, [b!"nav", b!"shift"]⟩, ⟨b!"sym", .normal, 0, []⟩]) &&
        decide (((newKeyboard c).layerState 7).active = 1)
    | _ => false) = true := by
  set_option maxRecDepth 100000 in decide +kernel

theorem name_of_check {s : Str} (h : (!s.isEmpty && !decide ((58 : UInt8) ∈ s) && !decide ((43 : UInt8) ∈ s)) = true) : LayerName s := by
  simp only [Bool.and_eq_true, Bool.not_eq_true', decide_eq_false_iff_not] at h
  obtain ⟨⟨h1, h2⟩, h3⟩ := h
  exact ⟨(by intro e; rw [e] at h1; cases h1), h2, h3⟩

/-- The headings of the document are of the form required. -/
theorem C65_witness : (match iniParseString headingsText with
      | .ok (some ss) => decide (layerHeadings ss = [b!"nav:C-A", b!"dvorak:layout", b!"nav+shift", b!"nav:M", b!"sym:what", b!"sym+gone"])
      | _ => false) = true ∧
    Heads b!"nav:C-A" ⟨b!"nav", .normal, MOD_CTRL ||| MOD_ALT, []⟩ ∧
    Heads b!"dvorak:layout" ⟨b!"dvorak", .layout, 0, []⟩ ∧
    Heads b!"nav+shift" ⟨b!"nav+shift", .composite, 0, [b!"nav", b!"shift"]⟩ ∧
    Heads b!"sym:what" ⟨b!"sym", .normal, 0, []⟩ := by
  refine ⟨by decide +kernel, ?_, ?_, ?_, ?_⟩
  · exact Heads.mods (name := b!"nav") (t := b!"C-A") (name_of_check (by decide)) (by decide) (.more .C (.last .A))
  · exact Heads.layout (name := b!"dvorak") (name_of_check (by decide))
  · refine Heads.composite (parts := [b!"nav", b!"shift"]) (by decide) (by decide) ?_
    intro p hp
    simp only [List.mem_cons, List.not_mem_nil, or_false] at hp
    rcases hp with rfl | rfl <;> exact name_of_check (by decide)
  · refine Heads.unknown (name := b!"sym") (t := b!"what") (name_of_check (by decide)) (by decide) (by decide) (by decide) ?_
    intro m hm
    rw [← C31_parse_modset] at hm
    have : parseModset b!"what" = none := by decide +kernel
    rw [this] at hm
    cases hm

end Keyd
