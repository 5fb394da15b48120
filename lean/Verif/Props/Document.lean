import Verif.Props.Bindings
import Verif.Props.KeyNames

/-
  C51: the settings of a document. C52: the bindings of a document. Both are about the whole text of
  a configuration file, through all passes of the parser.
-/

set_option autoImplicit false

namespace Keyd

/-- A check of the default values. -/
def defaultsB (c : Config) : Bool :=
  c.ids == [] && (!c.wildcard && (c.macroTimeout == 600 && (c.macroSequenceTimeout == 0 && (c.macroRepeatTimeout == 50 &&
    (c.oneshotTimeout == 0 && (c.overloadTapTimeout == 0 && (c.chordInterkeyTimeout == 50 && (c.chordHoldTimeout == 0 &&
    (c.layerIndicator == 0 && (c.disableModifierGuard == 0 && c.defaultLayout == []))))))))))

def defaultsCheck : Bool :=
  match configInit with
  | .ok c => defaultsB c
  | .error _ => false

set_option maxRecDepth 100000 in
theorem defaultsCheck_true : defaultsCheck = true := by decide +kernel

/-- A document for the examples. -/
def docText : Str :=
  b!"[ids]\n*\n-1234:5678\nm:abcd:0001\n[global]\nmacro_timeout = 200\nmacro_timeout = 300\ndefault_layout = dvorak\n[aliases]\nleftalt = lalt\nc = d\n[main]\na = b\nlalt = layer(nav)\na = c\n[dvorak:layout]\na = z\n[nav:C]\nh = left\n[main]\nb = x\n"

/-- The configuration read from it. -/
def docConfig : Config :=
  match configParse docText with
  | .ok (some c) => c
  | _ => {}

def docSections : List IniSection :=
  match iniParseString docText with
  | .ok (some ss) => ss
  | _ => []

def docOk : Bool :=
  match configParse docText with
  | .ok (some _) => true
  | _ => false

set_option maxRecDepth 100000 in
theorem docOk_true : docOk = true := by decide +kernel

theorem doc_parses : configParse docText = .ok (some docConfig) := by
  have h := docOk_true
  unfold docOk at h
  unfold docConfig
  split at h
  · rename_i c hc
    rw [hc]
  · cases h

attribute [local irreducible] configInit

/-! ### Specification -/

/-- The lines of all sections with this heading, in order. -/
def linesOf (name : Str) (ss : List IniSection) : List IniEntry :=
  (ss.filter (fun s => s.name = name)).flatMap (·.entries)

/-- The device id a line of `[ids]` lists, if any: `m:` restricts it to mice, `k:` to keyboards, `-`
excludes it; otherwise it applies to both. Ids have at most 63 bytes. -/
def idLine (s : Str) : Option IdEntry :=
  match s with
  | [42] => none
  | 109 :: 58 :: id => some ⟨id.take 63, ID_MOUSE⟩
  | 107 :: 58 :: id => some ⟨id.take 63, ID_KEYBOARD⟩
  | 45 :: id => some ⟨id.take 63, ID_EXCLUDED⟩
  | id => if id.length ≤ 62 then some ⟨id, ID_KEYBOARD ||| ID_MOUSE⟩ else none

/-- The value of the last line `key = value` among these. -/
def lastValue (key : Str) (es : List IniEntry) : Option Str :=
  (es.filterMap (fun e => if e.key = key then e.val else none)).getLast?

/-- A number set by the last line for `key`, with a default. -/
def setting (key : Str) (default : Int) (ss : List IniSection) : Int :=
  match lastValue key (linesOf b!"global" ss) with
  | some v => atoi v
  | none => default

/-! ### Settings -/

/-- Everything but layers, aliases and the tables of actions. -/
def Config.settings (c : Config) : Config :=
  { c with layers := [], descriptors := [], macros := [], commands := [], aliases := fun _ => [] }

theorem Extends.settings {c c' : Config} (h : Extends c c') : c'.settings = c.settings := by
  unfold Config.settings
  rw [h.same]

theorem configAddEntry_settings {c c' : Config} (hw : WF c) {exp : Str} {ok : Bool}
    (h : configAddEntry c exp = .ok (c', ok)) : c'.settings = c.settings := by
  unfold configAddEntry at h
  split at h
  · cases h; rfl
  · dsimp only at h
    split at h
    · cases h; rfl
    · rw [bind_eq_ok] at h
      obtain ⟨⟨c1, r⟩, hp, h⟩ := h
      have hext := parseDescriptor_extends hw hp
      cases r with
      | none => cases h; exact hext.settings
      | some d =>
        dsimp only at h
        split at h
        · cases h; exact hext.settings
        · cases h
          exact hext.settings

theorem sectionEntries_settings (n : Str) : ∀ (es : List IniEntry) (c : Config), WF c →
    Sat (sectionEntries n c es) (fun c' => WF c' ∧ c'.settings = c.settings) (fun _ => True)
  | [], c, hw => ⟨hw, rfl⟩
  | e :: es, c, hw => by
    unfold sectionEntries
    split
    · exact sectionEntries_settings n es c hw
    · refine Sat.bind (Q := fun r => WF r.1 ∧ r.1.settings = c.settings) (Sat.intro ?_) ?_
      · rintro ⟨c', ok⟩ run
        exact ⟨(configAddEntry_sat hw _).of_ok run, configAddEntry_settings hw run⟩
      · intro r hr
        exact (sectionEntries_settings n es r.1 hr.1).imp (fun c2 h2 => ⟨h2.1, h2.2.trans hr.2⟩)

theorem passTwo_settings : ∀ (ss : List IniSection) (c : Config), WF c →
    Sat (passTwo c ss) (fun c' => WF c' ∧ c'.settings = c.settings) (fun _ => True)
  | [], c, hw => ⟨hw, rfl⟩
  | s :: ss, c, hw => by
    unfold passTwo
    refine Sat.bind (Q := fun c' => WF c' ∧ c'.settings = c.settings) ?_
      (fun c1 h => ((passTwo_settings ss c1 h.1).imp (fun c2 h2 => ⟨h2.1, h2.2.trans h.2⟩)))
    split
    · exact ⟨hw, rfl⟩
    · exact sectionEntries_settings _ _ _ hw

theorem configAddLayer_settings (c : Config) (s : Str) :
    Sat (configAddLayer c s) (fun r => r.1.settings = c.settings) (fun _ => True) := by
  unfold configAddLayer
  refine Sat.ite (fun _ => rfl) (fun _ => ?_)
  dsimp only
  refine Sat.ite (fun _ => rfl) (fun _ => ?_)
  refine Sat.ite (fun _ => rfl) (fun _ => ?_)
  refine Sat.bind (Q := fun _ => True) (Sat.intro (fun _ _ => trivial)) ?_
  intro r _
  cases r with
  | none => rfl
  | some l => rfl

theorem aliasEntry_settings (c : Config) (e : IniEntry) :
    Sat (aliasEntry c e) (fun c' => c'.settings = c.settings) (fun _ => True) := by
  unfold aliasEntry
  dsimp only
  repeat' split
  all_goals trivial

/-- What a section does to one setting `g`, given what single lines do. -/
def sectionEffect {β : Type} (sid sgl : β → IniEntry → β) (b : β) (s : IniSection) : β :=
  if s.name = b!"ids" then s.entries.foldl sid b
  else if s.name = b!"global" then s.entries.foldl sgl b else b

theorem foldEntries {β : Type} {g : Config → β} {step : β → IniEntry → β} {f : Config → IniEntry → Res Config}
    (F : Config → List IniEntry → Res Config) (hF0 : ∀ c, F c [] = .ok c)
    (hF1 : ∀ c e es, F c (e :: es) = (f c e >>= fun c => F c es))
    (hf : ∀ c e, Sat (f c e) (fun c' => g c' = step (g c) e) (fun _ => True)) :
    ∀ (es : List IniEntry) (c : Config), Sat (F c es) (fun c' => g c' = es.foldl step (g c)) (fun _ => True)
  | [], c => by rw [hF0]; exact rfl
  | e :: es, c => by
    rw [hF1]
    refine Sat.bind (hf c e) ?_
    intro c1 h1
    refine (foldEntries F hF0 hF1 hf es c1).imp (fun c2 h2 => ?_)
    rw [h2, h1]
    rfl

theorem passOne_effect {β : Type} {g : Config → β} {sid sgl : β → IniEntry → β}
    (hg : ∀ c c' : Config, c'.settings = c.settings → g c' = g c)
    (hid : ∀ c e, Sat (idEntry c e) (fun c' => g c' = sid (g c) e) (fun _ => True))
    (hgl : ∀ c e, Sat (globalEntry c e) (fun c' => g c' = sgl (g c) e) (fun _ => True)) :
    ∀ (ss : List IniSection) (c : Config),
    Sat (passOne c ss) (fun c' => g c' = ss.foldl (sectionEffect sid sgl) (g c)) (fun _ => True)
  | [], c => rfl
  | s :: ss, c => by
    unfold passOne
    refine Sat.bind (Q := fun c' => g c' = sectionEffect sid sgl (g c) s) ?_ (fun c1 h1 => ?_)
    · unfold sectionEffect
      by_cases h1 : s.name = b!"ids"
      · rw [if_pos h1, if_pos h1]
        exact foldEntries parseIdSection (fun _ => rfl) (fun _ _ _ => rfl) hid _ _
      · rw [if_neg h1, if_neg h1]
        by_cases h2 : s.name = b!"aliases"
        · rw [if_pos h2, if_neg (by rw [h2]; decide)]
          have := foldEntries (g := g) (step := fun b _ => b) parseAliasSection (fun _ => rfl) (fun _ _ _ => rfl)
            (fun c e => (aliasEntry_settings c e).imp (fun c' h => hg c c' h)) s.entries c
          refine this.imp (fun c' h => ?_)
          rw [h]
          clear h this
          generalize g c = b
          induction s.entries with
          | nil => rfl
          | cons e es ih => exact ih
        · rw [if_neg h2]
          by_cases h3 : s.name = b!"global"
          · rw [if_pos h3, if_pos h3]
            exact foldEntries parseGlobalSection (fun _ => rfl) (fun _ _ _ => rfl) hgl _ _
          · rw [if_neg h3, if_neg h3]
            exact Sat.bind (configAddLayer_settings c s.name) (fun r h => hg _ _ h)
    · refine (passOne_effect hg hid hgl ss c1).imp (fun c2 h2 => ?_)
      rw [h2, h1]
      rfl

theorem document_effect {β : Type} {g : Config → β} {sid sgl : β → IniEntry → β} {c c' : Config} (hw : WF c)
    (hg : ∀ c c' : Config, c'.settings = c.settings → g c' = g c)
    (hid : ∀ c e, Sat (idEntry c e) (fun c' => g c' = sid (g c) e) (fun _ => True))
    (hgl : ∀ c e, Sat (globalEntry c e) (fun c' => g c' = sgl (g c) e) (fun _ => True))
    {text : Str} {ss : List IniSection} (hini : iniParseString text = .ok (some ss))
    (run : configParseString c text = .ok (some c')) : g c' = ss.foldl (sectionEffect sid sgl) (g c) := by
  unfold configParseString at run
  rw [hini, bind_ok] at run
  dsimp only at run
  rw [bind_eq_ok] at run
  obtain ⟨c1, h1, run⟩ := run
  rw [bind_eq_ok] at run
  obtain ⟨c2, h2, run⟩ := run
  cases run
  have hw1 := (passOne_sat ss hw).of_ok h1
  rw [hg c1 c' ((passTwo_settings ss c1 hw1).of_ok h2).2]
  exact (passOne_effect hg hid hgl ss c).of_ok h1

/-- The values before any line of the user's file. -/
structure Defaults (c : Config) : Prop where
  ids : c.ids = []
  wildcard : c.wildcard = false
  macroTimeout : c.macroTimeout = 600
  macroSequenceTimeout : c.macroSequenceTimeout = 0
  macroRepeatTimeout : c.macroRepeatTimeout = 50
  oneshotTimeout : c.oneshotTimeout = 0
  overloadTapTimeout : c.overloadTapTimeout = 0
  chordInterkeyTimeout : c.chordInterkeyTimeout = 50
  chordHoldTimeout : c.chordHoldTimeout = 0
  layerIndicator : c.layerIndicator = 0
  disableModifierGuard : c.disableModifierGuard = 0
  defaultLayout : c.defaultLayout = []

theorem configInit_defaults : ∃ c, configInit = .ok c ∧ WF c ∧ Defaults c := by
  obtain ⟨c, hc, hw⟩ := configInit_wf
  have h := defaultsCheck_true
  unfold defaultsCheck at h
  rw [hc] at h
  dsimp only at h
  unfold defaultsB at h
  simp only [Bool.and_eq_true, beq_iff_eq, Bool.not_eq_true'] at h
  obtain ⟨h1, h2, h3, h4, h5, h6, h7, h8, h9, h10, h11, h12⟩ := h
  exact ⟨c, hc, hw, h1, h2, h3, h4, h5, h6, h7, h8, h9, h10, h11, h12⟩

theorem configParse_cases {text : Str} {c : Config} (run : configParse text = .ok (some c)) :
    ∃ c0 ss, WF c0 ∧ Defaults c0 ∧ iniParseString text = .ok (some ss) ∧ configParseString c0 text = .ok (some c) := by
  obtain ⟨c0, h0, hw, hd⟩ := configInit_defaults
  unfold configParse at run
  rw [h0, bind_ok] at run
  have run' := run
  unfold configParseString at run
  rw [bind_eq_ok] at run
  obtain ⟨r, hr, run⟩ := run
  cases r with
  | none => cases run
  | some ss => exact ⟨c0, ss, hw, hd, hr, run'⟩

/-! ### Device ids -/

theorem isPrefix_iff {p s : Str} : isPrefix p s = true ↔ ∃ t, p ++ t = s := by
  unfold isPrefix
  exact List.isPrefixOf_iff_prefix

theorem idEntry_effect (c : Config) (e : IniEntry) :
    Sat (idEntry c e) (fun c' => c'.ids = c.ids ++ (idLine e.key).toList ∧ c'.wildcard = (c.wildcard || decide (e.key = b!"*")))
      (fun _ => True) := by
  have add : ∀ (fl : UInt8) (id : Str), idLine e.key = some ⟨id.take 63, fl⟩ → e.key ≠ b!"*" →
      Sat (addId c fl id) (fun c' => c'.ids = c.ids ++ (idLine e.key).toList ∧ c'.wildcard = (c.wildcard || decide (e.key = b!"*")))
        (fun _ => True) := by
    intro fl id h hne
    unfold addId
    rw [h]
    refine Sat.ite (fun _ => ⟨rfl, ?_⟩) (fun _ => trivial)
    simp [hne]
  unfold idEntry
  dsimp only
  refine Sat.ite (fun h => ?_) (fun h1 => ?_)
  · rw [h]
    exact ⟨(List.append_nil _).symm, by simp⟩
  refine Sat.ite (fun h => ?_) (fun h2 => ?_)
  · obtain ⟨t, ht⟩ := isPrefix_iff.1 h
    exact add _ _ (by rw [← ht]; rfl) h1
  refine Sat.ite (fun h => ?_) (fun h3 => ?_)
  · obtain ⟨t, ht⟩ := isPrefix_iff.1 h
    exact add _ _ (by rw [← ht]; rfl) h1
  refine Sat.ite (fun h => ?_) (fun h4 => ?_)
  · obtain ⟨t, ht⟩ := isPrefix_iff.1 h
    exact add _ _ (by rw [← ht]; rfl) h1
  have plain : idLine e.key = if e.key.length ≤ 62 then some ⟨e.key, ID_KEYBOARD ||| ID_MOUSE⟩ else none := by
    unfold idLine
    split
    · rename_i h; exact absurd h h1
    · rename_i t h; exact absurd (isPrefix_iff.2 ⟨t, h.symm⟩) h2
    · rename_i t h; exact absurd (isPrefix_iff.2 ⟨t, h.symm⟩) h3
    · rename_i t h; exact absurd (isPrefix_iff.2 ⟨t, h.symm⟩) h4
    · rfl
  refine Sat.ite (fun h => ?_) (fun h5 => ?_)
  · refine add _ _ ?_ h1
    rw [plain, if_pos (by omega), List.take_of_length_le (by omega)]
  · rw [plain, if_neg (by omega)]
    exact ⟨(List.append_nil _).symm, by simp [h1]⟩

theorem foldl_sections {β : Type} (sid sgl : β → IniEntry → β) : ∀ (ss : List IniSection) (b : β),
    (∀ b e, sgl b e = b) → ss.foldl (sectionEffect sid sgl) b = (linesOf b!"ids" ss).foldl sid b
  | [], b, _ => rfl
  | s :: ss, b, h => by
    rw [List.foldl_cons, foldl_sections sid sgl ss _ h]
    unfold linesOf sectionEffect
    by_cases hs : s.name = b!"ids"
    · rw [if_pos hs, List.filter_cons_of_pos (by simpa using hs), List.flatMap_cons, List.foldl_append]
    · rw [if_neg hs, List.filter_cons_of_neg (by simpa using hs)]
      split
      · have : ∀ (es : List IniEntry) (b : β), es.foldl sgl b = b := by
          intro es
          induction es with
          | nil => intro b; rfl
          | cons e es ih => intro b; rw [List.foldl_cons, h, ih]
        rw [this]
      · rfl

theorem foldl_globals {β : Type} (sid sgl : β → IniEntry → β) : ∀ (ss : List IniSection) (b : β),
    (∀ b e, sid b e = b) → ss.foldl (sectionEffect sid sgl) b = (linesOf b!"global" ss).foldl sgl b
  | [], b, _ => rfl
  | s :: ss, b, h => by
    rw [List.foldl_cons, foldl_globals sid sgl ss _ h]
    unfold linesOf sectionEffect
    by_cases hs : s.name = b!"global"
    · rw [if_neg (by rw [hs]; decide), if_pos hs, List.filter_cons_of_pos (by simpa using hs), List.flatMap_cons, List.foldl_append]
    · rw [if_neg hs, List.filter_cons_of_neg (by simpa using hs)]
      split
      · have : ∀ (es : List IniEntry) (b : β), es.foldl sid b = b := by
          intro es
          induction es with
          | nil => intro b; rfl
          | cons e es ih => intro b; rw [List.foldl_cons, h, ih]
        rw [this]
      · rfl

theorem globalEntry_ids (c : Config) (e : IniEntry) :
    Sat (globalEntry c e) (fun c' => (c'.ids, c'.wildcard) = (c.ids, c.wildcard)) (fun _ => True) := by
  unfold globalEntry
  dsimp only
  repeat' (first | refine Sat.ite (fun _ => ?_) (fun _ => ?_) | split)
  all_goals trivial

/-- C51. The device ids and the wildcard of a configuration are exactly those listed in its `[ids]`
sections, in order, whatever the other sections contain. -/
theorem C51_ids (text : Str) (c : Config) (run : configParse text = .ok (some c)) :
    ∃ ss, iniParseString text = .ok (some ss) ∧
      c.ids = (linesOf b!"ids" ss).filterMap (fun e => idLine e.key) ∧
      (c.wildcard = true ↔ ∃ e ∈ linesOf b!"ids" ss, e.key = b!"*") := by
  obtain ⟨c0, ss, hw, hd, hini, run⟩ := configParse_cases run
  refine ⟨ss, hini, ?_⟩
  have h := document_effect (g := fun c => (c.ids, c.wildcard))
    (sid := fun b e => (b.1 ++ (idLine e.key).toList, b.2 || decide (e.key = b!"*"))) (sgl := fun b _ => b) hw
    (fun c c' h => by
      have h1 : c'.settings.ids = c.settings.ids := by rw [h]
      have h2 : c'.settings.wildcard = c.settings.wildcard := by rw [h]
      exact Prod.ext h1 h2)
    (fun c e => (idEntry_effect c e).imp (fun c' h => Prod.ext h.1 h.2))
    (fun c e => globalEntry_ids c e) hini run
  rw [foldl_sections _ _ _ _ (fun _ _ => rfl)] at h
  have gen : ∀ (es : List IniEntry) (b : List IdEntry × Bool),
      es.foldl (fun b e => (b.1 ++ (idLine e.key).toList, b.2 || decide (e.key = b!"*"))) b =
        (b.1 ++ es.filterMap (fun e => idLine e.key), b.2 || es.any (fun e => decide (e.key = b!"*"))) := by
    intro es
    induction es with
    | nil => intro b; simp
    | cons e es ih =>
      intro b
      rw [List.foldl_cons, ih]
      cases hx : idLine e.key <;> simp [hx, Bool.or_assoc]
  rw [gen, hd.ids, hd.wildcard] at h
  dsimp only at h
  injection h with h1 h2
  rw [List.nil_append] at h1
  refine ⟨h1, ?_⟩
  rw [h2, Bool.false_or, List.any_eq_true]
  simp

/-! ### Numbers -/

theorem lastValue_cons (key : Str) (e : IniEntry) (es : List IniEntry) :
    lastValue key (e :: es) =
      match lastValue key es with
      | some x => some x
      | none => if e.key = key then e.val else none := by
  unfold lastValue
  rw [List.filterMap_cons]
  generalize (if e.key = key then e.val else none) = o
  cases o with
  | none =>
    dsimp only
    split <;> simp_all
  | some v =>
    dsimp only
    cases hx : es.filterMap (fun e => if e.key = key then e.val else none) with
    | nil => rfl
    | cons y ys =>
      rw [List.getLast?_cons_cons]
      cases hy : (y :: ys).getLast? with
      | none => simp at hy
      | some z => rfl

/-- The effect of a line on one setting. -/
def setStep {β : Type} (key : Str) (f : Str → β) (b : β) (e : IniEntry) : β :=
  if e.key = key then (match e.val with | some v => f v | none => b) else b

theorem setStep_fold {β : Type} (key : Str) (f : Str → β) : ∀ (es : List IniEntry) (b : β),
    es.foldl (setStep key f) b = match lastValue key es with | some v => f v | none => b
  | [], b => rfl
  | e :: es, b => by
    rw [List.foldl_cons, setStep_fold key f es, lastValue_cons]
    cases lastValue key es with
    | some v => rfl
    | none =>
      dsimp only
      unfold setStep
      by_cases h : e.key = key
      · rw [if_pos h, if_pos h]
      · rw [if_neg h, if_neg h]

theorem idEntry_globals (c : Config) (e : IniEntry) :
    Sat (idEntry c e) (fun c' => { c' with ids := c.ids, wildcard := c.wildcard } = c) (fun _ => True) := by
  unfold idEntry addId
  dsimp only
  repeat' (first | refine Sat.ite (fun _ => ?_) (fun _ => ?_) | split)
  all_goals trivial

/-- One numeric setting through the whole document. -/
theorem document_setting {β : Type} {g : Config → β} {key : Str} {f : Str → β} {c c' : Config} (hw : WF c)
    (hg : ∀ c c' : Config, c'.settings = c.settings → g c' = g c)
    (hgi : ∀ (c : Config) (i : List IdEntry) (w : Bool), g { c with ids := i, wildcard := w } = g c)
    (hgl : ∀ c e, Sat (globalEntry c e) (fun c' => g c' = setStep key f (g c) e) (fun _ => True))
    {text : Str} {ss : List IniSection} (hini : iniParseString text = .ok (some ss))
    (run : configParseString c text = .ok (some c')) :
    g c' = match lastValue key (linesOf b!"global" ss) with | some v => f v | none => g c := by
  have h := document_effect (g := g) (sid := fun b _ => b) (sgl := setStep key f) hw hg
    (fun c e => (idEntry_globals c e).imp (fun c1 h => by
      have := hgi c1 c.ids c.wildcard
      rw [h] at this
      exact this.symm)) hgl hini run
  rw [foldl_globals _ _ _ _ (fun _ _ => rfl), setStep_fold] at h
  exact h

/-- Reading one line: which setting it changes. -/
syntax "global_line" : tactic
macro_rules
  | `(tactic| global_line) => `(tactic| (
      intro c e
      unfold globalEntry setStep
      dsimp only
      repeat' (first | refine Sat.ite (fun h => ?_) (fun h => ?_) | split)
      all_goals first | trivial | (simp_all <;> done) | (rename_i hh; simp_all [Sat])))

/-- C51. Every numeric option has the value of the last line for it in the `[global]` sections, and
otherwise its default, whatever the other sections and options say. -/
theorem C51_global (text : Str) (c : Config) (run : configParse text = .ok (some c)) :
    ∃ ss, iniParseString text = .ok (some ss) ∧
      c.macroTimeout = setting b!"macro_timeout" 600 ss ∧
      c.macroSequenceTimeout = setting b!"macro_sequence_timeout" 0 ss ∧
      c.macroRepeatTimeout = setting b!"macro_repeat_timeout" 50 ss ∧
      c.oneshotTimeout = setting b!"oneshot_timeout" 0 ss ∧
      c.overloadTapTimeout = setting b!"overload_tap_timeout" 0 ss ∧
      c.chordInterkeyTimeout = setting b!"chord_timeout" 50 ss ∧
      c.chordHoldTimeout = setting b!"chord_hold_timeout" 0 ss ∧
      c.layerIndicator = toU8 (setting b!"layer_indicator" 0 ss) ∧
      c.disableModifierGuard = toU8 (setting b!"disable_modifier_guard" 0 ss) := by
  obtain ⟨c0, ss, hw, hd, hini, run⟩ := configParse_cases run
  refine ⟨ss, hini, ?_, ?_, ?_, ?_, ?_, ?_, ?_, ?_, ?_⟩
  · have h := document_setting (g := Config.macroTimeout) (key := b!"macro_timeout") (f := atoi) hw
      (fun c c' h => show c'.settings.macroTimeout = c.settings.macroTimeout by rw [h]) (fun _ _ _ => rfl) (by global_line) hini run
    rw [hd.macroTimeout] at h
    exact h
  · have h := document_setting (g := Config.macroSequenceTimeout) (key := b!"macro_sequence_timeout") (f := atoi) hw
      (fun c c' h => show c'.settings.macroSequenceTimeout = c.settings.macroSequenceTimeout by rw [h]) (fun _ _ _ => rfl) (by global_line) hini run
    rw [hd.macroSequenceTimeout] at h
    exact h
  · have h := document_setting (g := Config.macroRepeatTimeout) (key := b!"macro_repeat_timeout") (f := atoi) hw
      (fun c c' h => show c'.settings.macroRepeatTimeout = c.settings.macroRepeatTimeout by rw [h]) (fun _ _ _ => rfl) (by global_line) hini run
    rw [hd.macroRepeatTimeout] at h
    exact h
  · have h := document_setting (g := Config.oneshotTimeout) (key := b!"oneshot_timeout") (f := atoi) hw
      (fun c c' h => show c'.settings.oneshotTimeout = c.settings.oneshotTimeout by rw [h]) (fun _ _ _ => rfl) (by global_line) hini run
    rw [hd.oneshotTimeout] at h
    exact h
  · have h := document_setting (g := Config.overloadTapTimeout) (key := b!"overload_tap_timeout") (f := atoi) hw
      (fun c c' h => show c'.settings.overloadTapTimeout = c.settings.overloadTapTimeout by rw [h]) (fun _ _ _ => rfl) (by global_line) hini run
    rw [hd.overloadTapTimeout] at h
    exact h
  · have h := document_setting (g := Config.chordInterkeyTimeout) (key := b!"chord_timeout") (f := atoi) hw
      (fun c c' h => show c'.settings.chordInterkeyTimeout = c.settings.chordInterkeyTimeout by rw [h]) (fun _ _ _ => rfl) (by global_line) hini run
    rw [hd.chordInterkeyTimeout] at h
    exact h
  · have h := document_setting (g := Config.chordHoldTimeout) (key := b!"chord_hold_timeout") (f := atoi) hw
      (fun c c' h => show c'.settings.chordHoldTimeout = c.settings.chordHoldTimeout by rw [h]) (fun _ _ _ => rfl) (by global_line) hini run
    rw [hd.chordHoldTimeout] at h
    exact h
  · have h := document_setting (g := Config.layerIndicator) (key := b!"layer_indicator") (f := fun v => toU8 (atoi v)) hw
      (fun c c' h => show c'.settings.layerIndicator = c.settings.layerIndicator by rw [h]) (fun _ _ _ => rfl) (by global_line) hini run
    rw [hd.layerIndicator] at h
    unfold setting
    revert h
    cases lastValue b!"layer_indicator" (linesOf b!"global" ss) with
    | none => intro h; rw [h]; rfl
    | some v => exact fun h => h
  · have h := document_setting (g := Config.disableModifierGuard) (key := b!"disable_modifier_guard") (f := fun v => toU8 (atoi v)) hw
      (fun c c' h => show c'.settings.disableModifierGuard = c.settings.disableModifierGuard by rw [h]) (fun _ _ _ => rfl) (by global_line) hini run
    rw [hd.disableModifierGuard] at h
    unfold setting
    revert h
    cases lastValue b!"disable_modifier_guard" (linesOf b!"global" ss) with
    | none => intro h; rw [h]; rfl
    | some v => exact fun h => h

/-- C51. The default layout is the one named by the last `default_layout` line with a value, when every such line
has one. -/
theorem C51_default_layout (text : Str) (c : Config) (run : configParse text = .ok (some c)) :
    ∃ ss, iniParseString text = .ok (some ss) ∧
      ((∀ e ∈ linesOf b!"global" ss, e.key = b!"default_layout" → e.val ≠ none) →
        c.defaultLayout = ((lastValue b!"default_layout" (linesOf b!"global" ss)).getD []).take 63) := by
  obtain ⟨c0, ss, hw, hd, hini, run⟩ := configParse_cases run
  refine ⟨ss, hini, fun hall => ?_⟩
  have h := document_effect (g := Config.defaultLayout) (sid := fun b _ => b)
    (sgl := fun b e => if e.key = b!"default_layout" then (e.val.getD b!"(null)").take 63 else b) hw
    (fun c c' h => show c'.settings.defaultLayout = c.settings.defaultLayout by rw [h])
    (fun c e => (idEntry_globals c e).imp (fun c1 h => by rw [← h])) ?_ hini run
  · rw [foldl_globals _ _ _ _ (fun _ _ => rfl), hd.defaultLayout] at h
    rw [h]
    have gen : ∀ (es : List IniEntry) (b : Str), (∀ e ∈ es, e.key = b!"default_layout" → e.val ≠ none) →
        es.foldl (fun b e => if e.key = b!"default_layout" then (e.val.getD b!"(null)").take 63 else b) b =
          match lastValue b!"default_layout" es with | some v => v.take 63 | none => b := by
      intro es
      induction es with
      | nil => intro b _; rfl
      | cons e es ih =>
        intro b hb
        rw [List.foldl_cons, ih _ (fun e he => hb e (List.mem_cons_of_mem _ he)), lastValue_cons]
        cases lastValue b!"default_layout" es with
        | some v => rfl
        | none =>
          dsimp only
          by_cases hk : e.key = b!"default_layout"
          · rw [if_pos hk, if_pos hk]
            have := hb e List.mem_cons_self hk
            cases hv : e.val with
            | none => exact absurd hv this
            | some v => rfl
          · rw [if_neg hk, if_neg hk]
    rw [gen _ _ hall]
    cases lastValue b!"default_layout" (linesOf b!"global" ss) <;> rfl
  · intro c e
    unfold globalEntry
    dsimp only
    repeat' (first | refine Sat.ite (fun h => ?_) (fun h => ?_) | split)
    all_goals first | trivial | (simp_all <;> done) | (rename_i hh; simp_all [Sat])

/-! ### Bindings -/

/-- A binding line: the layer of its section, the key and the action. -/
structure BindingLine where
  layer : Str
  key : Str
  action : Str

/-- The binding lines of a document, in order: all lines with a value outside `[ids]`, `[aliases]`
and `[global]`. The layer is the heading up to the first colon. -/
def bindingLines (ss : List IniSection) : List BindingLine :=
  ss.flatMap fun s =>
    if s.name = b!"ids" ∨ s.name = b!"aliases" ∨ s.name = b!"global" then []
    else s.entries.filterMap fun e => e.val.map fun v => ⟨((tokens 58 s.name).head?).getD b!"(null)", e.key, v⟩

/-- The line as it is handed on, the way `keyd bind` would be given it. -/
def BindingLine.text (b : BindingLine) : Str := b.layer ++ b!"." ++ b.key ++ b!" = " ++ b.action

/-- An ordinary line: the layer's name has no dot or parenthesis, the key has no `=` after its first
character, neither key nor action have blanks around them, and the whole is shorter than 512 bytes. -/
structure BindingLine.Plain (b : BindingLine) : Prop where
  layer : b.layer ≠ [] ∧ (46 : UInt8) ∉ b.layer ∧ (40 : UInt8) ∉ b.layer
  key : b.key ≠ [] ∧ (61 : UInt8) ∉ b.key.tail ∧ ∀ x, b.key.getLast? = some x → isBlank x = false
  action : ∀ x, b.action.head? = some x → isBlank x = false
  short : b.text.length < 512

/-- Executing binding lines one after the other. -/
def bindLines : Config → List BindingLine → Res Config
  | c, [] => .ok c
  | c, b :: bs => do
    let (c, _) ← configAddEntry c (b.text.take 511)
    bindLines c bs

theorem bindLines_cons (c : Config) (b : BindingLine) (bs : List BindingLine) :
    bindLines c (b :: bs) = (configAddEntry c (b.text.take 511) >>= fun r => bindLines r.1 bs) := rfl

theorem bindLines_append : ∀ (xs ys : List BindingLine) (c : Config),
    bindLines c (xs ++ ys) = (do let c ← bindLines c xs; bindLines c ys)
  | [], ys, c => rfl
  | x :: xs, ys, c => by
    rw [List.cons_append, bindLines_cons, bindLines_cons]
    cases h : configAddEntry c (x.text.take 511) with
    | error e => rfl
    | ok r =>
      rw [bind_ok, bind_ok]
      exact bindLines_append xs ys r.1

theorem sectionEntries_lines (n : Str) : ∀ (es : List IniEntry) (c : Config),
    sectionEntries n c es = bindLines c (es.filterMap fun e => e.val.map fun v => ⟨n, e.key, v⟩)
  | [], c => rfl
  | e :: es, c => by
    unfold sectionEntries
    rw [List.filterMap_cons]
    cases e.val with
    | none => exact sectionEntries_lines n es c
    | some v =>
      dsimp only [Option.map_some]
      unfold bindLines
      cases h : configAddEntry c _ with
      | error e' =>
        show _ = (configAddEntry c ((n ++ b!"." ++ e.key ++ b!" = " ++ v).take 511) >>= _)
        rw [h]; rfl
      | ok r =>
        show _ = (configAddEntry c ((n ++ b!"." ++ e.key ++ b!" = " ++ v).take 511) >>= _)
        rw [h, bind_ok, bind_ok]
        exact sectionEntries_lines n es r.1

theorem passTwo_lines : ∀ (ss : List IniSection) (c : Config), passTwo c ss = bindLines c (bindingLines ss)
  | [], c => rfl
  | s :: ss, c => by
    unfold passTwo bindingLines
    rw [List.flatMap_cons, bindLines_append]
    congr 1
    · split
      · rfl
      · exact sectionEntries_lines _ _ _
    · funext c1
      exact passTwo_lines ss c1

/-- What later lines leave alone: tables only grow, aliases, names and order of the layers stay. -/
structure Grown (c c' : Config) : Prop where
  descs : c.descriptors <+: c'.descriptors
  macros : c.macros <+: c'.macros
  commands : c.commands <+: c'.commands
  aliases : c'.aliases = c.aliases
  shape : c'.layers.map (fun l => (l.name, l.type)) = c.layers.map (fun l => (l.name, l.type))

theorem Grown.names {c c' : Config} (h : Grown c c') : c'.layers.map (·.name) = c.layers.map (·.name) := by
  have := congrArg (List.map Prod.fst) h.shape
  simpa [List.map_map, Function.comp_def] using this

theorem Grown.refl (c : Config) : Grown c c :=
  ⟨List.prefix_refl _, List.prefix_refl _, List.prefix_refl _, rfl, rfl⟩

theorem Grown.trans {a b c : Config} (h : Grown a b) (h' : Grown b c) : Grown a c :=
  ⟨h.1.trans h'.1, h.2.trans h'.2, h.3.trans h'.3, h'.4.trans h.4, h'.5.trans h.5⟩

theorem Names.of_grown {c c' : Config} (h : Grown c c') {key : Str} {x : Code} : Names c' key x ↔ Names c key x := by
  unfold Names
  rw [h.aliases]

theorem setLayerEntry_some {c : Config} (l : Layer) {key : Str} (d : Desc) {x : Code} (hk : (43 : UInt8) ∉ key)
    (h : Names c key x) : ∃ l', setLayerEntry c l key d = some l' := by
  unfold setLayerEntry
  rw [if_neg hk]
  split
  · exact ⟨_, rfl⟩
  · rename_i hany
    rcases h with h | ⟨_, h1, h2⟩
    · exact absurd (List.any_eq_true.2 ⟨x, mem_allCodes x, by simpa using h⟩) hany
    · dsimp only
      rw [if_neg (by rw [← h1]; exact h2)]
      exact ⟨_, rfl⟩

theorem setLayerEntry_chord {c : Config} {l l' : Layer} {key : Str} {d : Desc} (hk : (43 : UInt8) ∈ key)
    (h : setLayerEntry c l key d = some l') : l'.keymap = l.keymap := by
  unfold setLayerEntry at h
  rw [if_pos hk] at h
  unfold setChord at h
  repeat' (first | split at h | (dsimp only at h))
  all_goals first | (cases h; done) | (rw [Option.some.injEq] at h; rw [← h])

theorem Extends.grown {c c' : Config} (h : Extends c c') : Grown c c' :=
  ⟨h.descs, h.macros, h.commands, h.aliases, by rw [h.layers]⟩

theorem plain_split {b : BindingLine} (hb : b.Plain) :
    b.text.take 511 = b.text ∧ (splitLayer b.text).1 = b.layer ∧ parseKvp (splitLayer b.text).2 = (b.key, some b.action) := by
  have h1 : b.text.take 511 = b.text := List.take_of_length_le (by have := hb.short; omega)
  have e : b.text = b.layer ++ 46 :: (b.key ++ b!" " ++ 61 :: (b!" " ++ b.action)) := by
    unfold BindingLine.text
    simp
  refine ⟨h1, ?_, ?_⟩
  · rw [e, splitLayer_qualified _ _ hb.layer.1 hb.layer.2.1 hb.layer.2.2]
  · rw [e, splitLayer_qualified _ _ hb.layer.1 hb.layer.2.1 hb.layer.2.2]
    exact C32_key_value b.key b!" " b!" " b.action hb.key.1 hb.key.2.1 hb.key.2.2 (by decide) (by decide) hb.action

/-- One line: it binds what it names in its layer and nothing else. -/
theorem bind_line {c c' : Config} (hw : WF c) {b : BindingLine} (hb : b.Plain) {ok : Bool}
    (run : configAddEntry c (b.text.take 511) = .ok (c', ok)) :
    WF c' ∧ Grown c c' ∧
    (∀ (i : Nat) (l : Layer), c.layers[i]? = some l → ∃ l', c'.layers[i]? = some l' ∧
      ∀ x, l.name ≠ b.layer ∨ ¬ Names c b.key x → l'.keymap x = l.keymap x) ∧
    (∀ (i : Nat) (l : Layer) (c1 : Config) (d : Desc), c.layers[i]? = some l → l.name = b.layer → (43 : UInt8) ∉ b.key →
      parseDescriptor c b.action = .ok (c1, some d) → ∃ l', c'.layers[i]? = some l' ∧ ∀ x, Names c b.key x → l'.keymap x = d) := by
  obtain ⟨e1, e2, e3⟩ := plain_split hb
  rw [e1] at run
  refine ⟨(configAddEntry_sat hw _).of_ok run, ?_⟩
  have run0 := run
  rcases configAddEntry_cases hw run with ⟨h0, h1, h2⟩ | ⟨_, _, idx, l0, l0', c1, d, h1, h2, h3, h4, h5, h6⟩
  · refine ⟨?_, fun i l hl => ⟨l, by rw [h1]; exact hl, fun _ _ => rfl⟩, ?_⟩
    · unfold configAddEntry at run
      split at run
      · cases run; exact .refl _
      · dsimp only at run
        split at run
        · cases run; exact .refl _
        · rw [bind_eq_ok] at run
          obtain ⟨⟨c1, r⟩, hp, run⟩ := run
          have hext := parseDescriptor_extends hw hp
          cases r with
          | none => cases run; exact hext.grown
          | some d =>
            dsimp only at run
            split at run
            · cases run; exact hext.grown
            · cases run; cases h0
    · intro i l c1 d hl hn hplus hp
      refine ⟨l, by rw [h1]; exact hl, fun x hx => ?_⟩
      exfalso
      unfold configAddEntry at run
      rw [if_neg (by have := hb.short; omega)] at run
      dsimp only at run
      rw [e2, e3, ← hn, layerIndex_of_nodup hw.names hl] at run
      dsimp only [Option.getD_some] at run
      rw [hp, bind_ok] at run
      dsimp only at run
      obtain ⟨l', hl'⟩ := setLayerEntry_some (c1.layer i) d hplus ((Names.of_grown (parseDescriptor_extends hw hp).grown).2 hx)
      rw [hl'] at run
      dsimp only at run
      injection run with run
      injection run with _ r2
      rw [h0] at r2
      cases r2
  · rw [e2] at h1
    rw [e3] at h3 h4
    dsimp only [Option.getD_some] at h3
    have hname : l0.name = b.layer := by
      obtain ⟨l2, g1, g2⟩ := layerIndex_some h1
      rw [h2] at g1
      cases g1
      exact g2
    have hlt : idx < c.layers.length := by
      by_contra hge
      rw [List.getElem?_eq_none (by omega)] at h2
      cases h2
    have hl0' : l0'.name = l0.name := (setLayerEntry_same h4).1
    have hget : ∀ i, c'.layers[i]? = if idx = i then some l0' else c.layers[i]? := by
      intro i
      rw [h5]
      show (c.layers.set idx l0')[i]? = _
      rw [List.getElem?_set]
      by_cases hi : idx = i
      · rw [if_pos hi, if_pos hi, if_pos hlt]
      · rw [if_neg hi, if_neg hi]
    refine ⟨⟨?_, ?_, ?_, ?_, ?_⟩, ?_, ?_⟩
    · rw [h5]; exact h6.descs
    · rw [h5]; exact h6.macros
    · rw [h5]; exact h6.commands
    · rw [h5]; exact h6.aliases
    · apply List.ext_getElem?
      intro i
      rw [List.getElem?_map, List.getElem?_map, hget]
      by_cases hi : idx = i
      · subst hi
        rw [if_pos rfl, h2]
        simp [hl0', (setLayerEntry_same h4).2.1]
      · rw [if_neg hi]
    · intro i l hl
      by_cases hi : idx = i
      · subst hi
        rw [h2] at hl
        cases hl
        refine ⟨l0', by rw [hget, if_pos rfl], fun x hx => ?_⟩
        have hx : ¬ Names c b.key x := hx.elim (fun h => absurd hname h) id
        by_cases hplus : (43 : UInt8) ∈ b.key
        · rw [setLayerEntry_chord hplus h4]
        · exact ((setLayerEntry_keymap hplus h4).2.2 x).2 hx
      · exact ⟨l, by rw [hget, if_neg hi]; exact hl, fun _ _ => rfl⟩
    · intro i l c2 d' hl hn hplus hp
      rw [hp] at h3
      cases h3
      have hi : idx = i := by
        have := layerIndex_of_nodup hw.names hl
        rw [hn, h1] at this
        cases this
        rfl
      subst hi
      exact ⟨l0', by rw [hget, if_pos rfl], fun x hx => ((setLayerEntry_keymap hplus h4).2.2 x).1 hx⟩

theorem bind_lines : ∀ (bs : List BindingLine) {c c' : Config}, WF c → (∀ b ∈ bs, b.Plain) → bindLines c bs = .ok c' →
    WF c' ∧ Grown c c' ∧
    ∀ (i : Nat) (l : Layer), c.layers[i]? = some l → ∃ l', c'.layers[i]? = some l' ∧
      ∀ x, (∀ b ∈ bs, b.layer = l.name → ¬ Names c b.key x) → l'.keymap x = l.keymap x
  | [], c, c', hw, _, run => by
    cases run
    exact ⟨hw, .refl _, fun i l hl => ⟨l, hl, fun _ _ => rfl⟩⟩
  | b :: bs, c, c', hw, hp, run => by
    rw [bindLines_cons, bind_eq_ok] at run
    obtain ⟨⟨c1, ok⟩, h1, run⟩ := run
    obtain ⟨w1, g1, k1, _⟩ := bind_line hw (hp b List.mem_cons_self) h1
    obtain ⟨w2, g2, k2⟩ := bind_lines bs w1 (fun b hb => hp b (List.mem_cons_of_mem _ hb)) run
    refine ⟨w2, g1.trans g2, fun i l hl => ?_⟩
    obtain ⟨l1, e1, f1⟩ := k1 i l hl
    obtain ⟨l2, e2, f2⟩ := k2 i l1 e1
    have hn : l1.name = l.name := by
      have := congrArg (fun x => x[i]?) g1.names
      simp only [List.getElem?_map, e1, hl, Option.map_some, Option.some.injEq] at this
      exact this
    refine ⟨l2, e2, fun x hx => ?_⟩
    rw [f2 x (fun b' hb' hbl => by
      rw [Names.of_grown g1]
      exact hx b' (List.mem_cons_of_mem _ hb') (hbl.trans hn))]
    refine f1 x ?_
    by_cases hbl : b.layer = l.name
    · exact .inr (hx b List.mem_cons_self hbl)
    · exact .inl (fun h => hbl h.symm)

/-- C52. In a document of ordinary lines, a key is bound in a layer to the action of the last line
of that layer's sections that names the key; nothing after that line, in this or in any other
section, matters. The action is the one the line's text denotes when the line is reached, and the
tables it refers to only grow afterwards. -/
theorem C52_last_line_wins (c0 : Config) (hw : WF c0) (text : Str) (c : Config)
    (run : configParseString c0 text = .ok (some c)) (ss : List IniSection) (hini : iniParseString text = .ok (some ss))
    (hplain : ∀ b ∈ bindingLines ss, b.Plain)
    (before after : List BindingLine) (b : BindingLine) (hlines : bindingLines ss = before ++ b :: after)
    (hkey : (43 : UInt8) ∉ b.key) (x : Code) (hx : Names c b.key x)
    (hlast : ∀ b' ∈ after, b'.layer = b.layer → ¬ Names c b'.key x)
    (i : Nat) (l : Layer) (hl : c.layers[i]? = some l) (hname : l.name = b.layer) :
    ∃ cm r, Grown cm c ∧ parseDescriptor cm b.action = .ok r ∧ Grown r.1 c ∧ (∀ d, r.2 = some d → l.keymap x = d) := by
  unfold configParseString at run
  rw [hini, bind_ok] at run
  dsimp only at run
  rw [bind_eq_ok] at run
  obtain ⟨c1, h1, run⟩ := run
  rw [bind_eq_ok] at run
  obtain ⟨c2, h2, run⟩ := run
  injection run with run
  injection run with run
  subst run
  have hw1 := (passOne_sat ss hw).of_ok h1
  rw [passTwo_lines, hlines, bindLines_append, bind_eq_ok] at h2
  obtain ⟨cm, h2, h3⟩ := h2
  rw [hlines] at hplain
  obtain ⟨wm, gm, _⟩ := bind_lines before hw1 (fun b hb => hplain b (List.mem_append_left _ hb)) h2
  rw [bindLines_cons, bind_eq_ok] at h3
  obtain ⟨⟨cn, ok⟩, h3, h4⟩ := h3
  have hbp := hplain b (List.mem_append_right _ List.mem_cons_self)
  obtain ⟨wn, gn, kn, bn⟩ := bind_line wm hbp h3
  obtain ⟨_, ge, ke⟩ := bind_lines after wn (fun b hb => hplain b (List.mem_append_right _ (List.mem_cons_of_mem _ hb))) h4
  have gmc := gn.trans ge
  -- the layer exists throughout
  have hlen : c2.layers.length = cm.layers.length := by
    have := congrArg List.length gmc.names
    simpa using this
  have hlt : i < cm.layers.length := by
    rw [← hlen]
    by_contra hge
    rw [List.getElem?_eq_none (by omega)] at hl
    cases hl
  have hgm : cm.layers[i]? = some cm.layers[i] := List.getElem?_eq_getElem hlt
  have hnm : cm.layers[i].name = b.layer := by
    have := congrArg (fun y => y[i]?) gmc.names
    simp only [List.getElem?_map, hl, hgm, Option.map_some, Option.some.injEq] at this
    rw [← this, hname]
  obtain ⟨e1, e2, e3⟩ := plain_split hbp
  rw [e1] at h3
  have h3' := h3
  unfold configAddEntry at h3'
  rw [if_neg (by have := hbp.short; omega)] at h3'
  dsimp only at h3'
  rw [e2, e3, ← hnm, layerIndex_of_nodup wm.names hgm] at h3'
  dsimp only [Option.getD_some] at h3'
  rw [bind_eq_ok] at h3'
  obtain ⟨r, hr, h3'⟩ := h3'
  have hext := parseDescriptor_extends wm hr
  have grn : Grown r.1 cn := by
    obtain ⟨rc, rd⟩ := r
    dsimp only at h3' hext ⊢
    cases rd with
    | none => cases h3'; exact .refl _
    | some d =>
      dsimp only at h3'
      split at h3'
      · cases h3'; exact .refl _
      · injection h3' with h3'
        injection h3' with h3' _
        refine ⟨?_, ?_, ?_, ?_, ?_⟩
        · rw [← h3']; try exact List.prefix_refl _
        · rw [← h3']; try exact List.prefix_refl _
        · rw [← h3']; try exact List.prefix_refl _
        · rw [← h3']; try rfl
       
        rw [gn.shape, hext.layers]
  refine ⟨cm, r, gmc, hr, grn.trans ge, fun d hd => ?_⟩
  obtain ⟨rc, rd⟩ := r
  dsimp only at hd
  subst hd
  obtain ⟨l', f1, f2⟩ := bn i _ rc d hgm hnm hkey hr
  obtain ⟨l2, f3, f4⟩ := ke i l' f1
  rw [hl] at f3
  cases f3
  have hn' : l'.name = b.layer := by
    have := congrArg (fun y => y[i]?) ge.names
    simp only [List.getElem?_map, hl, f1, Option.map_some, Option.some.injEq] at this
    rw [← this, hname]
  rw [f4 x (fun b' hb' hbl => by
    rw [← Names.of_grown ge]
    exact hlast b' hb' (hbl.trans hn'))]
  exact f2 x ((Names.of_grown gmc).1 hx)

/-! ### Layers of a document -/

/-- What a layer of a configuration, possibly not there yet, binds a key to. -/
def Config.boundTo (c : Config) (i : Nat) (x : Code) : Desc :=
  match c.layers[i]? with
  | some l => l.keymap x
  | none => .none

/-- The keys that the `[aliases]` section, besides naming them, binds in the main layer: those whose
new name is itself the name of a key. -/
def Aliased (ss : List IniSection) (x : Code) : Prop :=
  ∃ e ∈ linesOf b!"aliases" ss, lookupKeycode e.key = x ∧ ∃ v, e.val = some v ∧ lookupKeycode v ≠ 0

/-- The first pass leaves bindings alone, except those of `A` in the main layer. -/
structure Opened (A : Code → Prop) (c c' : Config) : Prop where
  keep : ∀ (i : Nat) (x : Code), (i = 0 → ¬ A x) → c'.boundTo i x = c.boundTo i x

theorem Opened.refl (A : Code → Prop) (c : Config) : Opened A c c := ⟨fun _ _ _ => rfl⟩

theorem Opened.of_layers {A : Code → Prop} {c c' : Config} (h : c'.layers = c.layers) : Opened A c c' :=
  ⟨fun _ _ _ => by unfold Config.boundTo; rw [h]⟩

theorem Opened.trans {A : Code → Prop} {a b c : Config} (h : Opened A a b) (h' : Opened A b c) : Opened A a c :=
  ⟨fun i x hx => (h'.keep i x hx).trans (h.keep i x hx)⟩

theorem Opened.mono {A B : Code → Prop} {a b : Config} (h : Opened A a b) (hAB : ∀ x, A x → B x) : Opened B a b :=
  ⟨fun i x hx => h.keep i x (fun hi ha => hx hi (hAB x ha))⟩

theorem newLayer_blank (c : Config) (s : Str) :
    Sat (newLayer c s) (fun r => ∀ l, r = some l → l.keymap = (fun _ => .none) ∧ l.chords = [] ∧ (tokens 58 s).head? = some l.name)
      (fun _ => True) := by
  unfold newLayer
  cases ht : tokens 58 s with
  | nil => exact trivial
  | cons name more =>
    dsimp only
    refine Sat.ite (fun _ => ?_) (fun _ => ?_)
    · refine Sat.ite (fun _ => ?_) (fun _ => ?_)
      · exact fun l h => nomatch h
      · refine Sat.bind (Q := fun _ => True) (Sat.intro (fun _ _ => trivial)) ?_
        intro r _
        cases r with
        | none => exact fun l h => nomatch h
        | some cs => exact fun l h => by cases h; exact ⟨rfl, rfl, rfl⟩
    · cases more.head? with
      | none => exact fun l h => by cases h; exact ⟨rfl, rfl, rfl⟩
      | some t =>
        dsimp only
        refine Sat.ite (fun _ => ?_) (fun _ => ?_)
        · exact fun l h => by cases h; exact ⟨rfl, rfl, rfl⟩
        · cases parseModset t with
          | none => exact fun l h => by cases h; exact ⟨rfl, rfl, rfl⟩
          | some m => exact fun l h => by cases h; exact ⟨rfl, rfl, rfl⟩

theorem configAddLayer_opened (A : Code → Prop) (c : Config) (s : Str) :
    Sat (configAddLayer c s) (fun r => Opened A c r.1) (fun _ => True) := by
  unfold configAddLayer
  refine Sat.ite (fun _ => Opened.refl A c) (fun _ => ?_)
  dsimp only
  refine Sat.ite (fun _ => Opened.refl A c) (fun _ => ?_)
  refine Sat.ite (fun _ => Opened.refl A c) (fun _ => ?_)
  refine Sat.bind (newLayer_blank c s) ?_
  intro r hr
  cases r with
  | none => exact Opened.refl A c
  | some l =>
    refine ⟨fun i x _ => ?_⟩
    show (match (c.layers ++ [l])[i]? with
      | some l => l.keymap x
      | none => .none) = c.boundTo i x
    unfold Config.boundTo
    by_cases hlt : i < c.layers.length
    · rw [List.getElem?_append_left hlt]
    · rw [List.getElem?_append_right (by omega), List.getElem?_eq_none (l := c.layers) (by omega)]
      cases hi : i - c.layers.length with
      | zero =>
        show l.keymap x = _
        rw [(hr l rfl).1]
      | succ j => rfl

theorem aliasEntry_opened (c : Config) (e : IniEntry) : Sat (aliasEntry c e)
    (fun c' => Opened (fun x => lookupKeycode e.key = x ∧ ∃ v, e.val = some v ∧ lookupKeycode v ≠ 0) c c') (fun _ => True) := by
  unfold aliasEntry
  dsimp only
  refine Sat.ite (fun _ => Opened.refl _ c) (fun _ => ?_)
  cases hv : e.val with
  | none => exact trivial
  | some v =>
    dsimp only
    refine Sat.ite (fun _ => Opened.refl _ c) (fun _ => ?_)
    by_cases hz : lookupKeycode v = 0
    · rw [if_pos hz]
      exact Opened.of_layers rfl
    · rw [if_neg hz]
      refine ⟨fun i x hx => ?_⟩
      show (match (c.layers.modify 0 _)[i]? with
        | some l => l.keymap x
        | none => .none) = c.boundTo i x
      unfold Config.boundTo
      rw [List.getElem?_modify]
      by_cases hi : 0 = i
      · simp only [if_pos hi]
        cases c.layers[i]? with
        | none => rfl
        | some l =>
          show upd l.keymap (lookupKeycode e.key) _ x = l.keymap x
          rw [upd_other _ _ (fun h => hx hi.symm ⟨h.symm, v, rfl, hz⟩)]
      · simp only [if_neg hi]
        cases c.layers[i]? <;> rfl

theorem entries_layers {f : Config → IniEntry → Res Config} {A : IniEntry → Code → Prop}
    (F : Config → List IniEntry → Res Config) (hF0 : ∀ c, F c [] = .ok c)
    (hF1 : ∀ c e es, F c (e :: es) = (f c e >>= fun c => F c es))
    (hf : ∀ c e, Sat (f c e) (fun c' => Opened (A e) c c') (fun _ => True)) :
    ∀ (es : List IniEntry) (c : Config), Sat (F c es) (fun c' => Opened (fun x => ∃ e ∈ es, A e x) c c') (fun _ => True)
  | [], c => by rw [hF0]; exact Opened.refl _ c
  | e :: es, c => by
    rw [hF1]
    refine Sat.bind (hf c e) (fun c1 h1 => (entries_layers F hF0 hF1 hf es c1).imp (fun c2 h2 => ?_))
    exact (h1.mono (fun x hx => ⟨e, List.mem_cons_self, hx⟩)).trans
      (h2.mono (fun x ⟨e', he, hx⟩ => ⟨e', List.mem_cons_of_mem _ he, hx⟩))

theorem passOne_opened : ∀ (ss : List IniSection) (c : Config),
    Sat (passOne c ss) (fun c' => Opened (Aliased ss) c c') (fun _ => True)
  | [], c => Opened.refl _ c
  | s :: ss, c => by
    unfold passOne
    refine Sat.bind (Q := fun c' => Opened (Aliased (s :: ss)) c c') ?_ (fun c1 h1 =>
      (passOne_opened ss c1).imp (fun c2 h2 => h1.trans (h2.mono ?_)))
    · refine Sat.ite (fun _ => ?_) (fun _ => Sat.ite (fun ha => ?_) (fun _ => Sat.ite (fun _ => ?_) (fun _ => ?_)))
      · exact (entries_layers (A := fun _ _ => False) parseIdSection (fun _ => rfl) (fun _ _ _ => rfl)
          (fun c e => (idEntry_layers c e).imp (fun _ h => Opened.of_layers h)) s.entries c).imp
          (fun _ h => h.mono (fun x ⟨_, _, hf⟩ => hf.elim))
      · refine (entries_layers parseAliasSection (fun _ => rfl) (fun _ _ _ => rfl) aliasEntry_opened s.entries c).imp
          (fun _ h => h.mono (fun x ⟨e, he, hx⟩ => ⟨e, ?_, hx⟩))
        unfold linesOf
        rw [List.mem_flatMap]
        exact ⟨s, List.mem_filter.2 ⟨List.mem_cons_self, by simpa using ha⟩, he⟩
      · exact (entries_layers (A := fun _ _ => False) parseGlobalSection (fun _ => rfl) (fun _ _ _ => rfl)
          (fun c e => (globalEntry_layers c e).imp (fun _ h => Opened.of_layers h)) s.entries c).imp
          (fun _ h => h.mono (fun x ⟨_, _, hf⟩ => hf.elim))
      · exact Sat.bind (configAddLayer_opened _ c s.name) (fun r h => h)
    · rintro x ⟨e, he, hx⟩
      refine ⟨e, ?_, hx⟩
      unfold linesOf at he ⊢
      rw [List.mem_flatMap] at he ⊢
      obtain ⟨s', h1, h2⟩ := he
      exact ⟨s', List.mem_filter.2 ⟨List.mem_cons_of_mem _ (List.mem_filter.1 h1).1, (List.mem_filter.1 h1).2⟩, h2⟩

/-- C52. A key that no line of a layer's sections names is left as it was: with what the starting
configuration bound it to in that layer, or unbound if the layer is new. The main layer has one
exception: a line `key = name` of `[aliases]` whose name is that of another key binds it. -/
theorem C52_unmentioned (c0 : Config) (hw : WF c0) (text : Str) (c : Config)
    (run : configParseString c0 text = .ok (some c)) (ss : List IniSection) (hini : iniParseString text = .ok (some ss))
    (hplain : ∀ b ∈ bindingLines ss, b.Plain) (i : Nat) (l : Layer) (hl : c.layers[i]? = some l) (x : Code)
    (hx : ∀ b ∈ bindingLines ss, b.layer = l.name → ¬ Names c b.key x) (ha : i = 0 → ¬ Aliased ss x) :
    l.keymap x = c0.boundTo i x := by
  unfold configParseString at run
  rw [hini, bind_ok] at run
  dsimp only at run
  rw [bind_eq_ok] at run
  obtain ⟨c1, h1, run⟩ := run
  rw [bind_eq_ok] at run
  obtain ⟨c2, h2, run⟩ := run
  injection run with run
  injection run with run
  subst run
  have hw1 := (passOne_sat ss hw).of_ok h1
  have ho := (passOne_opened ss c0).of_ok h1
  rw [passTwo_lines] at h2
  obtain ⟨w2, g2, k2⟩ := bind_lines _ hw1 hplain h2
  have hlen : c2.layers.length = c1.layers.length := by
    have := congrArg List.length g2.names
    simpa using this
  have hlt : i < c1.layers.length := by
    rw [← hlen]
    by_contra hge
    rw [List.getElem?_eq_none (by omega)] at hl
    cases hl
  have hg1 : c1.layers[i]? = some c1.layers[i] := List.getElem?_eq_getElem hlt
  obtain ⟨l', e1, e2⟩ := k2 i _ hg1
  rw [hl] at e1
  cases e1
  have hn : l.name = c1.layers[i].name := by
    have := congrArg (fun y => y[i]?) g2.names
    simpa only [List.getElem?_map, hl, hg1, Option.map_some, Option.some.injEq] using this
  rw [e2 x (fun b hb hbl => by
    rw [← Names.of_grown g2]
    exact hx b hb (hbl.trans hn.symm))]
  rw [← ho.keep i x ha]
  unfold Config.boundTo
  rw [hg1]

/-! ### The sample document meets the hypotheses -/

def BindingLine.plainB (b : BindingLine) : Bool :=
  b.layer ≠ [] && (!b.layer.contains 46 && (!b.layer.contains 40 && (b.key ≠ [] && (!b.key.tail.contains 61 &&
    ((b.key.getLast?.map isBlank).getD false == false && ((b.action.head?.map isBlank).getD false == false &&
      decide (b.text.length < 512)))))))

theorem BindingLine.plain_of_check {b : BindingLine} (h : b.plainB = true) : b.Plain := by
  unfold BindingLine.plainB at h
  simp only [Bool.and_eq_true, decide_eq_true_eq, Bool.not_eq_true', beq_iff_eq, ne_eq] at h
  obtain ⟨h1, h2, h3, h4, h5, h6, h7, h8⟩ := h
  refine ⟨⟨h1, ?_, ?_⟩, ⟨h4, ?_, fun x hx => ?_⟩, fun x hx => ?_, h8⟩
  · intro hm; rw [List.contains_iff_mem.2 hm] at h2; cases h2
  · intro hm; rw [List.contains_iff_mem.2 hm] at h3; cases h3
  · intro hm; rw [List.contains_iff_mem.2 hm] at h5; cases h5
  · rw [hx] at h6; exact h6
  · rw [hx] at h7; exact h7

def namesB (c : Config) (key : Str) (x : Code) : Bool :=
  c.aliases x == key || (allCodes.all (fun i => c.aliases i != key) && (x == lookupKeycode key && x != 0))

theorem namesB_iff {c : Config} {key : Str} {x : Code} : namesB c key x = true ↔ Names c key x := by
  unfold namesB Names
  simp only [Bool.or_eq_true, beq_iff_eq, Bool.and_eq_true, List.all_eq_true, bne_iff_ne, ne_eq]
  constructor
  · rintro (h | ⟨h, h', h''⟩)
    · exact .inl h
    · exact .inr ⟨fun i => h i (mem_allCodes i), h', h''⟩
  · rintro (h | ⟨h, h', h''⟩)
    · exact .inl h
    · exact .inr ⟨fun i _ => h i, h', h''⟩

/-- `a = c`, the third of the six binding lines. -/
def docLine : BindingLine := ⟨b!"main", b!"a", b!"c"⟩

def docLines : Nat → Nat → List BindingLine := fun i n => ((bindingLines docSections).drop i).take n

def lineEq (a b : BindingLine) : Bool := a.layer == b.layer && (a.key == b.key && a.action == b.action)

theorem docSections_parse : iniParseString docText = .ok (some docSections) := by
  obtain ⟨_, ss, _, _, h, _⟩ := configParse_cases doc_parses
  unfold docSections
  rw [h]

set_option maxRecDepth 100000 in
theorem doc_settings : docConfig.macroTimeout = 300 ∧ docConfig.ids = [⟨b!"1234:5678", ID_EXCLUDED⟩, ⟨b!"abcd:0001", ID_MOUSE⟩] ∧
    docConfig.wildcard = true ∧ docConfig.defaultLayout = b!"dvorak" ∧
    (linesOf b!"global" docSections).length = 3 ∧ lastValue b!"macro_timeout" (linesOf b!"global" docSections) = some b!"300" := by
  decide +kernel

set_option maxRecDepth 100000 in
theorem doc_plain : (bindingLines docSections).length = 6 ∧ (bindingLines docSections).all BindingLine.plainB = true := by
  decide +kernel

set_option maxRecDepth 100000 in
theorem doc_lines : (docLines 2 1).map (lineEq docLine) = [true] := by
  decide +kernel

set_option maxRecDepth 100000 in
theorem doc_last : namesB docConfig docLine.key 30 = true ∧
    (docLines 3 3).all (fun b => b.layer != docLine.layer || !namesB docConfig b.key 30) = true ∧
    (docConfig.layers[0]?.map fun l => (l.name, l.keymap 30)) = some (b!"main", .keyseq 46 0) := by
  decide +kernel

/-- The hypotheses of `C52_last_line_wins` hold of the sample document and its line `a = c`, which
overrides `a = b`; and `a` is bound to `c`. -/
example : ∃ (c0 : Config) (before after : List BindingLine) (l : Layer), WF c0 ∧
    configParseString c0 docText = .ok (some docConfig) ∧ iniParseString docText = .ok (some docSections) ∧
    (∀ b ∈ bindingLines docSections, b.Plain) ∧ bindingLines docSections = before ++ docLine :: after ∧ before.length = 2 ∧
    (43 : UInt8) ∉ docLine.key ∧ Names docConfig docLine.key 30 ∧
    (∀ b' ∈ after, b'.layer = docLine.layer → ¬ Names docConfig b'.key 30) ∧
    docConfig.layers[0]? = some l ∧ l.name = docLine.layer ∧ l.keymap 30 = .keyseq 46 0 := by
  obtain ⟨c0, ss, hw, _, hini, run⟩ := configParse_cases doc_parses
  obtain ⟨hlen, hall⟩ := doc_plain
  obtain ⟨h1, h2, h3⟩ := doc_last
  obtain ⟨l, hl, hkm⟩ : ∃ l, docConfig.layers[0]? = some l ∧ (l.name, l.keymap 30) = (b!"main", Desc.keyseq 46 0) := by
    cases h : docConfig.layers[0]? with
    | none => rw [h] at h3; cases h3
    | some l => rw [h] at h3; exact ⟨l, rfl, by injection h3⟩
  injection hkm with e1 e2
  refine ⟨c0, docLines 0 2, docLines 3 3, l, hw, run, docSections_parse, ?_, ?_, ?_, by decide, namesB_iff.1 h1, ?_, hl, e1, e2⟩
  · intro b hb
    exact BindingLine.plain_of_check (List.all_eq_true.1 hall b hb)
  · have h := doc_lines
    unfold docLines at h ⊢
    revert h hlen
    generalize bindingLines docSections = ls
    intro hlen h
    match ls, hlen with
    | [a, b, c, d, e, f], _ =>
      simp only [List.drop, List.take, List.map, List.cons.injEq, and_true] at h
      unfold lineEq at h
      simp only [Bool.and_eq_true, beq_iff_eq] at h
      obtain ⟨h1, h2, h3⟩ := h
      have : c = docLine := by
        cases c
        dsimp only at h1 h2 h3
        rw [← h1, ← h2, ← h3]
      rw [this]
      rfl
  · unfold docLines
    rw [List.length_take]
    simp [hlen]
  · intro b hb hbl hn
    have := List.all_eq_true.1 h2 b hb
    rw [Bool.or_eq_true, bne_iff_ne, ne_eq] at this
    rcases this with h | h
    · exact h hbl
    · rw [namesB_iff.2 hn] at h
      cases h

end Keyd
