import Verif.Proofs.ConfigTables
import Verif.Proofs.OutInv
import Verif.Props.Alternation
import Verif.Props.IniText
import Mathlib.Tactic.Tauto

/-
  C25-C28 and C46: binding tables, bind commands and aliases.
-/

set_option autoImplicit false

namespace Keyd

attribute [local irreducible] configInit

/-! ### C27: well-formedness -/

/-- The binding tables obtainable from some configuration text by some sequence
of `bind` expressions, each accepted or not. -/
inductive Bound : Config → Prop
  | parsed (text : Str) (c : Config) (run : configParse text = .ok (some c)) : Bound c
  | bind (c : Config) (exp : Str) (c' : Config) (accepted : Bool) (h : Bound c)
      (run : configAddEntry c exp = .ok (c', accepted)) : Bound c'

/-- C27. Every configuration obtainable from any text and any binds is
well-formed (`WF`, Spec/WellFormed.lean). -/
theorem C27_wellformed (c : Config) (h : Bound c) : WF c := by
  induction h with
  | parsed text c run => exact (configParse_sat text).of_ok run c rfl
  | bind c exp c' ok _ run ih => exact (configAddEntry_sat ih exp).of_ok run

/-- C27. In particular the assert that the modifier layers exist
(config.c:571) never fails, whatever the text. -/
theorem C27_modifier_layers_exist (text : Str) :
    configParse text ≠ .error (.assertFail "parse_descriptor: modifier layer exists") := by
  intro h
  exact absurd ((configParse_sat text).of_err h) (by simp [ParseStop, parseStops, actionStops])

theorem C27_modifier_layers_exist_bind (c : Config) (h : Bound c) (exp : Str) :
    configAddEntry c exp ≠ .error (.assertFail "parse_descriptor: modifier layer exists") := by
  intro he
  exact absurd ((configAddEntry_sat (C27_wellformed c h) exp).of_err he) (by simp [ParseStop, parseStops, actionStops])

/-- C27 for running keyboards: the tables in force stay well-formed through any
history of events and binds. -/
theorem C27_reachable (k : Kbd) (h : Reach Bound k) : WF k.config := by
  suffices Bound k.config from C27_wellformed _ this
  induction h with
  | init c hc => exact hc
  | events n k evs k' w _ run ih =>
    have I : OutInv (fun k => Bound k.config) := by
      refine ⟨?_, ?_, ?_, ?_, ?_⟩
      · intro k k' _ hc _ _ h; rw [hc]; exact h
      · intro k c b h; rw [sendKey_config]; exact h
      · intro k c h _; exact h
      · intro k o _ h; exact h
      · intro k i t _ h
        have : ∀ (l : List MacroOut) (k : Kbd), (emitMacro k l).config = k.config := by
          intro l
          induction l with
          | nil => intro k; rfl
          | cons o l ih => intro k; cases o <;> (unfold emitMacro; rw [ih]; rfl)
        rw [this]; exact h
    exact (kbdProcessEvents_sat I.engineInv n k evs ih).of_ok run
  | bind k e k' ok _ run hc ih => exact hc
  | scroll k s _ ih => exact ih

/-! ### C25: reset -/

/-- The states of a keyboard created from configuration `c`. -/
inductive HistoryOf (c : Config) : Kbd → Prop
  | start : HistoryOf c (newKeyboard c)
  | events (fuel : Nat) (k : Kbd) (evs : List KeyEvent) (k' : Kbd) (wait : Int)
      (h : HistoryOf c k) (run : kbdProcessEvents fuel k evs = .ok (k', wait)) : HistoryOf c k'
  | bind (k : Kbd) (exp : Str) (k' : Kbd) (accepted : Bool)
      (h : HistoryOf c k) (run : kbdEval k exp = .ok (k', accepted)) : HistoryOf c k'
  | scroll (k : Kbd) (s : Scroll) (h : HistoryOf c k) : HistoryOf c { k with scroll := s }

theorem sendKey_original (k : Kbd) (c : Code) (b : Bool) :
    (sendKey k c b).originalConfig = k.originalConfig := by
  unfold sendKey
  dsimp only
  split
  · rfl
  · split <;> split <;> rfl

theorem emitMacro_original : ∀ (l : List MacroOut) (k : Kbd),
    (emitMacro k l).originalConfig = k.originalConfig
  | [], _ => rfl
  | o :: l, k => by
    cases o <;> (unfold emitMacro; rw [emitMacro_original l]; rfl)

theorem original_outInv (c : Config) : OutInv (fun k => k.originalConfig = c) := by
  refine ⟨?_, ?_, ?_, ?_, ?_⟩
  · intro k k' ho _ _ _ h; rw [ho]; exact h
  · intro k x b h; rw [sendKey_original]; exact h
  · intro k x h _; exact h
  · intro k o _ h; exact h
  · intro k i t _ h; rw [emitMacro_original]; exact h

/-- C25. After any history of key events and binds, accepted or not, `bind
reset` succeeds, and the binding tables are those the keyboard was created with;
nothing else changes. -/
theorem C25_reset_restores (c : Config) (k : Kbd) (h : HistoryOf c k) :
    kbdEval k b!"reset" = .ok ({ k with config := c }, true) := by
  have : k.originalConfig = c := by
    induction h with
    | start => rfl
    | events n k evs k' w _ run ih =>
      exact (kbdProcessEvents_sat (original_outInv c).engineInv n k evs ih).of_ok run
    | bind k e k' ok _ run ih => rw [kbdEval_frame run]; exact ih
    | scroll k s _ ih => exact ih
  unfold kbdEval
  rw [if_pos rfl, this]

/-! ### C26: single bindings -/

/-- The key text `key` names the key `code`: as an alias, or else (when no key
has that alias) as a key name. -/
def Names (c : Config) (key : Str) (code : Code) : Prop :=
  c.aliases code = key ∨ ((∀ i, c.aliases i ≠ key) ∧ code = lookupKeycode key ∧ code ≠ 0)

theorem setLayerEntry_keymap {c : Config} {l l' : Layer} {key : Str} {d : Desc}
    (hk : (43 : UInt8) ∉ key) (h : setLayerEntry c l key d = some l') :
    l' = { l with keymap := l'.keymap } ∧ (∃ code, Names c key code) ∧
    ∀ code, (Names c key code → l'.keymap code = d) ∧ (¬ Names c key code → l'.keymap code = l.keymap code) := by
  unfold setLayerEntry at h
  rw [if_neg hk] at h
  split at h
  · rename_i hany
    obtain ⟨i, _, hi⟩ := List.any_eq_true.1 hany
    simp only [decide_eq_true_eq] at hi
    cases h
    refine ⟨rfl, ⟨i, .inl hi⟩, ?_⟩
    intro code
    dsimp only
    constructor
    · rintro (h | ⟨h, _⟩)
      · rw [if_pos h]
      · exact absurd hi (h i)
    · intro hn
      rw [if_neg (fun h => hn (.inl h))]
  · rename_i hany
    have hno : ∀ i, c.aliases i ≠ key := by
      intro i hi
      exact hany (List.any_eq_true.2 ⟨i, mem_allCodes i, by simpa using hi⟩)
    dsimp only at h
    split at h
    · cases h
    · rename_i hc
      cases h
      refine ⟨rfl, ⟨_, .inr ⟨hno, rfl, hc⟩⟩, ?_⟩
      intro code
      dsimp only
      constructor
      · rintro (h | ⟨_, rfl, _⟩)
        · exact absurd h (hno code)
        · simp
      · intro hn
        refine upd_other _ _ ?_
        rintro rfl
        exact hn (.inr ⟨hno, rfl, hc⟩)

/-- What parsing an action may do to the tables: only append. -/
theorem parseDescriptor_extends {c : Config} (hw : WF c) {s : Str} {r : Config × Option Desc}
    (h : parseDescriptor c s = .ok r) : Extends c r.1 :=
  ((parseDescriptor_sat c s hw).of_ok h).1

theorem configAddEntry_cases {c c' : Config} (hw : WF c) {exp : Str} {ok : Bool}
    (h : configAddEntry c exp = .ok (c', ok)) :
    (ok = false ∧ c'.layers = c.layers ∧ c'.aliases = c.aliases) ∨
    (ok = true ∧ exp.length < 512 ∧ ∃ idx l l' c1 d, c.layerIndex (splitLayer exp).1 = some idx ∧ c.layers[idx]? = some l ∧
      parseDescriptor c ((parseKvp (splitLayer exp).2).2.getD []) = .ok (c1, some d) ∧
      setLayerEntry c l (parseKvp (splitLayer exp).2).1 d = some l' ∧
      c' = { c1 with layers := c.layers.set idx l' } ∧ Extends c c1) := by
  unfold configAddEntry at h
  split at h
  · cases h; left; simp
  · rename_i hlen
    dsimp only at h
    split at h
    · cases h; left; simp
    · rename_i idx hidx
      rw [bind_eq_ok] at h
      obtain ⟨⟨c1, r⟩, hp, h⟩ := h
      have hext := parseDescriptor_extends hw hp
      cases r with
      | none => cases h; left; exact ⟨rfl, hext.layers, hext.aliases⟩
      | some d =>
        dsimp only at h
        split at h
        · cases h; left; exact ⟨rfl, hext.layers, hext.aliases⟩
        · rename_i l' hset
          cases h
          right
          obtain ⟨l, hl, _⟩ := layerIndex_some hidx
          rw [hext.layer, layer_of_getElem hl] at hset
          have hset' : setLayerEntry c l (parseKvp (splitLayer exp).2).1 d = some l' := by
            unfold setLayerEntry at hset ⊢
            rw [hext.aliases] at hset
            exact hset
          exact ⟨rfl, by omega, idx, l, l', c1, d, hidx, hl, hp, hset', by rw [hext.layers], hext⟩

/-- C26. A rejected binding leaves every layer (keys, chords, type) and every
alias as it was. -/
theorem C26_rejected_changes_nothing (c : Config) (h : Bound c) (exp : Str) (c' : Config)
    (run : configAddEntry c exp = .ok (c', false)) : c'.layers = c.layers ∧ c'.aliases = c.aliases := by
  rcases configAddEntry_cases (C27_wellformed c h) run with ⟨_, h1, h2⟩ | ⟨h1, _⟩
  · exact ⟨h1, h2⟩
  · cases h1

theorem splitAtByte_none (b : UInt8) : ∀ (s : Str), b ∉ s → splitAtByte b s = none
  | [], _ => rfl
  | c :: s, h => by
    unfold splitAtByte
    rw [if_neg (by rintro rfl; exact h (List.mem_cons_self ..)),
      splitAtByte_none b s (fun hm => h (List.mem_cons_of_mem _ hm))]
    rfl

theorem splitLayer_qualified (lname rest : Str) (h0 : lname ≠ []) (hd : (46 : UInt8) ∉ lname)
    (hp : (40 : UInt8) ∉ lname) : splitLayer (lname ++ 46 :: rest) = (lname, rest) := by
  unfold splitLayer
  rw [splitAtByte_first 46 lname rest hd]
  dsimp only
  rw [if_pos ⟨h0, hp⟩]

/-- C26. An accepted `layer.key = action` (key not a chord) binds every key that
`key` names to the parsed action in the layer called `layer`, and changes no
other key of that layer, no other layer, and no alias. -/
theorem C26_accepted_binds_key (c : Config) (h : Bound c) (lname key act : Str) (c' : Config)
    (hl0 : lname ≠ []) (hld : (46 : UInt8) ∉ lname) (hlp : (40 : UInt8) ∉ lname)
    (hk : key ≠ []) (hkeq : (61 : UInt8) ∉ key.tail)
    (hlast : ∀ x, key.getLast? = some x → isBlank x = false) (hplus : (43 : UInt8) ∉ key)
    (hv : ∀ x, act.head? = some x → isBlank x = false)
    (run : configAddEntry c (lname ++ b!"." ++ key ++ b!" = " ++ act) = .ok (c', true)) :
    ∃ (idx : Nat) (l l' : Layer) (c1 : Config) (d : Desc),
      c.layers[idx]? = some l ∧ l.name = lname ∧
      parseDescriptor c act = .ok (c1, some d) ∧
      c'.layers = c.layers.set idx l' ∧ c'.aliases = c.aliases ∧ l' = { l with keymap := l'.keymap } ∧
      (∃ code, Names c key code) ∧
      ∀ code, (Names c key code → l'.keymap code = d) ∧
        (¬ Names c key code → l'.keymap code = l.keymap code) := by
  rcases configAddEntry_cases (C27_wellformed c h) run with ⟨h1, _⟩ | ⟨_, _, idx, l, l', c1, d, h1, h2, h3, h4, h5, h6⟩
  · cases h1
  · have e : lname ++ b!"." ++ key ++ b!" = " ++ act = lname ++ 46 :: (key ++ b!" " ++ 61 :: (b!" " ++ act)) := by
      simp
    rw [e, splitLayer_qualified lname _ hl0 hld hlp] at h1 h3 h4
    rw [C32_key_value key b!" " b!" " act hk hkeq hlast (by decide) (by decide) hv] at h3 h4
    obtain ⟨l2, g1, g2⟩ := layerIndex_some h1
    rw [h2] at g1
    cases g1
    obtain ⟨h7, h8, h9⟩ := setLayerEntry_keymap hplus h4
    exact ⟨idx, l, l', c1, d, h2, g2, h3, by rw [h5], by rw [h5]; exact h6.aliases, h7, h8, h9⟩

/-- C26. An accepted binding of a chord (`a+b`) changes no single-key binding,
and no other layer. -/
theorem C26_chord_keeps_keys (c : Config) (h : Bound c) (exp : Str) (c' : Config)
    (hplus : (43 : UInt8) ∈ (parseKvp (splitLayer exp).2).1)
    (run : configAddEntry c exp = .ok (c', true)) :
    ∃ (idx : Nat) (l l' : Layer), c.layers[idx]? = some l ∧ c'.layers = c.layers.set idx l' ∧
      l' = { l with chords := l'.chords } := by
  rcases configAddEntry_cases (C27_wellformed c h) run with ⟨h1, _⟩ | ⟨_, _, idx, l, l', c1, d, h1, h2, h3, h4, h5, h6⟩
  · cases h1
  · refine ⟨idx, l, l', h2, by rw [h5], ?_⟩
    unfold setLayerEntry at h4
    rw [if_pos hplus] at h4
    unfold setChord at h4
    split at h4
    · cases h4
    · split at h4
      · cases h4; rfl
      · split at h4
        · cases h4
        · cases h4; rfl

/-- C26. Without a layer prefix the binding goes to `main`. -/
theorem C26_default_layer_is_main (key act : Str) (hk : (46 : UInt8) ∉ key) (ha : (46 : UInt8) ∉ act) :
    (splitLayer (key ++ b!" = " ++ act)).1 = b!"main" ∧
    (splitLayer (key ++ b!" = " ++ act)).2 = key ++ b!" = " ++ act := by
  have : splitAtByte 46 (key ++ b!" = " ++ act) = none := by
    apply splitAtByte_none
    simp only [List.mem_append, not_or]
    exact ⟨⟨hk, by decide⟩, ha⟩
  unfold splitLayer
  rw [this]
  exact ⟨rfl, rfl⟩

/-! ### C28: headings of existing layers -/

theorem tokens_first (s : Str) (hs : s ≠ []) (hc : (58 : UInt8) ∉ s) (rest : Str) :
    (tokens 58 (s ++ 58 :: rest)).head? = some s ∧ (tokens 58 s).head? = some s := by
  have gen : ∀ (s cur : Str), (58 : UInt8) ∉ s → (cur ≠ [] ∨ s ≠ []) →
      (tokensAux 58 (s ++ 58 :: rest) cur).head? = some (cur.reverse ++ s) ∧
      (tokensAux 58 s cur).head? = some (cur.reverse ++ s) := by
    intro s
    induction s with
    | nil =>
      intro cur _ h
      have hc : cur ≠ [] := by tauto
      simp [tokensAux, hc]
    | cons c s ih =>
      intro cur hn _
      have h1 : c ≠ 58 := by rintro rfl; exact hn (List.mem_cons_self ..)
      have h2 : (58 : UInt8) ∉ s := fun h => hn (List.mem_cons_of_mem _ h)
      have := ih (c :: cur) h2 (.inl (by simp))
      rw [List.cons_append, tokensAux, if_neg h1, tokensAux, if_neg h1]
      simpa using this
  have := gen s [] hc (.inr hs)
  simpa [tokens] using this

/-- C28. A heading `[name]` or `[name:anything]` for a layer that already exists
leaves the configuration unchanged (and succeeds). -/
theorem C28_existing_heading (c : Config) (name suffix : Str) (hn : name ≠ [])
    (hc : (58 : UInt8) ∉ name) (hlen : (name ++ 58 :: suffix).length < 65)
    (hex : ∃ l ∈ c.layers, l.name = name) :
    configAddLayer c (name ++ 58 :: suffix) = .ok (c, true) ∧ configAddLayer c name = .ok (c, true) := by
  obtain ⟨h1, h2⟩ := tokens_first name hn hc suffix
  have hidx : ∃ i, c.layerIndex name = some i := by
    cases hx : c.layerIndex name with
    | some i => exact ⟨i, rfl⟩
    | none =>
      obtain ⟨l, hl, he⟩ := hex
      exact absurd he (layerIndex_none.1 hx l hl)
  obtain ⟨i, hi⟩ := hidx
  have hlen2 : ¬ name.length ≥ 65 := by simp at hlen; omega
  constructor
  · unfold configAddLayer
    rw [if_neg (by omega), if_pos]
    rw [h1]
    show (c.layerIndex name).isSome = true
    rw [hi]
    rfl
  · unfold configAddLayer
    rw [if_neg hlen2, if_pos]
    rw [h2]
    show (c.layerIndex name).isSome = true
    rw [hi]
    rfl

/-- Every layer of `c` is still there in `c'`, at the same place with the same
name, type, modifiers and constituents. -/
def SameLayers (c c' : Config) : Prop :=
  ∀ (i : Nat) (l : Layer), c.layers[i]? = some l →
    ∃ l' : Layer, c'.layers[i]? = some l' ∧ l'.name = l.name ∧ l'.type = l.type ∧ l'.mods = l.mods ∧
      l'.constituents = l.constituents

theorem SameLayers.refl (c : Config) : SameLayers c c := fun _ l h => ⟨l, h, rfl, rfl, rfl, rfl⟩

theorem SameLayers.of_eq {c c' : Config} (h : c'.layers = c.layers) : SameLayers c c' := by
  intro i l hl; exact ⟨l, by rw [h]; exact hl, rfl, rfl, rfl, rfl⟩

theorem SameLayers.trans {a b c : Config} (h : SameLayers a b) (h' : SameLayers b c) :
    SameLayers a c := by
  intro i l hl
  obtain ⟨l1, g1, g2, g3, g4, g5⟩ := h i l hl
  obtain ⟨l2, k1, k2, k3, k4, k5⟩ := h' i l1 g1
  exact ⟨l2, k1, k2.trans g2, k3.trans g3, k4.trans g4, k5.trans g5⟩

theorem SameLayers.set {c c1 : Config} {idx : Nat} {l l' : Layer} (hl : c.layers[idx]? = some l)
    (h1 : l'.name = l.name) (h2 : l'.type = l.type) (h3 : l'.mods = l.mods)
    (h4 : l'.constituents = l.constituents) (he : c1.layers = c.layers.set idx l') :
    SameLayers c c1 := by
  intro i m hm
  rw [he]
  by_cases hi : idx = i
  · subst hi
    rw [hl] at hm
    cases hm
    refine ⟨l', ?_, h1, h2, h3, h4⟩
    rw [List.getElem?_set_self]
    by_contra hge
    rw [List.getElem?_eq_none (by omega)] at hl
    cases hl
  · exact ⟨m, by rw [List.getElem?_set_ne hi]; exact hm, rfl, rfl, rfl, rfl⟩

theorem setLayerEntry_same {c : Config} {l l' : Layer} {key : Str} {d : Desc}
    (h : setLayerEntry c l key d = some l') :
    l'.name = l.name ∧ l'.type = l.type ∧ l'.mods = l.mods ∧ l'.constituents = l.constituents := by
  unfold setLayerEntry setChord at h
  dsimp only at h
  repeat' split at h
  all_goals first
    | (exfalso; cases h; done)
    | (rw [Option.some.injEq] at h; rw [← h]; exact ⟨rfl, rfl, rfl, rfl⟩)

theorem configAddEntry_same {c : Config} (hw : WF c) (exp : Str) :
    Sat (configAddEntry c exp) (fun r => WF r.1 ∧ SameLayers c r.1) (fun _ => True) := by
  apply Sat.intro
  rintro ⟨c', ok⟩ run
  refine ⟨(configAddEntry_sat hw exp).of_ok run, ?_⟩
  rcases configAddEntry_cases hw run with ⟨_, h1, _⟩ | ⟨_, _, idx, l, l', c1, d, h1, h2, h3, h4, h5, h6⟩
  · exact .of_eq h1
  · obtain ⟨g1, g2, g3, g4⟩ := setLayerEntry_same h4
    exact SameLayers.set h2 g1 g2 g3 g4 (by rw [h5])

theorem configAddLayer_same {c : Config} (hw : WF c) (s : Str) :
    Sat (configAddLayer c s) (fun r => WF r.1 ∧ SameLayers c r.1) (fun _ => True) := by
  have h : Sat (configAddLayer c s) (fun r => SameLayers c r.1) (fun _ => True) := by
    unfold configAddLayer
    refine Sat.ite (fun _ => SameLayers.refl c) (fun _ => ?_)
    dsimp only
    refine Sat.ite (fun _ => SameLayers.refl c) (fun _ => ?_)
    refine Sat.ite (fun _ => SameLayers.refl c) (fun _ => ?_)
    refine Sat.bind (Q := fun _ => True) (Sat.intro (fun _ _ => trivial)) ?_
    intro r _
    cases r with
    | none => exact SameLayers.refl c
    | some l =>
      intro i m hm
      refine ⟨m, ?_, rfl, rfl, rfl, rfl⟩
      dsimp only
      rw [List.getElem?_append_left]
      · exact hm
      · by_contra hge
        rw [List.getElem?_eq_none (by omega)] at hm
        cases hm
  exact ((configAddLayer_sat hw s).mono (fun _ h => h) (fun _ _ => trivial)).and h

theorem globalEntry_layers (c : Config) (e : IniEntry) :
    Sat (globalEntry c e) (fun c' => c'.layers = c.layers) (fun _ => True) := by
  unfold globalEntry
  dsimp only
  repeat' (first | refine Sat.ite (fun _ => ?_) (fun _ => ?_) | split)
  all_goals trivial

theorem idEntry_layers (c : Config) (e : IniEntry) :
    Sat (idEntry c e) (fun c' => c'.layers = c.layers) (fun _ => True) := by
  unfold idEntry addId
  dsimp only
  repeat' (first | refine Sat.ite (fun _ => ?_) (fun _ => ?_) | split)
  all_goals trivial

theorem aliasEntry_same (c : Config) (e : IniEntry) :
    Sat (aliasEntry c e) (fun c' => SameLayers c c') (fun _ => True) := by
  unfold aliasEntry
  dsimp only
  split
  · exact SameLayers.refl c
  · split
    · trivial
    · split
      · exact SameLayers.refl c
      · intro i l hl
        dsimp only
        split
        · exact ⟨l, hl, rfl, rfl, rfl, rfl⟩
        · dsimp only
          rw [List.getElem?_modify]
          by_cases hi : 0 = i
          · subst hi
            rw [hl]
            exact ⟨_, rfl, rfl, rfl, rfl, rfl⟩
          · rw [hl]
            refine ⟨l, ?_, rfl, rfl, rfl, rfl⟩
            simp [hi]

theorem foldSections_same {f : Config → IniEntry → Res Config}
    (F : Config → List IniEntry → Res Config) (hF0 : ∀ c, F c [] = .ok c)
    (hF1 : ∀ c e es, F c (e :: es) = (f c e >>= fun c => F c es))
    (hf : ∀ c e, Sat (f c e) (fun c' => SameLayers c c') (fun _ => True)) :
    ∀ (es : List IniEntry) (c : Config), Sat (F c es) (fun c' => SameLayers c c') (fun _ => True)
  | [], c => by rw [hF0]; exact SameLayers.refl c
  | e :: es, c => by
    rw [hF1]
    refine Sat.bind (hf c e) ?_
    intro c1 h1
    exact (foldSections_same F hF0 hF1 hf es c1).imp (fun c2 h2 => h1.trans h2)

theorem passOne_same : ∀ (ss : List IniSection) (c : Config), WF c →
    Sat (passOne c ss) (fun c' => WF c' ∧ SameLayers c c') (fun _ => True)
  | [], c, hw => ⟨hw, SameLayers.refl c⟩
  | s :: ss, c, hw => by
    have key : Sat (passOne c (s :: ss)) (fun c' => SameLayers c c') (fun _ => True) := by
      unfold passOne
      refine Sat.bind (Q := fun c' => WF c' ∧ SameLayers c c') ?_
        (fun c1 h => ((passOne_same ss c1 h.1).imp (fun c2 h2 => h.2.trans h2.2)))
      split
      · exact ((parseIdSection_sat s.entries hw).mono (fun _ h => h) (fun _ _ => trivial)).and
          (foldSections_same parseIdSection (fun _ => rfl) (fun _ _ _ => rfl)
            (fun c e => (idEntry_layers c e).imp (fun _ h => .of_eq h)) _ _)
      · split
        · exact ((parseAliasSection_sat s.entries hw).mono (fun _ h => h) (fun _ _ => trivial)).and
            (foldSections_same parseAliasSection (fun _ => rfl) (fun _ _ _ => rfl) aliasEntry_same _ _)
        · split
          · exact ((parseGlobalSection_sat s.entries hw).mono (fun _ h => h) (fun _ _ => trivial)).and
              (foldSections_same parseGlobalSection (fun _ => rfl) (fun _ _ _ => rfl)
                (fun c e => (globalEntry_layers c e).imp (fun _ h => .of_eq h)) _ _)
          · exact Sat.bind (configAddLayer_same hw s.name) (fun r h => h)
    exact ((passOne_sat (s :: ss) hw).mono (fun _ h => h) (fun _ _ => trivial)).and key

theorem sectionEntries_same (n : Str) : ∀ (es : List IniEntry) (c : Config), WF c →
    Sat (sectionEntries n c es) (fun c' => WF c' ∧ SameLayers c c') (fun _ => True)
  | [], c, hw => ⟨hw, SameLayers.refl c⟩
  | e :: es, c, hw => by
    unfold sectionEntries
    split
    · exact sectionEntries_same n es c hw
    · refine Sat.bind (configAddEntry_same hw _) ?_
      intro r hr
      exact (sectionEntries_same n es r.1 hr.1).imp (fun c2 h2 => ⟨h2.1, hr.2.trans h2.2⟩)

theorem passTwo_same : ∀ (ss : List IniSection) (c : Config), WF c →
    Sat (passTwo c ss) (fun c' => WF c' ∧ SameLayers c c') (fun _ => True)
  | [], c, hw => ⟨hw, SameLayers.refl c⟩
  | s :: ss, c, hw => by
    unfold passTwo
    refine Sat.bind (Q := fun c' => WF c' ∧ SameLayers c c') ?_
      (fun c1 h => ((passTwo_same ss c1 h.1).imp (fun c2 h2 => ⟨h2.1, h.2.trans h2.2⟩)))
    split
    · exact ⟨hw, SameLayers.refl c⟩
    · exact sectionEntries_same _ _ _ hw

/-- C28. Whatever text is parsed on top of a configuration, existing layers keep
their position, name, type, modifiers and constituents. With `c` the default
configuration this is about user files that re-open `main`, `shift`, ... . -/
theorem C28_layers_keep_their_type (c : Config) (h : WF c) (text : Str) (c' : Config)
    (run : configParseString c text = .ok (some c')) : SameLayers c c' := by
  unfold configParseString at run
  rw [bind_eq_ok] at run
  obtain ⟨r, _, run⟩ := run
  cases r with
  | none => cases run
  | some ss =>
    dsimp only at run
    rw [bind_eq_ok] at run
    obtain ⟨c1, h1, run⟩ := run
    rw [bind_eq_ok] at run
    obtain ⟨c2, h2, run⟩ := run
    cases run
    have g1 := (passOne_same ss c h).of_ok h1
    exact g1.2.trans ((passTwo_same ss c1 g1.1).of_ok h2).2

/-- C28 for binds. -/
theorem C28_bind_keeps_type (c : Config) (h : Bound c) (exp : Str) (c' : Config) (ok : Bool)
    (run : configAddEntry c exp = .ok (c', ok)) : SameLayers c c' :=
  ((configAddEntry_same (C27_wellformed c h) exp).of_ok run).2

/-! ### C46: aliases -/

/-- C46. Binding an alias (a text some key carries as its alias) binds exactly
the keys that carry it, even when the text is also the name of another key. -/
theorem C46_alias_binds_all_carriers (c : Config) (key : Str) (hex : ∃ i, c.aliases i = key)
    (code : Code) : Names c key code ↔ c.aliases code = key := by
  constructor
  · rintro (h | ⟨h, _⟩)
    · exact h
    · obtain ⟨i, hi⟩ := hex
      exact absurd hi (h i)
  · exact .inl

/-- C46. An alias line `key = name` makes `key` carry the alias (and no other key
changes its alias); if `name` is itself a key, `key` types that key in `main`
from then on. -/
theorem C46_alias_line (c : Config) (key name : Str) (c' : Config)
    (hk : lookupKeycode key ≠ 0) (hn : name.length < 32)
    (run : aliasEntry c ⟨key, some name⟩ = .ok c') :
    c'.aliases = upd c.aliases (lookupKeycode key) name ∧
    (lookupKeycode name = 0 → c'.layers = c.layers) ∧
    (lookupKeycode name ≠ 0 → ∀ l ls, c.layers = l :: ls →
      c'.layers = { l with keymap := upd l.keymap (lookupKeycode key) (.keyseq (lookupKeycode name) 0) } :: ls) := by
  unfold aliasEntry at run
  dsimp only at run
  rw [if_neg hk, if_neg (by omega)] at run
  cases run
  dsimp only
  refine ⟨by split <;> rfl, fun h => by rw [if_pos h], fun h l ls hl => ?_⟩
  rw [if_neg h]
  dsimp only
  rw [hl]
  rfl

/-- C46. A line whose name is not a key, or whose alias is too long, is ignored. -/
theorem C46_alias_line_ignored (c : Config) (key name : Str)
    (h : lookupKeycode key = 0 ∨ name.length ≥ 32) :
    aliasEntry c ⟨key, some name⟩ = .ok c := by
  unfold aliasEntry
  dsimp only
  by_cases hk : lookupKeycode key = 0
  · rw [if_pos hk]
  · rw [if_neg hk, if_pos (h.resolve_left hk)]

/-! ### Concrete cases -/

/-- A text with a user layer, a nested action, a macro, a command, an alias and a
chord, followed by binds. -/
def sampleText : Str :=
  b!"[ids]\n*\n[aliases]\na = foo\nb = foo\n[nav:C]\nh = left\n[main]\ncapslock = overload(nav, timeout(esc, 200, macro(x y)))\nfoo = command(ls)\nj+k = esc\n[nav+shift]\nh = home\n[nav:layout]\nl = right\n"

set_option maxRecDepth 100000 in
example : ∃ c, Bound c ∧ c.layers.length = 8 ∧ c.descriptors.length = 3 ∧ c.macros.length = 1 ∧
    c.commands.length = 1 ∧ (∃ l, c.layers[6]? = some l ∧ l.name = b!"nav" ∧ l.type = .normal ∧ l.mods = 8) := by
  have h : (match textConfig sampleText with
    | some c => decide (c.layers.length = 8 ∧ c.descriptors.length = 3 ∧ c.macros.length = 1 ∧
        c.commands.length = 1 ∧ (c.layer 6).name = b!"nav" ∧ (c.layer 6).type = .normal ∧ (c.layer 6).mods = 8)
    | none => false) = true := by decide +kernel
  revert h
  unfold textConfig
  split
  · rename_i c hc
    split at hc
    · rename_i c' hp
      cases hc
      intro h
      simp only [decide_eq_true_eq] at h
      refine ⟨c, .parsed _ c hp, h.1, h.2.1, h.2.2.1, h.2.2.2.1, ?_⟩
      refine ⟨c.layers[6]'(by omega), by simp, ?_⟩
      have : c.layer 6 = c.layers[6]'(by omega) := by
        apply layer_of_getElem
        simp
      rw [← this]
      exact h.2.2.2.2
    · cases hc
  · intro h; cases h

/-- `C26_accepted_binds_key` and `C46`: the alias `foo` of the sample is bound to
`b` by a bind command; both carriers change, `c` does not. -/
def sampleBind : Bool :=
  match textConfig sampleText with
  | some c =>
    match configAddEntry c b!"main.foo = z" with
    | .ok (c', ok) => ok && decide ((c'.layer 0).keymap 30 = .keyseq 44 0 ∧
        (c'.layer 0).keymap 48 = .keyseq 44 0 ∧ (c'.layer 0).keymap 46 = .none)
    | .error _ => false
  | none => false

set_option maxRecDepth 100000 in
example : sampleBind = true := by decide +kernel

end Keyd
