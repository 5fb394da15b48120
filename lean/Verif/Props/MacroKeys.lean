import Verif.Props.Macros
import Verif.Props.Idle

/-
  C61: the keystrokes of a macro reach the host with exactly their modifiers.
-/

set_option autoImplicit false

namespace Keyd

attribute [local irreducible] configInit

/-- The outputs of a macro run by itself. -/
def asOut : MacroOut → Out
  | .key c d => .key c d
  | .sleep us => .sleep us

theorem emitMacro_outputs : ∀ (os : List MacroOut) (k : Kbd), (emitMacro k os).outputs = k.outputs ++ os.map asOut
  | [], k => by simp [emitMacro]
  | .key c d :: os, k => by
    unfold emitMacro
    rw [emitMacro_outputs os]
    simp [Kbd.outputs, Kbd.emit, asOut]
  | .sleep us :: os, k => by
    unfold emitMacro
    rw [emitMacro_outputs os]
    simp [Kbd.outputs, Kbd.emit, asOut]

theorem sleep_host (us : Nat) (h : Code → Bool) :
    keystrokes h ((macroSleep us).map asOut) = [] ∧ hostAfter h ((macroSleep us).map asOut) = h := by
  unfold macroSleep
  split
  · exact ⟨rfl, rfl⟩
  · exact ⟨rfl, rfl⟩

/-- Pressing modifier keys that are up. -/
theorem mods_down : ∀ (l : List Code) (h : Code → Bool), (∀ c ∈ l, isModifierKey c = true) →
    keystrokes h (l.map fun c => .key c true) = [] ∧
    ∀ c, hostAfter h (l.map fun c => .key c true) c = (h c || decide (c ∈ l))
  | [], h, _ => ⟨rfl, fun c => by simp [hostAfter]⟩
  | m :: l, h, hl => by
    obtain ⟨h1, h2⟩ := mods_down l (upd h m true) (fun c hc => hl c (List.mem_cons_of_mem _ hc))
    refine ⟨?_, fun c => ?_⟩
    · simp [keystrokes, hl m List.mem_cons_self]
      simpa using h1
    · show hostAfter (upd h m true) _ c = _
      rw [h2]
      by_cases hc : c = m
      · subst hc; simp
      · rw [upd_other _ _ hc]; simp [hc]

theorem mods_up : ∀ (l : List Code) (h : Code → Bool), (∀ c ∈ l, isModifierKey c = true) →
    keystrokes h (l.map fun c => .key c false) = [] ∧
    ∀ c, hostAfter h (l.map fun c => .key c false) c = (h c && !decide (c ∈ l))
  | [], h, _ => ⟨rfl, fun c => by simp [hostAfter]⟩
  | m :: l, h, hl => by
    obtain ⟨h1, h2⟩ := mods_up l (upd h m false) (fun c hc => hl c (List.mem_cons_of_mem _ hc))
    refine ⟨?_, fun c => ?_⟩
    · simp [keystrokes]
      simpa using h1
    · show hostAfter (upd h m false) _ c = _
      rw [h2]
      by_cases hc : c = m
      · subst hc; simp
      · rw [upd_other _ _ hc]; simp [hc]

theorem filter_modifiers (mods : UInt8) (c : Code) :
    c ∈ (modifiers.filter (fun m => mods &&& m.1 ≠ 0)).map (·.2) ↔ inMods mods c = true := by
  simp only [List.mem_map, List.mem_filter, inMods, decide_eq_true_eq]
  constructor
  · rintro ⟨⟨a, b⟩, ⟨h1, h2⟩, rfl⟩
    simp only [modifiers, List.mem_cons, Prod.mk.injEq, List.not_mem_nil, or_false] at h1
    rcases h1 with ⟨rfl, rfl⟩ | ⟨rfl, rfl⟩ | ⟨rfl, rfl⟩ | ⟨rfl, rfl⟩ | ⟨rfl, rfl⟩
    · exact .inr (.inr (.inl ⟨rfl, h2⟩))
    · exact .inr (.inr (.inr (.inl ⟨rfl, h2⟩)))
    · exact .inr (.inl ⟨rfl, h2⟩)
    · exact .inr (.inr (.inr (.inr ⟨rfl, h2⟩)))
    · exact .inl ⟨rfl, h2⟩
  · rintro (⟨rfl, h⟩ | ⟨rfl, h⟩ | ⟨rfl, h⟩ | ⟨rfl, h⟩ | ⟨rfl, h⟩)
    · exact ⟨(MOD_CTRL, 29), ⟨by decide, h⟩, rfl⟩
    · exact ⟨(MOD_SHIFT, 42), ⟨by decide, h⟩, rfl⟩
    · exact ⟨(MOD_ALT, 56), ⟨by decide, h⟩, rfl⟩
    · exact ⟨(MOD_ALT_GR, 100), ⟨by decide, h⟩, rfl⟩
    · exact ⟨(MOD_SUPER, 125), ⟨by decide, h⟩, rfl⟩

theorem inMods_isModifier {mods : UInt8} {c : Code} (h : inMods mods c = true) : isModifierKey c = true := by
  simp only [inMods, decide_eq_true_eq] at h
  rcases h with ⟨rfl, _⟩ | ⟨rfl, _⟩ | ⟨rfl, _⟩ | ⟨rfl, _⟩ | ⟨rfl, _⟩ <;> decide

/-- The macro is text, key sequences and pauses: no group of keys held together, no modifier key on its
own. -/
def TextMacro (m : Macro) : Prop :=
  ∀ e ∈ m, e.type ≠ .hold ∧ e.type ≠ .release ∧ (e.type = .keysequence → isModifierKey e.code = false)

/-- Taps of keys that are up and no modifiers. -/
theorem taps_host : ∀ (l : List Code) (h : Code → Bool), (∀ c ∈ l, isModifierKey c = false ∧ h c = false) →
    keystrokes h ((l.flatMap fun c => [MacroOut.key c true, .key c false]).map asOut) = l.map (fun c => (c, modKeys.filter h)) ∧
    hostAfter h ((l.flatMap fun c => [MacroOut.key c true, .key c false]).map asOut) = h
  | [], h, _ => ⟨rfl, rfl⟩
  | c :: l, h, hl => by
    obtain ⟨hm, hu⟩ := hl c List.mem_cons_self
    have hback : upd (upd h c true) c false = h := by rw [upd_upd, ← hu, upd_eta]
    obtain ⟨h1, h2⟩ := taps_host l h (fun x hx => hl x (List.mem_cons_of_mem _ hx))
    constructor
    · simp only [List.flatMap_cons, List.map_append, List.map_cons, List.map_nil, asOut, List.cons_append, List.nil_append,
        keystrokes, hm, hu, hback]
      simp [h1]
    · simp only [List.flatMap_cons, List.map_append, List.map_cons, List.map_nil, asOut, List.cons_append, List.nil_append,
        hostAfter, hback]
      exact h2

theorem unicode_codes (n : Nat) : ∀ c ∈ unicodeGetSequence n, isModifierKey c = false := by
  have h : ∀ i : Fin 36, isModifierKey (unicodeChars.getD i.1 0) = false := by decide
  intro c hc
  unfold unicodeGetSequence at hc
  simp only [List.mem_cons, List.not_mem_nil, or_false] at hc
  rcases hc with rfl | rfl | rfl | rfl
  · decide
  · exact h ⟨_, Nat.mod_lt _ (by decide)⟩
  · exact h ⟨_, Nat.mod_lt _ (by decide)⟩
  · exact h ⟨_, Nat.mod_lt _ (by decide)⟩

/-- One entry: its strokes are seen with its own modifiers and those down already. -/
theorem entry_host (t : Nat) (e : MacroEntry) (h : Code → Bool)
    (hk : e.type ≠ .hold ∧ e.type ≠ .release ∧ (e.type = .keysequence → isModifierKey e.code = false))
    (hup : ∀ s ∈ e.strokes, h s.1 = false ∧ ∀ c, inMods s.2 c = true → h c = false) :
    keystrokes h ((macroEntryOut t e).map asOut) = e.strokes.map (fun s => (s.1, modKeys.filter fun c => h c || inMods s.2 c)) ∧
    hostAfter h ((macroEntryOut t e).map asOut) = h := by
  unfold macroEntryOut MacroEntry.strokes at *
  cases ht : e.type with
  | hold => exact absurd ht hk.1
  | release => exact absurd ht hk.2.1
  | timeout => exact ⟨rfl, rfl⟩
  | unicode =>
    rw [ht] at hup
    dsimp only at hup ⊢
    obtain ⟨h1, h2⟩ := taps_host (unicodeGetSequence e.data.toNat) h (fun c hc =>
      ⟨unicode_codes _ c hc, (hup (c, 0) (List.mem_map.2 ⟨c, hc, rfl⟩)).1⟩)
    refine ⟨?_, h2⟩
    rw [h1, List.map_map]
    apply List.map_congr_left
    intro c _
    simp [inMods]
  | keysequence =>
    rw [ht] at hup
    dsimp only at hup ⊢
    have hm := hk.2.2 ht
    obtain ⟨u1, u2⟩ := hup _ List.mem_cons_self
    dsimp only at u1 u2
    simp only [List.map_append, List.map_map]
    have em : ∀ b : Bool, List.map (asOut ∘ fun m : UInt8 × Code => MacroOut.key m.2 b)
        (List.filter (fun m => decide (e.mods &&& m.1 ≠ 0)) modifiers) =
        ((modifiers.filter (fun m => e.mods &&& m.1 ≠ 0)).map (·.2)).map (fun c => Out.key c b) := by
      intro b
      rw [List.map_map]; rfl
    rw [em, em]
    generalize hL : (modifiers.filter (fun m => e.mods &&& m.1 ≠ 0)).map (·.2) = L
    have hL' : ∀ c, c ∈ L ↔ inMods e.mods c = true := fun c => by rw [← hL]; exact filter_modifiers e.mods c
    have hLm : ∀ c ∈ L, isModifierKey c = true := fun c hc => inMods_isModifier ((hL' c).1 hc)
    obtain ⟨d1, d2⟩ := mods_down L h hLm
    have hs : ∀ h' : Code → Bool, keystrokes h' (List.map asOut (if e.mods ≠ 0 then macroSleep t else [])) = [] ∧
        hostAfter h' (List.map asOut (if e.mods ≠ 0 then macroSleep t else [])) = h' := by
      intro h'
      split
      · exact sleep_host t h'
      · exact ⟨rfl, rfl⟩
    have hd : hostAfter h (L.map fun c => Out.key c true) = fun c => h c || inMods e.mods c := by
      funext c
      rw [d2]
      congr 1
      by_cases hc : inMods e.mods c = true
      · rw [hc]; simpa using (hL' c).2 hc
      · rw [Bool.not_eq_true] at hc
        rw [hc]
        simpa using fun h' => absurd ((hL' c).1 h') (by rw [hc]; simp)
    have hcode : inMods e.mods e.code = false := by
      cases hx : inMods e.mods e.code with
      | false => rfl
      | true => rw [inMods_isModifier hx] at hm; cases hm
    have hmid := taps_host [e.code] (fun c => h c || inMods e.mods c) (by
      intro c hc
      rw [List.mem_singleton] at hc
      subst hc
      exact ⟨hm, by rw [u1, hcode]; rfl⟩)
    obtain ⟨p1, p2⟩ := mods_up L (fun c => h c || inMods e.mods c) hLm
    constructor
    · rw [keystrokes_append, keystrokes_append, keystrokes_append, hostAfter_append, hostAfter_append, hostAfter_append, d1, hd,
        (hs _).1, (hs _).2]
      have hmid1 := hmid.1
      have hmid2 := hmid.2
      simp only [List.flatMap_cons, List.flatMap_nil, List.append_nil] at hmid1 hmid2
      rw [hmid1, hmid2, p1]
      simp
    · rw [hostAfter_append, hostAfter_append, hostAfter_append, hd, (hs _).2]
      have hmid2 := hmid.2
      simp only [List.flatMap_cons, List.flatMap_nil, List.append_nil] at hmid2
      rw [hmid2]
      funext c
      rw [p2]
      by_cases hc : inMods e.mods c = true
      · rw [hc, u2 c hc]
        simp [(hL' c).2 hc]
      · rw [Bool.not_eq_true] at hc
        rw [hc]
        have : c ∉ L := fun h' => by rw [(hL' c).1 h'] at hc; cases hc
        simp [this]

/-- The keystrokes a macro asks for. -/
def Macro.strokes (m : Macro) : List (Code × UInt8) := m.flatMap MacroEntry.strokes

theorem exec_host (t : Nat) : ∀ (m : Macro) (h : Code → Bool), TextMacro m →
    (∀ s ∈ Macro.strokes m, h s.1 = false ∧ ∀ c, inMods s.2 c = true → h c = false) →
    keystrokes h ((macroExecAux t m none).map asOut) =
      (Macro.strokes m).map (fun s => (s.1, modKeys.filter fun c => h c || inMods s.2 c)) ∧
    hostAfter h ((macroExecAux t m none).map asOut) = h
  | [], h, _, _ => ⟨rfl, rfl⟩
  | e :: m, h, hm, hup => by
    have he := hm e List.mem_cons_self
    have eq : macroExecAux t (e :: m) none = macroEntryOut t e ++ macroSleep t ++ macroExecAux t m none := by
      conv => lhs; unfold macroExecAux
      split
      · rename_i hh; exact absurd hh he.1
      · rename_i hh; exact absurd hh he.2.1
      · rfl
    have hst : Macro.strokes (e :: m) = e.strokes ++ Macro.strokes m := by simp [Macro.strokes]
    rw [hst] at hup ⊢
    obtain ⟨a1, a2⟩ := entry_host t e h he (fun s hs => hup s (List.mem_append_left _ hs))
    obtain ⟨b1, b2⟩ := sleep_host t h
    obtain ⟨c1, c2⟩ := exec_host t m h (fun x hx => hm x (List.mem_cons_of_mem _ hx))
      (fun s hs => hup s (List.mem_append_right _ hs))
    rw [eq]
    simp only [List.map_append]
    constructor
    · rw [keystrokes_append, keystrokes_append, hostAfter_append, a1, a2, b1, b2, c1]
      simp
    · rw [hostAfter_append, hostAfter_append, a2, b2, c2]


theorem inMods_iff (mods : UInt8) : ∀ mk ∈ modifierKeys, (inMods mods mk.2 = true ↔ mods &&& mk.1 ≠ 0) := by
  intro mk hmk
  simp only [modifierKeys, List.mem_cons, List.not_mem_nil, or_false] at hmk
  rcases hmk with rfl | rfl | rfl | rfl | rfl <;>
    simp [inMods, KEYD.LEFTCTRL, KEYD.LEFTSHIFT, KEYD.LEFTALT, KEYD.RIGHTALT, KEYD.LEFTMETA]

theorem modKeys_mem : ∀ c ∈ modKeys, ∃ mk ∈ modifierKeys, mk.2 = c := by decide

theorem modKeys_modifier : ∀ c ∈ modKeys, isModifierKey c = true := by decide

theorem modifierKeys_modKeys : ∀ mk ∈ modifierKeys, mk.2 ∈ modKeys := by decide

theorem isModifier_key {c : Code} (h : isModifierKey c = true) : ∃ mk ∈ modifierKeys, mk.2 = c := by
  refine modKeys_mem c ?_
  revert h
  simp only [isModifierKey, modKeys, decide_eq_true_eq, List.mem_cons, List.not_mem_nil, or_false]
  rintro (h | h | h | h | h) <;> simp [h]

theorem strokes_unmodified {m : Macro} (ht : TextMacro m) {s : Code × UInt8} (hs : s ∈ Macro.strokes m) : isModifierKey s.1 = false := by
  unfold Macro.strokes at hs
  rw [List.mem_flatMap] at hs
  obtain ⟨e, he, hs⟩ := hs
  unfold MacroEntry.strokes at hs
  split at hs
  · rename_i hk
    rw [List.mem_singleton] at hs
    rw [hs]
    exact (ht e he).2.2 hk
  · rw [List.mem_map] at hs
    obtain ⟨c, hc, rfl⟩ := hs
    exact unicode_codes _ c hc
  · cases hs

/-- `execute_macro` as the host sees it. -/
theorem macro_host (k : Kbd) (dl : Nat) (m : Macro) (h : Code → Bool) (ht : TextMacro m)
    (hr : ∀ s ∈ Macro.strokes m, RealKey s.1) (agree : ∀ c, isModifierKey c = true → h c = k.keystate c)
    (up : ∀ s ∈ Macro.strokes m, h s.1 = false ∧ k.keystate s.1 = false)
    (free : ∀ s ∈ Macro.strokes m, ∀ mk ∈ modifierKeys, s.2 &&& mk.1 ≠ 0 → ¬ Requested k (some dl) 0 mk.1) :
    ∃ (os : List Out) (base : List Code), (executeMacro k dl m).outputs = k.outputs ++ os ∧
      (∀ mk ∈ modifierKeys, mk.2 ∈ base ↔ Requested k (some dl) 0 mk.1) ∧
      keystrokes h os = (Macro.strokes m).map (fun s => (s.1, modKeys.filter fun c => decide (c ∈ base) || inMods s.2 c)) ∧
      (∀ c, isModifierKey c = false → hostAfter h os c = h c) := by
  have hbase : ∀ mk ∈ modifierKeys, mk.2 ∈ modKeys.filter (fun c => (updateMods k (some dl) 0).keystate c) ↔
      Requested k (some dl) 0 mk.1 := by
    intro mk hmk
    rw [← C09_modifiers_exact k (some dl) 0 mk.1 mk.2 hmk]
    simp only [List.mem_filter]
    simp [modifierKeys_modKeys mk hmk]
  generalize modKeys.filter (fun c => (updateMods k (some dl) 0).keystate c) = base at hbase
  have slow : executeMacro k dl m = emitMacro (updateMods k (some dl) 0)
      (macroExecute m (k.config.macroSequenceTimeout % 18446744073709551616).toNat) →
      ∃ os, (executeMacro k dl m).outputs = k.outputs ++ os ∧
      keystrokes h os = (Macro.strokes m).map (fun s => (s.1, modKeys.filter fun c => decide (c ∈ base) || inMods s.2 c)) ∧
      (∀ c, isModifierKey c = false → hostAfter h os c = h c) := by
    intro e
    obtain ⟨os1, o1, s1, g1⟩ := Shifts.updateMods k (some dl) 0
    obtain ⟨a1, a2, a3⟩ := g1 h agree
    have hk1 : ∀ mk ∈ modifierKeys, hostAfter h os1 mk.2 = true ↔ Requested k (some dl) 0 mk.1 := by
      intro mk hmk
      rw [a2 _ (modKeys_modifier _ (modifierKeys_modKeys mk hmk)), C09_modifiers_exact k (some dl) 0 mk.1 mk.2 hmk]
    obtain ⟨b1, b2⟩ := exec_host (k.config.macroSequenceTimeout % 18446744073709551616).toNat m (hostAfter h os1) ht (by
      intro s hs
      refine ⟨(a3 _ (strokes_unmodified ht hs)).trans (up s hs).1, fun c hc => ?_⟩
      obtain ⟨mk, hmk, rfl⟩ := isModifier_key (inMods_isModifier hc)
      have := free s hs mk hmk ((inMods_iff _ mk hmk).1 hc)
      rw [← hk1 mk hmk] at this
      simpa using this)
    refine ⟨os1 ++ (macroExecute m (k.config.macroSequenceTimeout % 18446744073709551616).toNat).map asOut, ?_, ?_, ?_⟩
    · rw [e, emitMacro_outputs, o1, List.append_assoc]
    · rw [keystrokes_append, a1, List.nil_append]
      unfold macroExecute
      rw [b1]
      apply List.map_congr_left
      intro s _
      congr 1
      apply List.filter_congr
      intro c hc
      obtain ⟨mk, hmk, rfl⟩ := modKeys_mem c hc
      congr 1
      rw [Bool.eq_iff_iff, hk1 mk hmk, ← hbase mk hmk, decide_eq_true_eq]
    · intro c hc
      rw [hostAfter_append]
      unfold macroExecute
      rw [b2]
      exact a3 c hc
  suffices hs : ∃ os, (executeMacro k dl m).outputs = k.outputs ++ os ∧
      keystrokes h os = (Macro.strokes m).map (fun s => (s.1, modKeys.filter fun c => decide (c ∈ base) || inMods s.2 c)) ∧
      (∀ c, isModifierKey c = false → hostAfter h os c = h c) by
    obtain ⟨os, h1, h2, h3⟩ := hs
    exact ⟨os, base, h1, hbase, h2, h3⟩
  by_cases hp : PlainMacro m
  · obtain ⟨e, rfl, he⟩ := hp
    have hm := (ht e List.mem_cons_self).2.2 he
    have hst : Macro.strokes [e] = [(e.code, e.mods)] := by
      simp [Macro.strokes, MacroEntry.strokes, he]
    rw [hst] at hr up
    have hre := hr _ List.mem_cons_self
    obtain ⟨u1, u2⟩ := up _ List.mem_cons_self
    dsimp only at hre u1 u2
    obtain ⟨os1, o1, s1, g1⟩ := Shifts.updateMods k (some dl) e.mods
    obtain ⟨a1, a2, a3⟩ := g1 h agree
    have ex : executeMacro k dl [e] = sendKey (sendKey (updateMods k (some dl) e.mods) e.code true) e.code false := by
      unfold executeMacro
      dsimp only
      rw [if_pos he]
    have hu : hostAfter h os1 e.code = false := (a3 _ hm).trans u1
    refine ⟨os1 ++ [.key e.code true, .key e.code false], ?_, ?_, ?_⟩
    · rw [ex, sendKey_outputs _ _ _ hre, sendKey_outputs _ _ _ hre, sendKey_keystate _ _ _ hre.1 hre.2, upd_same, s1 _ hm, u2, o1]
      simp
    · rw [keystrokes_append, a1, hst]
      simp only [keystrokes, hu, hm, List.nil_append, List.map_cons, List.map_nil]
      simp only [and_self, if_true, Bool.false_eq_true, false_and, if_false, List.append_nil]
      congr 2
      apply List.filter_congr
      intro c hc
      obtain ⟨mk, hmk, rfl⟩ := modKeys_mem c hc
      rw [a2 _ (modKeys_modifier _ hc), Bool.eq_iff_iff, C09_modifiers_exact k (some dl) e.mods mk.1 mk.2 hmk, Bool.or_eq_true,
        inMods_iff _ mk hmk, decide_eq_true_eq, hbase mk hmk]
      unfold Requested
      simp [or_comm]
    · intro c hc
      rw [hostAfter_append]
      show upd (upd (hostAfter h os1) e.code true) e.code false c = _
      rw [upd_upd, ← hu, upd_eta]
      exact a3 c hc
  · refine slow ?_
    unfold executeMacro
    dsimp only
    split
    · rename_i e
      rw [if_neg (fun h' => hp ⟨e, rfl, h'⟩)]
    · rfl

theorem withoutOneshots_idem (k : Kbd) (t : Int) :
    withoutOneshots { k with layerState := afterExpiry k t } = withoutOneshots k := by
  funext i
  unfold withoutOneshots afterExpiry
  dsimp only
  split
  · split
    · unfold withoutOneshots
      rw [if_pos (by assumption)]
      simp
    · rfl
  · split
    · unfold withoutOneshots
      rw [if_neg (by assumption)]
    · rfl

/-- C61. A key bound to a macro of text and key sequences is pressed: the host sees exactly the
keystrokes the macro asks for, in order, each with its own modifiers and with those of the layers that
stay active, but not with those of the layer the macro comes from. -/
theorem C61_macro_keystrokes {k k' : Kbd} {code : Code} {d : Desc} {i dl : Nat} (hc : code ≠ 0) (hd : Direct k code)
    (hf : Fresh k code) (fuel : Nat) (t w : Int) (hm : d = .«macro» i ∨ ∃ a b, d = .macro2 a b i)
    (hl : lookupDescriptor { k with layerState := afterExpiry k t } code = (d, dl))
    (run : kbdProcessEvents (fuel + 1) k [⟨code, true, t⟩] = .ok (k', w))
    (h : Code → Bool) (ht : TextMacro (k.config.mac i)) (hr : ∀ s ∈ Macro.strokes (k.config.mac i), RealKey s.1)
    (agree : ∀ c, isModifierKey c = true → h c = k.keystate c)
    (up : ∀ s ∈ Macro.strokes (k.config.mac i), h s.1 = false ∧ k.keystate s.1 = false)
    (free : ∀ s ∈ Macro.strokes (k.config.mac i), ∀ mk ∈ modifierKeys, s.2 &&& mk.1 ≠ 0 →
      ¬ Requested { k with layerState := withoutOneshots k } (some dl) 0 mk.1) :
    ∃ (os : List Out) (base : List Code), k'.outputs = k.outputs ++ os ∧
      (∀ mk ∈ modifierKeys, mk.2 ∈ base ↔ Requested { k with layerState := withoutOneshots k } (some dl) 0 mk.1) ∧
      keystrokes h os =
        (Macro.strokes (k.config.mac i)).map (fun s => (s.1, modKeys.filter fun c => decide (c ∈ base) || inMods s.2 c)) ∧
      (∀ c, isModifierKey c = false → hostAfter h os c = h c) := by
  obtain ⟨d', dl', k2, k3, hl', ha, hp, hr'⟩ := direct_press hd hc hf run
  rw [hl] at hl'
  injection hl' with e1 e2
  subst e1 e2
  have hk' : k' = (calculateMainLoopTimeout _ t).1 := congrArg Prod.fst hr'
  have hp' : ∃ tm iv k4, pdMacro k2 i tm iv dl t = .ok k4 ∧ k3 = { k4 with lastPressedCode := code } := by
    unfold processDescriptor descBudget at hp
    rcases hm with rfl | ⟨a, b, rfl⟩
    · change (pdMacro k2 i _ _ dl t >>= fun k => (.ok { k with lastPressedCode := code } : Res Kbd)) = .ok k3 at hp
      rw [bind_eq_ok] at hp
      obtain ⟨k4, h4, hp⟩ := hp
      injection hp with hp
      exact ⟨_, _, k4, h4, hp.symm⟩
    · change (pdMacro k2 i _ _ dl t >>= fun k => (.ok { k with lastPressedCode := code } : Res Kbd)) = .ok k3 at hp
      rw [bind_eq_ok] at hp
      obtain ⟨k4, h4, hp⟩ := hp
      injection hp with hp
      exact ⟨_, _, k4, h4, hp.symm⟩
  obtain ⟨tm, iv, k4, h4, e3⟩ := hp'
  unfold pdMacro at h4
  dsimp only at h4
  rw [bind_eq_ok] at h4
  obtain ⟨k5, h5, h4⟩ := h4
  have s5 : Shifts k k5 := (ha.shifts.trans (.same (k' := { k2 with macroRepeatInterval := iv }) rfl rfl)).trans
    (Shifts.clearOneshot h5)
  obtain ⟨ls, os5, e5, _, _, l5⟩ := clearOneshot_spec h5
  have hcfg : k5.config = k.config := by rw [e5]; exact ha.config
  have hlay : k5.layerState = withoutOneshots k := by
    rw [← withoutOneshots_idem k t, e5]
    funext j
    show ls j = _
    rw [l5 j]
    unfold withoutOneshots
    show (if j < k2.config.layers.length then { k2.layerState j with
        active := (k2.layerState j).active - (k2.layerState j).oneshotDepth, oneshotDepth := 0 } else k2.layerState j) = _
    rw [ha.config, ha.layers]
  have hout : k'.outputs = (executeMacro k5 dl (k5.config.mac i)).outputs := by
    rw [hk', e3]
    show k4.outputs = _
    rw [scheduleTimeout_ok h4]
    rfl
  have hreq : ∀ mask, Requested k5 (some dl) 0 mask ↔ Requested { k with layerState := withoutOneshots k } (some dl) 0 mask := by
    intro mask
    unfold Requested
    rw [hcfg, hlay]
  obtain ⟨os1, o1, s1, g1⟩ := s5
  obtain ⟨a1, a2, a3⟩ := g1 h agree
  obtain ⟨os, base, b1, b2, b3, b4⟩ := macro_host k5 dl (k.config.mac i) (hostAfter h os1) ht hr a2
    (fun s hs => ⟨(a3 _ (strokes_unmodified ht hs)).trans (up s hs).1, (s1 _ (strokes_unmodified ht hs)).trans (up s hs).2⟩)
    (fun s hs mk hmk hx hn => free s hs mk hmk hx ((hreq _).1 hn))
  refine ⟨os1 ++ os, base, ?_, fun mk hmk => (b2 mk hmk).trans (hreq _), ?_, ?_⟩
  · rw [hout, hcfg, b1, o1, List.append_assoc]
  · rw [keystrokes_append, a1, b3, List.nil_append]
  · intro c hc'
    rw [hostAfter_append, b4 c hc', a3 c hc']

/-- C61, plain keys. A key bound to the key `x` with modifiers `m` is pressed: the host sees one
keystroke, of `x` with the modifiers `m` and those of the active layers, but not with those of the
layer the binding comes from. -/
theorem C61_key_keystroke {k k' : Kbd} {code x : Code} {m : UInt8} {dl : Nat} (hc : code ≠ 0) (hd : Direct k code)
    (hf : Fresh k code) (fuel : Nat) (t w : Int)
    (hl : lookupDescriptor { k with layerState := afterExpiry k t } code = (.keyseq x m, dl))
    (run : kbdProcessEvents (fuel + 1) k [⟨code, true, t⟩] = .ok (k', w))
    (h : Code → Bool) (hr : RealKey x) (hx : isModifierKey x = false)
    (agree : ∀ c, isModifierKey c = true → h c = k.keystate c) (agreex : h x = k.keystate x) :
    ∃ (os : List Out) (base : List Code), k'.outputs = k.outputs ++ os ∧
      (∀ mk ∈ modifierKeys, mk.2 ∈ base ↔ Requested { k with layerState := afterExpiry k t } (some dl) m mk.1) ∧
      keystrokes h os = [(x, modKeys.filter fun c => decide (c ∈ base))] ∧ hostAfter h os x = true := by
  obtain ⟨d', dl', k2, k3, hl', ha, hp, hr'⟩ := direct_press hd hc hf run
  rw [hl] at hl'
  injection hl' with e1 e2
  subst e1 e2
  have hk' : k' = (calculateMainLoopTimeout _ t).1 := congrArg Prod.fst hr'
  unfold processDescriptor descBudget at hp
  change (pdKeyseq k2 x m dl true t >>= fun k => (.ok { k with lastPressedCode := code } : Res Kbd)) = .ok k3 at hp
  rw [bind_eq_ok] at hp
  obtain ⟨k4, h4, hp⟩ := hp
  injection hp with hp
  unfold pdKeyseq at h4
  rw [if_pos rfl, bind_eq_ok] at h4
  obtain ⟨k5, h5, h4⟩ := h4
  dsimp only at h5
  have ho4 : k'.outputs = k5.outputs := by
    rw [hk', ← hp]
    show k4.outputs = _
    split at h4
    · injection h4 with h4; rw [← h4]; rfl
    · injection h4 with h4; rw [← h4]
  have s2 := ha.shifts
  generalize hk6 : (if k2.keystate x = true then sendKey k2 x false else k2) = k6 at h5
  have f6 : k6.config = k2.config ∧ k6.layerState = k2.layerState := by
    rw [← hk6]
    split
    · exact ⟨(KeyFrame.send _ _ _).config, (KeyFrame.send _ _ _).layerState⟩
    · exact ⟨rfl, rfl⟩
  obtain ⟨os2, o2, q2, g2⟩ := s2
  obtain ⟨a1, a2, a3⟩ := g2 h agree
  -- after a possible release of `x`
  have h6 : ∃ os6, k6.outputs = k2.outputs ++ os6 ∧ keystrokes (hostAfter h os2) os6 = [] ∧
      (∀ c, isModifierKey c = true → hostAfter (hostAfter h os2) os6 c = k6.keystate c) ∧
      hostAfter (hostAfter h os2) os6 x = false ∧ k6.keystate x = false := by
    rw [← hk6]
    split
    · rename_i hdown
      refine ⟨[.key x false], by rw [sendKey_outputs _ _ _ hr, if_neg (by rw [hdown]; simp)], by simp [keystrokes], ?_, ?_, ?_⟩
      · intro c hc'
        have hcx : c ≠ x := by rintro rfl; rw [hx] at hc'; cases hc'
        show upd (hostAfter h os2) x false c = _
        rw [sendKey_keystate _ _ _ hr.1 hr.2, upd_other _ _ hcx, upd_other _ _ hcx]
        exact a2 c hc'
      · show upd (hostAfter h os2) x false x = _
        rw [upd_same]
      · rw [sendKey_keystate _ _ _ hr.1 hr.2, upd_same]
    · rename_i hup
      rw [Bool.not_eq_true] at hup
      refine ⟨[], by simp, rfl, a2, ?_, hup⟩
      show hostAfter h os2 x = false
      rw [a3 x hx, agreex, ← q2 x hx, hup]
  obtain ⟨os6, o6, b1, b2, b3, b4⟩ := h6
  obtain ⟨os7, o7, q7, g7⟩ := Shifts.updateMods k6 (some dl) m
  obtain ⟨c1, c2, c3⟩ := g7 _ b2
  generalize hk7 : updateMods k6 (some dl) m = k7 at *
  have hx7 : k7.keystate x = false := by rw [q7 x hx, b4]
  have s5 := Shifts.clearOneshot h5
  obtain ⟨os8, o8, q8, g8⟩ := s5
  have ho8 := o8
  rw [sendKey_outputs _ _ _ hr, hx7, if_neg (by simp), o7, o6, o2] at ho8
  have agree8 : ∀ c, isModifierKey c = true →
      upd (hostAfter (hostAfter (hostAfter h os2) os6) os7) x true c = (sendKey k7 x true).keystate c := by
    intro c hc'
    have hcx : c ≠ x := by rintro rfl; rw [hx] at hc'; cases hc'
    rw [sendKey_keystate _ _ _ hr.1 hr.2, upd_other _ _ hcx, upd_other _ _ hcx]
    exact c2 c hc'
  obtain ⟨d1, d2, d3⟩ := g8 _ agree8
  have hreq : ∀ mk ∈ modifierKeys, k7.keystate mk.2 = true ↔
      Requested { k with layerState := afterExpiry k t } (some dl) m mk.1 := by
    intro mk hmk
    rw [← hk7, C09_modifiers_exact k6 (some dl) m mk.1 mk.2 hmk]
    unfold Requested
    rw [f6.1, f6.2, ha.config, ha.layers]
  refine ⟨os2 ++ (os6 ++ (os7 ++ (.key x true :: os8))), modKeys.filter k7.keystate, ?_, ?_, ?_, ?_⟩
  · rw [ho4, ho8]; simp
  · intro mk hmk
    rw [← hreq mk hmk, List.mem_filter]
    simp [modifierKeys_modKeys mk hmk]
  · rw [keystrokes_append, keystrokes_append, keystrokes_append, a1, b1, c1]
    simp only [List.nil_append, keystrokes]
    rw [if_pos ⟨trivial, by rw [c3 x hx, b3], hx⟩, d1]
    simp only [List.append_nil]
    congr 2
    apply List.filter_congr
    intro c hc'
    rw [c2 c (modKeys_modifier c hc')]
    rw [Bool.eq_iff_iff]
    simp [List.mem_filter, hc']
  · rw [hostAfter_append, hostAfter_append, hostAfter_append]
    show hostAfter (upd _ x true) os8 x = true
    rw [d3 x hx, upd_same]

/-! Concrete cases. -/

def macroKeysText : Str := b!"[main]\nleftshift = layer(shift)\nb = C-x\n[shift]\na = macro(Hi C-x)\nd = 1\n"

/-- The macro of the shift layer is typed with shift only where it says so. -/
theorem C61_witness_run : (runText macroKeysText [press 42 1000, press 30 1010]).map (keystrokes (fun _ => false))
    = some [(35, [42]), (23, []), (45, [29])] := by
  set_option maxRecDepth 100000 in decide +kernel

theorem macroKeysWitness : checkRun macroKeysText [press 42 1000] (fun _ => true)
    (fun k => directCheck k 30 && freshCheck k 30 && directCheck k 48 && freshCheck k 48 && decide (k.oneshotTimeout = 0) &&
      decide (lookupDescriptor k 30 = (.«macro» 0, 2)) && decide (lookupDescriptor k 48 = (.keyseq 45 MOD_CTRL, 0)) &&
      decide (Macro.strokes (k.config.mac 0) = [(35, MOD_SHIFT), (23, 0), (45, MOD_CTRL)]) &&
      (k.config.mac 0).all (fun e => decide (e.type ≠ .hold ∧ e.type ≠ .release ∧ (e.type = .keysequence → isModifierKey e.code = false))) &&
      !k.keystate 35 && !k.keystate 23 && !k.keystate 45 && k.keystate 42 &&
      decide (layerMods { k with layerState := withoutOneshots k } (some 2) 0 = 0)) = true := by
  set_option maxRecDepth 100000 in decide +kernel

/-- The hypotheses of `C61_macro_keystrokes` and `C61_key_keystroke` are met, with the shift layer
active and its modifier down. -/
theorem C61_witness : ∃ k, Reach (fun _ => True) k ∧ Direct k 30 ∧ Fresh k 30 ∧ Direct k 48 ∧ Fresh k 48 ∧ k.keystate 42 = true ∧
    (∀ t, lookupDescriptor { k with layerState := afterExpiry k t } 30 = (.«macro» 0, 2)) ∧
    (∀ t, lookupDescriptor { k with layerState := afterExpiry k t } 48 = (.keyseq 45 MOD_CTRL, 0)) ∧
    TextMacro (k.config.mac 0) ∧ (∀ s ∈ Macro.strokes (k.config.mac 0), RealKey s.1 ∧ k.keystate s.1 = false ∧
      ∀ mk ∈ modifierKeys, s.2 &&& mk.1 ≠ 0 → ¬ Requested { k with layerState := withoutOneshots k } (some 2) 0 mk.1) := by
  obtain ⟨k, h1, h2⟩ := checkRun_reach (cfg := fun _ => True) macroKeysWitness (fun _ _ => trivial)
  simp only [Bool.and_eq_true, decide_eq_true_eq, Bool.not_eq_true'] at h2
  obtain ⟨⟨⟨⟨⟨⟨⟨⟨⟨⟨⟨⟨⟨a1, a2⟩, a3⟩, a4⟩, a5⟩, a6⟩, a7⟩, a8⟩, a9⟩, a10⟩, a11⟩, a12⟩, a13⟩, a14⟩ := h2
  have he : ∀ t, afterExpiry k t = k.layerState := by
    intro t
    unfold afterExpiry
    rw [if_neg (fun h => h.1 a5)]
  refine ⟨k, h1, direct_of_check a1, fresh_of_check a2, direct_of_check a3, fresh_of_check a4, a13, ?_, ?_, ?_, ?_⟩
  · intro t; rw [he]; exact a6
  · intro t; rw [he]; exact a7
  · intro e hm
    rw [List.all_eq_true] at a9
    exact of_decide_eq_true (a9 e hm)
  · rw [a8]
    intro s hs
    have hn : ∀ mask, ¬ Requested { k with layerState := withoutOneshots k } (some 2) 0 mask := by
      intro mask hq
      rw [← layerMods_requested, a14] at hq
      simp at hq
    simp only [List.mem_cons, List.not_mem_nil, or_false] at hs
    rcases hs with rfl | rfl | rfl
    · exact ⟨by unfold RealKey; decide, a10, fun _ _ _ => hn _⟩
    · exact ⟨by unfold RealKey; decide, a11, fun _ _ _ => hn _⟩
    · exact ⟨by unfold RealKey; decide, a12, fun _ _ _ => hn _⟩

end Keyd
