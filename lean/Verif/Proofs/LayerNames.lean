import Verif.Proofs.LayerInv
import Verif.Props.Bindings

/-
  The names of layers never contain a newline.
-/

set_option autoImplicit false

namespace Keyd

attribute [local irreducible] configInit

/-- No layer's name contains a newline. -/
def OneLine (c : Config) : Prop := ∀ l ∈ c.layers, (10 : UInt8) ∉ l.name

theorem tokensAux_sub (d : UInt8) : ∀ (s cur : Str) (t : Str), t ∈ tokensAux d s cur → ∀ b ∈ t, b ∈ s ∨ b ∈ cur
  | [], cur, t, h, b, hb => by
    unfold tokensAux at h
    split at h
    · cases h
    · rw [List.mem_singleton] at h
      subst h
      exact .inr (List.mem_reverse.1 hb)
  | x :: s, cur, t, h, b, hb => by
    unfold tokensAux at h
    split at h
    · split at h
      · rcases tokensAux_sub d s [] t h b hb with h | h
        · exact .inl (List.mem_cons_of_mem _ h)
        · cases h
      · rcases List.mem_cons.1 h with rfl | h
        · exact .inr (List.mem_reverse.1 hb)
        · rcases tokensAux_sub d s [] t h b hb with h | h
          · exact .inl (List.mem_cons_of_mem _ h)
          · cases h
    · rcases tokensAux_sub d s (x :: cur) t h b hb with h | h
      · exact .inl (List.mem_cons_of_mem _ h)
      · rcases List.mem_cons.1 h with rfl | h
        · exact .inl List.mem_cons_self
        · exact .inr h

theorem tokens_sub {d : UInt8} {s t : Str} (h : t ∈ tokens d s) {b : UInt8} (hb : b ∈ t) : b ∈ s := by
  rcases tokensAux_sub d s [] t h b hb with h | h
  · exact h
  · cases h

theorem splitLines_clean : ∀ (s : Str), ∀ l ∈ splitLines s, (10 : UInt8) ∉ l
  | [] => by
    intro l hl
    unfold splitLines at hl
    rw [List.mem_singleton] at hl
    subst hl
    exact List.not_mem_nil
  | x :: s => by
    intro l hl
    have ih := splitLines_clean s
    unfold splitLines at hl
    split at hl
    · rcases List.mem_cons.1 hl with rfl | hl
      · exact List.not_mem_nil
      · exact ih l hl
    · rename_i hx
      split at hl
      · rw [List.mem_singleton] at hl
        subst hl
        intro h
        rw [List.mem_singleton] at h
        exact hx h.symm
      · rename_i l0 ls e
        rcases List.mem_cons.1 hl with rfl | hl
        · intro h
          rcases List.mem_cons.1 h with h | h
          · exact hx h.symm
          · exact ih l0 (by rw [e]; exact List.mem_cons_self) h
        · exact ih l (by rw [e]; exact List.mem_cons_of_mem _ hl)

theorem mem_dropWhile {p : UInt8 → Bool} {s : Str} {b : UInt8} (h : b ∈ s.dropWhile p) : b ∈ s :=
  (List.dropWhile_sublist p).subset h

theorem mem_stripLine {s : Str} {b : UInt8} (h : b ∈ stripLine s) : b ∈ s := by
  unfold stripLine rstrip at h
  exact mem_dropWhile (List.mem_reverse.1 (mem_dropWhile (List.mem_reverse.1 h)))

theorem classifyLine_section {line n : Str} (h : classifyLine line = .section n) {b : UInt8} (hb : b ∈ n) : b ∈ line := by
  unfold classifyLine at h
  dsimp only at h
  split at h
  · cases h
  · rename_i x rest e
    split at h
    · cases h
      refine mem_stripLine ?_
      rw [e]
      exact List.mem_cons_of_mem _ (List.dropLast_subset _ hb)
    · split at h <;> cases h

/-- The headings of a text have no newlines. -/
theorem iniLines_clean : ∀ (ls : List Str) (acc : List IniSection), (∀ l ∈ ls, (10 : UInt8) ∉ l) → (∀ s ∈ acc, (10 : UInt8) ∉ s.name) →
    Sat (iniLines ls acc) (fun r => ∀ a, r = some a → ∀ s ∈ a, (10 : UInt8) ∉ s.name) (fun _ => True)
  | [], acc, _, h => by
    intro a e
    cases e
    exact h
  | l :: ls, acc, hl, h => by
    unfold iniLines
    have hl' : ∀ l ∈ ls, (10 : UInt8) ∉ l := fun x hx => hl x (List.mem_cons_of_mem _ hx)
    split
    · exact iniLines_clean ls acc hl' h
    · rename_i n e
      split
      · refine iniLines_clean ls _ hl' ?_
        intro s hs
        rcases List.mem_cons.1 hs with rfl | hs
        · exact fun hb => hl l List.mem_cons_self (classifyLine_section e hb)
        · exact h s hs
      · trivial
    · split
      · intro a e; cases e
      · rename_i s ss
        split
        · refine iniLines_clean ls _ hl' ?_
          intro s' hs
          rcases List.mem_cons.1 hs with rfl | hs
          · exact h s List.mem_cons_self
          · exact h s' (List.mem_cons_of_mem _ hs)
        · trivial

theorem iniParse_clean (text : Str) : Sat (iniParseString text) (fun r => ∀ a, r = some a → ∀ s ∈ a, (10 : UInt8) ∉ s.name) (fun _ => True) := by
  unfold iniParseString
  refine Sat.bind (iniLines_clean _ [] (splitLines_clean text) (by intro s h; cases h)) ?_
  intro r hr
  split
  · intro a e; cases e
  · rename_i acc
    intro a e
    cases e
    intro s hs
    rw [List.mem_reverse, List.mem_map] at hs
    obtain ⟨s', h1, rfl⟩ := hs
    exact hr acc rfl s' h1

theorem OneLine.frame {c c' : Config} (h : OneLine c) (e : c'.layers = c.layers) : OneLine c' := by
  unfold OneLine; rw [e]; exact h

theorem OneLine.shape {c c' : Config} (h : OneLine c) (hs : SameShape c c') : OneLine c' := by
  intro l hl
  obtain ⟨i, hi, rfl⟩ := List.mem_iff_getElem.1 hl
  have hi' : i < c.layers.length := by rw [← hs.1]; exact hi
  obtain ⟨l', h1, h2, _⟩ := hs.2 i _ (List.getElem?_eq_getElem hi')
  rw [List.getElem?_eq_getElem hi] at h1
  cases h1
  rw [h2]
  exact h _ (List.getElem_mem hi')

theorem configAddLayer_oneLine {c : Config} (h : OneLine c) {s : Str} (hs : (10 : UInt8) ∉ s) :
    Sat (configAddLayer c s) (fun r => OneLine r.1) (fun _ => True) := by
  unfold configAddLayer
  split
  · exact h
  · dsimp only
    refine Sat.ite (fun _ => h) (fun _ => ?_)
    refine Sat.ite (fun _ => h) (fun _ => ?_)
    refine Sat.bind ((newLayer_sat c s).mono (fun _ h => h) (fun _ _ => trivial)) ?_
    intro r hr
    split
    · exact h
    · rename_i l
      intro l' hl'
      rcases List.mem_append.1 hl' with hl' | hl'
      · exact h l' hl'
      · rw [List.mem_singleton] at hl'
        subst hl'
        have := (hr l' rfl).1
        exact fun hb => hs (tokens_sub (List.mem_of_head? this) hb)

theorem aliasEntry_oneLine {c : Config} (h : OneLine c) (e : IniEntry) : Sat (aliasEntry c e) OneLine (fun _ => True) := by
  unfold aliasEntry
  dsimp only
  split
  · exact h
  · split
    · trivial
    · split
      · exact h
      · intro l hl
        dsimp only at hl
        split at hl
        · exact h l hl
        · dsimp only at hl
          rw [List.mem_iff_getElem] at hl
          obtain ⟨i, hi, rfl⟩ := hl
          rw [List.length_modify] at hi
          rw [List.getElem_modify]
          split
          · exact h c.layers[i] (List.getElem_mem hi)
          · exact h _ (List.getElem_mem hi)

theorem passOne_oneLine : ∀ (ss : List IniSection) {c : Config}, OneLine c → (∀ s ∈ ss, (10 : UInt8) ∉ s.name) → Sat (passOne c ss) OneLine (fun _ => True)
  | [], _, h, _ => h
  | s :: ss, c, h, hs => by
    unfold passOne
    refine Sat.bind (Q := OneLine) ?_ (fun _ h => passOne_oneLine ss h (fun x hx => hs x (List.mem_cons_of_mem _ hx)))
    have ids : ∀ (es : List IniEntry) {c : Config}, OneLine c → Sat (parseIdSection c es) OneLine (fun _ => True) := by
      intro es
      induction es with
      | nil => exact fun h => h
      | cons e es ih =>
        intro c h
        unfold parseIdSection
        exact Sat.bind (idEntry_layers c e) (fun _ e => ih (h.frame e))
    have globals : ∀ (es : List IniEntry) {c : Config}, OneLine c → Sat (parseGlobalSection c es) OneLine (fun _ => True) := by
      intro es
      induction es with
      | nil => exact fun h => h
      | cons e es ih =>
        intro c h
        unfold parseGlobalSection
        exact Sat.bind (globalEntry_layers c e) (fun _ e => ih (h.frame e))
    have names : ∀ (es : List IniEntry) {c : Config}, OneLine c → Sat (parseAliasSection c es) OneLine (fun _ => True) := by
      intro es
      induction es with
      | nil => exact fun h => h
      | cons e es ih =>
        intro c h
        unfold parseAliasSection
        exact Sat.bind (aliasEntry_oneLine h e) (fun _ h => ih h)
    split
    · exact ids _ h
    · split
      · exact names _ h
      · split
        · exact globals _ h
        · exact Sat.bind (configAddLayer_oneLine h (hs s List.mem_cons_self)) (fun _ h => h)

theorem sectionEntries_oneLine (n : Str) : ∀ (es : List IniEntry) {c : Config}, WF c → OneLine c →
    Sat (sectionEntries n c es) (fun c' => WF c' ∧ OneLine c') (fun _ => True)
  | [], _, hw, h => ⟨hw, h⟩
  | e :: es, c, hw, h => by
    unfold sectionEntries
    split
    · exact sectionEntries_oneLine n es hw h
    · refine Sat.bind_eq (Q := fun _ => True) ((configAddEntry_sat hw _).mono (fun _ _ => trivial) (fun _ _ => trivial)) ?_
      rintro ⟨c', ok⟩ run _
      obtain ⟨h1, h2⟩ := configAddEntry_shape hw run
      exact sectionEntries_oneLine n es h1 (h.shape h2)

theorem passTwo_oneLine : ∀ (ss : List IniSection) {c : Config}, WF c → OneLine c → Sat (passTwo c ss) (fun c' => WF c' ∧ OneLine c') (fun _ => True)
  | [], _, hw, h => ⟨hw, h⟩
  | s :: ss, _, hw, h => by
    unfold passTwo
    refine Sat.bind (Q := fun c' => WF c' ∧ OneLine c') ?_ (fun _ h => passTwo_oneLine ss h.1 h.2)
    split
    · exact ⟨hw, h⟩
    · exact sectionEntries_oneLine _ _ hw h

theorem configParseString_oneLine {c : Config} (hw : WF c) (h : OneLine c) (text : Str) :
    Sat (configParseString c text) (fun r => ∀ c', r = some c' → OneLine c') (fun _ => True) := by
  unfold configParseString
  refine Sat.bind (iniParse_clean text) ?_
  intro r hr
  split
  · intro c' e; cases e
  · rename_i ss
    refine Sat.bind (((passOne_sat _ hw).mono (fun _ h => h) (fun _ _ => trivial)).and (passOne_oneLine ss h (hr ss rfl))) ?_
    intro c1 h1
    refine Sat.bind (passTwo_oneLine ss h1.1 h1.2) ?_
    intro c2 h2 c' e
    cases e
    exact h2.2

def initNamesCheck : Bool :=
  match configInit with
  | .ok c => wfCheck c && c.layers.all (fun l => !l.name.contains 10)
  | .error _ => false

set_option maxRecDepth 100000 in
theorem initNamesCheck_true : initNamesCheck = true := by decide +kernel

theorem configInit_oneLine : ∃ c, configInit = .ok c ∧ WF c ∧ OneLine c := by
  have h := initNamesCheck_true
  unfold initNamesCheck at h
  revert h
  generalize configInit = r
  intro h
  cases r with
  | ok c =>
    rw [Bool.and_eq_true, List.all_eq_true] at h
    refine ⟨c, rfl, wfCheck_sound h.1, fun l hl => ?_⟩
    have := h.2 l hl
    simpa using this
  | error e => cases h

theorem configParse_oneLine_aux {r : Res Config} (h : ∃ c, r = .ok c ∧ WF c ∧ OneLine c) (text : Str) :
    Sat (r >>= fun c => configParseString c text) (fun r => ∀ c, r = some c → OneLine c) (fun _ => True) := by
  obtain ⟨c, rfl, hw, h⟩ := h
  exact configParseString_oneLine hw h text

theorem configParse_oneLine (text : Str) : Sat (configParse text) (fun r => ∀ c, r = some c → OneLine c) (fun _ => True) :=
  configParse_oneLine_aux configInit_oneLine text

/-- Whatever the configuration and the binds, no layer's name contains a newline. -/
theorem bound_oneLine {c : Config} (hb : Bound c) : OneLine c := by
  induction hb with
  | parsed text c run => exact (configParse_oneLine text).of_ok run c rfl
  | bind c exp c' ok h run ih => exact ih.shape (configAddEntry_shape (C27_wellformed c h) run).2

end Keyd
