import Verif.Proofs.ConfigInv

/-
  Every parsing function keeps the binding tables well-formed and never trips
  the "modifier layer exists" assert.
-/

set_option autoImplicit false

namespace Keyd

/-- Where parsing an action can stop. -/
def actionStops : List Err := [
  .assertFail "utf8_read_char",
  .assertFail "parse_fn: *nargs < 5"]

/-- Where parsing can stop: assertions, null pointers and one array overrun. -/
def parseStops : List Err := actionStops ++ [
  .assertFail "ini: n < MAX_SECTIONS",
  .assertFail "ini: nr_entries < MAX_SECTION_ENTRIES",
  .assertFail "config->nr_ids < ARRAY_SIZE(config->ids)",
  .nullDeref "new_layer: strcpy(layer->name, NULL)",
  .nullDeref "atoi(NULL)",
  .nullDeref "strlen(NULL)",
  .oob "layer->constituents"]

/-- A stop in an action, or the model's own recursion bound. -/
def ParseErr (e : Err) : Prop := e = .fuel ∨ e ∈ actionStops

/-- A stop anywhere. -/
def ParseStop (e : Err) : Prop := e ∈ parseStops

/-! ### Macros -/

theorem addEntry_le {m m' : Macro} {t : MacroType} {d : Nat} (h : addEntry m t d = some m') :
    m'.length ≤ 256 := by
  unfold addEntry at h
  split at h
  · cases h
  · cases h; simp; omega

theorem macroHolds_le : ∀ (l : List Str) (m m' : Macro), m.length ≤ 256 →
    macroHolds l m = some m' → m'.length ≤ 256
  | [], m, m', hm, h => by cases h; exact hm
  | key :: rest, m, m', hm, h => by
    unfold macroHolds at h
    split at h
    · split at h
      · cases h
      · rename_i m1 h1
        exact macroHolds_le rest m1 m' (addEntry_le h1) h
    · split at h
      · split at h
        · cases h
        · rename_i m1 h1
          exact macroHolds_le rest m1 m' (addEntry_le h1) h
      · cases h

theorem utf8ReadChar_err (s : Str) : Sat (utf8ReadChar s) (fun _ => True) ParseErr := by
  unfold utf8ReadChar
  repeat' split
  all_goals first | trivial | simp [ParseErr, actionStops]

theorem utf8StrlenAux_err : ∀ (n : Nat) (s : Str), Sat (utf8StrlenAux n s) (fun _ => True) ParseErr
  | 0, _ => trivial
  | n+1, s => by
    unfold utf8StrlenAux
    refine Sat.bind (utf8ReadChar_err s) ?_
    rintro ⟨sz, cp⟩ _
    dsimp only
    split
    · trivial
    · exact Sat.bind (utf8StrlenAux_err n _) (fun _ _ => trivial)

def MacLe (r : Option Macro) : Prop := ∀ m, r = some m → m.length ≤ 256

theorem macLe_addEntry (m : Macro) (t : MacroType) (d : Nat) : MacLe (addEntry m t d) :=
  fun _ h => addEntry_le h

theorem macroChars_sat : ∀ (n : Nat) (tok : Str) (m : Macro), m.length ≤ 256 →
    Sat (macroChars n tok m) MacLe ParseErr
  | 0, tok, m, h => by intro m' hm'; cases hm'; exact h
  | n+1, tok, m, h => by
    unfold macroChars
    refine Sat.bind (utf8ReadChar_err tok) ?_
    rintro ⟨sz, cp⟩ _
    dsimp only
    have none' : MacLe none := fun _ h => by cases h
    have some' : MacLe (some m) := fun _ h' => by cases h'; exact h
    repeat' split
    all_goals first
      | exact none'
      | exact some'
      | exact macroChars_sat n _ m h
      | (rename_i h1; exact macroChars_sat n _ _ (addEntry_le h1))

theorem macroToken_sat (tok : Str) (m : Macro) (h : m.length ≤ 256) :
    Sat (macroToken tok m) MacLe ParseErr := by
  unfold macroToken
  split
  · exact macLe_addEntry _ _ _
  · split
    · split
      · intro _ h; cases h
      · exact macLe_addEntry _ _ _
    · split
      · exact macLe_addEntry _ _ _
      · exact macroChars_sat _ _ _ h

theorem macroTokens_sat : ∀ (toks : List Str) (m : Macro), m.length ≤ 256 →
    Sat (macroTokens toks m) MacLe ParseErr
  | [], m, h => by intro m' hm'; cases hm'; exact h
  | tok :: rest, m, h => by
    unfold macroTokens
    refine Sat.bind (macroToken_sat tok m h) ?_
    intro r hr
    split
    · intro _ h; cases h
    · exact macroTokens_sat rest _ (hr _ rfl)

theorem macroParse_sat (s : Str) : Sat (macroParse s) MacLe ParseErr :=
  macroTokens_sat _ _ (by simp)

theorem parseMacroExpression_sat (s : Str) :
    Sat (parseMacroExpression s) (fun r => ∀ m, r = .ok m → m.length ≤ 256) ParseErr := by
  have key : ∀ s, Sat (do
      match ← macroParse s with
      | some m => .ok (.ok m)
      | none => .ok .error : Res MacroExpr) (fun r => ∀ m, r = .ok m → m.length ≤ 256) ParseErr := by
    intro s
    refine Sat.bind (macroParse_sat s) ?_
    intro r hr
    split
    · intro m hm; cases hm; exact hr _ rfl
    · intro m hm; cases hm
  unfold parseMacroExpression
  split
  · intro m hm; cases hm
  · split
    · exact key _
    · refine Sat.bind (Q := fun _ => True) ?_ ?_
      · split
        · exact Sat.bind (utf8StrlenAux_err _ _) (fun _ _ => trivial)
        · trivial
      · intro bad _
        split
        · intro m hm; cases hm
        · exact key _

/-! ### Function-call syntax -/

theorem fnArgs_err : ∀ (n : Nat) (s : Str) (acc : List Str),
    Sat (fnArgs n s acc) (fun _ => True) ParseErr
  | 0, _, _ => trivial
  | n+1, s, acc => by
    unfold fnArgs
    split
    · trivial
    · split
      · simp [ParseErr, actionStops]
      · dsimp only
        split
        · trivial
        · exact fnArgs_err n _ _

theorem parseFn_err (s : Str) : Sat (parseFn s) (fun _ => True) ParseErr := by
  unfold parseFn
  split
  · trivial
  · refine Sat.bind (fnArgs_err _ _ _) ?_
    intro r _
    split <;> trivial

theorem lettermod_err (args : List Str) : Sat (lettermod args) (fun _ => True) ParseErr := by
  unfold lettermod
  split
  · exact parseFn_err _
  · trivial

/-! ### Actions -/

/-- The value of an argument is legal for its kind. -/
def ArgOK (c : Config) : ArgType → Int → Prop
  | .layer, v => LayerTarget c v.toNat
  | .layout, v => LayoutTarget c v.toNat
  | .descriptor, v => v.toNat < c.descriptors.length
  | .mac, v => v.toNat < c.macros.length
  | .timeout, v => v.toNat < 65536
  | .sensitivity, _ => True

theorem ArgOK.ext {c c' : Config} (h : Extends c c') {t : ArgType} {v : Int} (ha : ArgOK c t v) :
    ArgOK c' t v := by
  have h1 := h.macros.length_le
  have h2 := h.descs.length_le
  cases t <;> simp only [ArgOK] at *
  · omega
  · exact ha.ext h
  · exact ha.ext h
  · exact ha
  · omega

/-- What a descriptor parser guarantees. -/
def PdSat (pd : Config → Str → Res (Config × Option Desc)) : Prop :=
  ∀ c s, WF c → Sat (pd c s) (fun r => Extends c r.1 ∧ WF r.1 ∧
    ∀ d, r.2 = some d → DescOK r.1 r.1.descriptors.length d) ParseErr

theorem parseArg_sat {pd : Config → Str → Res (Config × Option Desc)} (hpd : PdSat pd)
    {c : Config} (hw : WF c) (t : ArgType) (s : Str) :
    Sat (parseArg pd c t s) (fun r => Extends c r.1 ∧ WF r.1 ∧
      ∀ v, r.2 = some v → ArgOK r.1 t v) ParseErr := by
  have none' : Extends c (c, (none : Option Int)).1 ∧ WF (c, (none : Option Int)).1 ∧
      ∀ v, (c, (none : Option Int)).2 = some v → ArgOK (c, (none : Option Int)).1 t v :=
    ⟨.refl c, hw, by intro v h; cases h⟩
  unfold parseArg
  cases t with
  | layer =>
    dsimp only
    split
    · exact none'
    · split
      · exact none'
      · rename_i i hi
        obtain ⟨l, h1, h2⟩ := layerIndex_some hi
        split
        · exact none'
        · rename_i hty
          refine ⟨.refl c, hw, ?_⟩
          intro v hv
          cases hv
          rw [layer_of_getElem h1] at hty
          exact ⟨l, by simpa using h1, hty⟩
  | layout =>
    dsimp only
    split
    · exact none'
    · rename_i i hi
      obtain ⟨l, h1, h2⟩ := layerIndex_some hi
      split
      · exact none'
      · rename_i hty
        refine ⟨.refl c, hw, ?_⟩
        intro v hv
        cases hv
        rw [layer_of_getElem h1] at hty
        refine ⟨l, by simpa using h1, ?_⟩
        by_cases h0 : i = 0
        · left; simpa using h0
        · right
          by_cases h3 : l.type = .layout
          · exact h3
          · exact absurd ⟨h0, h3⟩ hty
  | descriptor =>
    dsimp only
    refine Sat.bind (hpd c s hw) ?_
    rintro ⟨c1, r⟩ ⟨h1, h2, h3⟩
    cases r with
    | none => exact ⟨h1, h2, by intro v h; cases h⟩
    | some d =>
      dsimp only
      split
      · exact ⟨h1, h2, by intro v h; cases h⟩
      · rename_i hlt
        refine ⟨h1.trans (.addDesc c1 d), h2.addDesc d (Nat.lt_of_not_ge hlt) (h3 d rfl), ?_⟩
        intro v hv
        cases hv
        simp [ArgOK]
  | sensitivity => exact ⟨.refl c, hw, by intro v h; trivial⟩
  | timeout =>
    refine ⟨.refl c, hw, ?_⟩
    intro v h
    cases h
    simp only [ArgOK, toU16]
    omega
  | mac =>
    dsimp only
    split
    · exact none'
    · rename_i hlt
      refine Sat.bind (parseMacroExpression_sat s) ?_
      intro r hr
      split
      · rename_i m
        refine ⟨.addMacro c m, hw.addMacro m (by omega) (hr m rfl), ?_⟩
        intro v hv
        cases hv
        simp [ArgOK]
      · exact none'

/-- Values matched against argument kinds. -/
def ArgsOK (c : Config) : List ArgType → List Int → Prop
  | [], [] => True
  | t :: ts, v :: vs => ArgOK c t v ∧ ArgsOK c ts vs
  | _, _ => False

theorem ArgsOK.ext {c c' : Config} (h : Extends c c') : ∀ {ts : List ArgType} {vs : List Int},
    ArgsOK c ts vs → ArgsOK c' ts vs
  | [], [], _ => trivial
  | _ :: _, _ :: _, ha => ⟨ha.1.ext h, ArgsOK.ext h ha.2⟩

theorem parseArgs_sat {pd : Config → Str → Res (Config × Option Desc)} (hpd : PdSat pd) :
    ∀ (l : List (ArgType × Str)) (c : Config) (acc : List Int) (ts : List ArgType),
    WF c → ArgsOK c ts acc →
    Sat (parseArgs pd c l acc) (fun r => Extends c r.1 ∧ WF r.1 ∧
      ∀ vs, r.2 = some vs → ArgsOK r.1 ((l.map (·.1)).reverse ++ ts) vs) ParseErr
  | [], c, acc, ts, hw, ha => ⟨.refl c, hw, by intro vs h; cases h; simpa using ha⟩
  | (t, s) :: rest, c, acc, ts, hw, ha => by
    unfold parseArgs
    refine Sat.bind (parseArg_sat hpd hw t s) ?_
    rintro ⟨c1, r⟩ ⟨h1, h2, h3⟩
    cases r with
    | none => exact ⟨h1, h2, by intro v h; cases h⟩
    | some v =>
      dsimp only
      have hv : ArgsOK c1 (t :: ts) (v :: acc) :=
        ⟨h3 v rfl, ha.ext h1⟩
      refine (parseArgs_sat hpd rest c1 (v :: acc) (t :: ts) h2 hv).imp ?_
      rintro ⟨c2, r2⟩ ⟨h4, h5, h6⟩
      exact ⟨h1.trans h4, h5, by intro vs hvs; simpa using h6 vs hvs⟩

/-- An action of the table applied to legal arguments is well-formed. -/
theorem mkDesc_ok {c : Config} {a : Str × ActOp × List ArgType} (ha : a ∈ actions) {vs : List Int}
    (h : ArgsOK c a.2.2 vs) : DescOK c c.descriptors.length (mkDesc a.2.1 vs) := by
  simp only [actions, List.mem_cons, List.not_mem_nil, or_false] at ha
  rcases ha with rfl|rfl|rfl|rfl|rfl|rfl|rfl|rfl|rfl|rfl|rfl|rfl|rfl|rfl|rfl|rfl|rfl|rfl|rfl|rfl|rfl|rfl|rfl
  all_goals
    rcases vs with _ | ⟨v0, _ | ⟨v1, _ | ⟨v2, _ | ⟨v3, vs⟩⟩⟩⟩ <;>
      simp_all [ArgsOK, ArgOK, mkDesc, DescOK]

theorem parseAction_sat {pd : Config → Str → Res (Config × Option Desc)} (hpd : PdSat pd) :
    PdSat (parseAction pd) := by
  intro c s hw
  have none' : Extends c (c, (none : Option Desc)).1 ∧ WF (c, (none : Option Desc)).1 ∧
      ∀ d, (c, (none : Option Desc)).2 = some d →
        DescOK (c, (none : Option Desc)).1 (c, (none : Option Desc)).1.descriptors.length d :=
    ⟨.refl c, hw, by intro v h; cases h⟩
  unfold parseAction
  refine Sat.bind (parseFn_err s) ?_
  rintro (_ | ⟨fn, args⟩) _
  · exact none'
  · dsimp only
    refine Sat.bind (Q := fun _ => True) ?_ ?_
    · split
      · exact lettermod_err _
      · trivial
    · rintro (_ | ⟨fn, args⟩) _
      · exact none'
      · dsimp only
        split
        · exact none'
        · rename_i nm op types hfind
          have hmem := List.mem_of_find?_eq_some hfind
          split
          · exact none'
          · rename_i hlen
            refine Sat.bind (parseArgs_sat hpd _ c [] [] hw trivial) ?_
            rintro ⟨c1, r⟩ ⟨h1, h2, h3⟩
            cases r with
            | none => exact ⟨h1, h2, by intro v h; cases h⟩
            | some vs =>
              refine ⟨h1, h2, ?_⟩
              intro d hd
              cases hd
              have h4 := h3 vs rfl
              rw [List.map_reverse, List.reverse_reverse, List.map_fst_zip (by omega),
                List.append_nil] at h4
              exact mkDesc_ok hmem h4

theorem modifierLayerName_mem {code : Code} {n : Str} (h : modifierLayerName code = some n) :
    n ∈ modifierLayers := by
  unfold modifierLayerName at h
  repeat' split at h
  all_goals first | (cases h; simp [modifierLayers]) | cases h

theorem parseDescriptorAux_sat : ∀ n, PdSat (parseDescriptorAux n)
  | 0 => by intro c s _; simp [parseDescriptorAux, ParseErr]
  | n+1 => by
    intro c s hw
    have none' : Extends c (c, (none : Option Desc)).1 ∧ WF (c, (none : Option Desc)).1 ∧
        ∀ d, (c, (none : Option Desc)).2 = some d →
          DescOK (c, (none : Option Desc)).1 (c, (none : Option Desc)).1.descriptors.length d :=
      ⟨.refl c, hw, by intro v h; cases h⟩
    unfold parseDescriptorAux
    split
    · exact ⟨.refl c, hw, by intro d h; cases h; trivial⟩
    · split
      · rename_i code mods _
        split
        · rename_i lname hl
          obtain ⟨i, l, h1, h2, h3⟩ := hw.modLayers _ (modifierLayerName_mem hl)
          have hi := layerIndex_of_nodup hw.names h1
          rw [h2] at hi
          rw [hi]
          refine ⟨.refl c, hw, ?_⟩
          intro d hd
          cases hd
          exact ⟨l, h1, by rw [h3]; simp⟩
        · exact ⟨.refl c, hw, by intro d h; cases h; trivial⟩
      · split
        · exact none'
        · rename_i cmd _
          split
          · exact none'
          · refine ⟨.addCommand c cmd, hw.addCommand cmd (by omega), ?_⟩
            intro d hd
            cases hd
            simp [DescOK]
        · refine Sat.bind (parseMacroExpression_sat s) ?_
          intro r hr
          split
          · exact none'
          · rename_i m
            split
            · exact none'
            · refine ⟨.addMacro c m, hw.addMacro m (by omega) (hr m rfl), ?_⟩
              intro d hd
              cases hd
              simp [DescOK]
          · exact parseAction_sat (parseDescriptorAux_sat n) c s hw

theorem parseDescriptor_sat : PdSat parseDescriptor := fun c s => parseDescriptorAux_sat _ c s

end Keyd
