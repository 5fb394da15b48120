import Verif.Proofs.UnrelatedRun
import Verif.Props.Uptime
import Verif.Props.Document
import Verif.Props.BindLine

/-
  C110: a binding of a key that is not pressed has no effect.
-/

set_option autoImplicit false

namespace Keyd

attribute [local irreducible] configInit

/-! ### Specification -/

/-- The keyboard after a history. -/
def after (n : Nat) : Kbd → List Stimulus → Res Kbd
  | k, [] => .ok k
  | k, .feed evs :: l => kbdProcessEvents n k evs >>= fun r => after n r.1 l
  | k, .bind exp :: l => kbdEval k exp >>= fun r => after n r.1 l
  | k, .scroll s :: l => after n { k with scroll := s } l

/-- None of these keys goes down, and nothing is bound, until a `reset` undoes all bindings. -/
def Untouched (P : Code → Prop) : List Stimulus → Prop
  | [] => True
  | .feed evs :: l => (∀ e ∈ evs, e.pressed = true → ¬ P e.code) ∧ Untouched P l
  | .bind exp :: _ => exp = b!"reset"
  | .scroll _ :: l => Untouched P l

/-- The events kept back while it is being decided between two actions of a key, or whether keys are a chord. -/
def Kbd.kept (k : Kbd) : List KeyEvent := k.pending.queue ++ (if k.chord.state = .inactive then [] else k.chord.queue)

/-! ### What a binding changes -/

theorem configAddEntry_refused {c c' : Config} (hw : WF c) {exp : Str} (h : configAddEntry c exp = .ok (c', false)) : Extends c c' := by
  unfold configAddEntry at h
  split at h
  · cases h; exact Extends.refl c
  · dsimp only at h
    split at h
    · cases h; exact Extends.refl c
    · rw [bind_eq_ok] at h
      obtain ⟨⟨c1, r⟩, hp, h⟩ := h
      have hext := parseDescriptor_extends hw hp
      cases r with
      | none => cases h; exact hext
      | some d =>
        dsimp only at h
        split at h
        · cases h; exact hext
        · cases h

theorem configAddEntry_tables {c c' : Config} (hw : WF c) {exp : Str} {ok : Bool} (h : configAddEntry c exp = .ok (c', ok)) :
    c.descriptors.length ≤ c'.descriptors.length ∧ c.macros.length ≤ c'.macros.length ∧ c.commands.length ≤ c'.commands.length := by
  cases ok with
  | false =>
    have e := configAddEntry_refused hw h
    exact ⟨e.descs.length_le, e.macros.length_le, e.commands.length_le⟩
  | true =>
    rcases configAddEntry_cases hw h with ⟨e, _⟩ | ⟨_, _, _, _, _, c1, _, _, _, _, _, rfl, e⟩
    · cases e
    · exact ⟨e.descs.length_le, e.macros.length_le, e.commands.length_le⟩

theorem InTables.bound {c c' : Config} (hw : WF c) {exp : Str} {ok : Bool} (h : configAddEntry c exp = .ok (c', ok)) {d : Desc} (hd : InTables c d) : InTables c' d := by
  obtain ⟨h1, h2, h3⟩ := configAddEntry_tables hw h
  have hs := ((configAddEntry_same hw exp).of_ok h).2
  refine DescOK.mono ?_ ?_ h2 h3 h1 hd
  · rintro i ⟨m, e1, e2⟩
    obtain ⟨m', e3, _, e4, _⟩ := hs i m e1
    exact ⟨m', e3, by rw [e4]; exact e2⟩
  · rintro i ⟨m, e1, e2⟩
    obtain ⟨m', e3, _, e4, _⟩ := hs i m e1
    exact ⟨m', e3, by rw [e4]; exact e2⟩

/-- No additions. -/
def noAdd : Added := ⟨fun _ _ => none, [], [], []⟩

theorem noAdd_spares (q : List KeyEvent) : SparedQ noAdd q := fun _ _ _ => .inr (fun _ => rfl)

theorem Fit.bound {c c' : Config} {k : Kbd} (hw : WF c) {exp : Str} {ok : Bool} (h : configAddEntry c exp = .ok (c', ok)) (hk : Fit c noAdd k) :
    Fit c' noAdd { k with config := c' } := by
  have hw' : WF c' := (configAddEntry_sat hw exp).of_ok h
  have ht : ∀ d, InTables c d → InTables c' d := fun d hd => hd.bound hw h
  refine ⟨⟨fun e he => ht _ (hk.stored.cache e he), ht _ hk.stored.a1, ht _ hk.stored.a2, fun a ha => ht _ (hk.stored.chords a ha), hw'.inTables⟩, rfl, ?_,
    noAdd_spares _, .inr (noAdd_spares _), hk.slots⟩
  intro m hm
  exact Nat.lt_of_lt_of_le (hk.mac m hm) (configAddEntry_tables hw h).2.1

theorem Fit.new {c : Config} (hw : WF c) : Fit c noAdd (newKeyboard c) :=
  ⟨Stored.new (inTables_closed c) hw.inTables, rfl, macIn_none rfl, noAdd_spares _, .inl rfl, rfl⟩

/-- What is known after a history without `reset`. -/
theorem fit_after (n : Nat) : ∀ (l : List Stimulus) (k k' : Kbd), WF k.config → Fit k.config noAdd k → (∀ s ∈ l, s ≠ .bind b!"reset") → after n k l = .ok k' →
    WF k'.config ∧ Fit k'.config noAdd k'
  | [], k, k', hw, hk, _, h => by cases h; exact ⟨hw, hk⟩
  | .feed evs :: l, k, k', hw, hk, hr, h => by
    unfold after at h
    rw [bind_eq_ok] at h
    obtain ⟨r, h1, h2⟩ := h
    have f : Fit k.config noAdd r.1 := (fit_events hw hw.nestWF n k evs hk (noAdd_spares _)).2.of_ok h1
    have e := f.config
    refine fit_after n l r.1 k' (by rw [e]; exact hw) (by rw [e]; exact f) (fun s hs => hr s (List.mem_cons_of_mem _ hs)) h2
  | .bind exp :: l, k, k', hw, hk, hr, h => by
    have hne : exp ≠ b!"reset" := fun e => hr _ List.mem_cons_self (by rw [e])
    unfold after kbdEval at h
    rw [if_neg hne, bind_eq_ok] at h
    obtain ⟨r, h1, h2⟩ := h
    rw [bind_eq_ok] at h1
    obtain ⟨⟨c', ok⟩, h3, h4⟩ := h1
    cases h4
    exact fit_after n l _ k' ((configAddEntry_sat hw exp).of_ok h3) (hk.bound hw h3) (fun s hs => hr s (List.mem_cons_of_mem _ hs)) h2
  | .scroll s :: l, k, k', hw, hk, hr, h =>
    fit_after n l { k with scroll := s } k' hw (hk.same rfl rfl rfl rfl rfl rfl) (fun s hs => hr s (List.mem_cons_of_mem _ hs)) h

/-- The additions a request makes. -/
theorem bound_aug {c c' : Config} (hw : WF c) {exp : Str} {ok : Bool} (h : configAddEntry c exp = .ok (c', ok)) (hplus : (43 : UInt8) ∉ (parseKvp (splitLayer exp).2).1) :
    ∃ au : Added, c' = c.aug au ∧ ∀ y, ¬ Names c (parseKvp (splitLayer exp).2).1 y → ∀ i, au.keys i y = none := by
  have ext : ∀ c1, Extends c c1 → ∃ ds ms cs, c1 = { c with descriptors := c.descriptors ++ ds, macros := c.macros ++ ms, commands := c.commands ++ cs } := by
    intro c1 e
    obtain ⟨ds, h1⟩ := e.descs
    obtain ⟨ms, h2⟩ := e.macros
    obtain ⟨cs, h3⟩ := e.commands
    exact ⟨ds, ms, cs, by rw [h1, h2, h3]; exact e.same⟩
  cases ok with
  | false =>
    obtain ⟨ds, ms, cs, rfl⟩ := ext c' (configAddEntry_refused hw h)
    refine ⟨⟨fun _ _ => none, ds, ms, cs⟩, ?_, fun _ _ _ => rfl⟩
    have e : c.layers.mapIdx (Added.layer ⟨fun _ _ => none, ds, ms, cs⟩) = c.layers := by
      refine List.ext_getElem? (fun i => ?_)
      rw [List.getElem?_mapIdx]
      cases c.layers[i]? <;> rfl
    unfold Config.aug
    rw [e]
  | true =>
    rcases configAddEntry_cases hw h with ⟨e, _⟩ | ⟨_, _, idx, l, l', c1, d, h1, h2, h3, h4, rfl, e⟩
    · cases e
    obtain ⟨ds, ms, cs, rfl⟩ := ext c1 e
    obtain ⟨g1, _, g3⟩ := setLayerEntry_keymap hplus h4
    refine ⟨⟨fun i y => if i = idx ∧ l'.keymap y ≠ l.keymap y then some (l'.keymap y) else none, ds, ms, cs⟩, ?_, fun y hy i => ?_⟩
    · have e : c.layers.mapIdx (Added.layer ⟨fun i y => if i = idx ∧ l'.keymap y ≠ l.keymap y then some (l'.keymap y) else none, ds, ms, cs⟩) = c.layers.set idx l' := by
        refine List.ext_getElem? (fun i => ?_)
        rw [List.getElem?_mapIdx]
        by_cases hi : idx = i
        · subst hi
          have hlt : idx < c.layers.length := (List.getElem?_eq_some_iff.1 h2).1
          rw [List.getElem?_set_self hlt, h2]
          show some _ = some _
          rw [g1]
          unfold Added.layer
          dsimp only
          congr 2
          funext y
          by_cases hy : l'.keymap y ≠ l.keymap y
          · rw [if_pos ⟨rfl, hy⟩]; rfl
          · rw [if_neg (fun h => hy h.2)]
            exact (Decidable.not_not.1 hy).symm
        · rw [List.getElem?_set_ne hi]
          cases c.layers[i]? with
          | none => rfl
          | some m =>
            show some _ = some _
            unfold Added.layer
            dsimp only
            have : (fun y => ((if i = idx ∧ l'.keymap y ≠ l.keymap y then some (l'.keymap y) else none).getD (m.keymap y))) = m.keymap := by
              funext y
              rw [if_neg (fun h => hi h.1.symm)]
              rfl
            rw [this]
      unfold Config.aug
      rw [e]
    · exact if_neg (fun h => h.2 ((g3 y).2 hy))

theorem observed_aug {c : Config} {au : Added} (hw : WF c) {P : Code → Prop} (hP : ∀ y, ¬ P y → au.spares y) (n : Nat) : ∀ (l : List Stimulus) (k : Kbd), Fit c au k → Untouched P l →
    observed n (k.aug au) l = observed n k l
  | [], _, _, _ => rfl
  | .feed evs :: l, k, hk, h => by
    have s := fit_events hw hw.nestWF n k evs hk (fun e he hp => hP _ (h.1 e he hp))
    unfold observed
    rw [s.1]
    cases hr : kbdProcessEvents n k evs with
    | error _ => rfl
    | ok r =>
      show (observed n (r.1.aug au) l >>= _) = (observed n r.1 l >>= _)
      rw [observed_aug hw hP n l r.1 (s.2.of_ok hr) h.2]
  | .bind exp :: l, k, hk, h => by
    have h : exp = b!"reset" := h
    unfold observed kbdEval
    rw [if_pos h, if_pos h]
    rfl
  | .scroll s :: l, k, hk, h => by
    unfold observed
    show (observed n (({ k with scroll := s } : Kbd).aug au) l >>= _) = (observed n { k with scroll := s } l >>= _)
    rw [observed_aug hw hP n l { k with scroll := s } (hk.same rfl rfl rfl rfl rfl rfl) h]

/-- What was answered before. -/
theorem observed_after (n : Nat) : ∀ (l0 : List Stimulus) (k k' : Kbd), after n k l0 = .ok k' →
    ∃ rs : List Reaction, rs.length = l0.length ∧ ∀ l, observed n k (l0 ++ l) = (observed n k' l).map (fun r => (rs ++ r.1, r.2))
  | [], k, k', h => by
    cases h
    refine ⟨[], rfl, fun l => ?_⟩
    show observed n k l = _
    cases observed n k l <;> rfl
  | .feed evs :: l0, k, k', h => by
    unfold after at h
    rw [bind_eq_ok] at h
    obtain ⟨r, h1, h2⟩ := h
    obtain ⟨rs, e1, e2⟩ := observed_after n l0 r.1 k' h2
    refine ⟨.wait r.2 :: rs, congrArg (· + 1) e1, fun l => ?_⟩
    show observed n k (.feed evs :: (l0 ++ l)) = _
    rw [observed, h1]
    show (observed n r.1 (l0 ++ l) >>= _) = _
    rw [e2]
    cases observed n k' l <;> rfl
  | .bind exp :: l0, k, k', h => by
    unfold after at h
    rw [bind_eq_ok] at h
    obtain ⟨r, h1, h2⟩ := h
    obtain ⟨rs, e1, e2⟩ := observed_after n l0 r.1 k' h2
    refine ⟨.accepted r.2 :: rs, congrArg (· + 1) e1, fun l => ?_⟩
    show observed n k (.bind exp :: (l0 ++ l)) = _
    rw [observed, h1]
    show (observed n r.1 (l0 ++ l) >>= _) = _
    rw [e2]
    cases observed n k' l <;> rfl
  | .scroll s :: l0, k, k', h => by
    obtain ⟨rs, e1, e2⟩ := observed_after n l0 { k with scroll := s } k' h
    refine ⟨.done :: rs, congrArg (· + 1) e1, fun l => ?_⟩
    show observed n k (.scroll s :: (l0 ++ l)) = _
    rw [observed, e2]
    cases observed n k' l <;> rfl

/-! ### The property -/

/-- C110. A request `layer.key = action` to a running keyboard, accepted or refused, changes nothing of what is observed as long as
the key does not go down: whatever happened before (without `reset`), whatever keys are held, layers active and macros repeating, and
even if the key itself is held. (No press of it may be among the events kept back, to be looked up later.) -/
theorem C110_other_keys (n : Nat) (text : Str) (c : Config) (hc : textConfig text = some c) (l0 : List Stimulus) (h0 : ∀ s ∈ l0, s ≠ .bind b!"reset")
    (k : Kbd) (hk : after n (newKeyboard c) l0 = .ok k) (layer key action : Str) (hl0 : layer ≠ []) (hld : (46 : UInt8) ∉ layer) (hlp : (40 : UInt8) ∉ layer)
    (hk0 : key ≠ []) (hkeq : (61 : UInt8) ∉ key.tail) (hlast : ∀ x, key.getLast? = some x → isBlank x = false) (hplus : (43 : UInt8) ∉ key)
    (hv : ∀ x, action.head? = some x → isBlank x = false) (k' : Kbd) (accepted : Bool)
    (run : kbdEval k (layer ++ b!"." ++ key ++ b!" = " ++ action) = .ok (k', accepted))
    (hq : ∀ e ∈ k.kept, e.pressed = true → ¬ Names k.config key e.code) (l : List Stimulus) (hl : Untouched (Names k.config key) l) :
    observed n k' l = observed n k l := by
  have hp : configParse text = .ok (some c) := by
    unfold textConfig at hc
    split at hc
    · rename_i h; cases hc; exact h
    · cases hc
  have hw0 : WF c := C27_wellformed c (Bound.parsed text c hp)
  obtain ⟨hw, hf⟩ := fit_after n l0 (newKeyboard c) k hw0 (Fit.new hw0) h0 hk
  unfold kbdEval at run
  rw [if_neg (by
    intro e
    have : (46 : UInt8) ∈ layer ++ b!"." ++ key ++ b!" = " ++ action := by simp
    rw [e] at this
    exact absurd this (by decide)), bind_eq_ok] at run
  obtain ⟨⟨c', ok⟩, h1, h2⟩ := run
  cases h2
  have e : layer ++ b!"." ++ key ++ b!" = " ++ action = layer ++ 46 :: (key ++ b!" " ++ 61 :: (b!" " ++ action)) := by simp
  have ekey : (parseKvp (splitLayer (layer ++ b!"." ++ key ++ b!" = " ++ action)).2).1 = key := by
    rw [e, splitLayer_qualified layer _ hl0 hld hlp, C32_key_value key b!" " b!" " action hk0 hkeq hlast (by decide) (by decide) hv]
  obtain ⟨au, rfl, hau⟩ := bound_aug hw h1 (by rw [ekey]; exact hplus)
  rw [ekey] at hau
  have hP : ∀ y, ¬ Names k.config key y → au.spares y := fun y hy => .inr (hau y hy)
  refine observed_aug hw hP n l k ⟨hf.stored, hf.config, hf.mac, fun x hx hp => hP _ (hq x (List.mem_append_left _ hx) hp),
    ?_, hf.slots⟩ hl
  by_cases hs : k.chord.state = .inactive
  · exact .inl hs
  · refine .inr (fun x hx hp => hP _ (hq x (List.mem_append_right _ ?_) hp))
    rw [if_neg hs]
    exact hx

/-- C110, for whole histories: the request only adds its own answer. -/
theorem C110_history (n : Nat) (text : Str) (c : Config) (hc : textConfig text = some c) (l0 : List Stimulus) (h0 : ∀ s ∈ l0, s ≠ .bind b!"reset")
    (k : Kbd) (hk : after n (newKeyboard c) l0 = .ok k) (layer key action : Str) (hl0 : layer ≠ []) (hld : (46 : UInt8) ∉ layer) (hlp : (40 : UInt8) ∉ layer)
    (hk0 : key ≠ []) (hkeq : (61 : UInt8) ∉ key.tail) (hlast : ∀ x, key.getLast? = some x → isBlank x = false) (hplus : (43 : UInt8) ∉ key)
    (hv : ∀ x, action.head? = some x → isBlank x = false) (k' : Kbd) (accepted : Bool)
    (run : kbdEval k (layer ++ b!"." ++ key ++ b!" = " ++ action) = .ok (k', accepted))
    (hq : ∀ e ∈ k.kept, e.pressed = true → ¬ Names k.config key e.code) (l : List Stimulus) (hl : Untouched (Names k.config key) l) :
    ∃ rs : List Reaction, rs.length = l0.length ∧
      observed n (newKeyboard c) (l0 ++ l) = (observed n k l).map (fun r => (rs ++ r.1, r.2)) ∧
      observed n (newKeyboard c) (l0 ++ .bind (layer ++ b!"." ++ key ++ b!" = " ++ action) :: l) = (observed n k l).map (fun r => (rs ++ .accepted accepted :: r.1, r.2)) := by
  obtain ⟨rs, e1, e2⟩ := observed_after n l0 _ k hk
  refine ⟨rs, e1, e2 l, ?_⟩
  rw [e2, observed, run]
  show Except.map _ (observed n k' l >>= _) = _
  rw [C110_other_keys n text c hc l0 h0 k hk layer key action hl0 hld hlp hk0 hkeq hlast hplus hv k' accepted run hq l hl]
  cases observed n k l <;> rfl

/-- C110, in the file: so does a line added at its end. (The later history presses other keys only, and binds nothing.) -/
theorem C110_in_file (n : Nat) (text : Str) (c c' : Config) (ss : List IniSection) (hc : configParse text = .ok (some c)) (hs : iniParseString text = .ok (some ss))
    (hl : ss.length < 32) (layer key action : Str) (ha : (Addition.mk layer [(key, action)]).Ok c) (hld : (46 : UInt8) ∉ layer) (hlp : (40 : UInt8) ∉ layer)
    (hplus : (43 : UInt8) ∉ key) (hc' : configParse (appended text [⟨layer, [(key, action)]⟩]) = .ok (some c')) (l : List Stimulus)
    (hb : ∀ exp, .bind exp ∉ l) (hu : Untouched (Names c key) l) :
    observed n (newKeyboard c') l = observed n (newKeyboard c) l := by
  have hw := ha.lines (key, action) List.mem_cons_self
  obtain ⟨flags, hf, h9⟩ := C109_bind_is_line text c c' ss [⟨layer, [(key, action)]⟩] hc hs (by simpa using ha) hl hc' n
  have er : ([⟨layer, [(key, action)]⟩] : List Addition).flatMap Addition.requests = [layer ++ b!"." ++ key ++ b!" = " ++ action] := rfl
  rw [er] at hf h9
  obtain ⟨b, rfl⟩ : ∃ b, flags = [b] := by
    match flags, hf with
    | [b], _ => exact ⟨b, rfl⟩
  have h9' : ∀ l : List Stimulus, (∀ s ∈ l, s ≠ .bind b!"reset") → observed n (newKeyboard c) (.bind (layer ++ b!"." ++ key ++ b!" = " ++ action) :: l) =
      (observed n (newKeyboard c') l).map (fun r => (.accepted b :: r.1, r.2)) := h9
  have ht : textConfig text = some c := by
    unfold textConfig
    rw [hc]
  cases hr : kbdEval (newKeyboard c) (layer ++ b!"." ++ key ++ b!" = " ++ action) with
  | error e =>
    have := h9' [] (fun _ h => (List.not_mem_nil h).elim)
    conv at this => lhs; rw [observed, hr]
    cases this
  | ok r =>
    obtain ⟨k', acc⟩ := r
    have h10 := C110_other_keys n text c ht [] (fun _ h => (List.not_mem_nil h).elim) (newKeyboard c) rfl layer key action ha.name.1 hld hlp hw.keyText.1 hw.keyText.2.1
      hw.keyLast hplus hw.actionHead k' acc hr (fun _ h => (List.not_mem_nil h).elim) l hu
    have := h9' l (fun s hs e => hb _ (e ▸ hs))
    conv at this => lhs; rw [observed, hr]
    change (observed n k' l >>= _) = _ at this
    rw [h10] at this
    cases h1 : observed n (newKeyboard c) l with
    | error e =>
      rw [h1] at this
      cases h2 : observed n (newKeyboard c') l with
      | error e' => rw [h2] at this; exact congrArg Except.error (Except.error.inj this).symm
      | ok r => rw [h2] at this; cases this
    | ok r =>
      rw [h1] at this
      cases h2 : observed n (newKeyboard c') l with
      | error e' => rw [h2] at this; cases this
      | ok r' =>
        rw [h2] at this
        have e := Except.ok.inj this
        have e1 := congrArg Prod.fst e
        have e2 := congrArg Prod.snd e
        have e1 : r.1 = r'.1 := (List.cons.inj e1).2
        have e2 : r.2 = r'.2 := e2
        rw [show r' = r from Prod.ext e1.symm e2.symm]

/-! ### Not vacuous -/

def otherText : Str := b!"[ids]\n*\n[main]\na = macro(x y)\ncapslock = layer(nav)\nj+k = esc\ns = overload(shift, macro2(500, 50, z))\n[nav]\nh = left"

/-- Before: the nav layer is held, the tap-or-hold key is down, and so is the key that will be bound; half of a chord is kept back. -/
def otherBefore : List Stimulus := [
  .bind b!"nav.l = macro(1 2)", .feed [press 58 70000, press 35 70100], .feed [press 31 70200], .feed [press 38 70300, press 32 70310], .feed [press 36 70390]]

def otherRequest : Str := b!"main.d = overload(control, macro(p q))"

/-- After: keys go up, the bound one among them, others go down. -/
def otherAfter : List Stimulus := [
  .feed [release 31 70400], .scroll {}, .feed [release 35 70500, release 36 70505, release 58 70510, release 32 70520], .feed [press 30 70600, release 30 70700],
  .feed [press 36 70800, press 37 70810, release 36 70900], .bind b!"reset", .feed [press 32 71000]]

/-- A code that `key` does not name. -/
def unnamedB (c : Config) (key : Str) (y : Code) : Bool := decide (c.aliases y ≠ key) && decide (y ≠ lookupKeycode key)

theorem unnamed_of {c : Config} {key : Str} {y : Code} (h : unnamedB c key y = true) : ¬ Names c key y := by
  unfold unnamedB at h
  rw [Bool.and_eq_true] at h
  rintro (e | ⟨_, e, _⟩)
  · exact of_decide_eq_true h.1 e
  · exact of_decide_eq_true h.2 e

def untouchedB (c : Config) (key : Str) : List Stimulus → Bool
  | [] => true
  | .feed evs :: l => (evs.all fun e => !e.pressed || unnamedB c key e.code) && untouchedB c key l
  | .bind exp :: _ => decide (exp = b!"reset")
  | .scroll _ :: l => untouchedB c key l

theorem untouched_of {c : Config} {key : Str} : ∀ {l : List Stimulus}, untouchedB c key l = true → Untouched (Names c key) l
  | [], _ => trivial
  | .feed evs :: l, h => by
    unfold untouchedB at h
    rw [Bool.and_eq_true] at h
    refine ⟨fun e he hp => ?_, untouched_of h.2⟩
    have := List.all_eq_true.1 h.1 e he
    rw [hp] at this
    exact unnamed_of this
  | .bind exp :: _, h => by unfold untouchedB at h; exact (of_decide_eq_true h : exp = b!"reset")
  | .scroll _ :: l, h => untouched_of (l := l) h

def keptB (c : Config) (key : Str) (q : List KeyEvent) : Bool := q.all fun e => !e.pressed || unnamedB c key e.code

theorem kept_of {c : Config} {key : Str} {q : List KeyEvent} (h : keptB c key q = true) : ∀ e ∈ q, e.pressed = true → ¬ Names c key e.code := by
  intro e he hp
  have := List.all_eq_true.1 h e he
  rw [hp] at this
  exact unnamed_of this

/-- What is observed after the request, and without it. -/
def otherCheck (text : Str) (l0 : List Stimulus) (request key : Str) (kept : List KeyEvent) (l : List Stimulus) (r r' : List Reaction × List Out) : Bool :=
  match textConfig text with
  | none => false
  | some c => match after 40 (newKeyboard c) l0 with
    | .error _ => false
    | .ok k => match kbdEval k request with
      | .error _ => false
      | .ok (k', ok) => match observed 40 k l, observed 40 k' l with
        | .ok a, .ok b => ok && keptB k.config key k.kept && untouchedB k.config key l && decide (k.kept = kept) && (a == r) && (b == r')
        | _, _ => false

theorem otherCheck_spec {text : Str} {l0 : List Stimulus} {request key : Str} {kept : List KeyEvent} {l : List Stimulus} {r r' : List Reaction × List Out}
    (h : otherCheck text l0 request key kept l r r' = true) :
    ∃ c k k', textConfig text = some c ∧ after 40 (newKeyboard c) l0 = .ok k ∧ kbdEval k request = .ok (k', true) ∧ k.kept = kept ∧
      (∀ e ∈ k.kept, e.pressed = true → ¬ Names k.config key e.code) ∧ Untouched (Names k.config key) l ∧ observed 40 k l = .ok r ∧ observed 40 k' l = .ok r' := by
  unfold otherCheck at h
  split at h
  · cases h
  rename_i c hc
  split at h
  · cases h
  rename_i k hk
  split at h
  · cases h
  rename_i k' ok he
  split at h
  · rename_i a b ha hb
    simp only [Bool.and_eq_true] at h
    obtain ⟨⟨⟨⟨⟨rfl, h2⟩, h3⟩, h4⟩, h5⟩, h6⟩ := h
    exact ⟨c, k, k', hc, hk, he, of_decide_eq_true h4, kept_of h2, untouched_of h3, by rw [ha, eq_of_beq h5], by rw [hb, eq_of_beq h6]⟩
  · cases h

def otherSeen : List Reaction × List Out :=
  ([.wait 40, .done, .wait 380, .wait 200, .wait 300, .accepted true, .wait 200],
   [.layer 6 true, .key 105 true, .layer 2 true, .key 42 true, .key 2 true, .key 2 false, .key 3 true, .key 3 false, .key 32 true, .key 36 true,
    .layer 2 false, .key 42 false, .key 105 false, .key 36 false, .layer 6 false, .key 32 false, .key 45 true, .key 45 false, .key 21 true, .key 21 false,
    .key 1 true, .key 32 true])

/-- The request binds a key that is held, in the middle of a macro, a held layer and half a chord. -/
theorem C110_example : ∃ c k k', textConfig otherText = some c ∧ after 40 (newKeyboard c) otherBefore = .ok k ∧ kbdEval k otherRequest = .ok (k', true) ∧
    k.kept = [press 36 70390] ∧ (∀ e ∈ k.kept, e.pressed = true → ¬ Names k.config b!"d" e.code) ∧ Untouched (Names k.config b!"d") otherAfter ∧
    observed 40 k otherAfter = .ok otherSeen ∧ observed 40 k' otherAfter = .ok otherSeen :=
  otherCheck_spec (by set_option maxRecDepth 100000 in decide +kernel)

def fileAfter : List Stimulus := [
  .feed [press 58 70000, press 35 70100, release 35 70200], .scroll {}, .feed [press 31 70300, release 58 70400, press 30 70500, release 32 70550, release 30 70600]]

/-- The same line at the end of the file. -/
theorem C110_in_file_example : ∃ c, textConfig otherText = some c ∧ (Addition.mk b!"main" [(b!"d", b!"overload(control, macro(p q))")]).Ok c ∧
    (∀ exp, Stimulus.bind exp ∉ fileAfter) ∧ Untouched (Names c b!"d") fileAfter ∧
    observedText (appended otherText [⟨b!"main", [(b!"d", b!"overload(control, macro(p q))")]⟩]) fileAfter = observedText otherText fileAfter ∧
    (observedText otherText fileAfter).isSome = true := by
  have h : (match textConfig otherText with
    | some c => additionB c ⟨b!"main", [(b!"d", b!"overload(control, macro(p q))")]⟩ && untouchedB c b!"d" fileAfter
    | none => false) && (observedText (appended otherText [⟨b!"main", [(b!"d", b!"overload(control, macro(p q))")]⟩]) fileAfter == observedText otherText fileAfter) &&
      (observedText otherText fileAfter).isSome = true := by set_option maxRecDepth 100000 in decide +kernel
  rw [Bool.and_eq_true, Bool.and_eq_true] at h
  cases hc : textConfig otherText with
  | none => rw [hc] at h; exact absurd h.1.1 (by decide)
  | some c =>
    have h1 := h.1.1
    rw [hc] at h1
    dsimp only at h1
    rw [Bool.and_eq_true] at h1
    refine ⟨c, rfl, addition_of h1.1, ?_, untouched_of h1.2, eq_of_beq h.1.2, of_decide_eq_true h.2⟩
    intro exp h
    simp [fileAfter] at h

/-- After `reset` it fails: a held key that was bound at run time refers to a place in a table that `reset` has emptied, and takes over
what the next request, for a quite different key, puts there. -/
theorem C110_fails_after_reset : ∃ c k k', textConfig otherText = some c ∧
    after 40 (newKeyboard c) [.bind b!"main.a = overload(shift, macro(x y))", .feed [press 30 70000], .bind b!"reset"] = .ok k ∧
    kbdEval k b!"main.b = overload(control, macro(z w))" = .ok (k', true) ∧ k.kept = [] ∧
    (∀ e ∈ k.kept, e.pressed = true → ¬ Names k.config b!"b" e.code) ∧ Untouched (Names k.config b!"b") [.feed [release 30 70100]] ∧
    observed 40 k [.feed [release 30 70100]] = .ok ([.wait 0], [.layer 2 true, .key 42 true, .layer 2 false, .key 42 false]) ∧
    observed 40 k' [.feed [release 30 70100]] = .ok ([.wait 0],
      [.layer 2 true, .key 42 true, .layer 2 false, .key 42 false, .key 44 true, .key 44 false, .key 17 true, .key 17 false]) :=
  otherCheck_spec (by set_option maxRecDepth 100000 in decide +kernel)

end Keyd
