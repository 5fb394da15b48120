import Verif.Props.Document
import Verif.Props.Headings
import Verif.Props.Uptime
import Verif.Props.Actions
import Verif.Proofs.Original

/-
  C109: `keyd bind layer.key = action` does what the line `key = action` at the end of the file would do.
-/

set_option autoImplicit false

namespace Keyd

attribute [local irreducible] configInit

/-! ### Specification -/

/-- What is added: lines `key = action` for a layer. -/
structure Addition where
  layer : Str
  lines : List (Str × Str)

/-- The lines to append to the file: the heading of the layer, and the bindings. -/
def Addition.fileLines (a : Addition) : List Str := (b!"[" ++ a.layer ++ b!"]") :: a.lines.map fun p => p.1 ++ b!" = " ++ p.2

/-- The arguments of `keyd bind`. -/
def Addition.requests (a : Addition) : List Str := a.lines.map fun p => a.layer ++ b!"." ++ p.1 ++ b!" = " ++ p.2

/-- The file with the lines appended. -/
def appended (text : Str) (as : List Addition) : Str := text ++ b!"\n" ++ joinLines (as.flatMap Addition.fileLines)

/-- A key and an action that can be written in a line: no newline, no blanks around them, not a comment and not in brackets. -/
structure Writable (key action : Str) : Prop where
  keyText : key ≠ [] ∧ (61 : UInt8) ∉ key.tail ∧ (10 : UInt8) ∉ key
  keyHead : ∀ c, key.head? = some c → isSpaceC c = false ∧ c ≠ 35
  keyLast : ∀ c, key.getLast? = some c → isBlank c = false
  actionText : action ≠ [] ∧ (10 : UInt8) ∉ action
  actionHead : ∀ c, action.head? = some c → isBlank c = false
  actionLast : ∀ c, action.getLast? = some c → isSpaceC c = false
  brackets : ¬ (key.head? = some 91 ∧ action.getLast? = some 93)

/-- An addition for an existing layer, of at most 1024 lines none of which is longer than a request may be. -/
structure Addition.Ok (c : Config) (a : Addition) : Prop where
  layer : ∃ l ∈ c.layers, l.name = a.layer
  name : a.layer ≠ [] ∧ (58 : UInt8) ∉ a.layer ∧ (10 : UInt8) ∉ a.layer ∧ a.layer.length < 65
  reserved : a.layer ≠ b!"ids" ∧ a.layer ≠ b!"aliases" ∧ a.layer ≠ b!"global"
  lines : ∀ p ∈ a.lines, Writable p.1 p.2
  few : a.lines.length ≤ 1024
  short : ∀ r ∈ a.requests, r.length ≤ 511

/-- Bind requests, one after the other, on a configuration. -/
def bindEach : Config → List Str → Res Config
  | c, [] => .ok c
  | c, r :: rs => do
    let (c, _) ← configAddEntry c r
    bindEach c rs

/-! ### The text -/

theorem splitLines_ne (s : Str) : splitLines s ≠ [] := by
  cases s with
  | nil => exact List.cons_ne_nil _ _
  | cons c s =>
    rw [splitLines]
    split
    · exact List.cons_ne_nil _ _
    · split <;> exact List.cons_ne_nil _ _

theorem splitLines_append : ∀ (s t : Str), splitLines (s ++ 10 :: t) = splitLines s ++ splitLines t
  | [], t => by rw [List.nil_append, splitLines]; rfl
  | c :: s, t => by
    rw [List.cons_append, splitLines, splitLines, splitLines_append s t]
    split
    · rfl
    · cases h : splitLines s with
      | nil => exact absurd h (splitLines_ne s)
      | cons l ls => rfl

theorem iniLines_append : ∀ (ls ls' : List Str) (acc : List IniSection), iniLines (ls ++ ls') acc =
    (iniLines ls acc >>= fun o => match o with
      | none => .ok none
      | some acc => iniLines ls' acc)
  | [], ls', acc => rfl
  | l :: ls, ls', acc => by
    rw [List.cons_append, iniLines, iniLines]
    cases classifyLine l with
    | skip => exact iniLines_append ls ls' acc
    | «section» n =>
      dsimp only
      split
      · exact iniLines_append ls ls' _
      · rfl
    | entry k v =>
      cases acc with
      | nil => rfl
      | cons s ss =>
        dsimp only
        split
        · exact iniLines_append ls ls' _
        · rfl

theorem classify_writable {key action : Str} (h : Writable key action) : classifyLine (key ++ b!" = " ++ action) = .entry key (some action) := by
  have := C32_binding_line [] key [32] [32] action [] rfl rfl h.keyText.1 h.keyText.2.1 h.keyLast rfl rfl h.actionText.1 h.actionHead h.keyHead h.actionLast h.brackets
  rw [List.nil_append, List.append_nil] at this
  rw [← this]
  show classifyLine (key ++ [32, 61, 32] ++ action) = _
  simp

theorem classify_heading (n : Str) : classifyLine (b!"[" ++ n ++ b!"]") = .section n := by
  have := C32_heading_line [] n [] rfl rfl
  rw [List.nil_append, List.append_nil] at this
  exact this

theorem lineEntries_writable : ∀ (ps : List (Str × Str)), (∀ p ∈ ps, Writable p.1 p.2) →
    lineEntries (ps.map fun p => p.1 ++ b!" = " ++ p.2) = ps.map fun p => ⟨p.1, some p.2⟩
  | [], _ => rfl
  | p :: ps, h => by
    have := lineEntries_writable ps (fun q hq => h q (List.mem_cons_of_mem _ hq))
    unfold lineEntries at this ⊢
    rw [List.map_cons, List.filterMap_cons, classify_writable (h p List.mem_cons_self), List.map_cons]
    dsimp only
    rw [this]

/-- The additions as sections of the file. -/
def Addition.entries (a : Addition) : IniSection := ⟨a.layer, a.lines.map fun p => ⟨p.1, some p.2⟩⟩

theorem iniLines_additions {c : Config} : ∀ (as : List Addition) (acc : List IniSection), (∀ a ∈ as, a.Ok c) → acc.length + as.length ≤ 32 →
    iniLines (as.flatMap Addition.fileLines ++ [[]]) acc =
      .ok (some ((as.map fun a => { a.entries with entries := a.entries.entries.reverse }).reverse ++ acc))
  | [], acc, _, _ => rfl
  | a :: as, acc, h, hl => by
    rw [List.length_cons] at hl
    rw [List.flatMap_cons, List.append_assoc]
    unfold Addition.fileLines
    rw [List.cons_append, iniLines, classify_heading]
    dsimp only
    have ha := h a List.mem_cons_self
    rw [if_pos (by omega), iniLines_body _ _ _ acc (by
      intro l hl n
      obtain ⟨p, hp, rfl⟩ := List.mem_map.1 hl
      rw [classify_writable (ha.lines p hp)]
      exact fun h => nomatch h) (by
        rw [lineEntries_writable _ ha.lines, List.length_map]
        have := ha.few
        simp only [List.length_nil]
        omega)]
    rw [lineEntries_writable _ ha.lines]
    have := iniLines_additions as ({ a.entries with entries := a.entries.entries.reverse } :: acc) (fun b hb => h b (List.mem_cons_of_mem _ hb)) (by simp only [List.length_cons]; omega)
    rw [List.map_cons, List.reverse_cons, List.append_assoc]
    simp only [List.append_nil]
    exact this

theorem iniParse_appended {c : Config} {text : Str} {ss : List IniSection} {as : List Addition} (h : iniParseString text = .ok (some ss)) (ha : ∀ a ∈ as, a.Ok c)
    (hl : ss.length + as.length ≤ 32) : iniParseString (appended text as) = .ok (some (ss ++ as.map Addition.entries)) := by
  unfold iniParseString at h ⊢
  unfold appended
  have clean : ∀ l ∈ as.flatMap Addition.fileLines, (10 : UInt8) ∉ l := by
    intro l hl
    obtain ⟨a, h1, h2⟩ := List.mem_flatMap.1 hl
    rcases List.mem_cons.1 h2 with rfl | h2
    · have := (ha a h1).name.2.2.1
      simp [this]
    · obtain ⟨p, hp, rfl⟩ := List.mem_map.1 h2
      have w := (ha a h1).lines p hp
      have := w.keyText.2.2
      have := w.actionText.2
      simp [*]
  rw [List.append_assoc, show b!"\n" ++ joinLines (as.flatMap Addition.fileLines) = 10 :: joinLines (as.flatMap Addition.fileLines) from rfl, splitLines_append,
    splitLines_join _ clean, iniLines_append]
  cases hr : iniLines (splitLines text) [] with
  | error e => rw [hr] at h; cases h
  | ok o =>
    rw [hr] at h
    cases o with
    | none => cases h
    | some acc =>
      have h := Option.some.inj (Except.ok.inj h)
      subst h
      rw [List.length_reverse, List.length_map] at hl
      show ((iniLines (as.flatMap Addition.fileLines ++ [[]]) acc) >>= _) = _
      rw [iniLines_additions as acc ha hl]
      simp [List.map_reverse, Function.comp_def]

/-! ### The passes -/

theorem except_assoc {ε α β γ : Type} (x : Except ε α) (f : α → Except ε β) (g : β → Except ε γ) : ((x >>= f) >>= g) = (x >>= fun a => f a >>= g) := by
  cases x <;> rfl

theorem passOne_append : ∀ (xs ys : List IniSection) (c : Config), passOne c (xs ++ ys) = (passOne c xs >>= fun c => passOne c ys)
  | [], ys, c => rfl
  | x :: xs, ys, c => by
    rw [List.cons_append, passOne, passOne, except_assoc]
    congr 1
    funext c1
    exact passOne_append xs ys c1

theorem passTwo_append : ∀ (xs ys : List IniSection) (c : Config), passTwo c (xs ++ ys) = (passTwo c xs >>= fun c => passTwo c ys)
  | [], ys, c => rfl
  | x :: xs, ys, c => by
    rw [List.cons_append, passTwo, passTwo, except_assoc]
    congr 1
    funext c1
    exact passTwo_append xs ys c1

theorem passOne_additions {c c1 : Config} (hn : c1.layers.map (·.name) = c.layers.map (·.name)) : ∀ (as : List Addition), (∀ a ∈ as, a.Ok c) →
    passOne c1 (as.map Addition.entries) = .ok c1
  | [], _ => rfl
  | a :: as, h => by
    have ha := h a List.mem_cons_self
    rw [List.map_cons]
    unfold passOne
    rw [if_neg (show ¬ a.entries.name = b!"ids" from ha.reserved.1), if_neg (show ¬ a.entries.name = b!"aliases" from ha.reserved.2.1),
      if_neg (show ¬ a.entries.name = b!"global" from ha.reserved.2.2)]
    have : configAddLayer c1 a.entries.name = .ok (c1, true) := by
      unfold configAddLayer
      have e : (tokens 58 a.entries.name).head? = some a.layer := by
        show (tokens 58 a.layer).head? = _
        rw [tokens_single 58 a.layer ha.name.1 ha.name.2.1]
        rfl
      rw [if_neg (show ¬ a.entries.name.length ≥ 65 from by have := ha.name.2.2.2; show ¬ a.layer.length ≥ 65; omega), e]
      dsimp only
      obtain ⟨l, hl, e2⟩ := ha.layer
      have hm : a.layer ∈ c1.layers.map (·.name) := by rw [hn, ← e2]; exact List.mem_map_of_mem hl
      obtain ⟨l1, hl1, e3⟩ := List.mem_map.1 hm
      obtain ⟨i, hi⟩ := findLayer_mem c1.layers 0 ⟨l1, hl1, e3⟩
      have hs : (c1.layerIndex a.layer).isSome = true := by rw [show c1.layerIndex a.layer = some i from hi]; rfl
      exact if_pos hs
    rw [this]
    exact passOne_additions hn as (fun b hb => h b (List.mem_cons_of_mem _ hb))

theorem sectionEntries_additions (n : Str) : ∀ (ps : List (Str × Str)) (c : Config), (∀ p ∈ ps, (n ++ b!"." ++ p.1 ++ b!" = " ++ p.2).length ≤ 511) →
    sectionEntries n c (ps.map fun p => ⟨p.1, some p.2⟩) = bindEach c (ps.map fun p => n ++ b!"." ++ p.1 ++ b!" = " ++ p.2)
  | [], c, _ => rfl
  | p :: ps, c, h => by
    rw [List.map_cons, List.map_cons]
    unfold sectionEntries bindEach
    dsimp only
    rw [List.take_of_length_le (h p List.mem_cons_self)]
    congr 1
    funext r
    exact sectionEntries_additions n ps r.1 (fun q hq => h q (List.mem_cons_of_mem _ hq))

theorem bindEach_append : ∀ (xs ys : List Str) (c : Config), bindEach c (xs ++ ys) = (bindEach c xs >>= fun c => bindEach c ys)
  | [], ys, c => rfl
  | x :: xs, ys, c => by
    rw [List.cons_append, bindEach, bindEach, except_assoc]
    congr 1
    funext r
    exact bindEach_append xs ys r.1

theorem passTwo_additions {c0 : Config} : ∀ (as : List Addition) (c : Config), (∀ a ∈ as, a.Ok c0) → passTwo c (as.map Addition.entries) = bindEach c (as.flatMap Addition.requests)
  | [], c, _ => rfl
  | a :: as, c, h => by
    have ha := h a List.mem_cons_self
    rw [List.map_cons, List.flatMap_cons, bindEach_append]
    unfold passTwo
    rw [if_neg (show ¬ (a.entries.name = b!"ids" ∨ a.entries.name = b!"aliases" ∨ a.entries.name = b!"global") from by
      rintro (h | h | h)
      · exact ha.reserved.1 h
      · exact ha.reserved.2.1 h
      · exact ha.reserved.2.2 h)]
    have e : ((tokens 58 a.entries.name).head?).getD b!"(null)" = a.layer := by
      show ((tokens 58 a.layer).head?).getD _ = _
      rw [tokens_single 58 a.layer ha.name.1 ha.name.2.1]
      rfl
    rw [e, show a.entries.entries = a.lines.map fun p => ⟨p.1, some p.2⟩ from rfl,
      sectionEntries_additions a.layer a.lines c (fun p hp => ha.short _ (List.mem_map_of_mem hp))]
    show (bindEach c a.requests >>= _) = _
    congr 1
    funext c1
    exact passTwo_additions as c1 (fun b hb => h b (List.mem_cons_of_mem _ hb))

theorem names_raws (c : Config) : c.layers.map (·.name) = c.raws.map (·.1) := by
  unfold Config.raws
  rw [List.map_map]
  rfl

/-- C109. The file with the lines appended gives the configuration that the requests give: the same configuration to the last
byte, and the same failure if there is one. -/
theorem C109_parsed (text : Str) (c : Config) (ss : List IniSection) (as : List Addition) (hc : configParse text = .ok (some c))
    (hs : iniParseString text = .ok (some ss)) (ha : ∀ a ∈ as, a.Ok c) (hl : ss.length + as.length ≤ 32) :
    configParse (appended text as) = (bindEach c (as.flatMap Addition.requests)).map some := by
  obtain ⟨c0, e0, w0⟩ := configInit_wf
  unfold configParse at hc ⊢
  rw [e0] at hc ⊢
  change configParseString c0 text = _ at hc
  change configParseString c0 (appended text as) = _
  unfold configParseString at hc ⊢
  rw [hs] at hc
  rw [iniParse_appended hs ha hl]
  change (passOne c0 ss >>= _) = _ at hc
  change (passOne c0 (ss ++ as.map Addition.entries) >>= _) = _
  obtain ⟨c1, h1, hc⟩ := bind_eq_ok.1 hc
  obtain ⟨c2, h2, hc⟩ := bind_eq_ok.1 hc
  have hc := Option.some.inj (Except.ok.inj hc)
  subst hc
  have w1 : WF c1 := (passOne_sat ss w0).of_ok h1
  have r := ((passTwo_raws ss c1 w1).of_ok h2).2
  have hn : c1.layers.map (·.name) = c2.layers.map (·.name) := by rw [names_raws, names_raws, r]
  rw [passOne_append, h1]
  change ((passOne c1 (as.map Addition.entries)) >>= _) = _
  rw [passOne_additions hn as ha]
  change ((passTwo c1 (ss ++ as.map Addition.entries)) >>= _) = _
  rw [passTwo_append, h2]
  change ((passTwo c2 (as.map Addition.entries)) >>= _) = _
  rw [passTwo_additions as c2 ha]
  rfl

/-! ### The keyboard -/

theorem findLayout_raws (n : Str) : ∀ (l l' : List Layer) (i : Nat), l'.map Layer.raw = l.map Layer.raw → findLayout n l' i = findLayout n l i
  | [], l', i, h => by rw [List.map_nil, List.map_eq_nil_iff] at h; rw [h]
  | a :: l, [], i, h => by cases h
  | a :: l, b :: l', i, h => by
    rw [List.map_cons, List.map_cons, List.cons.injEq] at h
    have e := h.1
    unfold Layer.raw at e
    simp only [Prod.mk.injEq] at e
    unfold findLayout
    rw [e.1, e.2.1, findLayout_raws n l l' (i + 1) h.2]

/-- A binding does not change in what state a new keyboard starts. -/
theorem newKeyboard_bound {c c' : Config} {exp : Str} {ok : Bool} (hw : WF c) (h : configAddEntry c exp = .ok (c', ok)) :
    (newKeyboard c').layerState = (newKeyboard c).layerState := by
  have e1 : c'.defaultLayout = c.defaultLayout := congrArg (fun s => s.defaultLayout) (configAddEntry_settings hw h)
  have e2 : c'.raws = c.raws := ((configAddEntry_raws hw exp).of_ok h).2
  unfold newKeyboard
  dsimp only
  rw [e1, findLayout_raws c.defaultLayout c.layers c'.layers 0 e2]

/-- Requests that are not `reset`, made on a keyboard whose configuration is `c`. -/
theorem observed_binds (n : Nat) : ∀ (rs : List Str) (c o : Config), WF c → (∀ r ∈ rs, r ≠ b!"reset") →
    match bindEach c rs with
    | .error e => ∀ l, observed n ((newKeyboard c).orig o) (rs.map .bind ++ l) = .error e
    | .ok c' => ∃ flags : List Bool, flags.length = rs.length ∧ ∀ l,
        observed n ((newKeyboard c).orig o) (rs.map .bind ++ l) =
          (observed n ((newKeyboard c').orig o) l).map (fun r => (flags.map .accepted ++ r.1, r.2))
  | [], c, o, _, _ => ⟨[], rfl, fun l => by
      show observed n ((newKeyboard c).orig o) l = _
      cases observed n ((newKeyboard c).orig o) l <;> rfl⟩
  | r :: rs, c, o, hw, hr => by
    have hne : r ≠ b!"reset" := hr r List.mem_cons_self
    have step : ∀ l, observed n ((newKeyboard c).orig o) ((r :: rs).map .bind ++ l) =
        (configAddEntry c r >>= fun p => observed n ((newKeyboard p.1).orig o) (rs.map .bind ++ l) >>= fun q => .ok (.accepted p.2 :: q.1, q.2)) := by
      intro l
      show (kbdEval ((newKeyboard c).orig o) r >>= _) = _
      unfold kbdEval
      rw [if_neg hne, show ((newKeyboard c).orig o).config = c from rfl]
      cases hp : configAddEntry c r with
      | error _ => rfl
      | ok p =>
        obtain ⟨c1, ok⟩ := p
        have e := newKeyboard_bound hw hp
        have e2 : ({ (newKeyboard c).orig o with config := c1 } : Kbd) = (newKeyboard c1).orig o := by
          have : (newKeyboard c1).orig o = { originalConfig := o, config := c1, layerState := (newKeyboard c1).layerState } := rfl
          rw [this, e]
          rfl
        show (observed n { (newKeyboard c).orig o with config := c1 } _ >>= _) = (observed n ((newKeyboard c1).orig o) _ >>= _)
        rw [e2]
        rfl
    unfold bindEach
    cases hp : configAddEntry c r with
    | error e => exact fun l => by rw [step l, hp]; rfl
    | ok p =>
      obtain ⟨c1, ok⟩ := p
      have hw1 : WF c1 := (configAddEntry_sat hw r).of_ok hp
      have ih := observed_binds n rs c1 o hw1 (fun x hx => hr x (List.mem_cons_of_mem _ hx))
      show match bindEach c1 rs with
        | .error e => _
        | .ok c' => _
      cases hb : bindEach c1 rs with
      | error e =>
        rw [hb] at ih
        exact fun l => by rw [step l, hp]; show (observed n _ _ >>= _) = _; rw [ih l]; rfl
      | ok c' =>
        rw [hb] at ih
        obtain ⟨flags, hf, ih⟩ := ih
        refine ⟨ok :: flags, by rw [List.length_cons, List.length_cons, hf], fun l => ?_⟩
        rw [step l, hp]
        show (observed n _ _ >>= _) = _
        rw [ih l]
        cases observed n ((newKeyboard c').orig o) l <;> rfl

/-- Without `reset`, what is observed does not depend on the saved configuration. -/
theorem observed_orig (n : Nat) (o : Config) : ∀ (l : List Stimulus) (k : Kbd), (∀ s ∈ l, s ≠ .bind b!"reset") →
    observed n (k.orig o) l = observed n k l
  | [], _, _ => rfl
  | .feed evs :: l, k, h => by
    unfold observed
    rw [orig_events]
    cases kbdProcessEvents n k evs with
    | error _ => rfl
    | ok r =>
      show (observed n (r.1.orig o) l >>= _) = (observed n r.1 l >>= _)
      rw [observed_orig n o l r.1 (fun s hs => h s (List.mem_cons_of_mem _ hs))]
  | .bind exp :: l, k, h => by
    have hne : exp ≠ b!"reset" := fun e => h _ List.mem_cons_self (by rw [e])
    unfold observed kbdEval
    rw [if_neg hne, if_neg hne, show (k.orig o).config = k.config from rfl]
    cases configAddEntry k.config exp with
    | error _ => rfl
    | ok r =>
      show (observed n (({ k with config := r.1 } : Kbd).orig o) l >>= _) = (observed n { k with config := r.1 } l >>= _)
      rw [observed_orig n o l _ (fun s hs => h s (List.mem_cons_of_mem _ hs))]
  | .scroll s :: l, k, h => by
    unfold observed
    show (observed n (({ k with scroll := s } : Kbd).orig o) l >>= _) = (observed n { k with scroll := s } l >>= _)
    rw [observed_orig n o l _ (fun s hs => h s (List.mem_cons_of_mem _ hs))]

theorem requests_not_reset {as : List Addition} : ∀ r ∈ as.flatMap Addition.requests, r ≠ b!"reset" := by
  intro r hr e
  obtain ⟨a, _, h⟩ := List.mem_flatMap.1 hr
  obtain ⟨p, _, rfl⟩ := List.mem_map.1 h
  have : (61 : UInt8) ∈ b!"reset" := by rw [← e]; simp
  revert this
  decide

/-- C109. A keyboard that starts with the file and gets the requests, compared with one that starts with the file with the lines
appended: whatever keys are then pressed and whatever is bound then (other than `reset`, which the first one takes back to the
file), the same is sent and the same waits are asked for. -/
theorem C109_bind_is_line (text : Str) (c c' : Config) (ss : List IniSection) (as : List Addition) (hc : configParse text = .ok (some c))
    (hs : iniParseString text = .ok (some ss)) (ha : ∀ a ∈ as, a.Ok c) (hl : ss.length + as.length ≤ 32)
    (hc' : configParse (appended text as) = .ok (some c')) (n : Nat) :
    ∃ flags : List Bool, flags.length = (as.flatMap Addition.requests).length ∧
      ∀ l : List Stimulus, (∀ s ∈ l, s ≠ .bind b!"reset") →
        observed n (newKeyboard c) ((as.flatMap Addition.requests).map .bind ++ l) =
          (observed n (newKeyboard c') l).map (fun r => (flags.map .accepted ++ r.1, r.2)) := by
  have h := C109_parsed text c ss as hc hs ha hl
  rw [hc'] at h
  have o := observed_binds n (as.flatMap Addition.requests) c c (C27_wellformed c (.parsed text c hc)) requests_not_reset
  cases hb : bindEach c (as.flatMap Addition.requests) with
  | error e => rw [hb] at h; cases h
  | ok c1 =>
    rw [hb] at h o
    have e := Option.some.inj (Except.ok.inj h)
    subst e
    obtain ⟨flags, hf, o⟩ := o
    refine ⟨flags, hf, fun l hl => ?_⟩
    rw [← observed_orig n c l (newKeyboard c') hl]
    exact o l

/-- C109. If the file with the lines makes the program stop (an action with six arguments, say), the requests do. -/
theorem C109_bind_stops (text : Str) (c : Config) (e : Err) (ss : List IniSection) (as : List Addition) (hc : configParse text = .ok (some c))
    (hs : iniParseString text = .ok (some ss)) (ha : ∀ a ∈ as, a.Ok c) (hl : ss.length + as.length ≤ 32)
    (hc' : configParse (appended text as) = .error e) (n : Nat) (l : List Stimulus) :
    observed n (newKeyboard c) ((as.flatMap Addition.requests).map .bind ++ l) = .error e := by
  have h := C109_parsed text c ss as hc hs ha hl
  rw [hc'] at h
  have o := observed_binds n (as.flatMap Addition.requests) c c (C27_wellformed c (.parsed text c hc)) requests_not_reset
  cases hb : bindEach c (as.flatMap Addition.requests) with
  | error e' =>
    rw [hb] at h o
    have := Except.error.inj h
    subst this
    exact o l
  | ok c1 => rw [hb] at h; cases h

/-! ### Examples -/

def lineText : Str := b!"[ids]\n*\n[main]\na = b\n[nav]\nh = left"

def lineAdditions : List Addition := [⟨b!"nav", [(b!"h", b!"down"), (b!"j+k", b!"overload(shift, C-x)")]⟩, ⟨b!"main", [(b!"capslock", b!"layer(nav)"), (b!"b", b!"nosuch(key)")]⟩]

/-- The file with the lines appended. -/
theorem lineAppended : appended lineText lineAdditions =
    b!"[ids]\n*\n[main]\na = b\n[nav]\nh = left\n[nav]\nh = down\nj+k = overload(shift, C-x)\n[main]\ncapslock = layer(nav)\nb = nosuch(key)\n" := by
  decide +kernel

theorem lineRequests : lineAdditions.flatMap Addition.requests =
    [b!"nav.h = down", b!"nav.j+k = overload(shift, C-x)", b!"main.capslock = layer(nav)", b!"main.b = nosuch(key)"] := by
  decide +kernel

/-- `capslock` with `h`, with the chord `j`, `k`, and `b` alone. -/
def lineDay : List Stimulus := [
  .feed [press 58 70000], .feed [press 35 70100], .feed [release 35 70150], .feed [press 36 70200], .feed [press 37 70210],
  .feed [release 37 70300], .feed [release 36 70310], .feed [release 58 70400], .feed [press 48 70500], .bind b!"nav.h = up", .feed [release 48 70600]]

def lineAnswers : List Reaction := [.wait 0, .wait 0, .wait 0, .wait 50, .wait 40, .wait 0, .wait 0, .wait 0, .wait 0, .accepted true, .wait 0]

def lineOuts : List Out := [.layer 6 true, .key 108 true, .key 108 false, .layer 2 true, .key 42 true, .layer 2 false, .key 42 false,
  .key 29 true, .key 45 true, .key 45 false, .key 29 false, .layer 6 false, .key 48 true, .key 48 false]

def writableB (key action : Str) : Bool :=
  (key != []) && !(key.tail.contains 61) && !(key.contains 10) &&
  (match key.head? with | some c => !isSpaceC c && c != 35 | none => true) &&
  (match key.getLast? with | some c => !isBlank c | none => true) &&
  (action != []) && !(action.contains 10) &&
  (match action.head? with | some c => !isBlank c | none => true) &&
  (match action.getLast? with | some c => !isSpaceC c | none => true) &&
  !(key.head? == some 91 && action.getLast? == some 93)

theorem writable_of {key action : Str} (h : writableB key action = true) : Writable key action := by
  unfold writableB at h
  simp only [Bool.and_eq_true] at h
  obtain ⟨⟨⟨⟨⟨⟨⟨⟨⟨h1, h2⟩, h3⟩, h4⟩, h5⟩, h6⟩, h7⟩, h8⟩, h9⟩, h10⟩ := h
  refine ⟨⟨by simpa using h1, by simpa using h2, by simpa using h3⟩, fun c e => ?_, fun c e => ?_, ⟨by simpa using h6, by simpa using h7⟩, fun c e => ?_, fun c e => ?_, ?_⟩
  · rw [e] at h4; simpa using h4
  · rw [e] at h5; simpa using h5
  · rw [e] at h8; simpa using h8
  · rw [e] at h9; simpa using h9
  · rintro ⟨a, b⟩
    rw [a, b] at h10
    revert h10
    decide

def additionB (c : Config) (a : Addition) : Bool :=
  (c.layers.any fun l => l.name == a.layer) && (a.layer != []) && !(a.layer.contains 58) && !(a.layer.contains 10) && decide (a.layer.length < 65) &&
  (a.layer != b!"ids") && (a.layer != b!"aliases") && (a.layer != b!"global") && (a.lines.all fun p => writableB p.1 p.2) &&
  decide (a.lines.length ≤ 1024) && (a.requests.all fun r => decide (r.length ≤ 511))

theorem addition_of {c : Config} {a : Addition} (h : additionB c a = true) : a.Ok c := by
  unfold additionB at h
  simp only [Bool.and_eq_true] at h
  obtain ⟨⟨⟨⟨⟨⟨⟨⟨⟨⟨h1, h2⟩, h3⟩, h4⟩, h5⟩, h6⟩, h7⟩, h8⟩, h9⟩, h10⟩, h11⟩ := h
  refine ⟨?_, ⟨by simpa using h2, by simpa using h3, by simpa using h4, of_decide_eq_true h5⟩,
    ⟨by simpa using h6, by simpa using h7, by simpa using h8⟩, fun p hp => writable_of (List.all_eq_true.1 h9 p hp), of_decide_eq_true h10,
    fun r hr => of_decide_eq_true (List.all_eq_true.1 h11 r hr)⟩
  obtain ⟨l, hl, e⟩ := List.any_eq_true.1 h1
  exact ⟨l, hl, eq_of_beq e⟩

/-- The keyboard with the requests behaves as the one with the lines; what both do on such a day. The last of the four requests is
refused, as the line is ignored. -/
theorem C109_example : ∃ c, textConfig lineText = some c ∧ (∀ a ∈ lineAdditions, a.Ok c) ∧
    observed 40 (newKeyboard c) ((lineAdditions.flatMap Addition.requests).map .bind ++ lineDay) =
      .ok ([.accepted true, .accepted true, .accepted true, .accepted false] ++ lineAnswers, lineOuts) ∧
    observedText (appended lineText lineAdditions) lineDay = some (lineAnswers, lineOuts) := by
  have h : (match textConfig lineText with
    | some c => (lineAdditions.all (additionB c)) && (match observed 40 (newKeyboard c) ((lineAdditions.flatMap Addition.requests).map .bind ++ lineDay) with
      | .ok r => r == ([.accepted true, .accepted true, .accepted true, .accepted false] ++ lineAnswers, lineOuts)
      | .error _ => false) && (observedText (appended lineText lineAdditions) lineDay == some (lineAnswers, lineOuts))
    | none => false) = true := by set_option maxRecDepth 100000 in decide +kernel
  cases hc : textConfig lineText with
  | none => rw [hc] at h; cases h
  | some c =>
    rw [hc] at h
    dsimp only at h
    rw [Bool.and_eq_true, Bool.and_eq_true] at h
    refine ⟨c, rfl, fun a ha => addition_of (List.all_eq_true.1 h.1.1 a ha), ?_, eq_of_beq h.2⟩
    have h2 := h.1.2
    cases hr : observed 40 (newKeyboard c) ((lineAdditions.flatMap Addition.requests).map .bind ++ lineDay) with
    | error e => rw [hr] at h2; cases h2
    | ok r => rw [hr] at h2; exact congrArg Except.ok (eq_of_beq h2)

/-- The layer must exist: a heading in the file creates it, a request for it is refused. -/
theorem C109_fails_new_layer :
    observedText lineText [.bind b!"num.a = x", .bind b!"main.q = layer(num)", .feed [press 16 70000]] =
      some ([.accepted false, .accepted false, .wait 0], [.key 16 true]) ∧
    observedText (appended lineText [⟨b!"num", [(b!"a", b!"x")]⟩, ⟨b!"main", [(b!"q", b!"layer(num)")]⟩]) [.feed [press 16 70000]] =
      some ([.wait 0], [.layer 7 true]) := by
  refine ⟨?_, ?_⟩ <;> (set_option maxRecDepth 100000 in decide +kernel)

/-- And `reset` tells them apart: it takes the one back to the file, the other to the file with the lines. -/
theorem C109_fails_reset :
    observedText lineText [.bind b!"main.a = x", .bind b!"reset", .feed [press 30 70000]] =
      some ([.accepted true, .accepted true, .wait 0], [.key 48 true]) ∧
    observedText (appended lineText [⟨b!"main", [(b!"a", b!"x")]⟩]) [.bind b!"reset", .feed [press 30 70000]] =
      some ([.accepted true, .wait 0], [.key 45 true]) := by
  refine ⟨?_, ?_⟩ <;> (set_option maxRecDepth 100000 in decide +kernel)

end Keyd
