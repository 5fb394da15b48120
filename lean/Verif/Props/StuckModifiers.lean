import Verif.Proofs.Tidy
import Verif.Props.Released
import Verif.Props.Headings

/-
  C81: no stuck modifiers.
-/

set_option autoImplicit false

namespace Keyd

attribute [local irreducible] configInit

variable {tap alt quiet os : Nat → Prop} {tg : Prop}

/-! ### The invariant holds -/

theorem neat_clean {c : Config} (h : Neat tap alt quiet os tg c) : Clean tap alt quiet os tg c := by
  refine ⟨fun a => ?_, h.orderly.taps, h.taps, h.macros, h.oneshots⟩
  unfold Config.desc
  rcases getD_mem_or c.descriptors a .none with hm | hm
  · exact ⟨h.orderly.nested _ hm, h.nested _ hm⟩
  · rw [hm]; exact ⟨trivial, trivial⟩

theorem neat_table {L Y : Nat → Prop} {c : Config} (h : Neat tap alt quiet os tg c) (hs : TableT (SoberT L Y tap alt) c) :
    TableT (NeatT L Y tap alt quiet os tg) c := by
  refine ⟨fun i => ⟨hs.descs i, ((neat_clean h).descs i).2⟩, fun i code => ⟨hs.keys i code, ?_⟩, fun i ch hch => ⟨hs.chords i ch hch, ?_⟩⟩
  · unfold Config.layer
    rcases getD_mem_or c.layers i {} with hm | hm
    · exact h.keys _ hm code
    · rw [hm]; trivial
  · unfold Config.layer at hch
    rcases getD_mem_or c.layers i {} with hm | hm
    · exact h.chords _ hm ch hch
    · rw [hm] at hch; cases hch

theorem Tidy.shape {k k' : Kbd} (h : Tidy k) (hs : SameShape k.config k'.config) (h1 : k'.keystate = k.keystate)
    (h2 : k'.layerState = k.layerState) : Tidy k' := by
  intro mask key hm hd
  rcases h mask key hm (by rw [← h1]; exact hd) with h | ⟨i, l, g1, g2, g3, g4⟩
  · exact .inl h
  · obtain ⟨l', e1, e2⟩ := hs.2 i l g1
    exact .inr ⟨i, l', e1, by rw [h2]; exact g2, (fun ⟨_, _, h, _⟩ => by cases h), by rw [e2.2.2.1]; exact g4⟩

theorem kempt_reach {k : Kbd} (h : Reach (fun c => WF c ∧ Neat tap alt quiet os tg c) k) :
    Depths os tg k ∧ (Trim k ∨ KeyHeld k.held) := by
  suffices ∃ c, WF c ∧ HistoryOf c k ∧ Stored (NeatT (LayerTarget c) (LayoutTarget c) tap alt quiet os tg) k ∧
      Kempt (LayerTarget c) (LayoutTarget c) tap alt quiet os tg k by
    obtain ⟨_, _, _, _, h⟩ := this
    exact ⟨h.depths, h.loose⟩
  induction h with
  | init c hc =>
    have hb := newKeyboard_balance hc.1 hc.2.orderly
    refine ⟨c, hc.1, .start, .new neatT_closed (neat_table hc.2 hb.ctx.table), hb, neat_clean hc.2, ?_, .inl (.inl (tidy_up _ (fun _ => rfl)))⟩
    intro _ i hi
    exfalso
    apply hi
    rw [newKeyboard_layers]
    split
    · rfl
    · split <;> rfl
  | events n k evs k' w _ run ih =>
    obtain ⟨c, h1, h2, h3⟩ := ih
    have e1 := (kbdProcessEvents_sat (kempt_tInv.engineInv neatT_closed) n k evs h3).of_ok run
    exact ⟨c, h1, .events n k evs k' w h2 run, e1⟩
  | bind k e k' ok _ run hc ih =>
    obtain ⟨c, h1, h2, h3, h4⟩ := ih
    have hh := HistoryOf.bind k e k' ok h2 run
    have hf := kbdEval_frame run
    have hl := (layerFacts_history h1 hh).1
    have hl0 := (layerFacts_history h1 h2).1
    have hctx := sober_ctx hc.1 hl.shape.symm hc.2.orderly
    have hsh : SameShape k.config k'.config := hl0.shape.symm.trans hl.shape
    refine ⟨c, h1, hh, ?_, ?_⟩
    · rw [hf]
      exact ⟨h3.cache, h3.a1, h3.a2, h3.chords, neat_table hc.2 hctx.table⟩
    · rw [hf] at hsh ⊢
      refine ⟨⟨h4.bal.apart, h4.bal.bal, h4.bal.flags, h4.bal.pend, h4.bal.keys, hctx⟩, neat_clean hc.2, h4.depths.frame rfl, ?_⟩
      rcases h4.loose with x | x
      · rcases x with x | x
        · exact .inl (.inl (x.shape hsh rfl rfl))
        · exact .inl (.inr x)
      · exact .inr x
  | scroll k s _ ih =>
    obtain ⟨c, h1, h2, h3, h4⟩ := ih
    exact ⟨c, h1, .scroll k s h2, h3.frame rfl rfl rfl rfl, h4.frame (h4.bal.frame rfl rfl rfl rfl rfl) rfl rfl rfl rfl rfl⟩

/-! ### The claims -/

/-- C81. When no key is held and no macro is being repeated, every modifier key that is down is a modifier of an active layer. -/
theorem C81_no_stuck_modifiers {k : Kbd} (h : Reach (fun c => WF c ∧ Neat tap alt quiet os tg c) k) (hr : AllReleased k)
    (ha : k.activeMacro = none) {mask : UInt8} {key : Code} (hm : (mask, key) ∈ modifierKeys) (hd : k.keystate key = true) :
    ∃ (i : Nat) (l : Layer), k.config.layers[i]? = some l ∧ (k.layerState i).active ≠ 0 ∧ l.mods &&& mask ≠ 0 := by
  rcases (kempt_reach h).2 with h | ⟨q, hq, h0, _⟩
  · rcases h with h | h
    · rcases h mask key hm hd with h | ⟨i, l, h1, h2, _, h3⟩
      · exact absurd (by simp) h
      · exact ⟨i, l, h1, h2, h3⟩
    · exact absurd ha h
  · obtain ⟨e, he, rfl⟩ := List.mem_map.1 hq
    exact absurd (hr e he) h0

/-- The layouts of a configuration have no modifiers. -/
def PlainLayouts (c : Config) : Prop := ∀ l ∈ c.layers, l.type = .layout → l.mods = 0

theorem plain_raws {c c' : Config} (h : PlainLayouts c) (e : c'.raws = c.raws) : PlainLayouts c' := by
  intro l hl ht
  have : l.raw ∈ c'.raws := List.mem_map_of_mem hl
  rw [e] at this
  obtain ⟨l0, h0, e0⟩ := List.mem_map.1 this
  have e1 : l0.type = l.type := congrArg (fun x => x.2.1) e0
  have e2 : l0.mods = l.mods := congrArg (fun x => x.2.2.1) e0
  rw [← e2]
  exact h l0 h0 (e1.trans ht)

theorem newLayer_plain (c : Config) (s : Str) : Sat (newLayer c s) (fun r => ∀ l, r = some l → l.type = .layout → l.mods = 0) (fun _ => True) := by
  unfold newLayer
  split
  · exact True.intro
  · dsimp only
    split
    · split
      · intro l h; cases h
      · refine Sat.bind (Q := fun _ => True) (Sat.intro (fun _ _ => trivial)) (fun r _ => ?_)
        split
        · intro l h; cases h
        · intro l h; cases h; intro ht; cases ht
    · split
      · split
        · intro l h; cases h; intro _; rfl
        · split
          · intro l h; cases h; intro ht; cases ht
          · intro l h; cases h; intro _; rfl
      · intro l h; cases h; intro _; rfl

theorem addLayer_plain {c : Config} (h : PlainLayouts c) (s : Str) : Sat (configAddLayer c s) (fun r => PlainLayouts r.1) (fun _ => True) := by
  unfold configAddLayer
  refine Sat.ite (fun _ => h) (fun _ => ?_)
  dsimp only
  refine Sat.ite (fun _ => h) (fun _ => Sat.ite (fun _ => h) (fun _ => ?_))
  refine Sat.bind (newLayer_plain c s) (fun r hr => ?_)
  split
  · exact h
  · rename_i l
    intro x hx ht
    rcases List.mem_append.1 hx with hx | hx
    · exact h x hx ht
    · rw [List.mem_singleton.1 hx] at ht ⊢
      exact hr l rfl ht

theorem passOne_plain : ∀ (ss : List IniSection) (c : Config), WF c → PlainLayouts c →
    Sat (passOne c ss) (fun c' => WF c' ∧ PlainLayouts c') (fun _ => True)
  | [], c, hw, h => ⟨hw, h⟩
  | s :: ss, c, hw, h => by
    unfold passOne
    refine Sat.bind (Q := fun c1 => WF c1 ∧ PlainLayouts c1) ?_ (fun c1 h1 => passOne_plain ss c1 h1.1 h1.2)
    split
    · exact ((parseIdSection_sat s.entries hw).mono (fun _ h => h) (fun _ _ => trivial)).and
        ((foldSections_raws parseIdSection (fun _ => rfl) (fun _ _ _ => rfl)
          (fun c e => (idEntry_layers c e).imp (fun _ h => raws_of_layers h)) _ _).imp (fun _ e => plain_raws h e))
    · split
      · exact ((parseAliasSection_sat s.entries hw).mono (fun _ h => h) (fun _ _ => trivial)).and
          ((foldSections_raws parseAliasSection (fun _ => rfl) (fun _ _ _ => rfl) aliasEntry_raws _ _).imp (fun _ e => plain_raws h e))
      · split
        · exact ((parseGlobalSection_sat s.entries hw).mono (fun _ h => h) (fun _ _ => trivial)).and
            ((foldSections_raws parseGlobalSection (fun _ => rfl) (fun _ _ _ => rfl)
              (fun c e => (globalEntry_layers c e).imp (fun _ h => raws_of_layers h)) _ _).imp (fun _ e => plain_raws h e))
        · refine Sat.bind (((configAddLayer_sat hw s.name).mono (fun _ h => h) (fun _ _ => trivial)).and (addLayer_plain h s.name)) (fun r hr => ?_)
          exact hr

theorem builtin_plain : (match configInit with | .ok c => c.layers.all (fun l => decide (l.type = .layout → l.mods = 0)) | .error _ => false) = true := by
  decide +kernel

/-- In a configuration read from a text and changed by binds, layouts have no modifiers. -/
theorem bound_plain {c : Config} (h : Bound c) : PlainLayouts c := by
  induction h with
  | parsed text c run =>
    unfold configParse at run
    obtain ⟨c0, h0, run⟩ := bind_eq_ok.1 run
    have p0 : PlainLayouts c0 := by
      have := builtin_plain
      rw [h0] at this
      intro l hl
      exact of_decide_eq_true (List.all_eq_true.1 this l hl)
    have hw0 : WF c0 := by
      obtain ⟨c0', h0', hw, _⟩ := configInit_defaults
      rw [h0] at h0'
      cases h0'
      exact hw
    unfold configParseString at run
    obtain ⟨r, hini, run⟩ := bind_eq_ok.1 run
    cases r with
    | none => cases run
    | some ss =>
      dsimp only at run
      obtain ⟨c1, h1, run⟩ := bind_eq_ok.1 run
      obtain ⟨c2, h2, run⟩ := bind_eq_ok.1 run
      cases run
      obtain ⟨w1, p1⟩ := (passOne_plain ss c0 hw0 p0).of_ok h1
      exact plain_raws p1 ((passTwo_raws ss c1 w1).of_ok h2).2
  | bind c exp c' ok hb run ih =>
    exact plain_raws ih ((configAddEntry_raws (C27_wellformed c hb) exp).of_ok run).2

theorem Reach.loosen {cfg cfg' : Config → Prop} (hh : ∀ c, cfg c → cfg' c) {k : Kbd} (h : Reach cfg k) : Reach cfg' k := by
  induction h with
  | init c hc => exact .init c (hh c hc)
  | events n k evs k' w _ run ih => exact .events n k evs k' w ih run
  | bind k e k' ok _ run hc ih => exact .bind k e k' ok ih run (hh _ hc)
  | scroll k s _ ih => exact .scroll k s ih

/-- C81. When no key is held, no macro is being repeated, and no layer is toggled or to be used for one more key, then no modifier key is
down. -/
theorem C81_all_modifiers_up {k : Kbd} (h : Reach (fun c => Bound c ∧ Neat tap alt quiet os tg c) k) (hr : AllReleased k)
    (ha : k.activeMacro = none) (ht : ∀ i, (k.layerState i).toggled = false) (ho : ∀ i, (k.layerState i).oneshotDepth = 0)
    {mask : UInt8} {key : Code} (hm : (mask, key) ∈ modifierKeys) : k.keystate key = false := by
  have h1 := h.loosen (cfg' := fun c => WF c ∧ Neat tap alt quiet os tg c) (fun c hc => ⟨C27_wellformed c hc.1, hc.2⟩)
  have h2 := h.loosen (cfg' := fun c => WF c ∧ Orderly tap alt c) (fun c hc => ⟨C27_wellformed c hc.1, hc.2.orderly⟩)
  by_contra hd
  obtain ⟨i, l, e1, e2, e3⟩ := C81_no_stuck_modifiers h1 hr ha hm (by simpa using hd)
  by_cases hty : l.type = .layout
  · have hp : PlainLayouts k.config := bound_plain h.historyOf.choose_spec.2.2.1
    rw [hp l (List.mem_of_getElem? e1) hty] at e3
    exact e3 (by simp)
  · refine e2 (C04_released_inactive h2 hr ht ho ?_)
    unfold ordinary
    rw [e1]
    simpa using hty

/-- C81, for the events that arrived and what the host sees: when every key that was pressed has been released, no event waits for the
decision of another key and no macro is being repeated, then every modifier key that is down at the host is a modifier of a layer that is
toggled or to be used for one more key. The modifier is not among those that macros of several steps press by themselves. -/
theorem C81_history {arrived : List KeyEvent} {k : Kbd} {mask : UInt8} {key : Code}
    (h : Fed (fun c => Bound c ∧ NoChords c ∧ Neat tap alt quiet os tg c ∧ NotInMacros key c) arrived k) (hq : k.behindKey = [])
    (hup : KeysUp arrived) (ha : k.activeMacro = none) (hm : (mask, key) ∈ modifierKeys) (hd : DownAtHost key k.outputs) :
    ∃ (i : Nat) (l : Layer), k.config.layers[i]? = some l ∧ l.mods &&& mask ≠ 0 ∧
      ((k.layerState i).toggled = true ∨ (k.layerState i).oneshotDepth ≠ 0) := by
  have hr := keysUp_released (h.weaken (fun c hc => ⟨hc.1, hc.2.1, hc.2.2.1.orderly⟩)) hq hup
  have hk := (C01_keystate_is_host_state key k (h.weaken (fun c hc => hc.2.2.2)).reach).2 hd
  obtain ⟨i, l, e1, e2, e3⟩ := C81_no_stuck_modifiers (h.weaken (fun c hc => ⟨C27_wellformed c hc.1, hc.2.2.1⟩)).reach hr ha hm hk
  refine ⟨i, l, e1, e3, ?_⟩
  have hty : l.type ≠ .layout := by
    intro hty
    have hp : PlainLayouts k.config := bound_plain h.reach.historyOf.choose_spec.2.2.1
    rw [hp l (List.mem_of_getElem? e1) hty] at e3
    exact e3 (by simp)
  have := C04_history (h.weaken (fun c hc => ⟨hc.1, hc.2.1, hc.2.2.1.orderly⟩)) hq hup (i := i) (by
    unfold ordinary
    rw [e1]
    simpa using hty)
  rw [this] at e2
  by_cases ht : (k.layerState i).toggled = true
  · exact .inl ht
  · rw [if_neg ht] at e2
    exact .inr (by omega)

/-! ### Cases -/

def quietB (c : Config) (m : Nat) : Bool :=
  match c.mac m with
  | [e] => decide (e.type = .keysequence → e.mods = 0)
  | _ => true

def isToggle : Desc → Bool
  | .toggle _ => true
  | .togglem _ _ => true
  | _ => false

/-- Some binding is a `toggle`. -/
def toggles (c : Config) : Bool :=
  c.descriptors.any isToggle || c.layers.any (fun l => allCodes.any (fun x => isToggle (l.keymap x)) || l.chords.any (fun ch => isToggle ch.d))

def neatDesc (c : Config) : Desc → Bool
  | .overload _ a => !(c.desc a).deferred && (match c.desc a with | .macro m => quietB c m | _ => true)
  | .clearm m => quietB c m
  | .oneshot l => !toggles c || decide ((c.layer l).mods = 0)
  | .oneshotm l _ => !toggles c || decide ((c.layer l).mods = 0)
  | d => soberB c d

def neatB (c : Config) : Bool :=
  c.descriptors.all (neatDesc c) &&
  c.layers.all (fun l => allCodes.all (fun x => neatDesc c (l.keymap x)) && l.chords.all (fun ch => neatDesc c ch.d))

theorem neatB_sound {c : Config} (h : neatB c = true) :
    ∃ (tap alt quiet os : Nat → Prop) (tg : Prop), Neat tap alt quiet os tg c := by
  unfold neatB at h
  simp only [Bool.and_eq_true, List.all_eq_true] at h
  let tap : Nat → Prop := fun a => (c.desc a).deferred = false ∧ ∀ m, c.desc a = .macro m → quietB c m = true
  have hs : ∀ d, neatDesc c d = true → (isToggle d = true → toggles c = true) →
      Sober tap (fun a => (c.desc a).idle = false) d ∧
      Tidying (fun m => quietB c m = true) (fun l => toggles c = true → (c.layer l).mods = 0) (toggles c = true) d := by
    intro d hd ht
    cases d with
    | overload l a =>
      simp only [neatDesc, Bool.and_eq_true, Bool.not_eq_true'] at hd
      refine ⟨⟨hd.1, fun m hm => ?_⟩, trivial⟩
      have := hd.2
      rw [hm] at this
      exact this
    | clearm m => exact ⟨trivial, hd⟩
    | oneshot l =>
      refine ⟨trivial, fun ht => ?_⟩
      simp only [neatDesc, ht] at hd
      simpa using hd
    | oneshotm l m =>
      refine ⟨trivial, fun ht => ?_⟩
      simp only [neatDesc, ht] at hd
      simpa using hd
    | toggle l => exact ⟨trivial, ht rfl⟩
    | togglem l m => exact ⟨trivial, ht rfl⟩
    | overloadIdle a b t =>
      simp only [neatDesc, soberB, Bool.and_eq_true, Bool.not_eq_true'] at hd
      exact ⟨hd, trivial⟩
    | swap l => cases hd
    | swapm l m => cases hd
    | _ => exact ⟨trivial, trivial⟩
  have t1 : ∀ d ∈ c.descriptors, isToggle d = true → toggles c = true := by
    intro d hd h
    unfold toggles
    rw [Bool.or_eq_true, List.any_eq_true]
    exact .inl ⟨d, hd, h⟩
  have t2 : ∀ l ∈ c.layers, ∀ x, isToggle (l.keymap x) = true → toggles c = true := by
    intro l hl x h
    unfold toggles
    rw [Bool.or_eq_true, List.any_eq_true, List.any_eq_true]
    refine .inr ⟨l, hl, ?_⟩
    rw [Bool.or_eq_true, List.any_eq_true]
    exact .inl ⟨x, mem_allCodes x, h⟩
  have t3 : ∀ l ∈ c.layers, ∀ ch ∈ l.chords, isToggle ch.d = true → toggles c = true := by
    intro l hl ch hc h
    unfold toggles
    rw [Bool.or_eq_true, List.any_eq_true, List.any_eq_true]
    refine .inr ⟨l, hl, ?_⟩
    rw [Bool.or_eq_true, List.any_eq_true, List.any_eq_true]
    exact .inr ⟨ch, hc, h⟩
  refine ⟨tap, _, _, _, _, ⟨fun d hd => (hs d (h.1 d hd) (t1 d hd)).1, fun l hl x => (hs _ ((h.2 l hl).1 x (mem_allCodes x)) (t2 l hl x)).1,
    fun l hl ch hch => (hs _ ((h.2 l hl).2 ch hch) (t3 l hl ch hch)).1, fun a h => h.1, fun a h => h⟩,
    fun d hd => (hs d (h.1 d hd) (t1 d hd)).2, fun l hl x => (hs _ ((h.2 l hl).1 x (mem_allCodes x)) (t2 l hl x)).2,
    fun l hl ch hch => (hs _ ((h.2 l hl).2 ch hch) (t3 l hl ch hch)).2, fun a m ha hm => ha.2 m hm, ?_, fun ht i hi => hi ht⟩
  intro m e hq hm ht
  unfold quietB at hq
  rw [hm] at hq
  exact of_decide_eq_true hq ht

def neatText : Str := b!"[main]
a = layer(nav)
b = overload(control, esc)
c = oneshot(shift)
d = overloadt(alt, x, 200)
e = C-x
f = macro(C-y)
g = overload(nav, macro(hi))
[nav]
h = C-left
"

/-- The hypotheses are met after a history with modifiers pressed in each of these ways; at the end shift is down for the next key. -/
theorem C81_example : ∃ (tap alt quiet os : Nat → Prop) (tg : Prop) (arrived : List KeyEvent) (k : Kbd),
    Fed (fun c => Bound c ∧ NoChords c ∧ Neat tap alt quiet os tg c) arrived k ∧ k.behindKey = [] ∧ KeysUp arrived ∧
    k.activeMacro = none ∧ AllReleased k ∧ k.keystate KEYD.LEFTSHIFT = true ∧ k.keystate KEYD.LEFTCTRL = false ∧
    arrived.length = 25 := by
  have h : checkRun neatText [press 48 10, press 18 20, release 48 30, release 18 40, press 30 50, press 35 60, release 30 70, release 35 80,
     press 46 90, release 46 100, press 18 110, release 18 120, press 33 130, wakeup 800, release 33 810, press 32 900, press 42 910,
     wakeup 1200, release 32 1210, release 42 1220, press 34 1300, release 34 1310, press 46 1400, release 46 1410, wakeup 5000]
     (fun c => neatB c && c.layers.all (fun l => l.chords.isEmpty))
     (fun k => k.behindKey == [] && k.activeMacro.isNone && decide (AllReleased k) && k.keystate KEYD.LEFTSHIFT && !k.keystate KEYD.LEFTCTRL) = true := by
    set_option maxRecDepth 100000 in decide +kernel
  obtain ⟨c, k, hb, _, hp, hq, hr, _⟩ := checkRun_history h
  simp only [Bool.and_eq_true, List.all_eq_true, List.isEmpty_iff, beq_iff_eq, Option.isNone_iff_eq_none, Bool.not_eq_true', decide_eq_true_eq] at hp hq
  obtain ⟨tap, alt, quiet, os, tg, hn⟩ := neatB_sound hp.1
  exact ⟨tap, alt, quiet, os, tg, _, k, fed_run hr ⟨hb, hp.2, hn⟩, hq.1.1.1.1, keysUp_of_check _ (by decide), hq.1.1.1.2, hq.1.1.2, hq.1.2, hq.2, rfl⟩

/-! ### Where the code breaks the claim -/

/-- A one-shot modifier followed by a key that toggles a layer: the modifier layer is left, but its key stays down at the host until the next
key event. -/
theorem C81_fails_toggle : runText b!"[main]
leftshift = oneshot(shift)
t = toggle(nav)
[nav]
" [press 42 1, release 42 2, press 20 3, release 20 4] =
    some [.layer 2 true, .key 42 true, .layer 6 true, .layer 2 false] := by
  set_option maxRecDepth 100000 in decide +kernel

/-- A single key with modifiers as the macro of a tap: the modifier stays down. -/
theorem C81_fails_tap : runText b!"[main]
capslock = overload(nav, macro(C-x))
[nav]
" [press 58 1, release 58 2] =
    some [.layer 6 true, .layer 6 false, .key 29 true, .key 45 true, .key 45 false] := by
  set_option maxRecDepth 100000 in decide +kernel

/-- The same with `clearm`. -/
theorem C81_fails_clearm : runText b!"[main]
capslock = clearm(C-x)
" [press 58 1, release 58 2] =
    some [.key 29 true, .key 45 true, .key 45 false] := by
  set_option maxRecDepth 100000 in decide +kernel

end Keyd
