import Verif.Proofs.Balance
import Verif.Props.Layers
import Verif.Spec.Witness
import Mathlib.Tactic.ByContra

/-
  C03 (no stuck keys), C04 (no stuck layers), C05 (layer bookkeeping never aborts).
-/

set_option autoImplicit false

namespace Keyd

attribute [local irreducible] configInit

theorem Reach.historyOf {cfg : Config → Prop} {k : Kbd} (h : Reach cfg k) : ∃ c, cfg c ∧ HistoryOf c k ∧ cfg k.config := by
  induction h with
  | init c hc => exact ⟨c, hc, .start, hc⟩
  | events n k evs k' w _ run ih =>
    obtain ⟨c, h1, h2, h3⟩ := ih
    have e2 : k'.config = k.config := (kbdProcessEvents_sat (config_outInv k.config).engineInv n k evs rfl).of_ok run
    exact ⟨c, h1, .events n k evs k' w h2 run, by rw [e2]; exact h3⟩
  | bind k e k' ok _ run hc ih =>
    obtain ⟨c, h1, h2, _⟩ := ih
    exact ⟨c, h1, .bind k e k' ok h2 run, hc⟩
  | scroll k s _ ih =>
    obtain ⟨c, h1, h2, h3⟩ := ih
    exact ⟨c, h1, .scroll k s h2, h3⟩

theorem layerTarget_iff {c : Config} {i : Nat} : LayerTarget c i ↔ ordinary c i = true := by
  unfold LayerTarget ordinary
  cases c.layers[i]? with
  | none => simp
  | some l => simp

theorem sober_ctx {tap alt : Nat → Prop} {c c' : Config} (hw : WF c') (hs : SameShape c' c) (ho : Orderly tap alt c') :
    Ctx (LayerTarget c) (LayoutTarget c) tap alt c' := by
  have htab := hw.targets
  have hmain : ¬ LayerTarget c 0 := by
    rintro h0
    obtain ⟨l, hl, hty⟩ := hs.symm.target h0
    obtain ⟨m, ms, h1, _, h2⟩ := hw.mainFirst
    rw [h1] at hl
    simp at hl
    exact hty (by rw [← hl]; exact h2)
  have sob : ∀ (l : List Desc) i, (∀ d ∈ l, Sober tap alt d) → Sober tap alt (l.getD i .none) := by
    intro l i h
    rcases getD_mem_or l i .none with hm | hm
    · exact h _ hm
    · rw [hm]; trivial
  refine ⟨?_, ?_, ho.taps, ho.alts, ?_, ?_, ?_⟩
  · intro i hi
    obtain ⟨l, hl, hty⟩ := hs.symm.target hi
    refine ⟨fun e => hmain (e ▸ hi), (List.getElem?_eq_some_iff.1 hl).1, ?_⟩
    unfold Config.layer
    rw [List.getD_eq_getElem?_getD, hl]
    exact hty
  · rintro i ⟨l, hl, h | h⟩ h0
    · exact absurd h h0
    · rintro ⟨l', hl', hty⟩
      rw [hl] at hl'
      cases hl'
      exact hty h
  · intro i
    exact ⟨(htab.descs i).imp (fun _ h => hs.target h) (fun _ h => hs.layoutTarget h), sob _ _ ho.nested⟩
  · intro i code
    refine ⟨(htab.keys i code).imp (fun _ h => hs.target h) (fun _ h => hs.layoutTarget h), ?_⟩
    unfold Config.layer
    rcases getD_mem_or c'.layers i {} with hm | hm
    · exact ho.keys _ hm code
    · rw [hm]; trivial
  · intro i ch hch
    refine ⟨(htab.chords i ch hch).imp (fun _ h => hs.target h) (fun _ h => hs.layoutTarget h), ?_⟩
    unfold Config.layer at hch
    rcases getD_mem_or c'.layers i {} with hm | hm
    · exact ho.chords _ hm ch hch
    · rw [hm] at hch; cases hch

theorem newKeyboard_balance {tap alt : Nat → Prop} {c : Config} (hw : WF c) (ho : Orderly tap alt c) :
    InBalance (LayerTarget c) (LayoutTarget c) tap alt (newKeyboard c) := by
  have hctx := sober_ctx hw (.refl c) ho
  have hheld : (newKeyboard c).held = List.replicate 16 (0, .none) := rfl
  have hls : ∀ i, LayerTarget c i → (newKeyboard c).layerState i = {} := by
    intro i hi
    have h0 := (hctx.layers i hi).1
    have h1 : i ≠ initialLayout c := by
      rintro rfl
      obtain ⟨l, hl, hty⟩ := hi
      have := initialLayout_isLayout hw
      unfold isLayout at this
      rw [hl] at this
      exact hty (by simpa using this)
    rw [newKeyboard_layers, if_neg (fun h => h1 h.1), if_neg h0]
  refine ⟨?_, ?_, ?_, ?_, ?_, hctx⟩
  · rw [hheld]
    unfold Apart
    rw [List.pairwise_iff_forall_sublist]
    intro a b hab h0
    have : a ∈ List.replicate 16 ((0 : Code), Desc.none) := hab.subset (List.mem_cons_self ..)
    rw [List.eq_of_mem_replicate this] at h0
    exact absurd rfl h0
  · intro i hi
    unfold exc
    rw [hls i hi, hheld]
    rfl
  · intro i hi
    have := (OnlyL.new (LayerTarget c) c).flags i hi
    exact ⟨this.2, this.1⟩
  · intro h; exact absurd rfl h
  · intro c _ h; cases h

theorem balance_reach {tap alt : Nat → Prop} {k : Kbd} (h : Reach (fun c => WF c ∧ Orderly tap alt c) k) :
    ∃ c, WF c ∧ HistoryOf c k ∧ Stored (SoberT (LayerTarget c) (LayoutTarget c) tap alt) k ∧
      InBalance (LayerTarget c) (LayoutTarget c) tap alt k := by
  induction h with
  | init c hc => exact ⟨c, hc.1, .start, .new soberT_closed (newKeyboard_balance hc.1 hc.2).ctx.table, newKeyboard_balance hc.1 hc.2⟩
  | events n k evs k' w _ run ih =>
    obtain ⟨c, h1, h2, h3⟩ := ih
    have e1 := (kbdProcessEvents_sat (balance_tInv.engineInv soberT_closed) n k evs h3).of_ok run
    exact ⟨c, h1, .events n k evs k' w h2 run, e1⟩
  | bind k e k' ok _ run hc ih =>
    obtain ⟨c, h1, h2, h3, h4⟩ := ih
    have hh := HistoryOf.bind k e k' ok h2 run
    have hf := kbdEval_frame run
    have hl := (layerFacts_history h1 hh).1
    have hctx := sober_ctx hc.1 hl.shape.symm hc.2
    refine ⟨c, h1, hh, ?_, ?_⟩
    · rw [hf]
      exact ⟨h3.cache, h3.a1, h3.a2, h3.chords, hctx.table⟩
    · rw [hf]
      exact ⟨h4.apart, h4.bal, h4.flags, h4.pend, h4.keys, hctx⟩
  | scroll k s _ ih =>
    obtain ⟨c, h1, h2, h3, h4⟩ := ih
    exact ⟨c, h1, .scroll k s h2, h3.frame rfl rfl rfl rfl, h4.frame rfl rfl rfl rfl rfl⟩

/-! ### C04 -/

/-- C04. At every point of every history, an ordinary layer is active exactly as many
times as held keys hold it, plus one if it is toggled, plus its outstanding one-shot
activations; main is active once and any other layout once if it is the selected one
and not at all otherwise. -/
theorem C04_activations_accounted {tap alt : Nat → Prop} {k : Kbd}
    (h : Reach (fun c => WF c ∧ Orderly tap alt c) k) :
    (∀ i, ordinary k.config i = true →
      (k.layerState i).active =
        holders k i + (if (k.layerState i).toggled then 1 else 0) + (k.layerState i).oneshotDepth) ∧
    (k.layerState 0).active = 1 ∧
    ∃ c, HistoryOf c k ∧ ∀ i, i ≠ 0 → isLayout k.config i = true →
      (k.layerState i).active = if i = selectedLayout c (initialLayout c) k.outputs.reverse then 1 else 0 := by
  obtain ⟨c, hw, hh, _, hb⟩ := balance_reach h
  obtain ⟨hl, hf, _⟩ := layerFacts_history hw hh
  refine ⟨?_, hf.main.1, c, hh, ?_⟩
  · intro i hi
    have := hb.bal i (hl.shape.symm.target (layerTarget_iff.2 hi))
    rw [← holders_held] at this
    unfold exc excS at this
    split at this <;> rename_i ht <;> simp only [ht, if_true, if_false, Bool.false_eq_true] <;> omega
  · intro i h0 hi
    have hi : isLayout c i = true := by rw [← hl.shape.isLayout]; exact hi
    obtain ⟨h1, h2, _⟩ := hf.layouts i h0 hi
    have e : selectedLayout c (initialLayout c) k.outputs.reverse = selectedLayout c (initialLayout c) k.layerTrace := by
      unfold Kbd.outputs Kbd.layerTrace
      rw [List.reverse_reverse, selectedLayout_filter]
    rw [e]
    split
    · rename_i hs
      have := h2.2 hs
      omega
    · rename_i hs
      by_contra hne
      exact hs (h2.1 hne)

/-- C04. Once no key is held and nothing is toggled or latched, every ordinary layer is
inactive. -/
theorem C04_released_inactive {tap alt : Nat → Prop} {k : Kbd}
    (h : Reach (fun c => WF c ∧ Orderly tap alt c) k) (hr : AllReleased k)
    (ht : ∀ i, (k.layerState i).toggled = false) (ho : ∀ i, (k.layerState i).oneshotDepth = 0)
    {i : Nat} (hi : ordinary k.config i = true) : (k.layerState i).active = 0 := by
  rw [(C04_activations_accounted h).1 i hi, ht i, ho i]
  have : holders k i = 0 := by
    unfold holders
    rw [List.countP_eq_zero]
    intro e he
    simp [hr e he]
  rw [this]; simp

/-! ### C05 -/

/-- C05. Processing events never trips the assertion of `deactivate_layer`. -/
theorem C05_deactivation_safe {tap alt : Nat → Prop} {k : Kbd}
    (h : Reach (fun c => WF c ∧ Orderly tap alt c) k) (n : Nat) (evs : List KeyEvent) :
    kbdProcessEvents n k evs ≠ .error (.assertFail "deactivate_layer: active > 0") := by
  obtain ⟨c, hw, hh, hs⟩ := balance_reach h
  intro e
  exact (kbdProcessEvents_sat (balance_tInv.engineInv soberT_closed) n k evs hs).of_err e rfl

/-! ### C03 -/

/-- C03. Every output key other than the modifiers that is down is the key of the
binding of some key still held. -/
theorem C03_down_keys_owned {tap alt : Nat → Prop} {k : Kbd}
    (h : Reach (fun c => WF c ∧ Orderly tap alt c) k) {x : Code} (hx : Plain x) (hd : k.keystate x = true) :
    ∃ e ∈ k.cache, e.code ≠ 0 ∧ ∃ m, e.d = .keyseq x m := by
  obtain ⟨c, _, _, _, hb⟩ := balance_reach h
  obtain ⟨p, hp, h1, h2⟩ := hb.keys x hx hd
  obtain ⟨e, he, rfl⟩ := List.mem_map.1 hp
  refine ⟨e, he, h1, ?_⟩
  revert h2
  dsimp only
  cases e.d with
  | keyseq c m => intro h2; exact ⟨m, by injection h2 with h2; rw [h2]⟩
  | _ => intro h2; cases h2

/-- C03. Once no physical key is held, no output key other than the modifiers is down. -/
theorem C03_no_stuck_keys {tap alt : Nat → Prop} {k : Kbd}
    (h : Reach (fun c => WF c ∧ Orderly tap alt c) k) (hr : AllReleased k) {x : Code} (hx : Plain x) :
    k.keystate x = false := by
  by_contra hd
  obtain ⟨e, he, h0, _⟩ := C03_down_keys_owned h hx (by simpa using hd)
  exact h0 (hr e he)

/-! ### The hypotheses -/

/-- A decidable form of `Sober` for one configuration: tap actions of `overload` are
immediate, alternatives of `overloadi` are not `overloadi`, no `swap`. -/
def soberB (c : Config) : Desc → Bool
  | .overload _ a => !(c.desc a).deferred
  | .overloadIdle a b _ => !(c.desc a).idle && !(c.desc b).idle
  | .swap _ => false
  | .swapm _ _ => false
  | _ => true

def orderlyB (c : Config) : Bool :=
  c.descriptors.all (soberB c) &&
  c.layers.all (fun l => allCodes.all (fun x => soberB c (l.keymap x)) && l.chords.all (fun ch => soberB c ch.d))

theorem orderlyB_sound {c : Config} (h : orderlyB c = true) :
    Orderly (fun a => (c.desc a).deferred = false) (fun a => (c.desc a).idle = false) c := by
  unfold orderlyB at h
  simp only [Bool.and_eq_true, List.all_eq_true] at h
  have hs : ∀ d, soberB c d = true → Sober (fun a => (c.desc a).deferred = false) (fun a => (c.desc a).idle = false) d := by
    intro d hd
    cases d <;> simp [soberB, Sober] at * <;> exact hd
  refine ⟨fun d hd => hs d (h.1 d hd), fun l hl x => hs _ ((h.2 l hl).1 x (mem_allCodes x)),
    fun l hl ch hch => hs _ ((h.2 l hl).2 ch hch), fun a h => h, fun a h => h⟩

/-- Every state of a keyboard with a parsed configuration that passes the check, as
long as the configuration is not changed by `bind`. -/
theorem orderly_run {text : Str} {evs : List KeyEvent} {q : Kbd → Bool}
    (h : checkRun text evs orderlyB q = true) :
    ∃ (c : Config) (k : Kbd), Reach (fun c' => WF c' ∧ Orderly (fun a => (c.desc a).deferred = false) (fun a => (c.desc a).idle = false) c') k ∧
      q k = true := by
  obtain ⟨c, k, hb, _, h1, h2, h3, _⟩ := checkRun_history h
  exact ⟨c, k, runConfig_reach h3 ⟨C27_wellformed c hb, orderlyB_sound h1⟩, h2⟩

def holdingText : Str := b!"[main]
a = layer(nav)
b = overload(nav, esc)
c = oneshot(nav)
d = overloadt(nav, x, 200)
e = toggle(nav)
f = overloadi(x, overloadt(nav, y, 100), 50)
[nav]
h = left
"

/-- A history of such a configuration in which a key holds a layer that is also
toggled, with a key down. -/
theorem holding_example : checkRun holdingText
    [press 30 10, press 18 20, release 18 30, press 46 40, release 46 50, press 35 60] orderlyB
    (fun k => decide (ordinary k.config 6 = true ∧ (k.layerState 6).active = 2 ∧ (k.layerState 6).toggled = true ∧
      holders k 6 = 1 ∧ k.keystate 105 = true ∧ ¬ AllReleased k)) = true := by
  set_option maxRecDepth 100000 in decide +kernel

/-- A history after which everything is released, with one-shots, taps, holds and
toggles in between. -/
theorem holding_example_released : checkRun holdingText
    [press 30 10, press 18 20, release 18 30, press 46 40, release 46 50, press 35 60, release 30 70, release 35 80,
     press 32 90, release 32 100, press 32 200, press 35 210, release 35 450, release 32 460, press 18 470, release 18 480,
     press 33 1000, wakeup 1150, release 33 1200] orderlyB
    (fun k => decide (AllReleased k ∧ (k.layerState 6).toggled = false ∧ (k.layerState 6).oneshotDepth = 0 ∧
      k.outputs.length > 8)) = true := by
  set_option maxRecDepth 100000 in decide +kernel

/-! ### Where the code breaks the claims -/

/-- With a deferred action as the tap action of `overload`, a tap leaves a key down for
good: here both physical events, the press and the release of `a`, have been
processed, and `c` is down at the host. -/
theorem C03_fails_for_deferred_tap : runText b!"[main]
a = overload(control, timeout(b, 100, c))
" [press 30 10, release 30 20, wakeup 200] =
    some [.layer 1 true, .key 29 true, .layer 1 false, .key 29 false, .key 46 true] := by
  set_option maxRecDepth 100000 in decide +kernel

/-- `swap` into a layer that is already toggled leaks an activation: everything is
released, no layer is toggled or latched, and layer `other` is still active. -/
theorem C04_fails_for_swap : checkRun b!"[main]
a = toggle(nav)
b = toggle(other)
[nav]
c = swap(other)
[other]
" [press 30 10, release 30 20, press 48 30, release 48 40, press 46 50, release 46 60, press 48 70, release 48 80]
    (fun _ => true)
    (fun k => decide (AllReleased k ∧ ordinary k.config 7 = true ∧ (k.layerState 7).active = 1 ∧
      (k.layerState 7).toggled = false ∧ (k.layerState 7).oneshotDepth = 0)) = true := by
  set_option maxRecDepth 100000 in decide +kernel

/-- `swap` can make the daemon abort: it moves the wrong key to the new layer (one that
toggled the layer while it was held), and the release of the key that did hold the
layer then fails the assertion. -/
theorem C05_fails_for_swap : runErr b!"[main]
a = toggle(nav)
b = layer(nav)
[nav]
d = toggle(nav)
c = swap(other)
[other]
" [press 48 10, press 30 20, press 32 30, release 32 40, press 46 50, release 48 60] =
    some (.assertFail "deactivate_layer: active > 0") := by
  set_option maxRecDepth 100000 in decide +kernel

end Keyd
