import Verif.Proofs.LayerOps
import Verif.Proofs.QuietPress
import Verif.Props.Layers
import Verif.Spec.Witness

/-
  C11 (clear) and C23 (toggle).
-/

set_option autoImplicit false

namespace Keyd

attribute [local irreducible] configInit

/-! ### Specification -/

/-- 1 if layer `i`, an existing layer other than a layout, is toggled on. -/
def toggleShare (k : Kbd) (i : Nat) : Nat := if ordinary k.config i ∧ (k.layerState i).toggled then 1 else 0

/-- The outstanding one-shot activations of an existing layer. -/
def oneshotShare (k : Kbd) (i : Nat) : Nat :=
  if i < k.config.layers.length then (k.layerState i).oneshotDepth else 0

/-- What clearing does to a keyboard. -/
structure Cleared (k k' : Kbd) : Prop where
  /-- no output key is down -/
  keys : ∀ c, k'.keystate c = false
  /-- no layer is toggled on any more -/
  toggles : ∀ i, ordinary k.config i = true → (k'.layerState i).toggled = false
  /-- no one-shot is outstanding, and no one-shot deadline -/
  oneshots : (∀ i < k.config.layers.length, (k'.layerState i).oneshotDepth = 0) ∧
    k'.oneshotLatch = false ∧ k'.oneshotTimeout = 0
  /-- no macro is repeating -/
  mac : k'.activeMacro = none
  /-- every layer lost exactly its toggle and its one-shots -/
  counts : ∀ i, (k'.layerState i).active + toggleShare k i + oneshotShare k i = (k.layerState i).active
  /-- activation times and the binding tables are untouched -/
  rest : (∀ i, (k'.layerState i).activationTime = (k.layerState i).activationTime) ∧ k'.config = k.config
  /-- the host sees exactly one release of each key that was down, after the
  announcements of the deactivations -/
  outs : ∃ offs : List Out, (∀ o ∈ offs, o.isLayerOff = true) ∧
    k'.outputs = k.outputs ++ offs ++ (allCodes.filter k.keystate).map (fun c => Out.key c false)

/-! ### C11 -/

theorem ordinary_iff {c : Config} {i : Nat} :
    ordinary c i = true ↔ i < c.layers.length ∧ (c.layer i).type ≠ .layout := by
  unfold ordinary
  cases h : c.layers[i]? with
  | none =>
    have := List.getElem?_eq_none_iff.1 h
    simp only [Bool.false_eq_true, false_iff, not_and]
    omega
  | some l =>
    rw [layer_of_getElem h]
    have := (List.getElem?_eq_some_iff.1 h).1
    simp [this]

theorem clearable_iff {c : Config} (hmain : isLayout c 0 = true) {i : Nat} : clearable c i ↔ ordinary c i = true := by
  rw [ordinary_iff]
  unfold clearable
  constructor
  · rintro ⟨_, h1, h2⟩
    exact ⟨h1, h2⟩
  · rintro ⟨h1, h2⟩
    refine ⟨?_, h1, h2⟩
    rintro rfl
    unfold isLayout at hmain
    split at hmain
    · rename_i l hl
      rw [layer_of_getElem hl] at h2
      simp only [decide_eq_true_eq] at hmain
      exact h2 hmain
    · cases hmain

theorem clearShare_eq {k : Kbd} (hmain : isLayout k.config 0 = true) (i : Nat) :
    clearShare k i = oneshotShare k i + toggleShare k i := by
  unfold clearShare oneshotShare toggleShare
  simp only [clearable_iff hmain]

theorem clear_cleared {k k' : Kbd} (hmain : isLayout k.config 0 = true) (h : clear k = .ok k') : Cleared k k' := by
  obtain ⟨⟨os1, os2, a1, a2, rfl⟩, hle⟩ := clear_exact h
  refine ⟨fun _ => rfl, ?_, ⟨?_, rfl, rfl⟩, rfl, ?_, ⟨fun _ => rfl, rfl⟩, os1.reverse ++ os2.reverse, ?_, ?_⟩
  · intro i hi
    show ((k.layerState i).toggled && !decide (clearable k.config i)) = false
    simp [clearable_iff hmain, hi]
  · intro i hi
    show (if i < k.config.layers.length then 0 else (k.layerState i).oneshotDepth) = 0
    simp [hi]
  · intro i
    show (clearedLayer k i).active + _ + _ = _
    have := hle i
    unfold clearedLayer
    unfold clearShare at this
    unfold toggleShare oneshotShare
    simp only [clearable_iff hmain] at this ⊢
    omega
  · intro o ho
    rcases List.mem_append.1 ho with h | h
    · exact a1 o (List.mem_reverse.1 h)
    · exact a2 o (List.mem_reverse.1 h)
  · simp [Kbd.outputs]

theorem Cleared.map {a b k k' : Kbd} (h : Cleared k k') (e1 : a.keystate = k.keystate) (e2 : a.layerState = k.layerState)
    (e3 : a.config = k.config) (e4 : a.trace = k.trace) (f1 : b.keystate = k'.keystate)
    (f2 : b.layerState = k'.layerState) (f3 : b.config = k'.config) (f4 : b.trace = k'.trace)
    (f5 : b.oneshotLatch = k'.oneshotLatch) (f6 : b.oneshotTimeout = k'.oneshotTimeout)
    (f7 : b.activeMacro = k'.activeMacro) : Cleared a b := by
  obtain ⟨h1, h2, h3, h4, h5, h6, h7⟩ := h
  refine ⟨?_, ?_, ?_, ?_, ?_, ?_, ?_⟩
  · intro c; rw [f1]; exact h1 c
  · rw [e3, f2]; exact h2
  · rw [e3, f2, f5, f6]; exact h3
  · rw [f7]; exact h4
  · unfold toggleShare oneshotShare at h5 ⊢; rw [e2, e3, f2]; exact h5
  · rw [e2, e3, f2, f3]; exact h6
  · unfold Kbd.outputs at h7 ⊢; rw [e1, e4, f4]; exact h7

/-- C11: pressing a key bound to `clear()` releases every output key, drops every
toggle and every one-shot and nothing else, and stops a repeating macro. -/
theorem C11_clear {n : Nat} {k k' : Kbd} {code : Code} {dl : Nat} {time : Int} (hmain : isLayout k.config 0 = true)
    (h : processDescriptor n k code .clear dl true time = .ok k') :
    Cleared k k' ∧ k'.cache = k.cache ∧ k'.pending = k.pending ∧ k'.timeouts = k.timeouts := by
  cases n with
  | zero => cases h
  | succ n =>
    unfold processDescriptor pdMacroPrefix pdSwitch at h
    simp only [if_true] at h
    rw [bind_eq_ok] at h
    obtain ⟨k1, h1, h2⟩ := h
    rw [Except.ok.injEq] at h2
    subst h2
    have hc := (Calm.clear k).of_ok h1
    refine ⟨(clear_cleared hmain h1).map rfl rfl rfl rfl rfl rfl rfl rfl rfl rfl rfl, ?_, ?_, ?_⟩
    · have := h1
      unfold clear at this
      rw [bind_eq_ok] at this
      obtain ⟨a, ha, this⟩ := this
      rw [bind_eq_ok] at this
      obtain ⟨b, hb, this⟩ := this
      rw [resetKeystate_spec, Except.ok.injEq] at this
      obtain ⟨_, _, rfl, _⟩ := clearOneshot_spec ha
      obtain ⟨_, _, rfl, _⟩ := clearToggled_spec _ (by unfold nonMainLayers; exact List.Nodup.sublist (List.drop_sublist _ _) List.nodup_range) _ _ hb
      rw [← this]
    · exact hc.pending
    · have := h1
      unfold clear at this
      rw [bind_eq_ok] at this
      obtain ⟨a, ha, this⟩ := this
      rw [bind_eq_ok] at this
      obtain ⟨b, hb, this⟩ := this
      rw [resetKeystate_spec, Except.ok.injEq] at this
      obtain ⟨_, _, rfl, _⟩ := clearOneshot_spec ha
      obtain ⟨_, _, rfl, _⟩ := clearToggled_spec _ (by unfold nonMainLayers; exact List.Nodup.sublist (List.drop_sublist _ _) List.nodup_range) _ _ hb
      rw [← this]

/-- C11, event level: the press event of a key that is up, bound to `clear()`, when
no chord, undecided key, deadline or macro is waiting. -/
theorem C11_clear_event {n : Nat} {k k' : Kbd} {code : Code} {dl : Nat} {time wait : Int}
    (hmain : isLayout k.config 0 = true) (hq : Undisturbed k code time) (hf : Fresh k code)
    (hb : lookupDescriptor k code = (.clear, dl))
    (h : processEvent n k code true time = .ok (k', wait)) : Cleared k k' := by
  cases n with
  | zero => cases h
  | succ n =>
    rw [processEvent_press hq hf, hb, bind_eq_ok] at h
    obtain ⟨k1, h1, h2⟩ := h
    rw [Except.ok.injEq] at h2
    have hk : k' = (calculateMainLoopTimeout k1 time).1 := by rw [h2]
    subst hk
    have h1' : processDescriptor (descBudget k) (pressEntry k code .clear dl time) code .clear dl true time = .ok k1 := h1
    have hm : isLayout (pressEntry k code .clear dl time).config 0 = true := hmain
    exact (C11_clear hm h1').1.map rfl rfl rfl rfl rfl rfl rfl rfl rfl rfl rfl

/-- C11: `clear(macro)` is `clear()` followed by the macro. -/
theorem C11_clear_macro {n : Nat} {k k' : Kbd} {code : Code} {dl m : Nat} {time : Int}
    (hmain : isLayout k.config 0 = true) (h : processDescriptor n k code (.clearm m) dl true time = .ok k') :
    ∃ k1, Cleared k k1 ∧ k' = { executeMacro k1 dl (k1.config.mac m) with lastPressedCode := code } := by
  cases n with
  | zero => cases h
  | succ n =>
    unfold processDescriptor pdMacroPrefix pdSwitch at h
    simp only [if_true] at h
    rw [bind_eq_ok] at h
    obtain ⟨k1, h1, h2⟩ := h
    rw [bind_eq_ok] at h1
    obtain ⟨k0, h0, h1⟩ := h1
    rw [Except.ok.injEq] at h1 h2
    subst h1 h2
    exact ⟨k0, clear_cleared hmain h0, rfl⟩

/-- `clear()` cannot fail as long as every layer is active at least as often as it is
toggled and one-shot. -/
theorem C11_clear_succeeds {k : Kbd} (hmain : isLayout k.config 0 = true)
    (hle : ∀ i, toggleShare k i + oneshotShare k i ≤ (k.layerState i).active) : ∃ k', clear k = .ok k' :=
  clear_succeeds fun i => by rw [clearShare_eq hmain, Nat.add_comm]; exact hle i

/-- The hypothesis of the theorems above holds throughout every history. -/
theorem C11_main_is_layout (c : Config) (hb : Bound c) (k : Kbd) (h : HistoryOf c k) : isLayout k.config 0 = true := by
  have hw := (layerFacts_history (C27_wellformed c hb) h).1.wf
  obtain ⟨l, ls, e, _, ht⟩ := hw.mainFirst
  unfold isLayout
  rw [e]
  simp [ht]

/-! ### C23 -/

/-- What pressing a toggle key of layer `l` does to the layers. -/
structure Toggled (l : Nat) (k k' : Kbd) : Prop where
  /-- the toggle flips, the others stay -/
  flip : (k'.layerState l).toggled = !(k.layerState l).toggled
  others : ∀ i, i ≠ l → (k'.layerState i).toggled = (k.layerState i).toggled
  /-- switched on: one more activation; off: one less. (Outstanding one-shots end,
  as with any key.) -/
  on : (k.layerState l).toggled = false →
    (k'.layerState l).active + oneshotShare k l = (k.layerState l).active + 1
  off : (k.layerState l).toggled = true →
    (k'.layerState l).active + oneshotShare k l + 1 = (k.layerState l).active
  /-- other layers lose their one-shots only -/
  counts : ∀ i, i ≠ l → (k'.layerState i).active + oneshotShare k i = (k.layerState i).active
  oneshots : ∀ i < k.config.layers.length, (k'.layerState i).oneshotDepth = 0
  config : k'.config = k.config

theorem activateLayer_ok {k k' : Kbd} {code : Code} {i : Nat} (h : activateLayer k code i = .ok k') :
    ∃ cache', k' = { k with
      clock := k.clock + 1
      cache := cache'
      layerState := upd k.layerState i { k.layerState i with active := (k.layerState i).active + 1, activationTime := k.clock }
      trace := .layer i true :: k.trace } := by
  unfold activateLayer at h
  dsimp only at h
  split at h
  · cases h
  · rw [Except.ok.injEq] at h
    subst h
    exact ⟨_, rfl⟩

theorem pdToggle_spec {k k' : Kbd} {code : Code} {l : Nat} (h : pdToggle k code l = .ok k') : Toggled l k k' := by
  unfold pdToggle at h
  rw [bind_eq_ok] at h
  obtain ⟨k1, h1, h⟩ := h
  have key : ∃ a, k1.config = k.config ∧ (∀ i, i ≠ l → k1.layerState i = k.layerState i) ∧
      (k1.layerState l).active = a ∧ (k1.layerState l).toggled = !(k.layerState l).toggled ∧
      (k1.layerState l).oneshotDepth = (k.layerState l).oneshotDepth ∧
      ((k.layerState l).toggled = false → a = (k.layerState l).active + 1) ∧
      ((k.layerState l).toggled = true → a + 1 = (k.layerState l).active) := by
    split at h1
    · rename_i ht
      have htf : (k.layerState l).toggled = false := by simpa [Kbd.modLayer] using ht
      obtain ⟨ch, rfl⟩ := activateLayer_ok h1
      refine ⟨_, rfl, ?_, rfl, ?_, ?_, ?_, ?_⟩
      · intro i hi; simp [Kbd.modLayer, upd_other _ _ hi]
      · simp [Kbd.modLayer]
      · simp [Kbd.modLayer]
      · intro _; simp [Kbd.modLayer]
      · intro e; rw [htf] at e; cases e
    · rename_i ht
      have htt : (k.layerState l).toggled = true := by simpa [Kbd.modLayer] using ht
      obtain ⟨hpos, rfl⟩ := deactivateLayer_ok.1 h1
      refine ⟨_, rfl, ?_, rfl, ?_, ?_, ?_, ?_⟩
      · intro i hi; simp [Kbd.modLayer, Kbd.emit, upd_other _ _ hi]
      · simp [Kbd.modLayer, Kbd.emit]
      · simp [Kbd.modLayer, Kbd.emit]
      · intro e; rw [htt] at e; cases e
      · intro _
        simp [Kbd.modLayer] at hpos
        simp [Kbd.modLayer, Kbd.emit]
        omega
  obtain ⟨a, e1, e2, e3, e4, e5, e6, e7⟩ := key
  have hf := KeyFrame.updateMods k1 none 0
  obtain ⟨ls, os, rfl, g1, g2, g3⟩ := clearOneshot_spec h
  rw [hf.config, hf.layerState, e1] at g2 g3
  have hsame : ∀ i, (k1.layerState i).oneshotDepth = (k.layerState i).oneshotDepth := by
    intro i
    by_cases hi : i = l
    · subst hi; exact e5
    · rw [e2 i hi]
  have hact : ∀ i, (ls i).active + oneshotShare k i = (k1.layerState i).active := by
    intro i
    unfold oneshotShare
    rw [g3 i]
    by_cases hlt : i < k.config.layers.length
    · have := g2 i hlt
      rw [hsame] at this
      simp only [if_pos hlt, hsame]
      omega
    · simp only [if_neg hlt, Nat.add_zero]
  have htog : ∀ i, (ls i).toggled = (k1.layerState i).toggled := by
    intro i; rw [g3 i]; split <;> rfl
  refine ⟨?_, ?_, ?_, ?_, ?_, ?_, ?_⟩
  · show (ls l).toggled = _
    rw [htog, e4]
  · intro i hi
    show (ls i).toggled = _
    rw [htog, e2 i hi]
  · intro ht
    show (ls l).active + _ = _
    rw [hact, e3, e6 ht]
  · intro ht
    show (ls l).active + _ + 1 = _
    rw [hact, e3, e7 ht]
  · intro i hi
    show (ls i).active + _ = _
    rw [hact, e2 i hi]
  · intro i hi
    show (ls i).oneshotDepth = 0
    rw [g3 i, if_pos hi]
  · show (updateMods k1 none 0).config = _
    rw [hf.config, e1]

theorem Toggled.map {l : Nat} {a b k k' : Kbd} (h : Toggled l k k') (e1 : a.layerState = k.layerState)
    (e2 : a.config = k.config) (f1 : b.layerState = k'.layerState) (f2 : b.config = k'.config) : Toggled l a b := by
  obtain ⟨h1, h2, h3, h4, h5, h6, h7⟩ := h
  unfold oneshotShare at h3 h4 h5
  constructor <;> simp only [oneshotShare, e1, e2, f1, f2] <;> assumption

/-- C23: pressing a toggle key flips whether the layer is toggled and changes its
activation count by exactly one accordingly. -/
theorem C23_toggle {n : Nat} {k k' : Kbd} {code : Code} {l dl : Nat} {time : Int}
    (h : processDescriptor n k code (.toggle l) dl true time = .ok k') : Toggled l k k' := by
  cases n with
  | zero => cases h
  | succ n =>
    unfold processDescriptor pdMacroPrefix pdSwitch at h
    simp only [if_true] at h
    rw [bind_eq_ok] at h
    obtain ⟨k1, h1, h2⟩ := h
    rw [Except.ok.injEq] at h2
    subst h2
    exact (pdToggle_spec h1).map rfl rfl rfl rfl

/-- The same for a toggle with a macro. -/
theorem C23_toggle_macro {n : Nat} {k k' : Kbd} {code : Code} {l m dl : Nat} {time : Int}
    (h : processDescriptor n k code (.togglem l m) dl true time = .ok k') : Toggled l k k' := by
  cases n with
  | zero => cases h
  | succ n =>
    unfold processDescriptor pdMacroPrefix pdSwitch at h
    simp only [if_true] at h
    rw [bind_eq_ok] at h
    obtain ⟨k1, h1, h2⟩ := h
    rw [Except.ok.injEq] at h2
    subst h2
    have hf := KeyFrame.executeMacro k dl (k.config.mac m)
    exact (pdToggle_spec h1).map hf.layerState.symm hf.config.symm rfl rfl

/-- C23, event level. -/
theorem C23_toggle_event {n : Nat} {k k' : Kbd} {code : Code} {l dl : Nat} {time wait : Int}
    (hq : Undisturbed k code time) (hf : Fresh k code) (hb : lookupDescriptor k code = (.toggle l, dl))
    (h : processEvent n k code true time = .ok (k', wait)) : Toggled l k k' := by
  cases n with
  | zero => cases h
  | succ n =>
    rw [processEvent_press hq hf, hb, bind_eq_ok] at h
    obtain ⟨k1, h1, h2⟩ := h
    rw [Except.ok.injEq] at h2
    have hk : k' = (calculateMainLoopTimeout k1 time).1 := by rw [h2]
    subst hk
    have h1' : processDescriptor (descBudget k) (pressEntry k code (.toggle l) dl time) code (.toggle l) dl true time
      = .ok k1 := h1
    exact (C23_toggle h1').map rfl rfl rfl rfl

/-- Releasing a toggle key does nothing to the layers. -/
theorem C23_toggle_release {n : Nat} {k k' : Kbd} {code : Code} {l dl : Nat} {time : Int}
    (h : processDescriptor n k code (.toggle l) dl false time = .ok k') : k' = k := by
  cases n with
  | zero => cases h
  | succ n =>
    unfold processDescriptor pdMacroPrefix pdSwitch at h
    simp only [Bool.false_eq_true, if_false, bind_ok, Except.ok.injEq] at h
    exact h.symm

/-- C23: two presses restore both, whatever happened in between to anything but
this layer; the activations lost are exactly the one-shots that were outstanding. -/
theorem C23_toggle_twice {l : Nat} {k k1 k2 k3 : Kbd} (h1 : Toggled l k k1)
    (hmid : (k2.layerState l).toggled = (k1.layerState l).toggled ∧
      (k2.layerState l).active = (k1.layerState l).active ∧
      (k2.layerState l).oneshotDepth = (k1.layerState l).oneshotDepth ∧ k2.config = k1.config)
    (h2 : Toggled l k2 k3) :
    (k3.layerState l).toggled = (k.layerState l).toggled ∧
    (k3.layerState l).active + oneshotShare k l = (k.layerState l).active := by
  obtain ⟨m1, m2, m3, m4⟩ := hmid
  have hs2 : oneshotShare k2 l = 0 := by
    unfold oneshotShare
    rw [m3, m4, h1.config]
    split
    · rename_i hlt; exact h1.oneshots l hlt
    · rfl
  refine ⟨by rw [h2.flip, m1, h1.flip, Bool.not_not], ?_⟩
  cases ht : (k.layerState l).toggled
  · have a1 := h1.on ht
    have a2 := h2.off (by rw [m1, h1.flip, ht]; rfl)
    rw [hs2, m2] at a2
    omega
  · have a1 := h1.off ht
    have a2 := h2.on (by rw [m1, h1.flip, ht]; rfl)
    rw [hs2, m2] at a2
    omega

/-! ### The hypotheses are met -/

/-- A keyboard with a toggled layer and a held key, about to press the clear key:
`h` toggles layer `nav` (layer 6), `c` is held, then `x` (45) clears. -/
theorem C11_example : checkRun b!"[ids]\n*\n[main]\nh = toggle(nav)\nx = clear()\n[nav]\nz = a\n"
    [press 35 0, release 35 5, press 46 10] (fun _ => true)
    (fun k => quietCheck k 45 20 && freshCheck k 45 && decide (lookupDescriptor k 45 = (.clear, 0)) &&
      isLayout k.config 0 && (k.layerState 6).toggled && k.keystate 46 &&
      (match processEvent 1 k 45 true 20 with
        | .ok (k', _) => !k'.keystate 46 && decide ((k'.layerState 6).active = 0)
        | .error _ => false)) = true := by
  set_option maxRecDepth 100000 in decide +kernel

/-- The same keyboard about to toggle the layer off again. -/
theorem C23_example : checkRun b!"[ids]\n*\n[main]\nh = toggle(nav)\nx = clear()\n[nav]\nz = a\n"
    [press 35 0, release 35 5, press 46 10] (fun _ => true)
    (fun k => quietCheck k 35 20 && freshCheck k 35 && decide (lookupDescriptor k 35 = (.toggle 6, 0)) &&
      (k.layerState 6).toggled && decide ((k.layerState 6).active = 1) &&
      (match processEvent 1 k 35 true 20 with
        | .ok (k', _) => !(k'.layerState 6).toggled && decide ((k'.layerState 6).active = 0)
        | .error _ => false)) = true := by
  set_option maxRecDepth 100000 in decide +kernel

end Keyd
