import Verif.Proofs.Frames
import Verif.Spec.Run

/-
  C09 (held modifiers are exactly those asked for) and C10 (modifier guard).
-/

set_option autoImplicit false

namespace Keyd

/-! ### Specification -/

/-- The five modifiers: their mask in modifier sets and their key. -/
def modifierKeys : List (UInt8 × Code) :=
  [(MOD_CTRL, KEYD.LEFTCTRL), (MOD_SHIFT, KEYD.LEFTSHIFT), (MOD_ALT, KEYD.LEFTALT),
   (MOD_ALT_GR, KEYD.RIGHTALT), (MOD_SUPER, KEYD.LEFTMETA)]

/-- Layer `i` is excluded when modifiers are computed for a binding that comes
from layer `ex`: it is that layer, or one of the layers it is composed of. -/
def Excluded (c : Config) (ex : Option Nat) (i : Nat) : Prop :=
  ∃ (e : Nat) (l : Layer), ex = some e ∧ c.layers[e]? = some l ∧
    (i = e ∨ (l.type = .composite ∧ i ∈ l.constituents))

/-- Modifier `mask` is asked for: explicitly, or by an active layer that is not
excluded. -/
def Requested (k : Kbd) (ex : Option Nat) (mods mask : UInt8) : Prop :=
  mods &&& mask ≠ 0 ∨
  ∃ (i : Nat) (l : Layer), k.config.layers[i]? = some l ∧ (k.layerState i).active ≠ 0 ∧
    ¬ Excluded k.config ex i ∧ l.mods &&& mask ≠ 0

/-! ### C09 -/

theorem or_and_ne_zero (a b m : UInt8) : (a ||| b) &&& m ≠ 0 ↔ a &&& m ≠ 0 ∨ b &&& m ≠ 0 := by
  have : (a ||| b) &&& m = (a &&& m) ||| (b &&& m) := by
    apply UInt8.eq_of_toBitVec_eq
    simp only [UInt8.toBitVec_and, UInt8.toBitVec_or]
    ext i hi
    simp [Bool.and_or_distrib_right]
  rw [this, Ne, UInt8.or_eq_zero_iff, Classical.not_and_iff_not_or_not]

theorem and_comm8 (a b : UInt8) : a &&& b = b &&& a := by
  apply UInt8.eq_of_toBitVec_eq
  simp only [UInt8.toBitVec_and]
  exact BitVec.and_comm _ _

theorem foldl_or (mask : UInt8) (f : Nat → UInt8) (p : Nat → Bool) : ∀ (l : List Nat) (m : UInt8),
    (l.foldl (fun m i => if p i = true then m ||| f i else m) m) &&& mask ≠ 0 ↔
      m &&& mask ≠ 0 ∨ ∃ i ∈ l, p i = true ∧ f i &&& mask ≠ 0
  | [], m => by simp
  | i :: l, m => by
    rw [List.foldl_cons, foldl_or mask f p l]
    by_cases h : p i = true
    · rw [if_pos h, or_and_ne_zero]
      simp only [List.mem_cons, exists_eq_or_imp, h, true_and, or_assoc]
    · rw [if_neg h]
      simp [h]

theorem config_layer_some {c : Config} {i : Nat} {l : Layer} (h : c.layers[i]? = some l) :
    c.layer i = l := by
  unfold Config.layer; simp [h]

theorem modExcluded_iff (c : Config) (ex : Option Nat) (i : Nat) (hi : i < c.layers.length) :
    modExcluded c ex i = true ↔ Excluded c ex i := by
  unfold modExcluded Excluded
  cases ex with
  | none => simp
  | some e =>
    simp only [Option.some.injEq]
    cases hl : c.layers[e]? with
    | none =>
      have hd : c.layer e = {} := by unfold Config.layer; simp [hl]
      have hne : i ≠ e := by
        rintro rfl
        rw [List.getElem?_eq_none_iff] at hl
        omega
      rw [hd]
      simp only [decide_eq_true_eq]
      constructor
      · rintro (h | ⟨h, _⟩)
        · exact absurd h hne
        · cases h
      · rintro ⟨e', l, rfl, h, _⟩
        rw [hl] at h; cases h
    | some l =>
      rw [config_layer_some hl]
      simp only [decide_eq_true_eq]
      constructor
      · intro h; exact ⟨e, l, rfl, hl, h⟩
      · rintro ⟨e', l', rfl, h, h'⟩
        rw [hl] at h; cases h; exact h'

theorem layerMods_requested (k : Kbd) (ex : Option Nat) (mods mask : UInt8) :
    layerMods k ex mods &&& mask ≠ 0 ↔ Requested k ex mods mask := by
  unfold layerMods Requested
  have h := foldl_or mask (fun i => (k.config.layer i).mods)
    (fun i => decide (k.isActive i = true ∧ (!modExcluded k.config ex i) = true))
    (List.range k.config.layers.length) mods
  simp only [decide_eq_true_eq] at h
  rw [h]
  refine or_congr Iff.rfl ?_
  constructor
  · rintro ⟨i, hi, ⟨h1, h2⟩, h3⟩
    rw [List.mem_range] at hi
    refine ⟨i, k.config.layers[i], List.getElem?_eq_getElem hi, ?_, ?_, ?_⟩
    · simpa [Kbd.isActive] using h1
    · rw [← modExcluded_iff _ _ _ hi]; simpa using h2
    · rw [config_layer_some (List.getElem?_eq_getElem hi)] at h3; exact h3
  · rintro ⟨i, l, hl, h1, h2, h3⟩
    have hi : i < k.config.layers.length := by
      rcases Nat.lt_or_ge i k.config.layers.length with h | h
      · exact h
      · rw [List.getElem?_eq_none h] at hl; cases hl
    refine ⟨i, List.mem_range.2 hi, ⟨?_, ?_⟩, ?_⟩
    · simpa [Kbd.isActive] using h1
    · rw [← modExcluded_iff _ _ _ hi] at h2; simpa using h2
    · rw [config_layer_some hl]; exact h3

theorem modifiers_find : ∀ m ∈ modifierKeys,
    modifiers.find? (fun x => x.2 = m.2) = some m := by decide

/-- C09. After the engine has recomputed the modifiers for a binding from layer
`ex` with explicit modifiers `mods`, each modifier key is down iff it is asked
for. -/
theorem C09_modifiers_exact (k : Kbd) (ex : Option Nat) (mods : UInt8) (mask : UInt8) (key : Code)
    (hm : (mask, key) ∈ modifierKeys) :
    (updateMods k ex mods).keystate key = true ↔ Requested k ex mods mask := by
  unfold updateMods
  rw [setMods_keystate, modifiers_find _ hm]
  simp only [decide_eq_true_eq]
  rw [and_comm8, layerMods_requested]

theorem modifiers_find_none : ∀ c : Code, (∀ m ∈ modifierKeys, c ≠ m.2) →
    modifiers.find? (fun x => x.2 = c) = none := by
  intro c h
  rw [List.find?_eq_none]
  intro x hx
  simp only [decide_eq_true_eq]
  rintro rfl
  have : ∀ x ∈ modifiers, x ∈ modifierKeys := by decide
  exact h x (this x hx) rfl

/-- C09. No other key changes state. -/
theorem C09_other_keys_unchanged (k : Kbd) (ex : Option Nat) (mods : UInt8) (c : Code)
    (h : ∀ m ∈ modifierKeys, c ≠ m.2) : (updateMods k ex mods).keystate c = k.keystate c := by
  unfold updateMods
  rw [setMods_keystate, modifiers_find_none c h]

theorem clearOneshotLayer_trace (i : Nat) : ∀ (n : Nat) (k k' : Kbd),
    clearOneshotLayer i n k = .ok k' →
    ∃ os, k'.trace = os ++ k.trace ∧ ∀ o ∈ os, o = .layer i false
  | 0, k, k', h => by cases h; exact ⟨[], rfl, by simp⟩
  | n+1, k, k', h => by
    unfold clearOneshotLayer at h
    rw [bind_eq_ok] at h
    obtain ⟨k1, h1, h2⟩ := h
    unfold deactivateLayer at h1
    dsimp only at h1
    split at h1
    · cases h1
    · cases h1
      obtain ⟨os, ho, hall⟩ := clearOneshotLayer_trace i n _ _ h2
      refine ⟨os ++ [.layer i false], by rw [ho]; simp [Kbd.modLayer, Kbd.emit], ?_⟩
      intro o hmem
      rcases List.mem_append.1 hmem with h | h
      · exact hall o h
      · simpa using h

theorem clearOneshotLayers_trace : ∀ (l : List Nat) (k k' : Kbd), clearOneshotLayers l k = .ok k' →
    ∃ os, k'.trace = os ++ k.trace ∧ ∀ o ∈ os, ∃ i, o = .layer i false
  | [], k, k', h => by cases h; exact ⟨[], rfl, by simp⟩
  | i :: is, k, k', h => by
    unfold clearOneshotLayers at h
    rw [bind_eq_ok] at h
    obtain ⟨k1, h1, h2⟩ := h
    obtain ⟨os, ho, hall⟩ := clearOneshotLayer_trace i _ _ _ h1
    obtain ⟨os', ho', hall'⟩ := clearOneshotLayers_trace is _ _ h2
    refine ⟨os' ++ os, by rw [ho', ho]; simp, ?_⟩
    intro o hmem
    rcases List.mem_append.1 hmem with h | h
    · exact hall' o h
    · exact ⟨i, hall o h⟩

/-- C09, as seen by the host: when a key bound to a key sequence with modifiers
`mods`, supplied by layer `dl`, is pressed, the key's down event is sent at a
moment when exactly the requested modifiers are down; what follows is only layer
bookkeeping. -/
theorem C09_key_down_with_modifiers (k k' : Kbd) (code : Code) (mods : UInt8) (dl : Nat) (t : Int)
    (hc : RealKey code) (hn : ∀ m ∈ modifierKeys, code ≠ m.2)
    (h : pdKeyseq k code mods dl true t = .ok k') :
    ∃ (at_ : Kbd) (os : List Out), k'.trace = os ++ .key code true :: at_.trace ∧
      (∀ o ∈ os, ∃ i, o = .layer i false) ∧
      ∀ mask key, (mask, key) ∈ modifierKeys → (at_.keystate key = true ↔ Requested k (some dl) mods mask) := by
  unfold pdKeyseq at h
  simp only [if_true] at h
  rw [bind_eq_ok] at h
  obtain ⟨k1, h1, h2⟩ := h
  have hk' : k'.trace = k1.trace := by cases h2; split <;> rfl
  obtain ⟨k0, hk0⟩ : ∃ k0, k0 = (if k.keystate code = true then sendKey k code false else k) := ⟨_, rfl⟩
  rw [← hk0] at h1
  have hcode : k0.keystate code = false := by
    rw [hk0]
    split
    · rw [sendKey_keystate _ _ _ hc.1 hc.2]; simp
    · rename_i hx; simpa using hx
  have hframe : KeyFrame k k0 := by
    rw [hk0]
    split
    · exact .send _ _ _
    · exact .refl _
  have hup : (updateMods k0 (some dl) mods).keystate code = false := by
    rw [C09_other_keys_unchanged _ _ _ _ hn, hcode]
  have hsend : (sendKey (updateMods k0 (some dl) mods) code true).trace =
      .key code true :: (updateMods k0 (some dl) mods).trace := by
    unfold sendKey
    rw [if_neg (by simp [hc.1, hc.2])]
    simp [hup, Kbd.emit]
  unfold clearOneshot at h1
  rw [bind_eq_ok] at h1
  obtain ⟨k2, h3, h4⟩ := h1
  obtain ⟨os, ho, hall⟩ := clearOneshotLayers_trace _ _ _ h3
  refine ⟨updateMods k0 (some dl) mods, os, ?_, hall, ?_⟩
  · cases h4
    rw [hk', ho, hsend]
  · intro mask key hm
    rw [C09_modifiers_exact _ _ _ _ _ hm]
    unfold Requested
    rw [hframe.config, hframe.layerState]

/-- Non-vacuity of C09: `[shift:S]` style layers ask for modifiers; here a layer with
control is held while `a = S-b` is pressed, and both modifiers are down. -/
example : ∃ k, Reach (fun _ => True) k ∧
    (k.outputs = [.layer 6 true, .key KEYD.LEFTCTRL true, .key KEYD.LEFTSHIFT true, .key 48 true]) := by
  have h : checkRun b!"[ids]\n*\n[main]\nx = layer(foo)\na = S-b\n[foo:C]" [press 45 0, press 30 1]
      (fun _ => true) (fun k => decide (k.outputs =
        [.layer 6 true, .key KEYD.LEFTCTRL true, .key KEYD.LEFTSHIFT true, .key 48 true])) = true := by
    set_option maxRecDepth 100000 in decide +kernel
  obtain ⟨k, hk, hq⟩ := checkRun_reach (cfg := fun _ => True) h (fun _ _ => trivial)
  exact ⟨k, hk, of_decide_eq_true hq⟩

/-! ### C10 -/

/-- The keys covered by the modifier guard. -/
def guardedKeys : List Code := [KEYD.LEFTMETA, KEYD.LEFTALT, KEYD.RIGHTALT]

theorem sendKey_outputs (k : Kbd) (c : Code) (b : Bool) (hc : RealKey c) :
    (sendKey k c b).outputs = k.outputs ++ (if k.keystate c = b then [] else [.key c b]) := by
  unfold sendKey Kbd.outputs
  rw [if_neg (by simp [hc.1, hc.2])]
  dsimp only
  cases b <;> cases h : k.keystate c <;> simp [h, Kbd.emit]

theorem guardedKeys_real : ∀ c ∈ guardedKeys, RealKey c ∧ c ≠ KEYD.LEFTCTRL := by
  unfold RealKey; decide

/-- C10. With the guard enabled, releasing a guarded modifier straight after it was
pressed is wrapped in a tap of left control, unless control is already down. -/
theorem C10_guarded_release (k : Kbd) (key : Code) (hg : key ∈ guardedKeys)
    (hdown : k.keystate key = true) (hlast : k.lastPressedOutputCode = key)
    (hen : k.config.disableModifierGuard = 0) (hin : k.inhibitModifierGuard = false) :
    (clearMod k key).outputs = k.outputs ++
      (if k.keystate KEYD.LEFTCTRL = true then [.key key false]
       else [.key KEYD.LEFTCTRL true, .key key false, .key KEYD.LEFTCTRL false]) := by
  obtain ⟨hr, hne⟩ := guardedKeys_real key hg
  have hga : guardApplies k key = true := by
    unfold guardApplies
    simp only [guardedKeys, List.mem_cons, List.not_mem_nil, or_false] at hg
    simp [hlast, hin, hen, hg]
  unfold clearMod
  by_cases hctl : k.keystate KEYD.LEFTCTRL = true
  · rw [if_neg (by simp [hctl]), if_pos hctl, sendKey_outputs _ _ _ hr, hdown]
    simp
  · have hctl' : k.keystate KEYD.LEFTCTRL = false := by simpa using hctl
    have hrc : RealKey KEYD.LEFTCTRL := by unfold RealKey; decide
    rw [if_pos (by simp [hga, hctl']), if_neg hctl, sendKey_outputs _ _ _ hrc, sendKey_outputs _ _ _ hr,
      sendKey_outputs _ _ _ hrc, sendKey_keystate _ _ _ hr.1 hr.2, sendKey_keystate _ _ _ hrc.1 hrc.2, hctl']
    simp [upd, hne, Ne.symm hne, hdown]

/-- C10. When the guard is disabled or inhibited, or the modifier was not the last
key pressed, or it is not a guarded one, exactly the release is emitted. -/
theorem C10_unguarded_release (k : Kbd) (key : Code) (hr : RealKey key) (hdown : k.keystate key = true)
    (h : k.config.disableModifierGuard ≠ 0 ∨ k.inhibitModifierGuard = true ∨
      k.lastPressedOutputCode ≠ key ∨ key ∉ guardedKeys) :
    (clearMod k key).outputs = k.outputs ++ [.key key false] := by
  have hga : guardApplies k key = false := by
    unfold guardApplies
    simp only [guardedKeys, List.mem_cons, List.not_mem_nil, or_false] at h
    rcases h with h | h | h | h <;> simp [h]
  unfold clearMod
  rw [if_neg (by simp [hga]), sendKey_outputs _ _ _ hr, hdown]
  simp

/-- Between `k` and `k'` nothing was sent about `g`, and either no key at all was
pressed or some other key was. -/
def Quiet (g : Code) (k k' : Kbd) : Prop :=
  ∃ os, k'.outputs = k.outputs ++ os ∧ (∀ b, Out.key g b ∉ os) ∧
    (k'.lastPressedOutputCode = k.lastPressedOutputCode ∨ ∃ x, x ≠ g ∧ Out.key x true ∈ os)

theorem Quiet.refl (g : Code) (k : Kbd) : Quiet g k k := ⟨[], by simp, by simp, .inl rfl⟩

theorem Quiet.trans {g : Code} {a b c : Kbd} (h : Quiet g a b) (h' : Quiet g b c) : Quiet g a c := by
  obtain ⟨os, h1, h2, h3⟩ := h
  obtain ⟨os', h1', h2', h3'⟩ := h'
  refine ⟨os ++ os', by rw [h1', h1]; simp, ?_, ?_⟩
  · intro x hx
    rcases List.mem_append.1 hx with h | h
    · exact h2 _ h
    · exact h2' _ h
  · rcases h3' with h | ⟨x, hx, hm⟩
    · rcases h3 with h' | ⟨x, hx, hm⟩
      · exact .inl (h.trans h')
      · exact .inr ⟨x, hx, by simp [hm]⟩
    · exact .inr ⟨x, hx, by simp [hm]⟩

theorem Quiet.up {g : Code} (k : Kbd) (c : Code) (hr : RealKey c) (hc : c ≠ g) :
    Quiet g k (sendKey k c false) := by
  refine ⟨_, sendKey_outputs k c false hr, ?_, .inl ?_⟩
  · intro b; split
    · simp
    · simp; intro h; exact absurd h.symm hc
  · unfold sendKey; rw [if_neg (by simp [hr.1, hr.2])]; cases h : k.keystate c <;> simp [h, Kbd.emit]

theorem Quiet.down {g : Code} (k : Kbd) (c : Code) (hr : RealKey c) (hc : c ≠ g)
    (hk : k.keystate c = false) : Quiet g k (sendKey k c true) := by
  refine ⟨_, sendKey_outputs k c true hr, ?_, .inr ⟨c, hc, ?_⟩⟩
  · intro b; split
    · simp
    · simp; intro h; exact absurd h.symm hc
  · simp [hk]

theorem Quiet.setMod (g : Code) (hg : g ≠ KEYD.LEFTCTRL) (mods : UInt8) (k : Kbd) (m : UInt8 × Code)
    (hr : RealKey m.2) (hm : m.2 ≠ g) : Quiet g k (setMod mods k m) := by
  unfold Keyd.setMod
  split
  · split
    · exact .refl _ _
    · rename_i h; exact .down _ _ hr hm (by simpa using h)
  · split
    · unfold clearMod
      have hrc : RealKey KEYD.LEFTCTRL := by unfold RealKey; decide
      split
      · rename_i h
        exact ((Quiet.down _ _ hrc (Ne.symm hg) (by simpa using h.2)).trans (.up _ _ hr hm)).trans
          (.up _ _ hrc (Ne.symm hg))
      · exact .up _ _ hr hm
    · exact .refl _ _

theorem Quiet.foldl (g : Code) (hg : g ≠ KEYD.LEFTCTRL) (mods : UInt8) : ∀ (ms : List (UInt8 × Code)) (k : Kbd),
    (∀ m ∈ ms, RealKey m.2) → (∀ m ∈ ms, m.2 ≠ g) → Quiet g k (ms.foldl (Keyd.setMod mods) k)
  | [], k, _, _ => .refl _ _
  | m :: ms, k, hr, hm => by
    rw [List.foldl_cons]
    exact (Quiet.setMod g hg mods k m (hr m (List.mem_cons_self ..)) (hm m (List.mem_cons_self ..))).trans
      (Quiet.foldl g hg mods ms _ (fun x hx => hr x (List.mem_cons_of_mem _ hx))
        (fun x hx => hm x (List.mem_cons_of_mem _ hx)))

/-- Position of a guarded key in the modifier table. -/
theorem guarded_split : ∀ m ∈ modifierKeys, m.2 ∈ guardedKeys →
    ∃ pre post, modifiers = pre ++ m :: post ∧ (∀ x ∈ pre, x.2 ≠ m.2 ∧ x.2 ≠ KEYD.LEFTCTRL) ∧
      (∀ x ∈ post, x.2 ≠ m.2) ∧ (pre.map (·.2)).Nodup := by
  intro m hm hg
  have hm' : m = (MOD_ALT, KEYD.LEFTALT) ∨ m = (MOD_ALT_GR, KEYD.RIGHTALT) ∨ m = (MOD_SUPER, KEYD.LEFTMETA) := by
    revert hg; revert m; decide
  rcases hm' with rfl | rfl | rfl
  · exact ⟨[], _, rfl, by decide, by decide, by decide⟩
  · exact ⟨[(0x1, 56)], _, rfl, by decide, by decide, by decide⟩
  · exact ⟨[(0x1, 56), (0x10, 100), (0x4, 42)], _, rfl, by decide, by decide, by decide⟩

/-- C10, as seen by the host. When the recomputation of the modifiers releases a
guarded modifier that was the last key pressed, the guard being enabled, then the
host does not see a bare tap: control is already down, or another key goes down
before the modifier goes up. -/
theorem C10_no_bare_tap (k : Kbd) (ex : Option Nat) (mods : UInt8) (mask : UInt8) (key : Code)
    (hm : (mask, key) ∈ modifierKeys) (hg : key ∈ guardedKeys) (hdown : k.keystate key = true)
    (hlast : k.lastPressedOutputCode = key) (hreq : ¬ Requested k ex mods mask)
    (hen : k.config.disableModifierGuard = 0) (hin : k.inhibitModifierGuard = false) :
    ∃ before after, (updateMods k ex mods).outputs = k.outputs ++ before ++ .key key false :: after ∧
      (∀ b, Out.key key b ∉ before) ∧ (∀ b, Out.key key b ∉ after) ∧
      (k.keystate KEYD.LEFTCTRL = true ∨ ∃ x, x ≠ key ∧ Out.key x true ∈ before) := by
  obtain ⟨hr, hne⟩ := guardedKeys_real key hg
  obtain ⟨pre, post, hsplit, hpre, hpost, hnd⟩ := guarded_split (mask, key) hm hg
  rw [← layerMods_requested] at hreq
  unfold updateMods setMods
  generalize hL : layerMods k ex mods = L at hreq ⊢
  have hreal : ∀ m ∈ pre ++ (mask, key) :: post, RealKey m.2 := hsplit ▸ modifiers_real
  rw [hsplit, List.foldl_append, List.foldl_cons]
  have h1 := Quiet.foldl key hne L pre k (fun x hx => hreal x (by simp [hx])) (fun x hx => (hpre x hx).1)
  have hks := setModsAux_keystate L pre k (fun x hx => hreal x (by simp [hx])) hnd
  have hfr : KeyFrame k (pre.foldl (setMod L) k) := KeyFrame.foldl (KeyFrame.setMod L) _ _
  generalize pre.foldl (setMod L) k = k1 at h1 hks hfr ⊢
  have hdown1 : k1.keystate key = true := by
    rw [hks, List.find?_eq_none.2 (by intro x hx; simpa using (hpre x hx).1)]; exact hdown
  have hctl1 : k1.keystate KEYD.LEFTCTRL = k.keystate KEYD.LEFTCTRL := by
    rw [hks, List.find?_eq_none.2 (by intro x hx; simpa using (hpre x hx).2)]
  have h2 : setMod L k1 (mask, key) = clearMod k1 key := by
    unfold setMod
    have : mask &&& L = 0 := by rw [and_comm8]; simpa using hreq
    simp [this, hdown1]
  rw [h2]
  have h3 := Quiet.foldl key hne L post (clearMod k1 key) (fun x hx => hreal x (by simp [hx])) hpost
  obtain ⟨os, ho, hno, hlp⟩ := h1
  obtain ⟨os', ho', hno', -⟩ := h3
  by_cases hl : k1.lastPressedOutputCode = key
  · have := C10_guarded_release k1 key hg hdown1 hl (by rw [hfr.config]; exact hen)
      (by rw [hfr.inhibitModifierGuard]; exact hin)
    rw [this, ho] at ho'
    by_cases hctl : k.keystate KEYD.LEFTCTRL = true
    · rw [hctl1, if_pos hctl] at ho'
      exact ⟨os, os', by rw [ho']; simp, hno, hno', .inl hctl⟩
    · rw [hctl1, if_neg hctl] at ho'
      refine ⟨os ++ [.key KEYD.LEFTCTRL true], .key KEYD.LEFTCTRL false :: os', by rw [ho']; simp, ?_, ?_,
        .inr ⟨KEYD.LEFTCTRL, Ne.symm hne, by simp⟩⟩
      · intro b hb
        rcases List.mem_append.1 hb with h | h
        · exact hno _ h
        · simp at h; exact hne h.1
      · intro b hb
        rcases List.mem_cons.1 hb with h | h
        · simp at h; exact hne h.1
        · exact hno' _ h
  · have := C10_unguarded_release k1 key hr hdown1 (.inr (.inr (.inl hl)))
    rw [this, ho] at ho'
    refine ⟨os, os', by rw [ho']; simp, hno, hno', .inr ?_⟩
    rcases hlp with h | h
    · exact absurd (h.trans hlast) hl
    · exact h

/-- Non-vacuity: left meta is down and was the last key pressed (an overload key for
meta has been pressed), and on release the guard produces a control tap. -/
example : ∃ k, Reach (fun _ => True) k ∧ k.outputs =
    [.layer 3 true, .key KEYD.LEFTMETA true, .layer 3 false,
     .key KEYD.LEFTCTRL true, .key KEYD.LEFTMETA false, .key KEYD.LEFTCTRL false,
     .key 30 true, .key 30 false] := by
  have h : checkRun b!"[ids]\n*\n[main]\nx = overload(meta, a)" [press 45 0, release 45 1]
      (fun _ => true) (fun k => decide (k.outputs =
        [.layer 3 true, .key KEYD.LEFTMETA true, .layer 3 false,
         .key KEYD.LEFTCTRL true, .key KEYD.LEFTMETA false, .key KEYD.LEFTCTRL false,
         .key 30 true, .key 30 false])) = true := by
    set_option maxRecDepth 100000 in decide +kernel
  obtain ⟨k, hk, hq⟩ := checkRun_reach (cfg := fun _ => True) h (fun _ _ => trivial)
  exact ⟨k, hk, of_decide_eq_true hq⟩

end Keyd
