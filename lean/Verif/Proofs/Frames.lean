import Verif.Proofs.Sat

/-
  What the key-sending functions leave alone: everything but the key state, the
  last pressed output key and the trace.
-/

set_option autoImplicit false

namespace Keyd

/-- An output that is a key event or a delay. -/
def Out.isKeyOrSleep : Out → Bool
  | .key _ _ => true
  | .sleep _ => true
  | _ => false

/-- `k'` differs from `k` only in the key state, the last pressed output key and
the trace, to which only key events and delays have been added. -/
def KeyFrame (k k' : Kbd) : Prop :=
  ∃ (ks : Code → Bool) (lp : Code) (os : List Out),
    k' = { k with keystate := ks, lastPressedOutputCode := lp, trace := os ++ k.trace } ∧
    ∀ o ∈ os, o.isKeyOrSleep = true

namespace KeyFrame

theorem refl (k : Kbd) : KeyFrame k k := ⟨k.keystate, k.lastPressedOutputCode, [], rfl, by simp⟩

theorem trans {a b c : Kbd} (h : KeyFrame a b) (h' : KeyFrame b c) : KeyFrame a c := by
  obtain ⟨ks, lp, os, rfl, h1⟩ := h
  obtain ⟨ks', lp', os', rfl, h2⟩ := h'
  refine ⟨ks', lp', os' ++ os, by simp, ?_⟩
  intro o ho
  rcases List.mem_append.1 ho with h | h
  · exact h2 o h
  · exact h1 o h

theorem send (k : Kbd) (c : Code) (b : Bool) : KeyFrame k (sendKey k c b) := by
  unfold sendKey
  dsimp only
  split
  · exact refl k
  · split
    · split
      · exact ⟨_, _, [.key c b], rfl, by simp [Out.isKeyOrSleep]⟩
      · exact ⟨k.keystate, _, [], rfl, by simp⟩
    · split
      · exact ⟨_, k.lastPressedOutputCode, [.key c b], rfl, by simp [Out.isKeyOrSleep]⟩
      · exact refl k

theorem foldl {α : Type} {f : Kbd → α → Kbd} (h : ∀ k a, KeyFrame k (f k a)) :
    ∀ (l : List α) (k : Kbd), KeyFrame k (l.foldl f k)
  | [], k => refl k
  | a :: l, k => (h k a).trans (foldl h l _)

theorem clearMod (k : Kbd) (c : Code) : KeyFrame k (clearMod k c) := by
  unfold Keyd.clearMod
  split
  · exact ((send _ _ _).trans (send _ _ _)).trans (send _ _ _)
  · exact send _ _ _

theorem setMod (mods : UInt8) (k : Kbd) (m : UInt8 × Code) : KeyFrame k (setMod mods k m) := by
  unfold Keyd.setMod
  split <;> split
  · exact refl k
  · exact send _ _ _
  · exact clearMod _ _
  · exact refl k

theorem setMods (k : Kbd) (mods : UInt8) : KeyFrame k (setMods k mods) := foldl (setMod mods) _ _

theorem updateMods (k : Kbd) (ex : Option Nat) (mods : UInt8) : KeyFrame k (updateMods k ex mods) :=
  setMods _ _

theorem emitMacro : ∀ (os : List MacroOut) (k : Kbd), KeyFrame k (emitMacro k os)
  | [], k => refl k
  | .key c d :: rest, k => by
    have h : KeyFrame k (k.emit (.key c d)) :=
      ⟨k.keystate, k.lastPressedOutputCode, [.key c d], rfl, by simp [Out.isKeyOrSleep]⟩
    exact h.trans (emitMacro rest _)
  | .sleep us :: rest, k => by
    have h : KeyFrame k (k.emit (.sleep us)) :=
      ⟨k.keystate, k.lastPressedOutputCode, [.sleep us], rfl, by simp [Out.isKeyOrSleep]⟩
    exact h.trans (emitMacro rest _)

theorem executeMacro (k : Kbd) (dl : Nat) (m : Macro) : KeyFrame k (executeMacro k dl m) := by
  unfold Keyd.executeMacro
  dsimp only
  split
  · split
    · exact ((updateMods _ _ _).trans (send _ _ _)).trans (send _ _ _)
    · exact (updateMods _ _ _).trans (emitMacro _ _)
  · exact (updateMods _ _ _).trans (emitMacro _ _)

theorem resetKeystate (k : Kbd) : KeyFrame k (resetKeystate k) := by
  unfold Keyd.resetKeystate
  refine foldl ?_ _ _
  intro k c
  split
  · exact ⟨_, k.lastPressedOutputCode, [.key c false], rfl, by simp [Out.isKeyOrSleep]⟩
  · exact refl k

section
variable {k k' : Kbd} (h : KeyFrame k k')
include h
theorem config : k'.config = k.config := by obtain ⟨_, _, _, rfl, _⟩ := h; rfl
theorem originalConfig : k'.originalConfig = k.originalConfig := by obtain ⟨_, _, _, rfl, _⟩ := h; rfl
theorem cache : k'.cache = k.cache := by obtain ⟨_, _, _, rfl, _⟩ := h; rfl
theorem layerState : k'.layerState = k.layerState := by obtain ⟨_, _, _, rfl, _⟩ := h; rfl
theorem lastPressedCode : k'.lastPressedCode = k.lastPressedCode := by obtain ⟨_, _, _, rfl, _⟩ := h; rfl
theorem oneshotLatch : k'.oneshotLatch = k.oneshotLatch := by obtain ⟨_, _, _, rfl, _⟩ := h; rfl
theorem oneshotTimeout : k'.oneshotTimeout = k.oneshotTimeout := by obtain ⟨_, _, _, rfl, _⟩ := h; rfl
theorem inhibitModifierGuard : k'.inhibitModifierGuard = k.inhibitModifierGuard := by obtain ⟨_, _, _, rfl, _⟩ := h; rfl
theorem activeMacro : k'.activeMacro = k.activeMacro := by obtain ⟨_, _, _, rfl, _⟩ := h; rfl
theorem activeMacroLayer : k'.activeMacroLayer = k.activeMacroLayer := by obtain ⟨_, _, _, rfl, _⟩ := h; rfl
theorem macroTimeout : k'.macroTimeout = k.macroTimeout := by obtain ⟨_, _, _, rfl, _⟩ := h; rfl
theorem macroRepeatInterval : k'.macroRepeatInterval = k.macroRepeatInterval := by obtain ⟨_, _, _, rfl, _⟩ := h; rfl
theorem overloadStartTime : k'.overloadStartTime = k.overloadStartTime := by obtain ⟨_, _, _, rfl, _⟩ := h; rfl
theorem lastSimpleKeyTime : k'.lastSimpleKeyTime = k.lastSimpleKeyTime := by obtain ⟨_, _, _, rfl, _⟩ := h; rfl
theorem timeouts : k'.timeouts = k.timeouts := by obtain ⟨_, _, _, rfl, _⟩ := h; rfl
theorem activeChords : k'.activeChords = k.activeChords := by obtain ⟨_, _, _, rfl, _⟩ := h; rfl
theorem chord : k'.chord = k.chord := by obtain ⟨_, _, _, rfl, _⟩ := h; rfl
theorem pending : k'.pending = k.pending := by obtain ⟨_, _, _, rfl, _⟩ := h; rfl
theorem scroll : k'.scroll = k.scroll := by obtain ⟨_, _, _, rfl, _⟩ := h; rfl
theorem clock : k'.clock = k.clock := by obtain ⟨_, _, _, rfl, _⟩ := h; rfl
theorem steps : k'.steps = k.steps := by obtain ⟨_, _, _, rfl, _⟩ := h; rfl
theorem isActive (i : Nat) : k'.isActive i = k.isActive i := by obtain ⟨_, _, _, rfl, _⟩ := h; rfl
theorem trace : ∃ os, k'.trace = os ++ k.trace ∧ ∀ o ∈ os, o.isKeyOrSleep = true := by
  obtain ⟨_, _, os, rfl, ho⟩ := h; exact ⟨os, rfl, ho⟩
end

end KeyFrame

/-! ### Key state -/

theorem sendKey_keystate (k : Kbd) (c : Code) (b : Bool) (h1 : c ≠ KEYD.NOOP)
    (h2 : c ≠ KEYD.EXTERNAL_MOUSE_BUTTON) : (sendKey k c b).keystate = upd k.keystate c b := by
  unfold sendKey
  rw [if_neg (by simp [h1, h2])]
  dsimp only
  funext x
  split
  · split
    · rfl
    · rename_i h
      by_cases hx : x = c
      · subst hx; simp at h; simp [h]
      · simp [upd, hx]
  · split
    · rfl
    · rename_i h
      by_cases hx : x = c
      · subst hx; simp at h; simp [h]
      · simp [upd, hx]

theorem sendKey_noop (k : Kbd) (c : Code) (b : Bool) (h : c = KEYD.NOOP ∨ c = KEYD.EXTERNAL_MOUSE_BUTTON) :
    sendKey k c b = k := by
  unfold sendKey; rw [if_pos h]

/-- A key code that is really sent. -/
def RealKey (c : Code) : Prop := c ≠ KEYD.NOOP ∧ c ≠ KEYD.EXTERNAL_MOUSE_BUTTON

theorem modifiers_real : ∀ m ∈ modifiers, RealKey m.2 := by
  unfold RealKey; decide

theorem clearMod_keystate (k : Kbd) (c : Code) (h : RealKey c) :
    (clearMod k c).keystate = upd k.keystate c false := by
  unfold clearMod
  split
  · rename_i hg
    simp only [Bool.not_eq_true', guardApplies, Bool.decide_and, Bool.and_eq_true, decide_eq_true_eq] at hg
    obtain ⟨⟨⟨_, hcode⟩, _⟩, hctl⟩ := hg
    have hne : c ≠ KEYD.LEFTCTRL := by
      rcases hcode with rfl | rfl | rfl <;> decide
    rw [sendKey_keystate _ _ _ (by decide) (by decide), sendKey_keystate _ _ _ h.1 h.2,
      sendKey_keystate _ _ _ (by decide) (by decide)]
    funext x
    by_cases h1 : x = KEYD.LEFTCTRL
    · subst h1; simp [upd, hctl, Ne.symm hne]
    · by_cases h2 : x = c
      · subst h2; simp [upd, h1]
      · simp [upd, h1, h2]
  · exact sendKey_keystate _ _ _ h.1 h.2

theorem setMod_keystate (mods : UInt8) (k : Kbd) (m : UInt8 × Code) (h : RealKey m.2) :
    (setMod mods k m).keystate = upd k.keystate m.2 (decide (m.1 &&& mods ≠ 0)) := by
  have same : ∀ b, k.keystate m.2 = b → k.keystate = upd k.keystate m.2 b := by
    intro b hb
    funext x
    by_cases hx : x = m.2
    · subst hx; simp [hb]
    · simp [upd, hx]
  unfold setMod
  split
  · rename_i hm
    split
    · rename_i hk; rw [decide_eq_true hm]; exact same _ hk
    · rw [sendKey_keystate _ _ _ h.1 h.2, decide_eq_true hm]
  · rename_i hm
    split
    · rw [clearMod_keystate _ _ h, decide_eq_false hm]
    · rename_i hk
      rw [decide_eq_false hm]
      exact same _ (by simpa using hk)

/-- The key state after `set_mods`: the listed modifiers are as asked, all other
keys are unchanged. -/
theorem setModsAux_keystate (mods : UInt8) : ∀ (ms : List (UInt8 × Code)) (k : Kbd),
    (∀ m ∈ ms, RealKey m.2) → (ms.map (·.2)).Nodup → ∀ c,
    (ms.foldl (setMod mods) k).keystate c =
      match ms.find? (fun m => m.2 = c) with
      | some m => decide (m.1 &&& mods ≠ 0)
      | none => k.keystate c
  | [], k, _, _, c => rfl
  | m :: ms, k, hr, hn, c => by
    rw [List.foldl_cons, setModsAux_keystate mods ms _ (fun x hx => hr x (List.mem_cons_of_mem _ hx))
      (by simp at hn; simpa using hn.2) c, setMod_keystate _ _ _ (hr m (List.mem_cons_self ..))]
    by_cases hc : m.2 = c
    · have : ms.find? (fun x => x.2 = c) = none := by
        rw [List.find?_eq_none]
        intro x hx
        simp only [List.map_cons, List.nodup_cons, List.mem_map, not_exists, not_and] at hn
        simp only [decide_eq_true_eq]
        intro hxc
        exact hn.1 x hx (hxc.trans hc.symm)
      rw [this]
      simp [List.find?, hc, upd]
    · have : (m :: ms).find? (fun x => x.2 = c) = ms.find? (fun x => x.2 = c) := by
        rw [List.find?_cons_of_neg (by simpa using hc)]
      rw [this]
      split
      · rfl
      · exact upd_other _ _ (Ne.symm hc)

theorem setMods_keystate (k : Kbd) (mods : UInt8) (c : Code) :
    (setMods k mods).keystate c =
      match modifiers.find? (fun m => m.2 = c) with
      | some m => decide (m.1 &&& mods ≠ 0)
      | none => k.keystate c :=
  setModsAux_keystate mods modifiers k modifiers_real (by decide) c

end Keyd
