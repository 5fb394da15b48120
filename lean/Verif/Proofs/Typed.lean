import Verif.Spec.Typed
import Verif.Proofs.Balance
import Verif.Proofs.LayerOps
import Verif.Props.Modifiers

/-
  What each function of the engine types.
-/

set_option autoImplicit false

namespace Keyd

theorem typed_of_trace {k k' : Kbd} (h : k'.trace = k.trace) : k'.typed = k.typed := by
  unfold Kbd.typed Kbd.outputs
  rw [h]

theorem typed_emit (k : Kbd) (o : Out) : (k.emit o).typed = k.typed ++ (typedKey o).toList := by
  unfold Kbd.typed Kbd.outputs Kbd.emit
  rw [List.reverse_cons, List.filterMap_append]
  cases h : typedKey o <;> simp [h]

/-- Extra output that types nothing. -/
theorem typed_silent {k k' : Kbd} {os : List Out} (h : k'.trace = os ++ k.trace) (hs : ∀ o ∈ os, typedKey o = none) :
    k'.typed = k.typed := by
  unfold Kbd.typed Kbd.outputs
  rw [h, List.reverse_append, List.filterMap_append]
  have : List.filterMap typedKey os.reverse = [] := by
    rw [List.filterMap_eq_nil_iff]
    intro o ho
    exact hs o (List.mem_reverse.1 ho)
  rw [this, List.append_nil]

/-- Sending a key that is not a modifier types it, unless it already is in that state. -/
theorem typed_sendKey (k : Kbd) (c : Code) (b : Bool) (hr : RealKey c) (h : isModifierKey c = false) :
    (sendKey k c b).typed = k.typed ++ (if k.keystate c = b then [] else [(c, b)]) := by
  unfold Kbd.typed
  rw [sendKey_outputs _ _ _ hr]
  split
  · rw [List.append_nil, List.append_nil]
  · rw [List.filterMap_append]
    simp [typedKey, h]

theorem sendKey_unreal (k : Kbd) (c : Code) (b : Bool) (h : ¬ RealKey c) : sendKey k c b = k := by
  unfold sendKey
  rw [if_pos]
  unfold RealKey at h
  by_cases h1 : c = KEYD.NOOP
  · exact .inl h1
  · by_cases h2 : c = KEYD.EXTERNAL_MOUSE_BUTTON
    · exact .inr h2
    · exact absurd ⟨h1, h2⟩ h

theorem typed_sendKey_mod (k : Kbd) (c : Code) (b : Bool) (h : isModifierKey c = true) : (sendKey k c b).typed = k.typed := by
  by_cases hr : RealKey c
  · unfold Kbd.typed
    rw [sendKey_outputs _ _ _ hr]
    split
    · rw [List.append_nil]
    · rw [List.filterMap_append]
      simp [typedKey, h]
  · rw [sendKey_unreal _ _ _ hr]

theorem modifiers_are : ∀ m ∈ modifiers, isModifierKey m.2 = true := by decide

theorem typed_clearMod (k : Kbd) (c : Code) (h : isModifierKey c = true) : (clearMod k c).typed = k.typed := by
  unfold clearMod
  split
  · rw [typed_sendKey_mod _ _ _ (by decide), typed_sendKey_mod _ _ _ h, typed_sendKey_mod _ _ _ (by decide)]
  · exact typed_sendKey_mod _ _ _ h

theorem typed_setMod (mods : UInt8) (k : Kbd) (m : UInt8 × Code) (h : isModifierKey m.2 = true) :
    (setMod mods k m).typed = k.typed := by
  unfold setMod
  split <;> split
  · rfl
  · exact typed_sendKey_mod _ _ _ h
  · exact typed_clearMod _ _ h
  · rfl

/-- Setting the modifiers types nothing. -/
theorem typed_updateMods (k : Kbd) (ex : Option Nat) (mods : UInt8) : (updateMods k ex mods).typed = k.typed := by
  unfold updateMods setMods
  generalize layerMods _ ex mods = z
  have : ∀ (ms : List (UInt8 × Code)) (k : Kbd), (∀ m ∈ ms, isModifierKey m.2 = true) →
      (ms.foldl (setMod z) k).typed = k.typed := by
    intro ms
    induction ms with
    | nil => intro k _; rfl
    | cons m ms ih =>
      intro k h
      rw [List.foldl_cons, ih _ (fun m hm => h m (List.mem_cons_of_mem _ hm)), typed_setMod _ _ _ (h m List.mem_cons_self)]
  exact this modifiers k modifiers_are

theorem typed_clearOneshot {k k' : Kbd} (h : clearOneshot k = .ok k') : k'.typed = k.typed := by
  unfold clearOneshot at h
  rw [bind_eq_ok] at h
  obtain ⟨k1, h1, h2⟩ := h
  obtain ⟨os, ho, hall⟩ := clearOneshotLayers_trace _ _ _ h1
  have : k'.trace = k1.trace := by injection h2 with h2; rw [← h2]
  rw [typed_of_trace this]
  refine typed_silent ho ?_
  intro o hm
  obtain ⟨i, rfl⟩ := hall o hm
  rfl

theorem typed_deactivateLayer {k k' : Kbd} {i : Nat} (h : deactivateLayer k i = .ok k') : k'.typed = k.typed := by
  obtain ⟨_, rfl⟩ := deactivateLayer_ok.1 h
  rw [typed_emit]
  simp only [typedKey, Option.toList_none, List.append_nil]
  rfl

theorem typed_activateLayer {k k' : Kbd} {c : Code} {i : Nat} (h : activateLayer k c i = .ok k') : k'.typed = k.typed := by
  unfold activateLayer at h
  dsimp only at h
  split at h
  · cases h
  · injection h with h
    subst h
    rw [typed_emit]
    simp only [typedKey, Option.toList_none, List.append_nil]
    rfl

theorem typed_schedule {k k' : Kbd} {t : Int} (h : scheduleTimeout k t = .ok k') : k'.typed = k.typed := by
  unfold scheduleTimeout at h
  split at h
  · injection h with h
    subst h; rfl
  · cases h

/-- The timers type nothing at a key event (a repeating macro stops). -/
theorem typed_stepTimers {k k' : Kbd} {code : Code} {t : Int} (hc : code ≠ 0) (h : stepTimers k code t = .ok k') :
    k'.typed = k.typed := by
  unfold stepTimers at h
  rw [bind_eq_ok] at h
  obtain ⟨k1, h1, h2⟩ := h
  have e1 : k1.typed = k.typed := by
    split at h1
    · rw [bind_eq_ok] at h1
      obtain ⟨k0, h0, h1⟩ := h1
      injection h1 with h1
      rw [← h1, typed_updateMods, typed_clearOneshot h0]
    · injection h1 with h1; rw [h1]
  split at h2
  · injection h2 with h2; rw [← h2, e1]
  · rw [if_pos hc] at h2
    injection h2 with h2
    rw [← h2, typed_updateMods]
    exact e1

theorem not_modifier {x : Code} (hx : isModifierKey x = false) : ∀ m ∈ modifierKeys, x ≠ m.2 := by
  have : ∀ m ∈ modifierKeys, isModifierKey m.2 = true := by decide
  intro m hm e
  have := this m hm
  rw [← e, hx] at this
  cases this

theorem keystate_clearOneshot {k k' : Kbd} (h : clearOneshot k = .ok k') : k'.keystate = k.keystate := by
  obtain ⟨ls, os, e, _⟩ := clearOneshot_spec h
  rw [e]

/-- Nor do the timers then change the state of any key that is not a modifier key. -/
theorem keystate_stepTimers {k k' : Kbd} {code : Code} {t : Int} (hc : code ≠ 0) (h : stepTimers k code t = .ok k')
    {x : Code} (hx : isModifierKey x = false) : k'.keystate x = k.keystate x := by
  have hn := not_modifier hx
  unfold stepTimers at h
  rw [bind_eq_ok] at h
  obtain ⟨k1, h1, h2⟩ := h
  have e1 : k1.keystate x = k.keystate x := by
    split at h1
    · rw [bind_eq_ok] at h1
      obtain ⟨k0, h0, h1⟩ := h1
      injection h1 with h1
      rw [← h1, C09_other_keys_unchanged _ _ _ _ hn, keystate_clearOneshot h0]
    · injection h1 with h1; rw [h1]
  split at h2
  · injection h2 with h2; rw [← h2, e1]
  · rw [if_pos hc] at h2
    injection h2 with h2
    rw [← h2, C09_other_keys_unchanged _ _ _ _ hn]
    exact e1

theorem typed_pdKeyseq_press {k k' : Kbd} {x : Code} {m : UInt8} {dl : Nat} {t : Int} (hr : RealKey x)
    (hx : isModifierKey x = false) (h : pdKeyseq k x m dl true t = .ok k') :
    k'.typed = k.typed ++ (if k.keystate x then [(x, false)] else []) ++ [(x, true)] ∧ k'.keystate x = true := by
  unfold pdKeyseq at h
  simp only [if_true] at h
  rw [bind_eq_ok] at h
  obtain ⟨k1, h1, h2⟩ := h
  have hn : ∀ m ∈ modifierKeys, x ≠ m.2 := by
    have : ∀ m ∈ modifierKeys, isModifierKey m.2 = true := by decide
    intro m hm e
    have := this m hm
    rw [← e, hx] at this
    cases this
  obtain ⟨k0, hk0⟩ : ∃ k0, k0 = (if k.keystate x = true then sendKey k x false else k) := ⟨_, rfl⟩
  rw [← hk0] at h1
  have hcode : k0.keystate x = false := by
    rw [hk0]
    split
    · rw [sendKey_keystate _ _ _ hr.1 hr.2]; simp
    · rename_i hx; simpa using hx
  have ht0 : k0.typed = k.typed ++ (if k.keystate x then [(x, false)] else []) := by
    rw [hk0]
    split
    · rename_i hk
      rw [typed_sendKey _ _ _ hr hx, hk]
      simp
    · rw [List.append_nil]
  have hup : (updateMods k0 (some dl) m).keystate x = false := by
    rw [C09_other_keys_unchanged _ _ _ _ hn, hcode]
  have hks : k'.keystate = k1.keystate := by injection h2 with h2; rw [← h2]; split <;> rfl
  have htr : k'.trace = k1.trace := by injection h2 with h2; rw [← h2]; split <;> rfl
  constructor
  · rw [typed_of_trace htr, typed_clearOneshot h1, typed_sendKey _ _ _ hr hx, hup, typed_updateMods, ht0]
    simp
  · obtain ⟨ls, os, e, _⟩ := clearOneshot_spec h1
    rw [hks, e]
    dsimp only
    rw [sendKey_keystate _ _ _ hr.1 hr.2]
    simp

theorem typed_pdKeyseq_release {k k' : Kbd} {x : Code} {m : UInt8} {dl : Nat} {t : Int} (hr : RealKey x)
    (hx : isModifierKey x = false) (h : pdKeyseq k x m dl false t = .ok k') :
    k'.typed = k.typed ++ (if k.keystate x then [(x, false)] else []) := by
  unfold pdKeyseq at h
  rw [if_neg (by simp), bind_ok] at h
  injection h with h
  have htr : k'.trace = (updateMods (sendKey k x false) none 0).trace := by rw [← h]; split <;> rfl
  rw [typed_of_trace htr, typed_updateMods, typed_sendKey _ _ _ hr hx]
  cases k.keystate x <;> rfl

end Keyd
