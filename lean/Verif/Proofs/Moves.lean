import Verif.Proofs.LayerOps
import Verif.Proofs.LayerInv
import Verif.Spec.Holding

/-
  How each action changes the balance of layer activations and the plain output
  keys that are down.
-/

set_option autoImplicit false

namespace Keyd

/-- Every error except the failed assertion of `deactivate_layer`. -/
def NoDeact (e : Err) : Prop := e ≠ .assertFail "deactivate_layer: active > 0"

/-- Activations of layer `i` not explained by its toggle and its one-shots. -/
def excS (s : LayerSt) : Int := s.active - (if s.toggled then 1 else 0) - s.oneshotDepth

def exc (k : Kbd) (i : Nat) : Int := excS (k.layerState i)

def unit (l : Option Nat) (i : Nat) : Int := if l = some i then 1 else 0

/-- The flags of layers outside `L` are never set. -/
def FlagsL (L : Nat → Prop) (k : Kbd) : Prop :=
  ∀ i, ¬ L i → (k.layerState i).oneshotDepth = 0 ∧ (k.layerState i).toggled = false

/-- The effect of an action: held bindings and pending key stay, the balance of the
layers in `L` changes by `δ`, and only plain keys in `A` go down. -/
structure Move (L : Nat → Prop) (δ : Nat → Int) (A : Code → Prop) (k k' : Kbd) : Prop where
  calm : Calm k k'
  exc : ∀ i, L i → exc k' i = exc k i + δ i
  flags : FlagsL L k → FlagsL L k'
  keys : ∀ c, Plain c → k'.keystate c = true → k.keystate c = true ∨ A c

namespace Move
variable {L : Nat → Prop}

def zero : Nat → Int := fun _ => 0
def noKey : Code → Prop := fun _ => False

theorem refl (k : Kbd) : Move L zero noKey k k :=
  ⟨.refl k, fun i _ => by simp [zero], id, fun _ _ h => .inl h⟩

theorem conv {δ δ' : Nat → Int} {A A' : Code → Prop} {k k' : Kbd} (h : Move L δ A k k')
    (hδ : ∀ i, L i → δ i = δ' i) (hA : ∀ c, A c → A' c) : Move L δ' A' k k' :=
  ⟨h.calm, fun i hi => by rw [h.exc i hi, hδ i hi], h.flags, fun c hc h1 => (h.keys c hc h1).imp id (hA c)⟩

theorem trans {δ1 δ2 : Nat → Int} {A1 A2 : Code → Prop} {a b c : Kbd} (h1 : Move L δ1 A1 a b)
    (h2 : Move L δ2 A2 b c) : Move L (fun i => δ1 i + δ2 i) (fun c => A1 c ∨ A2 c) a c := by
  refine ⟨h1.calm.trans h2.calm, ?_, fun h => h2.flags (h1.flags h), ?_⟩
  · intro i hi
    rw [h2.exc i hi, h1.exc i hi]
    omega
  · intro x hx h
    rcases h2.keys x hx h with h | h
    · rcases h1.keys x hx h with h | h
      · exact .inl h
      · exact .inr (.inl h)
    · exact .inr (.inr h)

/-- Followed by something neutral. -/
theorem then0 {δ : Nat → Int} {A : Code → Prop} {a b c : Kbd} (h1 : Move L δ A a b)
    (h2 : Move L zero noKey b c) : Move L δ A a c :=
  (h1.trans h2).conv (fun i _ => by simp [zero]) (fun c h => by rcases h with h | h; exact h; exact h.elim)

/-- Preceded by something neutral. -/
theorem pre0 {δ : Nat → Int} {A : Code → Prop} {a b c : Kbd} (h1 : Move L zero noKey a b)
    (h2 : Move L δ A b c) : Move L δ A a c :=
  (h1.trans h2).conv (fun i _ => by simp [zero]) (fun c h => by rcases h with h | h; exact h.elim; exact h)

/-- Assignments to unrelated fields. -/
theorem other {k k' : Kbd} (hc : Calm k k') (h1 : k'.layerState = k.layerState) (h2 : k'.keystate = k.keystate) :
    Move L zero noKey k k' := by
  refine ⟨hc, ?_, ?_, ?_⟩
  · intro i _; unfold Keyd.exc; rw [h1]; simp [zero]
  · intro h i hi; rw [h1]; exact h i hi
  · intro c _ h; rw [h2] at h; exact .inl h

theorem plain_find {c : Code} (h : Plain c) : modifiers.find? (fun m => m.2 = c) = none := by
  rw [List.find?_eq_none]
  intro m hm
  simpa using h.1 m hm

theorem updateMods_plain (k : Kbd) (ex : Option Nat) (m : UInt8) {c : Code} (h : Plain c) :
    (Keyd.updateMods k ex m).keystate c = k.keystate c := by
  unfold Keyd.updateMods
  rw [setMods_keystate, plain_find h]

theorem updateMods (k : Kbd) (ex : Option Nat) (m : UInt8) : Move L zero noKey k (Keyd.updateMods k ex m) := by
  have hf := KeyFrame.updateMods k ex m
  refine ⟨.of_frame hf, ?_, ?_, ?_⟩
  · intro i _; unfold Keyd.exc; rw [hf.layerState]; simp [zero]
  · intro h i hi; rw [hf.layerState]; exact h i hi
  · intro c hc h; rw [updateMods_plain k ex m hc] at h; exact .inl h

theorem sendKey_plain (k : Kbd) (x : Code) (b : Bool) {c : Code} (h : Plain c) :
    (Keyd.sendKey k x b).keystate c = if c = x then b else k.keystate c := by
  by_cases hx : x = KEYD.NOOP ∨ x = KEYD.EXTERNAL_MOUSE_BUTTON
  · rw [sendKey_noop k x b hx, if_neg]
    rintro rfl
    rcases hx with rfl | rfl
    · exact h.2.1 rfl
    · exact h.2.2 rfl
  · rw [not_or] at hx
    rw [sendKey_keystate k x b hx.1 hx.2]
    unfold upd
    rfl

theorem sendDown (k : Kbd) (x : Code) : Move L zero (fun c => x = c) k (Keyd.sendKey k x true) := by
  have hf := KeyFrame.send k x true
  refine ⟨.of_frame hf, ?_, ?_, ?_⟩
  · intro i _; unfold Keyd.exc; rw [hf.layerState]; simp [zero]
  · intro h i hi; rw [hf.layerState]; exact h i hi
  · intro c hc h
    rw [sendKey_plain k x true hc] at h
    split at h
    · rename_i e; exact .inr e.symm
    · exact .inl h

theorem sendUp (k : Kbd) (x : Code) : Move L zero noKey k (Keyd.sendKey k x false) := by
  have hf := KeyFrame.send k x false
  refine ⟨.of_frame hf, ?_, ?_, ?_⟩
  · intro i _; unfold Keyd.exc; rw [hf.layerState]; simp [zero]
  · intro h i hi; rw [hf.layerState]; exact h i hi
  · intro c hc h
    rw [sendKey_plain k x false hc] at h
    split at h
    · cases h
    · exact .inl h

theorem emitMacro_keystate : ∀ (os : List MacroOut) (k : Kbd), (emitMacro k os).keystate = k.keystate
  | [], _ => rfl
  | .key _ _ :: rest, k => by rw [emitMacro, emitMacro_keystate rest]; rfl
  | .sleep _ :: rest, k => by rw [emitMacro, emitMacro_keystate rest]; rfl

theorem executeMacro (k : Kbd) (dl : Nat) (m : Macro) : Move L zero noKey k (Keyd.executeMacro k dl m) := by
  have hf := KeyFrame.executeMacro k dl m
  refine ⟨.of_frame hf, ?_, ?_, ?_⟩
  · intro i _; unfold Keyd.exc; rw [hf.layerState]; simp [zero]
  · intro h i hi; rw [hf.layerState]; exact h i hi
  · intro c hc h
    left
    have slow : ∀ os, (emitMacro (Keyd.updateMods k (some dl) 0) os).keystate c = true → k.keystate c = true := by
      intro os h
      rw [emitMacro_keystate, updateMods_plain _ _ _ hc] at h
      exact h
    unfold Keyd.executeMacro at h
    dsimp only at h
    split at h
    · split at h
      · rw [sendKey_plain _ _ _ hc] at h
        split at h
        · cases h
        · rename_i hne
          rw [sendKey_plain _ _ _ hc, if_neg hne, updateMods_plain _ _ _ hc] at h
          exact h
      · exact slow _ h
    · exact slow _ h

theorem schedule (k : Kbd) (t : Int) : Sat (scheduleTimeout k t) (Move L zero noKey k) NoDeact := by
  unfold scheduleTimeout
  split
  · exact other ⟨rfl, rfl, rfl, rfl, rfl, rfl, rfl⟩ rfl rfl
  · intro h; simp at h

/-- Enough activations for every toggle and one-shot. -/
def Covered (L : Nat → Prop) (k : Kbd) : Prop := (∀ i, L i → 0 ≤ Keyd.exc k i) ∧ FlagsL L k

theorem Covered.move {δ : Nat → Int} {A : Code → Prop} {k k' : Kbd} (h : Covered L k) (hm : Move L δ A k k')
    (hδ : ∀ i, L i → 0 ≤ δ i) : Covered L k' :=
  ⟨fun i hi => by rw [hm.exc i hi]; have := h.1 i hi; have := hδ i hi; omega, hm.flags h.2⟩

theorem Covered.le {k : Kbd} (h : Covered L k) (i : Nat) :
    (k.layerState i).oneshotDepth + (if (k.layerState i).toggled then 1 else 0) ≤ (k.layerState i).active := by
  by_cases hi : L i
  · have := h.1 i hi
    unfold Keyd.exc excS at this
    split at this <;> rename_i ht <;> simp only [ht] <;> simp <;> omega
  · obtain ⟨h1, h2⟩ := h.2 i hi
    rw [h1, h2]; simp

theorem bind {δ1 δ2 : Nat → Int} {A1 A2 : Code → Prop} {k : Kbd} {r : Res Kbd} {f : Kbd → Res Kbd}
    (h : Sat r (Move L δ1 A1 k) NoDeact)
    (hf : ∀ k', Move L δ1 A1 k k' → Sat (f k') (Move L δ2 A2 k') NoDeact) :
    Sat (r >>= f) (Move L (fun i => δ1 i + δ2 i) (fun c => A1 c ∨ A2 c) k) NoDeact :=
  Sat.bind h (fun k' h' => (hf k' h').imp (fun _ h'' => h'.trans h''))

theorem clearOneshot {k : Kbd} (h : Covered L k) : Sat (clearOneshot k) (Move L zero noKey k) NoDeact := by
  obtain ⟨k', hk'⟩ := clearOneshot_succeeds (k := k) (fun i _ => by have := Covered.le h i; omega)
  rw [hk']
  have hcalm := (Calm.clearOneshot k).of_ok hk'
  obtain ⟨ls, os, rfl, _, g2, g3⟩ := clearOneshot_spec hk'
  refine ⟨hcalm, ?_, ?_, fun c _ h => .inl h⟩
  · intro i _
    unfold Keyd.exc
    simp only [g3 i]
    split
    · rename_i hlt
      have := g2 i hlt
      simp [zero, excS]
      omega
    · simp [zero]
  · intro hf i hi
    simp only [g3 i]
    split
    · exact ⟨rfl, (hf i hi).2⟩
    · exact hf i hi

theorem clear {k : Kbd} (h : Covered L k) (hL : ∀ i, L i → clearable k.config i) :
    Sat (clear k) (Move L zero noKey k) NoDeact := by
  obtain ⟨k', hk'⟩ := clear_succeeds (k := k) (fun i => by
    have := Covered.le h i
    unfold clearShare
    by_cases h1 : clearable k.config i <;> by_cases h2 : (k.layerState i).toggled = true <;>
      by_cases h3 : i < k.config.layers.length <;> simp [h1, h2, h3] at this ⊢ <;> omega)
  rw [hk']
  have hcalm := (Calm.clear k).of_ok hk'
  obtain ⟨⟨os1, os2, _, _, rfl⟩, hle⟩ := clear_exact hk'
  refine ⟨hcalm, ?_, ?_, fun c _ h => by cases h⟩
  · intro i hi
    have h1 := hle i
    have h2 := hL i hi
    have h3 := h2.2.1
    unfold clearShare at h1
    unfold Keyd.exc excS
    simp only [clearedLayer, h2, h3, true_and, if_true, decide_true, Bool.not_true, Bool.and_false,
      Bool.false_eq_true, if_false, zero] at h1 ⊢
    split at h1 <;> rename_i ht <;> simp only [ht, if_true, if_false, Bool.false_eq_true] <;> omega
  · intro hf i hi
    obtain ⟨h1, h2⟩ := hf i hi
    simp [clearedLayer, h1, h2]

theorem activate (k : Kbd) (c : Code) (l : Nat) : Sat (activateLayer k c l) (Move L (unit (some l)) noKey k) NoDeact := by
  have hcalm := Calm.activate k c l
  unfold activateLayer at hcalm ⊢
  dsimp only at hcalm ⊢
  split
  · intro h; cases h
  · rename_i hlt
    rw [if_neg hlt] at hcalm
    refine ⟨hcalm, ?_, ?_, fun _ _ h => .inl h⟩
    · intro i _
      unfold Keyd.exc unit
      simp only [Kbd.emit, cacheModify, Kbd.modLayer]
      by_cases hi : i = l
      · subst hi; simp [excS]; omega
      · rw [upd_other _ _ hi]; simp [Ne.symm hi]
    · intro hf i hi
      simp only [Kbd.emit, cacheModify, Kbd.modLayer]
      by_cases h : i = l
      · subst h; simp [hf i hi]
      · rw [upd_other _ _ h]; exact hf i hi

theorem deactivate {k : Kbd} {l : Nat} (h : 0 < (k.layerState l).active) :
    Sat (deactivateLayer k l) (Move L (fun i => - unit (some l) i) noKey k) NoDeact := by
  have hcalm := Calm.deactivate k l
  rw [deactivateLayer_ok.2 ⟨h, rfl⟩] at hcalm ⊢
  refine ⟨hcalm, ?_, ?_, fun _ _ h => .inl h⟩
  · intro i _
    unfold Keyd.exc unit
    simp only [Kbd.emit, Kbd.modLayer]
    by_cases hi : i = l
    · subst hi; simp [excS]; omega
    · rw [upd_other _ _ hi]; simp [Ne.symm hi]
  · intro hf i hi
    simp only [Kbd.emit, Kbd.modLayer]
    by_cases h : i = l
    · subst h; simp [hf i hi]
    · rw [upd_other _ _ h]; exact hf i hi

theorem setlayout {k : Kbd} {idx : Nat} (h : Covered L k) (hL : ∀ i, L i → clearable k.config i)
    (hidx : idx ≠ 0 → ¬ L idx) : Sat (setlayout k idx) (Move L zero noKey k) NoDeact := by
  have key : ∀ k1, Move L zero noKey k k1 → Move L zero noKey k1 (layoutStep k1 idx) := by
    intro k1 h1
    have hflags := fun i => layoutStep_flags k1 idx i
    obtain ⟨ls, e, g⟩ := layoutStep_spec k1 idx
    refine ⟨by rw [e]; exact ⟨rfl, rfl, rfl, rfl, rfl, rfl, rfl⟩, ?_, ?_, ?_⟩
    · intro i hi
      unfold Keyd.exc excS
      rw [(hflags i).1, (hflags i).2]
      have : ((layoutStep k1 idx).layerState i).active = (k1.layerState i).active := by
        rw [e]
        show (ls i).active = _
        rw [g i, if_neg (by rintro ⟨rfl, h0⟩; exact hidx h0 hi), if_neg]
        rintro ⟨_, ht⟩
        rw [h1.calm.config] at ht
        exact (hL i hi).2.2 ht
      rw [this]; simp [zero]
    · intro hf i hi
      rw [(hflags i).1, (hflags i).2]
      exact hf i hi
    · intro c _ h
      rw [e] at h
      exact .inl h
  show Sat (Keyd.clear k >>= fun k1 => .ok (layoutStep k1 idx)) _ _
  refine (clear h hL).bind (fun k1 h1 => ?_)
  exact h1.then0 (key k1 h1)

theorem emit (k : Kbd) (o : Out) : Move L zero noKey k (k.emit o) := other ⟨rfl, rfl, rfl, rfl, rfl, rfl, rfl⟩ rfl rfl

end Move

end Keyd
