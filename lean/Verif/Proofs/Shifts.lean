import Verif.Spec.Host
import Verif.Props.Modifiers
import Verif.Proofs.LayerOps

/-
  Recomputing the modifiers, as the host sees it: only modifier keys are sent, and the host's and the
  engine's idea of them stay the same.
-/

set_option autoImplicit false

namespace Keyd

theorem hostAfter_append : ∀ (a b : List Out) (h : Code → Bool), hostAfter h (a ++ b) = hostAfter (hostAfter h a) b
  | [], b, h => rfl
  | .key c d :: a, b, h => hostAfter_append a b _
  | .layer _ _ :: a, b, h => hostAfter_append a b _
  | .command _ :: a, b, h => hostAfter_append a b _
  | .sleep _ :: a, b, h => hostAfter_append a b _

theorem keystrokes_append : ∀ (a b : List Out) (h : Code → Bool),
    keystrokes h (a ++ b) = keystrokes h a ++ keystrokes (hostAfter h a) b
  | [], b, h => rfl
  | .key c d :: a, b, h => by
    simp only [List.cons_append, keystrokes, hostAfter, keystrokes_append a b, List.append_assoc]
  | .layer _ _ :: a, b, h => keystrokes_append a b _
  | .command _ :: a, b, h => keystrokes_append a b _
  | .sleep _ :: a, b, h => keystrokes_append a b _

/-- From `k` to `k'` only modifier keys are sent, and a host that agrees with the engine on the
modifier keys still agrees. -/
def Shifts (k k' : Kbd) : Prop :=
  ∃ os, k'.outputs = k.outputs ++ os ∧ (∀ c, isModifierKey c = false → k'.keystate c = k.keystate c) ∧
    ∀ h : Code → Bool, (∀ c, isModifierKey c = true → h c = k.keystate c) →
      keystrokes h os = [] ∧ (∀ c, isModifierKey c = true → hostAfter h os c = k'.keystate c) ∧
      (∀ c, isModifierKey c = false → hostAfter h os c = h c)

theorem Shifts.refl (k : Kbd) : Shifts k k :=
  ⟨[], by simp, fun _ _ => rfl, fun h hh => ⟨rfl, hh, fun _ _ => rfl⟩⟩

theorem Shifts.trans {a b c : Kbd} (h1 : Shifts a b) (h2 : Shifts b c) : Shifts a c := by
  obtain ⟨o1, e1, s1, g1⟩ := h1
  obtain ⟨o2, e2, s2, g2⟩ := h2
  refine ⟨o1 ++ o2, by rw [e2, e1, List.append_assoc], fun x hx => (s2 x hx).trans (s1 x hx), fun h hh => ?_⟩
  obtain ⟨a1, a2, a3⟩ := g1 h hh
  obtain ⟨b1, b2, b3⟩ := g2 _ a2
  rw [keystrokes_append, hostAfter_append, a1, b1]
  exact ⟨rfl, b2, fun x hx => (b3 x hx).trans (a3 x hx)⟩

theorem Shifts.send (k : Kbd) (c : Code) (b : Bool) (hm : isModifierKey c = true) : Shifts k (sendKey k c b) := by
  have hr : RealKey c := by
    constructor
    · rintro rfl; revert hm; decide
    · rintro rfl; revert hm; decide
  have ho := sendKey_outputs k c b hr
  have hs := sendKey_keystate k c b hr.1 hr.2
  by_cases hk : k.keystate c = b
  · rw [if_pos hk] at ho
    have hs' : upd k.keystate c b = k.keystate := by rw [← hk, upd_eta]
    rw [hs'] at hs
    exact ⟨[], ho, fun x _ => by rw [hs], fun h hh => ⟨rfl, fun x hx => by rw [hs]; exact hh x hx, fun _ _ => rfl⟩⟩
  · rw [if_neg hk] at ho
    refine ⟨[.key c b], ho, fun x hx => ?_, fun h hh => ⟨?_, fun x hx => ?_, fun x hx => ?_⟩⟩
    · rw [hs, upd_other _ _ (by rintro rfl; rw [hm] at hx; cases hx)]
    · simp [keystrokes, hm]
    · rw [hs]
      show upd h c b x = _
      by_cases hxc : x = c
      · subst hxc; rw [upd_same, upd_same]
      · rw [upd_other _ _ hxc, upd_other _ _ hxc]; exact hh x hx
    · exact upd_other _ _ (by rintro rfl; rw [hm] at hx; cases hx)

theorem Shifts.setMods (k : Kbd) (mods : UInt8) : Shifts k (setMods k mods) := by
  unfold Keyd.setMods
  have : ∀ (l : List (UInt8 × Code)) (k : Kbd), (∀ m ∈ l, isModifierKey m.2 = true) → Shifts k (l.foldl (setMod mods) k) := by
    intro l
    induction l with
    | nil => intro k _; exact .refl k
    | cons m l ih =>
      intro k hl
      refine Shifts.trans ?_ (ih _ (fun x hx => hl x (List.mem_cons_of_mem _ hx)))
      have hm := hl m List.mem_cons_self
      unfold setMod
      split
      · split
        · exact .refl k
        · exact .send _ _ _ hm
      · split
        · unfold clearMod
          split
          · exact ((Shifts.send _ _ _ (by decide)).trans (.send _ _ _ hm)).trans (.send _ _ _ (by decide))
          · exact .send _ _ _ hm
        · exact .refl k
  exact this _ _ (by decide)

theorem Shifts.updateMods (k : Kbd) (ex : Option Nat) (mods : UInt8) : Shifts k (updateMods k ex mods) := .setMods _ _

/-- Nothing but layer notifications is sent. -/
theorem Shifts.silent {k k' : Kbd} {os : List Out} (ho : k'.outputs = k.outputs ++ os) (hs : k'.keystate = k.keystate)
    (hl : ∀ o ∈ os, o.isLayerOff = true) : Shifts k k' := by
  have : ∀ (os : List Out), (∀ o ∈ os, o.isLayerOff = true) → ∀ h : Code → Bool, keystrokes h os = [] ∧ hostAfter h os = h := by
    intro os
    induction os with
    | nil => exact fun _ h => ⟨rfl, rfl⟩
    | cons o os ih =>
      intro hl h
      have ho := hl o List.mem_cons_self
      have ih := ih (fun x hx => hl x (List.mem_cons_of_mem _ hx)) h
      cases o with
      | layer i b => exact ih
      | key c d => cases ho
      | command s => cases ho
      | sleep u => cases ho
  refine ⟨os, ho, fun c _ => by rw [hs], fun h hh => ?_⟩
  obtain ⟨h1, h2⟩ := this os hl h
  rw [h2, hs]
  exact ⟨h1, hh, fun _ _ => rfl⟩

theorem Shifts.same {k k' : Kbd} (ho : k'.outputs = k.outputs) (hs : k'.keystate = k.keystate) : Shifts k k' :=
  .silent (os := []) (by rw [ho, List.append_nil]) hs (by simp)

theorem Shifts.clearOneshot {k k' : Kbd} (h : clearOneshot k = .ok k') : Shifts k k' := by
  obtain ⟨ls, os, e, hl, _⟩ := clearOneshot_spec h
  refine .silent (os := os.reverse) ?_ (by rw [e]) (fun o ho => hl o (List.mem_reverse.1 ho))
  rw [e]
  simp [Kbd.outputs]

theorem Shifts.stepTimers {k k' : Kbd} {code : Code} {t : Int} (hc : code ≠ 0) (h : stepTimers k code t = .ok k') : Shifts k k' := by
  unfold Keyd.stepTimers at h
  rw [bind_eq_ok] at h
  obtain ⟨k1, h1, h⟩ := h
  have s1 : Shifts k k1 := by
    split at h1
    · rw [bind_eq_ok] at h1
      obtain ⟨k2, h2, h1⟩ := h1
      injection h1 with h1
      rw [← h1]
      exact (Shifts.clearOneshot h2).trans (.updateMods _ _ _)
    · injection h1 with h1
      rw [← h1]
      exact .refl k
  split at h
  · injection h with h
    rw [← h]
    exact s1
  · rw [if_pos hc] at h
    injection h with h
    rw [← h]
    exact (s1.trans (.same rfl rfl)).trans (.updateMods _ _ _)

end Keyd
