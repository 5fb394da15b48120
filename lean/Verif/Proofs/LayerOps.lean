import Verif.Proofs.Stored
import Verif.Proofs.ConfigTables
import Mathlib.Tactic.ByContra

/-
  Exact effects of the layer bookkeeping functions.
-/

set_option autoImplicit false

namespace Keyd

/-- Announcements of deactivations. -/
def Out.isLayerOff : Out → Bool
  | .layer _ false => true
  | _ => false

/-- `deactivate_layer` succeeds exactly on an active layer. -/
theorem deactivateLayer_ok {k k' : Kbd} {i : Nat} :
    deactivateLayer k i = .ok k' ↔ 0 < (k.layerState i).active ∧
      k' = (k.modLayer i fun s => { s with active := s.active - 1 }).emit (.layer i false) := by
  unfold deactivateLayer
  dsimp only
  split
  · rename_i h; simp [h]
  · rename_i h
    rw [Except.ok.injEq]
    constructor
    · rintro rfl; exact ⟨by omega, rfl⟩
    · rintro ⟨_, rfl⟩; rfl

theorem deactivateLayer_error {k : Kbd} {i : Nat} (h : (k.layerState i).active = 0) :
    deactivateLayer k i = .error (.assertFail "deactivate_layer: active > 0") := by
  unfold deactivateLayer
  dsimp only
  rw [if_pos h]

/-- The state after the counters of layer `i` dropped by `n`. -/
def dropOneshots (k : Kbd) (i n : Nat) : Kbd :=
  { k with
    layerState := upd k.layerState i { k.layerState i with
      active := (k.layerState i).active - n, oneshotDepth := (k.layerState i).oneshotDepth - n }
    trace := List.replicate n (.layer i false) ++ k.trace }

theorem upd_upd {α β : Type} [DecidableEq α] (f : α → β) (i : α) (v w : β) : upd (upd f i v) i w = upd f i w := by
  funext j; unfold upd; split <;> rfl

theorem upd_eta {α β : Type} [DecidableEq α] (f : α → β) (i : α) : upd f i (f i) = f := by
  funext j; unfold upd; split
  · rename_i h; rw [h]
  · rfl

theorem clearOneshotLayer_spec (i : Nat) : ∀ (n : Nat) (k : Kbd),
    (n ≤ (k.layerState i).active → clearOneshotLayer i n k = .ok (dropOneshots k i n)) ∧
    ((k.layerState i).active < n →
      clearOneshotLayer i n k = .error (.assertFail "deactivate_layer: active > 0"))
  | 0, k => by
    refine ⟨fun _ => ?_, fun h => absurd h (by omega)⟩
    unfold clearOneshotLayer dropOneshots
    simp only [Nat.sub_zero, List.replicate_zero, List.nil_append]
    rw [upd_eta]
  | n+1, k => by
    by_cases h0 : (k.layerState i).active = 0
    · refine ⟨fun h => absurd h (by omega), fun _ => ?_⟩
      unfold clearOneshotLayer
      rw [deactivateLayer_error h0]; rfl
    · have hd := (deactivateLayer_ok (k := k) (i := i)).2 ⟨by omega, rfl⟩
      have ih := clearOneshotLayer_spec i n ((((k.modLayer i fun s => { s with active := s.active - 1 }).emit
        (.layer i false))).modLayer i fun s => { s with oneshotDepth := s.oneshotDepth - 1 })
      have ha : (((((k.modLayer i fun s => { s with active := s.active - 1 }).emit (.layer i false))).modLayer i
          fun s => { s with oneshotDepth := s.oneshotDepth - 1 }).layerState i).active
          = (k.layerState i).active - 1 := by
        simp [Kbd.modLayer, Kbd.emit]
      rw [ha] at ih
      unfold clearOneshotLayer
      rw [hd]
      constructor
      · intro h
        rw [bind_ok, ih.1 (by omega)]
        unfold dropOneshots Kbd.modLayer Kbd.emit
        simp only [upd_same, upd_upd]
        congr 2
        · congr 1
          simp [Nat.sub_sub, Nat.add_comm]
        · simp [List.replicate_succ']
      · intro h
        rw [bind_ok, ih.2 (by omega)]

theorem clearOneshotLayers_spec : ∀ (l : List Nat), l.Nodup → ∀ (k k' : Kbd), clearOneshotLayers l k = .ok k' →
    ∃ (ls : Nat → LayerSt) (os : List Out), k' = { k with layerState := ls, trace := os ++ k.trace } ∧
      (∀ o ∈ os, o.isLayerOff = true) ∧ (∀ i ∈ l, (k.layerState i).oneshotDepth ≤ (k.layerState i).active) ∧
      ∀ i, ls i = if i ∈ l then { k.layerState i with
        active := (k.layerState i).active - (k.layerState i).oneshotDepth, oneshotDepth := 0 } else k.layerState i
  | [], _, k, k', h => by
    unfold clearOneshotLayers at h
    cases h
    exact ⟨k.layerState, [], rfl, by simp, by simp, by simp⟩
  | a :: l, hnd, k, k', h => by
    obtain ⟨hna, hnd⟩ := List.nodup_cons.1 hnd
    unfold clearOneshotLayers at h
    rw [bind_eq_ok] at h
    obtain ⟨k1, h1, h2⟩ := h
    have hspec := clearOneshotLayer_spec a (k.layerState a).oneshotDepth k
    by_cases hle : (k.layerState a).oneshotDepth ≤ (k.layerState a).active
    · rw [hspec.1 hle] at h1
      cases h1
      obtain ⟨ls, os, g1, g2, g3, g4⟩ := clearOneshotLayers_spec l hnd _ _ h2
      have hla : ∀ i, i ≠ a → (dropOneshots k a (k.layerState a).oneshotDepth).layerState i = k.layerState i :=
        fun i hi => upd_other _ _ hi
      refine ⟨ls, os ++ List.replicate (k.layerState a).oneshotDepth (.layer a false), ?_, ?_, ?_, ?_⟩
      · rw [g1]; simp [dropOneshots]
      · intro o ho
        rcases List.mem_append.1 ho with h | h
        · exact g2 o h
        · rw [List.eq_of_mem_replicate h]; rfl
      · intro i hi
        rcases List.mem_cons.1 hi with rfl | hi'
        · exact hle
        · have hne : i ≠ a := fun e => hna (e ▸ hi')
          have := g3 i hi'
          rw [hla i hne] at this
          exact this
      · intro i
        rw [g4 i]
        by_cases hia : i = a
        · subst hia
          rw [if_neg hna]
          simp [dropOneshots]
        · rw [hla i hia]
          simp [hia]
    · rw [hspec.2 (by omega)] at h1
      cases h1

/-- The exact effect of `clear_oneshot`. -/
theorem clearOneshot_spec {k k' : Kbd} (h : clearOneshot k = .ok k') :
    ∃ (ls : Nat → LayerSt) (os : List Out),
      k' = { k with layerState := ls, trace := os ++ k.trace, oneshotLatch := false, oneshotTimeout := 0 } ∧
      (∀ o ∈ os, o.isLayerOff = true) ∧
      (∀ i < k.config.layers.length, (k.layerState i).oneshotDepth ≤ (k.layerState i).active) ∧
      ∀ i, ls i = if i < k.config.layers.length then { k.layerState i with
        active := (k.layerState i).active - (k.layerState i).oneshotDepth, oneshotDepth := 0 }
        else k.layerState i := by
  unfold clearOneshot at h
  rw [bind_eq_ok] at h
  obtain ⟨k1, h1, h2⟩ := h
  cases h2
  obtain ⟨ls, os, g1, g2, g3, g4⟩ := clearOneshotLayers_spec _ List.nodup_range _ _ h1
  refine ⟨ls, os, by rw [g1], g2, ?_, ?_⟩
  · intro i hi; exact g3 i (List.mem_range.2 hi)
  · intro i; rw [g4 i]; simp [List.mem_range]

/-- `clear_oneshot` succeeds when every one-shot activation is accounted for. -/
theorem clearOneshot_succeeds {k : Kbd}
    (h : ∀ i < k.config.layers.length, (k.layerState i).oneshotDepth ≤ (k.layerState i).active) :
    ∃ k', clearOneshot k = .ok k' := by
  have key : ∀ (l : List Nat), l.Nodup → ∀ k : Kbd, (∀ i ∈ l, (k.layerState i).oneshotDepth ≤ (k.layerState i).active) →
      ∃ k', clearOneshotLayers l k = .ok k' := by
    intro l
    induction l with
    | nil => intro _ k _; exact ⟨k, rfl⟩
    | cons a l ih =>
      intro hnd k hk
      obtain ⟨hna, hnd⟩ := List.nodup_cons.1 hnd
      unfold clearOneshotLayers
      rw [(clearOneshotLayer_spec a (k.layerState a).oneshotDepth k).1 (hk a (by simp)), bind_ok]
      apply ih hnd
      intro i hi
      have hne : i ≠ a := by rintro rfl; exact hna hi
      have : (dropOneshots k a (k.layerState a).oneshotDepth).layerState i = k.layerState i := upd_other _ _ hne
      rw [this]
      exact hk i (by simp [hi])
  obtain ⟨k1, h1⟩ := key _ List.nodup_range k (fun i hi => h i (List.mem_range.1 hi))
  unfold clearOneshot
  rw [h1]
  exact ⟨_, rfl⟩

/-- 1 for a toggled layer that `clear` untoggles. -/
def toggleCount (k : Kbd) (i : Nat) : Nat :=
  if (k.config.layer i).type ≠ .layout ∧ (k.layerState i).toggled then 1 else 0

theorem clearToggled_spec : ∀ (l : List Nat), l.Nodup → ∀ (k k' : Kbd), clearToggled l k = .ok k' →
    ∃ (ls : Nat → LayerSt) (os : List Out), k' = { k with layerState := ls, trace := os ++ k.trace } ∧
      (∀ o ∈ os, o.isLayerOff = true) ∧ (∀ i ∈ l, toggleCount k i ≤ (k.layerState i).active) ∧
      ∀ i, ls i = if i ∈ l ∧ (k.config.layer i).type ≠ .layout then { k.layerState i with
        active := (k.layerState i).active - toggleCount k i, toggled := false } else k.layerState i
  | [], _, k, k', h => by
    unfold clearToggled at h
    cases h
    exact ⟨k.layerState, [], rfl, by simp, by simp, by simp⟩
  | a :: l, hnd, k, k', h => by
    obtain ⟨hna, hnd⟩ := List.nodup_cons.1 hnd
    unfold clearToggled at h
    split at h
    · rename_i hc
      rw [bind_eq_ok] at h
      obtain ⟨k1, h1, h2⟩ := h
      rw [deactivateLayer_ok] at h1
      obtain ⟨hpos, rfl⟩ := h1
      have hpos' : 0 < (k.layerState a).active := by simpa [Kbd.modLayer] using hpos
      obtain ⟨ls, os, g1, g2, g3, g4⟩ := clearToggled_spec l hnd _ _ h2
      have hla : ∀ i, i ≠ a → (((k.modLayer a fun s => { s with toggled := false }).modLayer a
          fun s => { s with active := s.active - 1 }).emit (.layer a false)).layerState i = k.layerState i := by
        intro i hi
        simp only [Kbd.emit, Kbd.modLayer, upd_upd]
        exact upd_other _ _ hi
      have hct : ∀ i, i ≠ a → toggleCount (((k.modLayer a fun s => { s with toggled := false }).modLayer a
          fun s => { s with active := s.active - 1 }).emit (.layer a false)) i = toggleCount k i := by
        intro i hi
        unfold toggleCount
        rw [hla i hi]; rfl
      have hcf : (((k.modLayer a fun s => { s with toggled := false }).modLayer a
          fun s => { s with active := s.active - 1 }).emit (.layer a false)).config = k.config := rfl
      refine ⟨ls, os ++ [.layer a false], ?_, ?_, ?_, ?_⟩
      · rw [g1]; simp [Kbd.emit, Kbd.modLayer]
      · intro o ho
        rcases List.mem_append.1 ho with h | h
        · exact g2 o h
        · simp at h; rw [h]; rfl
      · intro i hi
        rcases List.mem_cons.1 hi with rfl | hi'
        · unfold toggleCount; split <;> omega
        · have hne : i ≠ a := fun e => hna (e ▸ hi')
          have := g3 i hi'
          rw [hla i hne, hct i hne] at this
          exact this
      · intro i
        rw [g4 i, hcf]
        by_cases hia : i = a
        · subst hia
          rw [if_neg (by tauto), if_pos ⟨by simp, hc.1⟩]
          simp [Kbd.emit, Kbd.modLayer, toggleCount, hc.1, hc.2]
        · rw [hla i hia, hct i hia]
          simp [hia]
    · rename_i hc
      obtain ⟨ls, os, g1, g2, g3, g4⟩ := clearToggled_spec l hnd _ _ h
      have ht0 : toggleCount k a = 0 := by unfold toggleCount; rw [if_neg hc]
      refine ⟨ls, os, g1, g2, ?_, ?_⟩
      · intro i hi
        rcases List.mem_cons.1 hi with rfl | hi
        · rw [ht0]; omega
        · exact g3 i hi
      · intro i
        rw [g4 i]
        by_cases hia : i = a
        · subst hia
          rw [if_neg (by tauto)]
          by_cases hty : (k.config.layer i).type ≠ .layout
          · rw [if_pos ⟨by simp, hty⟩, ht0]
            have : (k.layerState i).toggled = false := by
              cases h : (k.layerState i).toggled
              · rfl
              · exact absurd ⟨hty, h⟩ hc
            cases hls : k.layerState i
            simp_all
          · rw [if_neg (by tauto)]
        · simp [hia]

theorem allCodes_nodup : allCodes.Nodup := by decide +kernel

/-- The exact effect of `reset_keystate`. -/
theorem resetKeystate_spec (k : Kbd) : resetKeystate k =
    { k with keystate := fun _ => false,
             trace := ((allCodes.filter k.keystate).map (fun c => Out.key c false)).reverse ++ k.trace } := by
  have key : ∀ (l : List Code), l.Nodup → ∀ k : Kbd,
      l.foldl (fun (k : Kbd) c => if k.keystate c then
        { k.emit (.key c false) with keystate := upd k.keystate c false } else k) k =
      { k with keystate := fun c => if c ∈ l then false else k.keystate c,
               trace := ((l.filter k.keystate).map (fun c => Out.key c false)).reverse ++ k.trace } := by
    intro l
    induction l with
    | nil => intro _ k; simp
    | cons a l ih =>
      intro hnd k
      obtain ⟨hna, hnd⟩ := List.nodup_cons.1 hnd
      rw [List.foldl_cons, ih hnd]
      by_cases ha : k.keystate a = true
      · rw [if_pos ha]
        have hf : l.filter (upd k.keystate a false) = l.filter k.keystate := by
          apply List.filter_congr
          intro x hx
          exact upd_other _ _ (by rintro rfl; exact hna hx)
        simp only [Kbd.emit, hf, List.filter_cons, ha, if_true, List.map_cons, List.reverse_cons, List.append_assoc,
          List.cons_append, List.nil_append]
        congr 1
        funext c
        by_cases hca : c = a
        · subst hca; simp [hna]
        · simp [hca, upd_other _ _ hca]
      · rw [if_neg ha]
        simp only [List.filter_cons, ha, Bool.false_eq_true, if_false]
        congr 1
        funext c
        by_cases hca : c = a
        · subst hca; simp [hna]; simpa using ha
        · simp [hca]
  unfold resetKeystate
  rw [key allCodes (allCodes_nodup) k]
  congr 1
  funext c
  rw [if_pos (mem_allCodes c)]

theorem mem_nonMainLayers {k : Kbd} {i : Nat} : i ∈ nonMainLayers k ↔ i ≠ 0 ∧ i < k.config.layers.length := by
  unfold nonMainLayers
  rw [List.range_eq_range', List.drop_range', List.mem_range'_1]
  omega

/-- Layers whose toggle `clear` drops. -/
def clearable (c : Config) (i : Nat) : Prop := i ≠ 0 ∧ i < c.layers.length ∧ (c.layer i).type ≠ .layout

instance (c : Config) (i : Nat) : Decidable (clearable c i) := by unfold clearable; infer_instance

/-- The layer states after `clear`. -/
def clearedLayer (k : Kbd) (i : Nat) : LayerSt :=
  { k.layerState i with
    active := (k.layerState i).active - (if i < k.config.layers.length then (k.layerState i).oneshotDepth else 0)
      - (if clearable k.config i ∧ (k.layerState i).toggled then 1 else 0)
    oneshotDepth := if i < k.config.layers.length then 0 else (k.layerState i).oneshotDepth
    toggled := (k.layerState i).toggled && !decide (clearable k.config i) }

/-- What `clear` takes away from the count of layer `i`. -/
def clearShare (k : Kbd) (i : Nat) : Nat :=
  (if i < k.config.layers.length then (k.layerState i).oneshotDepth else 0)
      + (if clearable k.config i ∧ (k.layerState i).toggled then 1 else 0)

theorem clear_exact {k k' : Kbd} (h : clear k = .ok k') :
    (∃ os1 os2 : List Out, (∀ o ∈ os1, o.isLayerOff = true) ∧ (∀ o ∈ os2, o.isLayerOff = true) ∧
      k' = { k with
        layerState := clearedLayer k
        keystate := fun _ => false
        oneshotLatch := false
        oneshotTimeout := 0
        activeMacro := none
        trace := ((allCodes.filter k.keystate).map (fun c => Out.key c false)).reverse ++ (os2 ++ (os1 ++ k.trace)) }) ∧
    ∀ i, clearShare k i ≤ (k.layerState i).active := by
  unfold clear at h
  rw [bind_eq_ok] at h
  obtain ⟨k1, h1, h⟩ := h
  rw [bind_eq_ok] at h
  obtain ⟨k2, h2, h⟩ := h
  rw [resetKeystate_spec, Except.ok.injEq] at h
  subst h
  obtain ⟨ls1, os1, rfl, a1, b1, c1⟩ := clearOneshot_spec h1
  have hnd : (nonMainLayers { k with layerState := ls1, trace := os1 ++ k.trace, oneshotLatch := false, oneshotTimeout := 0 }).Nodup := by
    unfold nonMainLayers
    exact List.Nodup.sublist (List.drop_sublist _ _) List.nodup_range
  obtain ⟨ls2, os2, rfl, a2, b2, c2⟩ := clearToggled_spec _ hnd _ _ h2
  have hmem : ∀ i, i ∈ nonMainLayers { k with layerState := ls1, trace := os1 ++ k.trace, oneshotLatch := false, oneshotTimeout := 0 } ↔
      i ≠ 0 ∧ i < k.config.layers.length := fun i => mem_nonMainLayers
  have hmem' : ∀ i, (i ∈ nonMainLayers { k with layerState := ls1, trace := os1 ++ k.trace, oneshotLatch := false, oneshotTimeout := 0 } ∧
      (k.config.layer i).type ≠ .layout) ↔ clearable k.config i := by
    intro i; rw [hmem]; unfold clearable; tauto
  have hls : ls2 = clearedLayer k := by
    funext i
    have hc2 := c2 i
    simp only [hmem'] at hc2
    rw [hc2]
    have hc1 := c1 i
    unfold toggleCount clearedLayer
    by_cases ho : clearable k.config i
    · have hlt := ho.2.1
      have hty := ho.2.2
      rw [if_pos hlt] at hc1
      simp [ho, hlt, hty, hc1]
    · rw [if_neg ho]
      by_cases hlt : i < k.config.layers.length
      · rw [if_pos hlt] at hc1
        simp [ho, hlt, hc1]
      · rw [if_neg hlt] at hc1
        cases hh : k.layerState i
        rw [hc1, hh]
        simp [ho, hlt]
  subst hls
  refine ⟨⟨os1, os2, a1, a2, rfl⟩, ?_⟩
  intro i
  unfold clearShare
  by_cases hlt : i < k.config.layers.length
  · have g1 := b1 i hlt
    have hc1 := c1 i
    rw [if_pos hlt] at hc1
    rw [if_pos hlt]
    by_cases ho : clearable k.config i ∧ (k.layerState i).toggled = true
    · have g2 := b2 i ((hmem' i).2 ho.1).1
      have hty := ho.1.2.2
      unfold toggleCount at g2
      simp only [hc1, ho.2, hty, ne_eq, not_false_eq_true, and_self, if_true] at g2
      rw [if_pos ho]
      omega
    · rw [if_neg ho]; omega
  · rw [if_neg hlt, if_neg]
    · omega
    · rintro ⟨e, _⟩
      exact hlt e.2.1

/-- `clear` succeeds if every layer is active often enough. -/
theorem clear_succeeds {k : Kbd} (hle : ∀ i, clearShare k i ≤ (k.layerState i).active) : ∃ k', clear k = .ok k' := by
  have h1 : ∀ i < k.config.layers.length, (k.layerState i).oneshotDepth ≤ (k.layerState i).active := by
    intro i hi
    have := hle i
    unfold clearShare at this
    rw [if_pos hi] at this
    omega
  obtain ⟨k1, h1⟩ := clearOneshot_succeeds h1
  have h1' := h1
  obtain ⟨ls, os, rfl, a1, b1, c1⟩ := clearOneshot_spec h1
  have key : ∀ (l : List Nat), l.Nodup → ∀ k : Kbd, (∀ i ∈ l, toggleCount k i ≤ (k.layerState i).active) →
      ∃ k', clearToggled l k = .ok k' := by
    intro l
    induction l with
    | nil => intro _ k _; exact ⟨k, rfl⟩
    | cons a l ih =>
      intro hnd k hk
      obtain ⟨hna, hnd⟩ := List.nodup_cons.1 hnd
      unfold clearToggled
      split
      · rename_i hc
        have hpos : 0 < (k.layerState a).active := by
          have := hk a (by simp)
          unfold toggleCount at this
          rw [if_pos hc] at this
          omega
        have hd := (deactivateLayer_ok (k := k.modLayer a fun s => { s with toggled := false }) (i := a)).2
          ⟨by simpa [Kbd.modLayer] using hpos, rfl⟩
        rw [hd, bind_ok]
        apply ih hnd
        intro i hi
        have hne : i ≠ a := fun e => hna (e ▸ hi)
        have hls : (((k.modLayer a fun s => { s with toggled := false }).modLayer a
          fun s => { s with active := s.active - 1 }).emit (.layer a false)).layerState i = k.layerState i := by
          simp only [Kbd.emit, Kbd.modLayer, upd_upd]
          exact upd_other _ _ hne
        have := hk i (by simp [hi])
        unfold toggleCount at this ⊢
        rw [hls]
        exact this
      · exact ih hnd k fun i hi => hk i (by simp [hi])
  have gen : ∀ k0 : Kbd, k0.config = k.config → k0.layerState = ls → ∃ k', clearToggled (nonMainLayers k0) k0 = .ok k' := by
    intro k0 e1 e2
    apply key
    · unfold nonMainLayers; exact List.Nodup.sublist (List.drop_sublist _ _) List.nodup_range
    intro i hi
    obtain ⟨h0, hlt⟩ := mem_nonMainLayers.1 hi
    rw [e1] at hlt
    have := hle i
    have hc1 := c1 i
    rw [if_pos hlt] at hc1
    unfold clearShare at this
    rw [if_pos hlt] at this
    unfold toggleCount
    rw [e1, e2, hc1]
    dsimp only
    split
    · rename_i hc
      rw [if_pos ⟨⟨h0, hlt, hc.1⟩, hc.2⟩] at this
      omega
    · omega
  obtain ⟨k2, h2⟩ := gen { k with layerState := ls, trace := os ++ k.trace, oneshotLatch := false, oneshotTimeout := 0 } rfl rfl
  unfold clear
  rw [h1', bind_ok, h2, bind_ok]
  exact ⟨_, rfl⟩

end Keyd
