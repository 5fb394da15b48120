import Verif.Proofs.Moves

/-
  The balance of layer activations and the accounting of output keys, for every
  action.
-/

set_option autoImplicit false

namespace Keyd

open Move

/-- The bindings considered. -/
def SoberT (L Y tap alt : Nat → Prop) (d : Desc) : Prop := TargetsIn L Y d ∧ Sober tap alt d

/-- Facts about the tables that the accounting relies on. -/
structure Ctx (L Y tap alt : Nat → Prop) (c : Config) : Prop where
  layers : ∀ i, L i → clearable c i
  layouts : ∀ i, Y i → i ≠ 0 → ¬ L i
  taps : ∀ a, tap a → (c.desc a).deferred = false
  alts : ∀ a, alt a → (c.desc a).idle = false
  table : TableT (SoberT L Y tap alt) c

variable {L Y tap alt : Nat → Prop}

theorem soberT_closed : TClosed (SoberT L Y tap alt) where
  none := ⟨trivial, trivial⟩
  keyseq := fun _ _ => ⟨trivial, trivial⟩
  ot := fun _ _ _ h => ⟨h.1, trivial⟩
  ott := fun _ _ _ h => ⟨h.1, trivial⟩
  swap := fun _ h => h.2.elim
  swapm := fun _ _ h => h.2.elim

theorem Sat.move {δ : Nat → Int} {A : Code → Prop} {k k0 : Kbd} {r : Res Kbd}
    (h : Sat r (Move L δ A k0) NoDeact) (h0 : Move L zero noKey k k0) : Sat r (Move L δ A k) NoDeact :=
  h.imp (fun _ h' => h0.pre0 h')

theorem unit_none : unit none = zero := by funext i; simp [unit, zero]

/-- Pressing a key bound to an immediate action. -/
def PressOK (L Y tap alt : Nat → Prop) (n : Nat) : Prop :=
  ∀ (k : Kbd) (code : Code) (d : Desc) (dl : Nat) (t : Int), Ctx L Y tap alt k.config → SoberT L Y tap alt d →
    d.deferred = false → FlagsL L k → (d.holds = none → Covered L k) →
    Sat (processDescriptor n k code d dl true t) (Move L (unit d.holds) (fun c => d.outKey = some c) k) NoDeact

/-- Releasing a key. -/
def ReleaseOK (L Y tap alt : Nat → Prop) (n : Nat) : Prop :=
  ∀ (k : Kbd) (code : Code) (d : Desc) (dl : Nat) (t : Int), Ctx L Y tap alt k.config → SoberT L Y tap alt d →
    FlagsL L k → (∀ i, L i → unit d.holds i ≤ exc k i) →
    Sat (processDescriptor n k code d dl false t) (fun k' => Move L (fun i => - unit d.holds i) noKey k k' ∧
      ∀ c, Plain c → d.outKey = some c → k'.keystate c = false) NoDeact

theorem noDeact_fuel : NoDeact .fuel := by intro h; cases h

/-- After the switch, `process_descriptor` only records the key pressed last. -/
theorem press_wrap {n : Nat} {k : Kbd} {code : Code} {d : Desc} {dl : Nat} {t : Int} {δ : Nat → Int} {A : Code → Prop}
    (h : Sat (pdSwitch (processDescriptor n) (pdMacroPrefix k d dl true) code d dl true t) (Move L δ A k) NoDeact) :
    Sat (processDescriptor (n+1) k code d dl true t) (Move L δ A k) NoDeact := by
  unfold processDescriptor
  refine Sat.bind h (fun k1 h1 => ?_)
  exact h1.then0 (Move.other ⟨rfl, rfl, rfl, rfl, rfl, rfl, rfl⟩ rfl rfl)

theorem release_wrap {n : Nat} {k : Kbd} {code : Code} {d : Desc} {dl : Nat} {t : Int} {Q : Kbd → Prop}
    (h : Sat (pdSwitch (processDescriptor n) k code d dl false t) Q NoDeact) :
    Sat (processDescriptor (n+1) k code d dl false t) Q NoDeact := by
  unfold processDescriptor
  refine Sat.bind (Q := Q) ?_ (fun k1 h1 => h1)
  exact h

theorem move_toggle {k : Kbd} {code : Code} {l : Nat} (hl : L l) (h : Covered L k) :
    Sat (pdToggle k code l) (Move L zero noKey k) NoDeact := by
  unfold pdToggle
  have key : Sat (if ((k.modLayer l fun s => { s with toggled := !s.toggled }).layerState l).toggled
      then activateLayer (k.modLayer l fun s => { s with toggled := !s.toggled }) code l
      else deactivateLayer (k.modLayer l fun s => { s with toggled := !s.toggled }) l) (Move L zero noKey k) NoDeact := by
    have hm : ∀ δ : Nat → Int, (∀ i, i ≠ l → δ i = 0) → δ l = (if (k.layerState l).toggled then 1 else -1) →
        Move L δ noKey k (k.modLayer l fun s => { s with toggled := !s.toggled }) := by
      intro δ h1 h2
      refine ⟨Calm.modL _ _ _, ?_, ?_, fun _ _ h => .inl h⟩
      · intro i _
        unfold exc Kbd.modLayer
        by_cases hi : i = l
        · subst hi
          rw [h2]
          cases ht : (k.layerState i).toggled <;> simp [excS, ht] <;> omega
        · simp [upd_other _ _ hi, h1 i hi]
      · intro hf i hi
        unfold Kbd.modLayer
        have : i ≠ l := fun e => hi (e ▸ hl)
        simp only [upd_other _ _ this]
        exact hf i hi
    refine Sat.ite (fun ht => ?_) (fun ht => ?_)
    · have ht : (k.layerState l).toggled = false := by simpa [Kbd.modLayer] using ht
      have h0 := hm (fun i => - unit (some l) i) (fun i hi => by simp [unit, Ne.symm hi]) (by simp [unit, ht])
      refine (Move.activate _ code l).imp (fun k1 h1 => (h0.trans h1).conv (fun i _ => by simp [zero]; omega) ?_)
      rintro c (h | h) <;> exact h
    · have ht : (k.layerState l).toggled = true := by simpa [Kbd.modLayer] using ht
      have h0 := hm (unit (some l)) (fun i hi => by simp [unit, Ne.symm hi]) (by simp [unit, ht])
      have hpos : 0 < ((k.modLayer l fun s => { s with toggled := !s.toggled }).layerState l).active := by
        have := Covered.le h l
        rw [ht] at this
        simp [Kbd.modLayer] at this ⊢
        omega
      refine (Move.deactivate hpos).imp (fun k1 h1 => (h0.trans h1).conv (fun i _ => by simp [zero]; omega) ?_)
      rintro c (h | h) <;> exact h
  refine Sat.bind key (fun k1 h1 => ?_)
  have h2 := h1.then0 (Move.updateMods k1 none 0)
  refine (Move.clearOneshot (Covered.move h h2 (fun _ _ => Int.le_refl _))).imp (fun k3 h3 => h2.then0 h3)

theorem move_layer_press {k : Kbd} {code : Code} {l : Nat} :
    Sat (pdLayer k code l true) (Move L (unit (some l)) noKey k) NoDeact := by
  unfold pdLayer
  refine Sat.bind (Move.activate (L := L) k code l) (fun k1 h1 => ?_)
  refine Sat.ite (fun _ => ?_) (fun _ => ?_)
  · exact h1.then0 (((Move.other ⟨rfl, rfl, rfl, rfl, rfl, rfl, rfl⟩ rfl rfl : Move L zero noKey k1 { k1 with inhibitModifierGuard := true }).then0
      (Move.updateMods _ none 0)).then0 (Move.other ⟨rfl, rfl, rfl, rfl, rfl, rfl, rfl⟩ rfl rfl))
  · exact h1.then0 (Move.updateMods _ none 0)

theorem move_layer_release {k : Kbd} {code : Code} {l : Nat} (h : 0 < (k.layerState l).active) :
    Sat (pdLayer k code l false) (Move L (fun i => - unit (some l) i) noKey k) NoDeact := by
  unfold pdLayer
  refine Sat.bind (Move.deactivate (L := L) h) (fun k1 h1 => ?_)
  refine Sat.ite (fun _ => ?_) (fun _ => ?_)
  · exact h1.then0 (((Move.other ⟨rfl, rfl, rfl, rfl, rfl, rfl, rfl⟩ rfl rfl : Move L zero noKey k1 { k1 with inhibitModifierGuard := true }).then0
      (Move.updateMods _ none 0)).then0 (Move.other ⟨rfl, rfl, rfl, rfl, rfl, rfl, rfl⟩ rfl rfl))
  · exact h1.then0 (Move.updateMods _ none 0)

theorem move_oneshot_press {k : Kbd} {code : Code} {l dl : Nat} {t : Int} :
    Sat (pdOneshot k code l dl true t) (Move L (unit (some l)) noKey k) NoDeact := by
  unfold pdOneshot
  rw [if_pos rfl]
  refine Sat.bind (Move.activate (L := L) k code l) (fun k1 h1 => ?_)
  exact (h1.then0 (Move.updateMods _ (some dl) 0)).then0 (Move.other ⟨rfl, rfl, rfl, rfl, rfl, rfl, rfl⟩ rfl rfl)

theorem move_oneshot_release {k : Kbd} {code : Code} {l dl : Nat} {t : Int} (hl : L l)
    (h : 0 < (k.layerState l).active) :
    Sat (pdOneshot k code l dl false t) (Move L (fun i => - unit (some l) i) noKey k) NoDeact := by
  unfold pdOneshot
  rw [if_neg (by simp)]
  refine Sat.ite (fun _ => ?_) (fun _ => ?_)
  · dsimp only
    refine Sat.ite (fun _ => by intro h; cases h) (fun _ => ?_)
    have h0 : Move L (fun i => - unit (some l) i) noKey k
        (k.modLayer l fun s => { s with oneshotDepth := s.oneshotDepth + 1 }) := by
      refine ⟨Calm.modL _ _ _, ?_, ?_, fun _ _ h => .inl h⟩
      · intro i _
        unfold exc Kbd.modLayer unit
        by_cases hi : i = l
        · subst hi
          simp [excS]; omega
        · simp [upd_other _ _ hi, Ne.symm hi]
      · intro hf i hi
        unfold Kbd.modLayer
        have : i ≠ l := fun e => hi (e ▸ hl)
        simp only [upd_other _ _ this]
        exact hf i hi
    refine Sat.ite (fun _ => ?_) (fun _ => h0)
    have h1 : Move L (fun i => - unit (some l) i) noKey k
        { k.modLayer l (fun s => { s with oneshotDepth := s.oneshotDepth + 1 }) with
          oneshotTimeout := t + (k.modLayer l fun s => { s with oneshotDepth := s.oneshotDepth + 1 }).config.oneshotTimeout } :=
      h0.then0 (Move.other ⟨rfl, rfl, rfl, rfl, rfl, rfl, rfl⟩ rfl rfl)
    exact (Move.schedule _ _).imp (fun k2 h2 => h1.then0 h2)
  · refine Sat.bind (Move.deactivate (L := L) h) (fun k1 h1 => ?_)
    exact h1.then0 (Move.updateMods _ none 0)

theorem move_macro {k : Kbd} {m : Nat} {tm iv : Int} {dl : Nat} {t : Int} (h : Covered L k) :
    Sat (pdMacro k m tm iv dl t) (Move L zero noKey k) NoDeact := by
  unfold pdMacro
  dsimp only
  have h0 : Move L zero noKey k { k with macroRepeatInterval := iv } := Move.other ⟨rfl, rfl, rfl, rfl, rfl, rfl, rfl⟩ rfl rfl
  refine Sat.bind (Sat.move (Move.clearOneshot (Covered.move h h0 (fun _ _ => Int.le_refl _))) h0) (fun k1 h1 => ?_)
  have h2 := h1.then0 (Move.executeMacro k1 dl (k1.config.mac m))
  have h3 := h2.then0 (Move.other (k' := { executeMacro k1 dl (k1.config.mac m) with
      activeMacro := some m, activeMacroLayer := dl, macroTimeout := t + tm }) ⟨rfl, rfl, rfl, rfl, rfl, rfl, rfl⟩ rfl rfl)
  exact (Move.schedule _ _).imp (fun k4 h4 => h3.then0 h4)

theorem move_command {k : Kbd} {c : Nat} (h : Covered L k) : Sat (pdCommand k c) (Move L zero noKey k) NoDeact := by
  unfold pdCommand
  dsimp only
  have h0 := Move.emit (L := L) k (.command (k.config.commands.getD c []))
  refine Sat.bind (Sat.move (Move.clearOneshot (Covered.move h h0 (fun _ _ => Int.le_refl _))) h0) (fun k1 h1 => ?_)
  exact h1.then0 (Move.updateMods _ _ _)

theorem move_keyseq_press {k : Kbd} {c : Code} {m : UInt8} {dl : Nat} {t : Int} (h : Covered L k) :
    Sat (pdKeyseq k c m dl true t) (Move L zero (fun x => c = x) k) NoDeact := by
  unfold pdKeyseq
  rw [if_pos rfl]
  dsimp only
  have h0 : Move L zero noKey k (if k.keystate c then sendKey k c false else k) := by
    split
    · exact Move.sendUp k c
    · exact Move.refl k
  have h1 := (h0.then0 (Move.updateMods _ (some dl) m)).pre0 (Move.sendDown _ c)
  refine Sat.bind ((Move.clearOneshot (Covered.move h h1 (fun _ _ => Int.le_refl _))).imp (fun k2 h2 => h1.then0 h2))
    (fun k3 h3 => ?_)
  split
  · exact h3.then0 (Move.other ⟨rfl, rfl, rfl, rfl, rfl, rfl, rfl⟩ rfl rfl)
  · exact h3

theorem move_keyseq_release {k : Kbd} {c : Code} {m : UInt8} {dl : Nat} {t : Int} :
    Sat (pdKeyseq k c m dl false t) (fun k' => Move L zero noKey k k' ∧ (Plain c → k'.keystate c = false)) NoDeact := by
  unfold pdKeyseq
  rw [if_neg (by simp)]
  rw [bind_ok]
  have h1 := (Move.sendUp (L := L) k c).then0 (Move.updateMods _ none 0)
  have h2 : Plain c → (updateMods (sendKey k c false) none 0).keystate c = false := by
    intro hc
    rw [updateMods_plain _ _ _ hc, sendKey_plain _ _ _ hc, if_pos rfl]
  split
  · exact ⟨h1.then0 (Move.other ⟨rfl, rfl, rfl, rfl, rfl, rfl, rfl⟩ rfl rfl), h2⟩
  · exact ⟨h1, h2⟩

theorem press_step {n : Nat} : PressOK L Y tap alt (n+1) := by
  intro k code d dl t hctx hT hdef hfl hcov
  apply press_wrap
  have hpre : Move L zero noKey k (pdMacroPrefix k d dl true) := by
    unfold pdMacroPrefix
    rw [if_pos rfl]
    split <;> first | exact Move.executeMacro _ _ _ | exact Move.refl k
  unfold pdSwitch
  have noKeyTo : ∀ {δ : Nat → Int} {A : Code → Prop} {r : Res Kbd} {k : Kbd}, Sat r (Move L δ noKey k) NoDeact →
      Sat r (Move L δ A k) NoDeact := fun h => h.imp (fun _ h => h.conv (fun _ _ => rfl) (fun _ h => h.elim))
  cases d with
  | none => rw [show unit (Desc.holds .none) = zero from unit_none]; exact noKeyTo (r := .ok k) (Move.refl k)
  | keyseq c m =>
    rw [show unit (Desc.holds (.keyseq c m)) = zero from unit_none]
    exact (move_keyseq_press (hcov rfl)).imp (fun _ h => h.conv (fun _ _ => rfl) (fun x hx => by rw [hx]; rfl))
  | scroll s =>
    rw [show unit (Desc.holds (.scroll s)) = zero from unit_none]
    exact noKeyTo (r := .ok _) (Move.other ⟨rfl, rfl, rfl, rfl, rfl, rfl, rfl⟩ rfl rfl)
  | scrollToggle s =>
    rw [show unit (Desc.holds (.scrollToggle s)) = zero from unit_none]
    exact noKeyTo (r := .ok _) (Move.other ⟨rfl, rfl, rfl, rfl, rfl, rfl, rfl⟩ rfl rfl)
  | overloadIdle a b t => cases hdef
  | overloadTimeout a b t => cases hdef
  | overloadTimeoutTap a b t => cases hdef
  | timeout a b t => cases hdef
  | layout l =>
    rw [show unit (Desc.holds (.layout l)) = zero from unit_none]
    exact noKeyTo (Move.setlayout (hcov rfl) hctx.layers (hctx.layouts l hT.1))
  | layer l => exact noKeyTo move_layer_press
  | layerm l m => exact noKeyTo (move_layer_press.move hpre)
  | clear =>
    rw [show unit (Desc.holds .clear) = zero from unit_none]
    exact noKeyTo (Move.clear (hcov rfl) hctx.layers)
  | clearm m =>
    rw [show unit (Desc.holds (.clearm m)) = zero from unit_none]
    exact noKeyTo (Sat.bind (Move.clear (hcov rfl) hctx.layers) (fun k1 h1 => h1.then0 (Move.executeMacro _ _ _)))
  | overload l a =>
    refine noKeyTo ?_
    simp only [if_true]
    unfold pdOverloadPress
    dsimp only
    have h0 : Move L zero noKey k { k with overloadStartTime := t } := Move.other ⟨rfl, rfl, rfl, rfl, rfl, rfl, rfl⟩ rfl rfl
    exact Sat.bind ((Move.activate _ code l).move h0) (fun k1 h1 => h1.then0 (Move.updateMods _ _ _))
  | oneshot l => exact noKeyTo move_oneshot_press
  | oneshotm l m => exact noKeyTo (move_oneshot_press.move hpre)
  | «macro» m =>
    rw [show unit (Desc.holds (.macro m)) = zero from unit_none]
    exact noKeyTo (move_macro (hcov rfl))
  | macro2 a b m =>
    rw [show unit (Desc.holds (.macro2 a b m)) = zero from unit_none]
    exact noKeyTo (move_macro (hcov rfl))
  | toggle l =>
    rw [show unit (Desc.holds (.toggle l)) = zero from unit_none]
    exact noKeyTo (move_toggle hT.1 (hcov rfl))
  | togglem l m =>
    rw [show unit (Desc.holds (.togglem l m)) = zero from unit_none]
    exact noKeyTo ((move_toggle hT.1 (Covered.move (hcov rfl) hpre (fun _ _ => Int.le_refl _))).move hpre)
  | command c =>
    rw [show unit (Desc.holds (.command c)) = zero from unit_none]
    exact noKeyTo (move_command (hcov rfl))
  | swap l => exact hT.2.elim
  | swapm l m => exact hT.2.elim

theorem active_of_unit {k : Kbd} {l : Nat} (hl : L l) (h : ∀ i, L i → unit (some l) i ≤ exc k i) :
    0 < (k.layerState l).active := by
  have := h l hl
  unfold unit exc excS at this
  simp at this
  split at this <;> omega

theorem release_step {n : Nat} (hp : PressOK L Y tap alt n) (hr : ReleaseOK L Y tap alt n) :
    ReleaseOK L Y tap alt (n+1) := by
  intro k code d dl t hctx hT hfl hcov
  apply release_wrap
  unfold pdSwitch
  have triv : ∀ {d : Desc}, d.holds = none → d.outKey = none → ∀ {k' : Kbd}, Move L zero noKey k k' →
      Sat (.ok k') (fun k' => Move L (fun i => - unit d.holds i) noKey k k' ∧
        ∀ c, Plain c → d.outKey = some c → k'.keystate c = false) NoDeact := by
    intro d h1 h2 k' hm
    refine ⟨hm.conv (fun i _ => by rw [h1]; simp [unit, zero]) (fun _ h => h), ?_⟩
    rw [h2]; intro c _ h; cases h
  have lay : ∀ {d : Desc} {l : Nat} {r : Res Kbd}, d.holds = some l → d.outKey = none →
      Sat r (Move L (fun i => - unit (some l) i) noKey k) NoDeact →
      Sat r (fun k' => Move L (fun i => - unit d.holds i) noKey k k' ∧
        ∀ c, Plain c → d.outKey = some c → k'.keystate c = false) NoDeact := by
    intro d l r h1 h2 hm
    refine hm.imp (fun k' hk' => ⟨by rw [h1]; exact hk', ?_⟩)
    rw [h2]; intro c _ h; cases h
  cases d with
  | none => exact triv rfl rfl (Move.refl k)
  | keyseq c m =>
    refine move_keyseq_release.imp (fun k' h => ⟨h.1.conv (fun i _ => by simp [unit, zero, Desc.holds]) (fun _ h => h), ?_⟩)
    rintro x hx e
    have : c = x := by injection e
    subst this
    exact h.2 hx
  | scroll s => exact triv rfl rfl (Move.other ⟨rfl, rfl, rfl, rfl, rfl, rfl, rfl⟩ rfl rfl)
  | scrollToggle s => exact triv rfl rfl (Move.other ⟨rfl, rfl, rfl, rfl, rfl, rfl, rfl⟩ rfl rfl)
  | overloadIdle a b t => exact triv rfl rfl (Move.refl k)
  | overloadTimeout a b t => exact triv rfl rfl (Move.refl k)
  | overloadTimeoutTap a b t => exact triv rfl rfl (Move.refl k)
  | timeout a b t => exact triv rfl rfl (Move.refl k)
  | layout l => exact triv rfl rfl (Move.refl k)
  | layer l => exact lay rfl rfl (move_layer_release (active_of_unit hT.1 hcov))
  | layerm l m => exact lay rfl rfl (move_layer_release (active_of_unit hT.1 hcov))
  | clear => exact triv rfl rfl (Move.refl k)
  | clearm m => exact triv rfl rfl (Move.refl k)
  | overload l a =>
    refine lay rfl rfl ?_
    simp only [Bool.false_eq_true, if_false]
    unfold pdOverloadRelease
    dsimp only
    refine Sat.bind (Move.deactivate (L := L) (active_of_unit hT.1 hcov)) (fun k1 h1 => ?_)
    have h2 := h1.then0 (Move.updateMods k1 none 0)
    revert h2
    generalize updateMods k1 none 0 = k2
    intro h2
    have hcfg : k2.config = k.config := h2.calm.config
    have hc2 : Covered L k2 := by
      refine ⟨fun i hi => ?_, h2.flags hfl⟩
      rw [h2.exc i hi]
      have h := hcov i hi
      simp only [Desc.holds] at h
      omega
    refine Sat.ite (fun _ => ?_) (fun _ => h2)
    have hnested : SoberT L Y tap alt (k.config.desc a) := hctx.table.descs a
    have hleaf : (k.config.desc a).deferred = false := hctx.taps a hT.2
    revert hnested hleaf
    generalize k.config.desc a = act
    intro hnested hleaf
    have general : Sat (processDescriptor n k2 code act dl true t >>= fun k3 => processDescriptor n k3 code act dl false t)
        (Move L (fun i => - unit (some l) i) noKey k) NoDeact := by
      refine Sat.bind (hp k2 code act dl t (by rw [hcfg]; exact hctx) hnested hleaf hc2.2 (fun _ => hc2)) (fun k3 h3 => ?_)
      refine (hr k3 code act dl t (by rw [h3.calm.config, hcfg]; exact hctx) hnested (h3.flags hc2.2) ?_).imp ?_
      · intro i hi
        rw [h3.exc i hi]
        have := hc2.1 i hi
        omega
      · rintro k4 ⟨h4, h4'⟩
        have h34 := h3.trans h4
        refine h2.then0 ⟨h34.calm, ?_, h34.flags, ?_⟩
        · intro i hi
          rw [h34.exc i hi]
          simp [zero]; omega
        · intro c hc hdown
          rcases h34.keys c hc hdown with h | h | h
          · exact .inl h
          · rw [h4' c hc h] at hdown; cases hdown
          · exact h.elim
    split
    · rename_i m
      exact h2.then0 (Move.executeMacro _ _ _)
    · exact general
  | oneshot l => exact lay rfl rfl (move_oneshot_release hT.1 (active_of_unit hT.1 hcov))
  | oneshotm l m => exact lay rfl rfl (move_oneshot_release hT.1 (active_of_unit hT.1 hcov))
  | «macro» m => exact triv rfl rfl (Move.refl k)
  | macro2 a b m => exact triv rfl rfl (Move.refl k)
  | toggle l => exact triv rfl rfl (Move.refl k)
  | togglem l m => exact triv rfl rfl (Move.refl k)
  | command c => exact triv rfl rfl (Move.refl k)
  | swap l => exact hT.2.elim
  | swapm l m => exact hT.2.elim

theorem press_ok : ∀ n, PressOK L Y tap alt n
  | 0 => fun _ _ _ _ _ _ _ _ _ _ => noDeact_fuel
  | _+1 => press_step

theorem release_ok : ∀ n, ReleaseOK L Y tap alt n
  | 0 => fun _ _ _ _ _ _ _ _ _ => noDeact_fuel
  | n+1 => release_step (press_ok n) (release_ok n)

end Keyd
