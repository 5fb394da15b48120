import Verif.Proofs.Engine

/-
  Invariants that depend only on the binding tables, the engine's key state and
  the trace of observable actions.
-/

set_option autoImplicit false

namespace Keyd

/-- A macro that `execute_macro` sends through the key path (keyboard.c:163). -/
def SimpleMacro (m : Macro) : Prop := ∃ e : MacroEntry, m = [e] ∧ e.type = .keysequence

structure OutInv (P : Kbd → Prop) : Prop where
  frame : ∀ k k' : Kbd, k'.originalConfig = k.originalConfig → k'.config = k.config → k'.keystate = k.keystate →
    k'.trace = k.trace → P k → P k'
  send : ∀ k c b, P k → P (sendKey k c b)
  reset1 : ∀ k c, P k → k.keystate c = true →
    P { k.emit (.key c false) with keystate := upd k.keystate c false }
  emit : ∀ k o, (∀ c b, o ≠ .key c b) → P k → P (k.emit o)
  mac : ∀ k i t, ¬ SimpleMacro (k.config.mac i) → P k →
    P (emitMacro k (macroExecute (k.config.mac i) t))

variable {P : Kbd → Prop}

theorem sendKey_config (k : Kbd) (c : Code) (b : Bool) : (sendKey k c b).config = k.config := by
  unfold sendKey
  dsimp only
  split
  · rfl
  · split <;> split <;> rfl

theorem clearMod_config (k : Kbd) (c : Code) : (clearMod k c).config = k.config := by
  unfold clearMod
  split <;> simp [sendKey_config]

theorem setMod_config (mods : UInt8) (k : Kbd) (m : UInt8 × Code) :
    (setMod mods k m).config = k.config := by
  unfold setMod
  split <;> split <;> simp [sendKey_config, clearMod_config]

theorem foldl_config {α : Type} (f : Kbd → α → Kbd) (h : ∀ k a, (f k a).config = k.config) :
    ∀ (l : List α) (k : Kbd), (l.foldl f k).config = k.config
  | [], _ => rfl
  | a :: l, k => by rw [List.foldl_cons, foldl_config f h l, h]

theorem setMods_config (k : Kbd) (mods : UInt8) : (setMods k mods).config = k.config :=
  foldl_config _ (setMod_config mods) _ _

theorem updateMods_config (k : Kbd) (ex : Option Nat) (mods : UInt8) :
    (updateMods k ex mods).config = k.config := setMods_config _ _

namespace OutInv

theorem foldl {α : Type} {f : Kbd → α → Kbd} (h : ∀ k a, P k → P (f k a)) :
    ∀ (l : List α) (k : Kbd), P k → P (l.foldl f k)
  | [], _, hk => hk
  | a :: l, k, hk => foldl h l _ (h k a hk)

variable (I : OutInv P)
include I

theorem clearMod {k : Kbd} (c : Code) (h : P k) : P (clearMod k c) := by
  unfold Keyd.clearMod
  split
  · exact I.send _ _ _ (I.send _ _ _ (I.send _ _ _ h))
  · exact I.send _ _ _ h

theorem setMod (mods : UInt8) (k : Kbd) (m : UInt8 × Code) (h : P k) : P (setMod mods k m) := by
  unfold Keyd.setMod
  split <;> split
  · exact h
  · exact I.send _ _ _ h
  · exact I.clearMod _ h
  · exact h

theorem updateMods {k : Kbd} (ex : Option Nat) (mods : UInt8) (h : P k) :
    P (updateMods k ex mods) := foldl (I.setMod _) _ _ h

theorem executeMacro {k : Kbd} (dl i : Nat) (h : P k) : P (executeMacro k dl (k.config.mac i)) := by
  unfold Keyd.executeMacro
  dsimp only
  have slow : ¬ SimpleMacro (k.config.mac i) → P (emitMacro (Keyd.updateMods k (some dl) 0)
      (macroExecute (k.config.mac i) (k.config.macroSequenceTimeout % 18446744073709551616).toNat)) := by
    intro hn
    have h1 := I.mac (Keyd.updateMods k (some dl) 0) i
      (k.config.macroSequenceTimeout % 18446744073709551616).toNat
    rw [updateMods_config] at h1
    exact h1 hn (I.updateMods _ _ h)
  split
  · rename_i e heq
    split
    · exact I.send _ _ _ (I.send _ _ _ (I.updateMods _ _ h))
    · rename_i hne
      refine slow ?_
      rintro ⟨e', h1, h2⟩
      rw [heq] at h1
      cases h1
      exact hne h2
  · rename_i hne
    refine slow ?_
    rintro ⟨e', h1, h2⟩
    exact hne e' h1

theorem deactivate {k : Kbd} (i : Nat) (h : P k) : Sat (deactivateLayer k i) P AnyErr := by
  unfold deactivateLayer
  dsimp only
  split
  · trivial
  · exact I.emit _ _ (by simp) (I.frame k (k.modLayer i _) rfl rfl rfl rfl h)

theorem activate {k : Kbd} (c : Code) (i : Nat) (h : P k) : Sat (activateLayer k c i) P AnyErr := by
  unfold activateLayer
  dsimp only
  split
  · trivial
  · exact I.emit _ _ (by simp) (I.frame k _ rfl rfl rfl rfl h)

theorem clearOneshotLayer (i : Nat) : ∀ (n : Nat) (k : Kbd), P k →
    Sat (clearOneshotLayer i n k) P AnyErr
  | 0, k, h => h
  | n+1, k, h => by
    unfold Keyd.clearOneshotLayer
    exact (I.deactivate i h).bind (fun k1 h1 =>
      clearOneshotLayer i n _ (I.frame k1 (k1.modLayer i _) rfl rfl rfl rfl h1))

theorem clearOneshotLayers : ∀ (l : List Nat) (k : Kbd), P k →
    Sat (clearOneshotLayers l k) P AnyErr
  | [], k, h => h
  | i :: is, k, h => by
    unfold Keyd.clearOneshotLayers
    exact (I.clearOneshotLayer i _ k h).bind (fun k1 h1 => clearOneshotLayers is k1 h1)

theorem clearOneshot {k : Kbd} (h : P k) : Sat (clearOneshot k) P AnyErr := by
  unfold Keyd.clearOneshot
  exact (I.clearOneshotLayers _ k h).bind (fun k1 h1 => I.frame k1 _ rfl rfl rfl rfl h1)

theorem clearToggled : ∀ (l : List Nat) (k : Kbd), P k → Sat (clearToggled l k) P AnyErr
  | [], k, h => h
  | i :: is, k, h => by
    unfold Keyd.clearToggled
    split
    · exact (I.deactivate i (I.frame k (k.modLayer i _) rfl rfl rfl rfl h)).bind
        (fun k1 h1 => clearToggled is k1 h1)
    · exact clearToggled is k h

theorem resetKeystate {k : Kbd} (h : P k) : P (resetKeystate k) := by
  unfold Keyd.resetKeystate
  refine foldl ?_ _ _ h
  intro k c hk
  split
  · rename_i hc; exact I.reset1 k c hk hc
  · exact hk

theorem clear {k : Kbd} (h : P k) : Sat (clear k) P AnyErr := by
  unfold Keyd.clear
  refine (I.clearOneshot h).bind (fun k1 h1 => ?_)
  refine (I.clearToggled _ k1 h1).bind (fun k2 h2 => ?_)
  exact I.resetKeystate (I.frame k2 _ rfl rfl rfl rfl h2)

theorem setlayout {k : Kbd} (i : Nat) (h : P k) : Sat (setlayout k i) P AnyErr := by
  unfold Keyd.setlayout
  refine (I.clear h).bind (fun k1 h1 => ?_)
  dsimp only
  refine I.emit _ _ (by simp) ?_
  have h2 : P ((nonMainLayers k1).foldl (fun k i =>
    if (k.config.layer i).type = .layout then k.modLayer i fun s => { s with active := 0 } else k) k1) := by
    refine foldl ?_ _ _ h1
    intro k c hk
    split
    · exact I.frame k (k.modLayer c _) rfl rfl rfl rfl hk
    · exact hk
  revert h2
  generalize (nonMainLayers k1).foldl _ k1 = k2
  intro h2
  split
  · exact I.frame k2 (k2.modLayer _ _) rfl rfl rfl rfl h2
  · exact h2

theorem schedule {k : Kbd} (t : Int) (h : P k) : Sat (scheduleTimeout k t) P AnyErr := by
  unfold scheduleTimeout
  split
  · exact I.frame k _ rfl rfl rfl rfl h
  · trivial

theorem pdSwitch {pd : Kbd → Code → Desc → Nat → Bool → Int → Res Kbd}
    (hpd : ∀ k c d dl p t, P k → Sat (pd k c d dl p t) P AnyErr)
    {k : Kbd} (c : Code) (d : Desc) (dl : Nat) (p : Bool) (t : Int) (h : P k) :
    Sat (pdSwitch pd k c d dl p t) P AnyErr := by
  have hlayer : ∀ l, Sat (pdLayer k c l p) P AnyErr := by
    intro l
    unfold pdLayer
    refine Sat.bind (Q := P) ?_ (fun k1 h1 => ?_)
    · split
      · exact I.activate _ _ h
      · exact I.deactivate _ h
    · split
      · exact I.frame (Keyd.updateMods { k1 with inhibitModifierGuard := true } none 0) _ rfl rfl rfl rfl
          (I.updateMods _ _ (I.frame k1 _ rfl rfl rfl rfl h1))
      · exact I.updateMods _ _ h1
  have honeshot : ∀ l, Sat (pdOneshot k c l dl p t) P AnyErr := by
    intro l
    unfold pdOneshot
    split
    · refine (I.activate _ _ h).bind (fun k1 h1 => ?_)
      exact I.frame (Keyd.updateMods k1 (some dl) 0) _ rfl rfl rfl rfl (I.updateMods _ _ h1)
    · split
      · dsimp only
        split
        · trivial
        · split
          · exact I.schedule _ (I.frame k _ rfl rfl rfl rfl h)
          · exact I.frame k (k.modLayer l _) rfl rfl rfl rfl h
      · exact (I.deactivate _ h).bind (fun k1 h1 => I.updateMods _ _ h1)
  have hmacro : ∀ m tm iv, Sat (pdMacro k m tm iv dl t) P AnyErr := by
    intro m tm iv
    unfold pdMacro
    dsimp only
    refine Sat.bind (I.clearOneshot (I.frame k _ rfl rfl rfl rfl h)) (fun k1 h1 => ?_)
    exact I.schedule _ (I.frame (Keyd.executeMacro k1 dl (k1.config.mac m)) _ rfl rfl rfl rfl
      (I.executeMacro _ _ h1))
  have htoggle : ∀ l, Sat (pdToggle k c l) P AnyErr := by
    intro l
    unfold pdToggle
    dsimp only
    refine Sat.bind (Q := P) ?_ (fun k1 h1 => I.clearOneshot (I.updateMods _ _ h1))
    split
    · exact I.activate _ _ (I.frame k (k.modLayer l _) rfl rfl rfl rfl h)
    · exact I.deactivate _ (I.frame k (k.modLayer l _) rfl rfl rfl rfl h)
  have hswap : ∀ l m, (∀ x, m = some x → ∃ i, x = k.config.mac i) →
      Sat (pdSwap k l m dl p) P AnyErr := by
    intro l m hm
    unfold pdSwap
    split
    · refine Sat.bind (Q := fun k' => P k' ∧ k'.config = k.config) ?_ (fun k1 h1 => ?_)
      · have hdc : ∀ (k : Kbd) i, P k → Sat (deactivateLayer k i) (fun k' => P k' ∧ k'.config = k.config) AnyErr := by
          intro k i hk
          refine (I.deactivate i hk).and ?_
          unfold deactivateLayer
          dsimp only
          split <;> first | trivial | rfl
        have hac : ∀ (k : Kbd) c i, P k → Sat (activateLayer k c i) (fun k' => P k' ∧ k'.config = k.config) AnyErr := by
          intro k c i hk
          refine (I.activate c i hk).and ?_
          unfold activateLayer
          dsimp only
          split <;> first | trivial | rfl
        unfold pdSwapLayer
        split
        · refine (hdc _ _ h).bind (fun k1 h1 => ?_)
          refine (hac _ _ _ (I.frame k1 (k1.modLayer dl _) rfl rfl rfl rfl h1.1)).bind (fun k2 h2 => ?_)
          refine ⟨I.updateMods _ _ (I.frame k2 (k2.modLayer l _) rfl rfl rfl rfl h2.1), ?_⟩
          rw [updateMods_config]
          exact h2.2.trans h1.2
        · split
          · refine (hdc _ _ h).bind (fun k1 h1 => ?_)
            refine (hac _ _ _ (I.frame k1 (k1.modLayer dl _) rfl rfl rfl rfl h1.1)).bind (fun k2 h2 => ?_)
            refine ⟨I.updateMods _ _ (I.frame k2 (k2.modLayer l _) rfl rfl rfl rfl h2.1), ?_⟩
            rw [updateMods_config]
            exact h2.2.trans h1.2
          · split
            · exact ⟨h, rfl⟩
            · dsimp only
              refine Sat.bind (hdc _ _ (I.frame k _ rfl rfl rfl rfl h)) (fun k1 h1 => ?_)
              refine (hac _ _ _ h1.1).bind (fun k2 h2 => ?_)
              refine ⟨I.updateMods _ _ h2.1, ?_⟩
              rw [updateMods_config]
              exact h2.2.trans h1.2
      · cases m with
        | none => exact h1.1
        | some x =>
          obtain ⟨i, rfl⟩ := hm x rfl
          rw [← h1.2]
          exact I.executeMacro _ _ h1.1
    · show P _
      split
      · split
        · exact I.updateMods _ _ (I.send _ _ _ h)
        · exact h
      · exact h
  unfold Keyd.pdSwitch
  cases d with
  | none => exact h
  | keyseq c' m =>
    dsimp only
    unfold pdKeyseq
    refine Sat.bind (Q := P) ?_ (fun k1 h1 => ?_)
    · split
      · refine I.clearOneshot (I.send _ _ _ (I.updateMods _ _ ?_))
        split
        · exact I.send _ _ _ h
        · exact h
      · exact I.updateMods _ _ (I.send _ _ _ h)
    · show P _
      split
      · exact I.frame k1 _ rfl rfl rfl rfl h1
      · exact h1
  | scroll s => exact I.frame k _ rfl rfl rfl rfl h
  | scrollToggle s => exact I.frame k _ rfl rfl rfl rfl h
  | overloadIdle d1 d2 tm =>
    dsimp only
    split
    · unfold pdOverloadIdle
      exact (hpd _ _ _ _ _ _ h).bind (fun k1 h1 => I.frame k1 _ rfl rfl rfl rfl h1)
    · exact h
  | overloadTimeout l a tm =>
    dsimp only
    split
    · exact I.schedule _ (I.frame k _ rfl rfl rfl rfl h)
    · exact h
  | overloadTimeoutTap l a tm =>
    dsimp only
    split
    · exact I.schedule _ (I.frame k _ rfl rfl rfl rfl h)
    · exact h
  | layout l =>
    dsimp only
    split
    · exact I.setlayout _ h
    · exact h
  | layer l => exact hlayer l
  | layerm l m => exact hlayer l
  | clear =>
    dsimp only
    split
    · exact I.clear h
    · exact h
  | clearm m =>
    dsimp only
    split
    · exact (I.clear h).bind (fun k1 h1 => I.executeMacro _ _ h1)
    · exact h
  | overload l a =>
    dsimp only
    split
    · unfold pdOverloadPress
      dsimp only
      exact Sat.bind (I.activate _ _ (I.frame k _ rfl rfl rfl rfl h)) (fun k1 h1 => I.updateMods _ _ h1)
    · unfold pdOverloadRelease
      refine (I.deactivate _ h).bind (fun k1 h1 => ?_)
      dsimp only
      split
      · split
        · exact I.executeMacro _ _ (I.updateMods _ _ h1)
        · exact (hpd _ _ _ _ _ _ (I.updateMods _ _ h1)).bind (fun k2 h2 => hpd _ _ _ _ _ _ h2)
      · exact I.updateMods _ _ h1
  | oneshot l => exact honeshot l
  | oneshotm l m => exact honeshot l
  | «macro» m =>
    dsimp only
    split
    · exact hmacro _ _ _
    · exact h
  | macro2 tm r m =>
    dsimp only
    split
    · exact hmacro _ _ _
    · exact h
  | toggle l =>
    dsimp only
    split
    · exact htoggle _
    · exact h
  | togglem l m =>
    dsimp only
    split
    · exact htoggle _
    · exact h
  | timeout d1 tm d2 =>
    dsimp only
    split
    · exact I.schedule _ (I.frame k _ rfl rfl rfl rfl h)
    · exact h
  | command cm =>
    dsimp only
    split
    · unfold pdCommand
      dsimp only
      exact (I.clearOneshot (I.emit k _ (by simp) h)).bind (fun k1 h1 => I.updateMods _ _ h1)
    · exact h
  | swap l => exact hswap _ _ (by simp)
  | swapm l m => exact hswap _ _ (by rintro x ⟨⟩; exact ⟨m, rfl⟩)

theorem processDescriptor : ∀ (n : Nat) (k : Kbd) (c : Code) (d : Desc) (dl : Nat) (p : Bool) (t : Int),
    P k → Sat (processDescriptor n k c d dl p t) P AnyErr
  | 0, _, _, _, _, _, _, _ => trivial
  | n+1, k, c, d, dl, p, t, h => by
    unfold Keyd.processDescriptor
    have h0 : P (pdMacroPrefix k d dl p) := by
      unfold pdMacroPrefix
      split
      · split
        · exact I.executeMacro _ _ h
        · exact I.executeMacro _ _ h
        · exact I.executeMacro _ _ h
        · exact h
      · exact h
    refine (I.pdSwitch (fun k c d dl p t hk => processDescriptor n k c d dl p t hk) c d dl p t h0).bind
      (fun k1 h1 => ?_)
    show P _
    split
    · exact I.frame k1 _ rfl rfl rfl rfl h1
    · exact h1

omit I in
theorem cacheSet_frame {k k' : Kbd} {c : Code} {e : Option CacheEntry} (h : cacheSet k c e = some k') :
    k'.originalConfig = k.originalConfig ∧ k'.config = k.config ∧ k'.keystate = k.keystate ∧
      k'.trace = k.trace := by
  unfold cacheSet at h
  split at h
  · cases h
  · split at h <;> cases h <;> exact ⟨rfl, rfl, rfl, rfl⟩

theorem cacheSetD {k : Kbd} (c : Code) (e : Option CacheEntry) (h : P k) :
    P ((cacheSet k c e).getD k) := by
  cases hc : cacheSet k c e with
  | none => exact h
  | some k' =>
    obtain ⟨o, a, b, c⟩ := cacheSet_frame hc
    exact I.frame k k' o a b c h

/-- An output invariant is preserved by the whole engine. -/
theorem engineInv : EngineInv P AnyErr where
  errs := fun _ _ => trivial
  chord := fun k ch h => I.frame k _ rfl rfl rfl rfl h
  timeouts := fun k ts h => I.frame k _ rfl rfl rfl rfl h
  passed := fun k ev h => I.frame k _ rfl rfl rfl rfl h
  swallowed := fun k evs h => I.frame k _ rfl rfl rfl rfl h
  install := by
    intro k p h
    unfold installChord
    dsimp only
    split
    · trivial
    · exact I.frame k _ rfl rfl rfl rfl h
  strike := fun k i keys a h => I.frame k _ rfl rfl rfl rfl h
  enqueue := fun k q h _ => I.frame k _ rfl rfl rfl rfl h
  resolve := by
    intro k a t h _ _ _
    unfold resolvePendingStep
    dsimp only
    refine Sat.bind (Q := P) ?_ (fun k1 h1 => h1)
    refine I.processDescriptor _ _ _ _ _ _ _ ?_
    refine I.frame (Option.getD (cacheSet _ _ _) _) _ rfl rfl rfl rfl (I.cacheSetD _ _ ?_)
    exact I.frame k _ rfl rfl rfl rfl h
  timers := by
    intro k c t h
    unfold stepTimers
    refine Sat.bind (Q := P) ?_ (fun k1 h1 => ?_)
    · split
      · exact (I.clearOneshot h).bind (fun k1 h1 => I.updateMods _ _ h1)
      · exact h
    · split
      · exact h1
      · split
        · exact I.updateMods _ _ (I.frame k1 _ rfl rfl rfl rfl h1)
        · split
          · exact I.schedule _ (I.frame (Keyd.executeMacro k1 _ (k1.config.mac _)) _ rfl rfl rfl rfl
              (I.executeMacro _ _ h1))
          · exact h1
  key := by
    intro k c p t h _
    unfold stepKey
    split
    · exact h
    · split
      · split
        · exact I.frame k _ rfl rfl rfl rfl h
        · dsimp only
          split
          · exact I.frame k _ rfl rfl rfl rfl h
          · rename_i k' hk'
            obtain ⟨o, a, b, c⟩ := cacheSet_frame hk'
            exact I.processDescriptor _ _ _ _ _ _ _ (I.frame k _ o a b c h)
      · split
        · exact I.frame k _ rfl rfl rfl rfl h
        · dsimp only
          refine I.processDescriptor _ _ _ _ _ _ _ ?_
          exact I.frame (Option.getD (cacheSet _ _ _) _) _ rfl rfl rfl rfl (I.cacheSetD _ _ h)

end OutInv

end Keyd
