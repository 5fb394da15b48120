import Verif.Proofs.Unrelated
import Verif.Proofs.LayerOps
import Verif.Proofs.Tidy

/-
  The repeating macro of a keyboard is always one of the macros of its configuration.
-/

set_option autoImplicit false

namespace Keyd

/-- The repeating macro, if any, is one of the first `N`. -/
def MacIn (N : Nat) (k : Kbd) : Prop := ∀ m, k.activeMacro = some m → m < N

variable {N : Nat} {k k' : Kbd}

theorem MacIn.same (h : MacIn N k) (e : k'.activeMacro = k.activeMacro) : MacIn N k' := fun m hm => h m (e ▸ hm)

theorem MacIn.frame (h : MacIn N k) (e : KeyFrame k k') : MacIn N k' := h.same e.activeMacro

theorem macIn_none (e : k'.activeMacro = none) : MacIn N k' := fun m hm => by rw [e] at hm; cases hm

theorem macIn_deactivate (i : Nat) (h : MacIn N k) : Sat (deactivateLayer k i) (MacIn N) AnyErr := by
  unfold deactivateLayer
  dsimp only
  split
  · trivial
  · exact h.same rfl

theorem macIn_activate (c : Code) (i : Nat) (h : MacIn N k) : Sat (activateLayer k c i) (MacIn N) AnyErr := by
  unfold activateLayer
  dsimp only
  split
  · trivial
  · exact h.same rfl

theorem macIn_schedule (t : Int) (h : MacIn N k) : Sat (scheduleTimeout k t) (MacIn N) AnyErr := by
  unfold scheduleTimeout
  split
  · exact h.same rfl
  · trivial

theorem macIn_clearOneshotLayer (i : Nat) : ∀ (n : Nat) (k : Kbd), MacIn N k → Sat (clearOneshotLayer i n k) (MacIn N) AnyErr
  | 0, _, h => h
  | n + 1, _, h => (macIn_deactivate i h).bind (fun _ ha => macIn_clearOneshotLayer i n _ (ha.same rfl))

theorem macIn_clearOneshotLayers : ∀ (l : List Nat) (k : Kbd), MacIn N k → Sat (clearOneshotLayers l k) (MacIn N) AnyErr
  | [], _, h => h
  | i :: l, k, h => (macIn_clearOneshotLayer i _ k h).bind (fun a ha => macIn_clearOneshotLayers l a ha)

theorem macIn_clearOneshot (h : MacIn N k) : Sat (clearOneshot k) (MacIn N) AnyErr :=
  (macIn_clearOneshotLayers _ k h).bind (fun _ ha => MacIn.same ha rfl)

theorem macIn_clear : Sat (clear k) (MacIn N) AnyErr := by
  cases h : clear k with
  | error e => trivial
  | ok k' =>
    obtain ⟨⟨_, _, _, _, e⟩, _⟩ := clear_exact h
    exact macIn_none (by rw [e])

theorem macIn_setlayout (i : Nat) : Sat (setlayout k i) (MacIn N) AnyErr := by
  unfold setlayout
  refine (macIn_clear (N := N)).bind (fun a ha => ?_)
  dsimp only
  have fold : ∀ (l : List Nat) (b : Kbd), MacIn N b → MacIn N (l.foldl (fun (k : Kbd) i => if (k.config.layer i).type = .layout then
      k.modLayer i fun s => { s with active := 0 } else k) b) := by
    intro l
    induction l with
    | nil => exact fun _ h => h
    | cons i l ih =>
      intro b hb
      rw [List.foldl_cons]
      refine ih _ ?_
      split
      · exact hb.same rfl
      · exact hb
  have h := fold (nonMainLayers a) a ha
  split
  · exact MacIn.same h rfl
  · exact MacIn.same h rfl

theorem macIn_pdSwapLayer (i dl : Nat) (h : MacIn N k) : Sat (pdSwapLayer k i dl) (MacIn N) AnyErr := by
  unfold pdSwapLayer
  split
  · refine (macIn_deactivate dl h).bind (fun a ha => ?_)
    refine (macIn_activate (k := a.modLayer dl _) 0 i (ha.same rfl)).bind (fun b hb => ?_)
    exact MacIn.frame (k := b.modLayer i _) (hb.same rfl) (.updateMods _ _ _)
  · split
    · refine (macIn_deactivate dl h).bind (fun a ha => ?_)
      refine (macIn_activate (k := a.modLayer dl _) 0 i (ha.same rfl)).bind (fun b hb => ?_)
      exact MacIn.frame (k := b.modLayer i _) (hb.same rfl) (.updateMods _ _ _)
    · split
      · exact h
      · dsimp only
        refine (macIn_deactivate (k := { k with cache := modifyFirst (swapHolder k dl) (fun e => { e with d := .layer i }) k.cache }) dl (h.same rfl)).bind (fun a ha => ?_)
        refine (macIn_activate _ i ha).bind (fun b hb => ?_)
        exact MacIn.frame hb (.updateMods _ _ _)

theorem macIn_pdSwap (i : Nat) (m : Option Macro) (dl : Nat) (p : Bool) (h : MacIn N k) : Sat (pdSwap k i m dl p) (MacIn N) AnyErr := by
  unfold pdSwap
  split
  · refine (macIn_pdSwapLayer i dl h).bind (fun a ha => ?_)
    cases m with
    | none => exact ha
    | some m => exact ha.frame (.executeMacro _ _ _)
  · show MacIn N _
    split
    · split
      · exact h.frame ((KeyFrame.send _ _ _).trans (.updateMods _ _ _))
      · exact h
    · exact h

theorem macIn_pdLayer (c : Code) (i : Nat) (p : Bool) (h : MacIn N k) : Sat (pdLayer k c i p) (MacIn N) AnyErr := by
  unfold pdLayer
  refine Sat.bind (Q := MacIn N) (by split <;> first | exact macIn_activate c i h | exact macIn_deactivate i h) (fun a ha => ?_)
  split
  · exact MacIn.same ((ha.same (k' := { a with inhibitModifierGuard := true }) rfl).frame (.updateMods _ none 0)) rfl
  · exact ha.frame (.updateMods _ _ _)

theorem macIn_pdKeyseq (c : Code) (m : UInt8) (dl : Nat) (p : Bool) (t : Int) (h : MacIn N k) : Sat (pdKeyseq k c m dl p t) (MacIn N) AnyErr := by
  unfold pdKeyseq
  refine Sat.bind (Q := MacIn N) ?_ (fun a ha => ?_)
  · split
    · refine macIn_clearOneshot ?_
      have h1 : MacIn N (if k.keystate c then sendKey k c false else k) := by
        split
        · exact h.frame (.send _ _ _)
        · exact h
      exact (h1.frame (.updateMods _ _ _)).frame (.send _ _ _)
    · exact h.frame ((KeyFrame.send _ _ _).trans (.updateMods _ _ _))
  · show MacIn N _
    split
    · exact ha.same rfl
    · exact ha

theorem macIn_pdOneshot (c : Code) (i dl : Nat) (p : Bool) (t : Int) (h : MacIn N k) : Sat (pdOneshot k c i dl p t) (MacIn N) AnyErr := by
  unfold pdOneshot
  split
  · exact (macIn_activate c i h).bind (fun a ha => MacIn.same (ha.frame (.updateMods a (some dl) 0)) rfl)
  · split
    · dsimp only
      split
      · trivial
      · split
        · exact macIn_schedule _ (h.same rfl)
        · exact h.same rfl
    · exact (macIn_deactivate i h).bind (fun a ha => ha.frame (.updateMods _ _ _))

theorem macIn_pdMacro {m : Nat} (hm : m < N) (x iv : Int) (dl : Nat) (t : Int) (h : MacIn N k) : Sat (pdMacro k m x iv dl t) (MacIn N) AnyErr := by
  unfold pdMacro
  dsimp only
  refine (macIn_clearOneshot (k := { k with macroRepeatInterval := iv }) (h.same rfl)).bind (fun a _ => macIn_schedule _ ?_)
  intro m' e
  cases e
  exact hm

theorem macIn_pdToggle (c : Code) (i : Nat) (h : MacIn N k) : Sat (pdToggle k c i) (MacIn N) AnyErr := by
  unfold pdToggle
  refine Sat.bind (Q := MacIn N) (by split <;> first | exact macIn_activate c i (h.same rfl) | exact macIn_deactivate i (h.same rfl)) (fun a ha => ?_)
  exact macIn_clearOneshot (ha.frame (.updateMods _ _ _))

theorem macIn_pdCommand (c : Nat) (h : MacIn N k) : Sat (pdCommand k c) (MacIn N) AnyErr := by
  unfold pdCommand
  dsimp only
  refine (macIn_clearOneshot (k := k.emit _) (h.same rfl)).bind (fun a ha => ?_)
  exact MacIn.frame ha (.updateMods _ _ _)

theorem macIn_pdSwitch {pd : Kbd → Code → Desc → Nat → Bool → Int → Res Kbd} {c : Config} (hT : TableT (InTables c) c)
    (hpd : ∀ k y d dl p t, k.config = c → InTables c d → MacIn c.macros.length k → Sat (pd k y d dl p t) (MacIn c.macros.length) AnyErr)
    (hcf : ∀ k y d dl p t, k.config = c → Sat (pd k y d dl p t) (fun k' => k'.config = c) AnyErr)
    (y : Code) (d : Desc) (dl : Nat) (p : Bool) (t : Int) (hk : k.config = c) (hd : InTables c d) (h : MacIn c.macros.length k) :
    Sat (pdSwitch pd k y d dl p t) (MacIn c.macros.length) AnyErr := by
  unfold pdSwitch
  cases d with
  | none => exact h
  | keyseq c' m => exact macIn_pdKeyseq _ _ _ _ _ h
  | scroll s => exact h.same rfl
  | scrollToggle s => exact h.same rfl
  | overloadIdle d1 d2 tm =>
    dsimp only
    split
    · unfold pdOverloadIdle
      have ha : InTables c (idleAction k d1 d2 tm t) := by
        unfold idleAction
        rw [hk]
        split <;> exact hT.descs _
      exact (hpd _ _ _ _ _ _ hk ha h).bind (fun k1 h1 => MacIn.same h1 rfl)
    · exact h
  | overloadTimeout l a tm =>
    dsimp only
    split
    · exact macIn_schedule _ (h.same rfl)
    · exact h
  | overloadTimeoutTap l a tm =>
    dsimp only
    split
    · exact macIn_schedule _ (h.same rfl)
    · exact h
  | layout l =>
    dsimp only
    split
    · exact macIn_setlayout l
    · exact h
  | layer l => exact macIn_pdLayer _ _ _ h
  | layerm l m => exact macIn_pdLayer _ _ _ h
  | clear =>
    dsimp only
    split
    · exact macIn_clear
    · exact h
  | clearm m =>
    dsimp only
    split
    · exact (macIn_clear (N := c.macros.length)).bind (fun k1 h1 => MacIn.frame h1 (.executeMacro _ _ _))
    · exact h
  | overload l a =>
    dsimp only
    split
    · unfold pdOverloadPress
      dsimp only
      refine (macIn_activate (k := { k with overloadStartTime := t }) y l (h.same rfl)).bind (fun a ha => ?_)
      exact MacIn.frame ha (.updateMods _ _ _)
    · unfold pdOverloadRelease
      refine ((macIn_deactivate l h).and_any (Calm.deactivate k l)).bind (fun k1 h1 => ?_)
      dsimp only
      have h2 := h1.1.frame (.updateMods k1 none 0)
      have hk2 : (updateMods k1 none 0).config = c := by rw [(KeyFrame.updateMods k1 none 0).config, h1.2.config, hk]
      refine Sat.ite (fun _ => ?_) (fun _ => h2)
      have ha : InTables c (k.config.desc a) := by rw [hk]; exact hT.descs _
      revert ha
      generalize k.config.desc a = act
      intro ha
      split
      · exact MacIn.frame h2 (.executeMacro _ _ _)
      · exact ((hpd _ _ _ _ _ _ hk2 ha h2).and_any (hcf _ _ _ _ _ _ hk2)).bind (fun k2 h3 => hpd _ _ _ _ _ _ h3.2 ha h3.1)
  | oneshot l => exact macIn_pdOneshot _ _ _ _ _ h
  | oneshotm l m => exact macIn_pdOneshot _ _ _ _ _ h
  | «macro» m =>
    dsimp only
    split
    · exact macIn_pdMacro (hd.macros m List.mem_cons_self) _ _ _ _ h
    · exact h
  | macro2 tm r m =>
    dsimp only
    split
    · exact macIn_pdMacro (hd.macros m List.mem_cons_self) _ _ _ _ h
    · exact h
  | toggle l =>
    dsimp only
    split
    · exact macIn_pdToggle _ _ h
    · exact h
  | togglem l m =>
    dsimp only
    split
    · exact macIn_pdToggle _ _ h
    · exact h
  | timeout d1 tm d2 =>
    dsimp only
    split
    · exact macIn_schedule _ (h.same rfl)
    · exact h
  | command cm =>
    dsimp only
    split
    · exact macIn_pdCommand _ h
    · exact h
  | swap l => exact macIn_pdSwap _ _ _ _ h
  | swapm l m => exact macIn_pdSwap _ _ _ _ h

theorem macIn_descriptor {c : Config} (hT : TableT (InTables c) c) : ∀ (n : Nat) (k : Kbd) (y : Code) (d : Desc) (dl : Nat) (p : Bool) (t : Int),
    k.config = c → InTables c d → MacIn c.macros.length k → Sat (processDescriptor n k y d dl p t) (MacIn c.macros.length) AnyErr
  | 0, _, _, _, _, _, _, _, _, _ => trivial
  | n + 1, k, y, d, dl, p, t, hk, hd, h => by
    unfold processDescriptor
    have f := Calm.pdMacroPrefix k d dl p
    refine (macIn_pdSwitch hT (macIn_descriptor hT n) (fun k y d dl p t e => (config_outInv c).processDescriptor n k y d dl p t e) y d dl p t
      (f.config.trans hk) hd (h.frame f)).bind (fun a ha => ?_)
    show MacIn _ _
    split
    · exact ha.same rfl
    · exact ha

end Keyd
