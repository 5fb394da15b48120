import Verif.Proofs.Memory
import Verif.Spec.Idle
import Verif.Spec.Performed
import Verif.Proofs.Potential

/-
  When a key was last struck: what each operation does with the time used by `overloadi`.
-/

set_option autoImplicit false

namespace Keyd

/-- No step is logged, no command run, scroll emulation not touched, and what is remembered of the keys
struck is the same. -/
structure Unstruck (k k' : Kbd) : Prop where
  steps : k'.steps = k.steps
  memo : k'.memo = k.memo
  ran : k'.trace.filterMap Out.command? = k.trace.filterMap Out.command?
  scroll : k'.scroll = k.scroll
  config : k'.config = k.config

namespace Unstruck



theorem time {k k' : Kbd} (h : Unstruck k k') : k'.lastSimpleKeyTime = k.lastSimpleKeyTime := congrArg Memo.symbol h.memo

theorem same {k k' : Kbd} (h1 : k'.steps = k.steps) (h2 : k'.memo = k.memo)
    (h3 : k'.trace.filterMap Out.command? = k.trace.filterMap Out.command?) (h4 : k'.scroll = k.scroll)
    (h5 : k'.config = k.config) : Unstruck k k' := ⟨h1, h2, h3, h4, h5⟩

theorem refl (k : Kbd) : Unstruck k k := same rfl rfl rfl rfl rfl

theorem trans {a b c : Kbd} (h : Unstruck a b) (h' : Unstruck b c) : Unstruck a c :=
  ⟨h'.1.trans h.1, h'.2.trans h.2, h'.3.trans h.3, h'.4.trans h.4, h'.5.trans h.5⟩

theorem of_frame {k k' : Kbd} (h : KeyFrame k k') : Unstruck k k' :=
  same h.steps (by unfold Kbd.memo; rw [h.lastSimpleKeyTime, h.lastPressedCode, h.overloadStartTime]) (by
    obtain ⟨os, e, ho⟩ := h.trace
    rw [e, List.filterMap_append, List.filterMap_eq_nil_iff.2, List.nil_append]
    intro o hm
    have := ho o hm
    cases o <;> first | rfl | cases this) h.scroll h.config

theorem modL (k : Kbd) (i : Nat) (f : LayerSt → LayerSt) : Unstruck k (k.modLayer i f) :=
  same rfl rfl rfl rfl rfl

theorem bind {k : Kbd} {r : Res Kbd} {f : Kbd → Res Kbd} (h : Sat r (Unstruck k) AnyErr)
    (hf : ∀ k', Unstruck k k' → Sat (f k') (Unstruck k') AnyErr) : Sat (r >>= f) (Unstruck k) AnyErr :=
  Sat.bind h (fun k' h' => (hf k' h').imp (fun _ h'' => h'.trans h''))


theorem activate (x : Code) (k : Kbd) (i : Nat) : Sat (activateLayer k x i) (Unstruck k) AnyErr := by
  unfold activateLayer
  dsimp only
  split
  · trivial
  · exact same rfl rfl rfl rfl rfl

theorem deactivate (k : Kbd) (i : Nat) : Sat (deactivateLayer k i) (Unstruck k) AnyErr := by
  unfold deactivateLayer
  dsimp only
  split
  · trivial
  · exact same rfl rfl rfl rfl rfl

theorem clearOneshotLayer (i : Nat) : ∀ (n : Nat) (k : Kbd), Sat (clearOneshotLayer i n k) (Unstruck k) AnyErr
  | 0, k => refl k
  | n+1, k => by
    unfold Keyd.clearOneshotLayer
    exact (deactivate  k i).bind (fun k1 h1 => (clearOneshotLayer i n _).imp (fun k2 h2 =>
      h1.trans ((modL  _ _ _).trans h2)))

theorem clearOneshotLayers : ∀ (l : List Nat) (k : Kbd), Sat (clearOneshotLayers l k) (Unstruck k) AnyErr
  | [], k => refl k
  | i :: is, k => by
    unfold Keyd.clearOneshotLayers
    exact bind (clearOneshotLayer  i _ k) (fun k1 _ => clearOneshotLayers is k1)

theorem clearOneshot (k : Kbd) : Sat (clearOneshot k) (Unstruck k) AnyErr := by
  unfold Keyd.clearOneshot
  exact (clearOneshotLayers  _ k).bind (fun k1 h1 => h1.trans (same rfl rfl rfl rfl rfl))

theorem clearToggled : ∀ (l : List Nat) (k : Kbd), Sat (clearToggled l k) (Unstruck k) AnyErr
  | [], k => refl k
  | i :: is, k => by
    unfold Keyd.clearToggled
    split
    · refine (deactivate  _ i).bind (fun k1 h1 => (clearToggled is k1).imp (fun k2 h2 => ?_))
      exact (modL  _ _ _).trans (h1.trans h2)
    · exact clearToggled is k

theorem clear (k : Kbd) : Sat (clear k) (Unstruck k) AnyErr := by
  unfold Keyd.clear
  refine bind (clearOneshot  k) (fun k1 _ => ?_)
  refine (clearToggled  _ k1).bind (fun k2 h2 => ?_)
  refine h2.trans (trans ?_ (of_frame  (.resetKeystate _)))
  exact same rfl rfl rfl rfl rfl

theorem foldl {α : Type} {f : Kbd → α → Kbd} (h : ∀ k a, Unstruck k (f k a)) :
    ∀ (l : List α) (k : Kbd), Unstruck k (l.foldl f k)
  | [], k => refl k
  | a :: l, k => (h k a).trans (foldl h l _)

theorem setlayout (k : Kbd) (i : Nat) : Sat (setlayout k i) (Unstruck k) AnyErr := by
  unfold Keyd.setlayout
  refine bind (clear  k) (fun k1 _ => ?_)
  have h2 : Unstruck k1 ((nonMainLayers k1).foldl (fun k i =>
      if (k.config.layer i).type = .layout then k.modLayer i fun s => { s with active := 0 } else k) k1) := by
    refine foldl ?_ _ _
    intro k c
    split
    · exact same rfl rfl rfl rfl rfl
    · exact refl k
  revert h2
  dsimp only
  generalize (nonMainLayers k1).foldl _ k1 = k2
  intro h2
  split
  · exact h2.trans (same rfl rfl rfl rfl rfl)
  · exact h2.trans (same rfl rfl rfl rfl rfl)

theorem schedule (k : Kbd) (t : Int) : Sat (scheduleTimeout k t) (Unstruck k) AnyErr := by
  unfold scheduleTimeout
  split
  · exact same rfl rfl rfl rfl rfl
  · trivial

theorem pdKeyseq (k : Kbd) (c : Code) (m : UInt8) (dl : Nat) (p : Bool) (t : Int) :
    Sat (pdKeyseq k c m dl p t) (fun k' => (k'.steps = k.steps ∧
      k'.memo = { k.memo with symbol := if m = 0 ∨ m = MOD_SHIFT then t else k.lastSimpleKeyTime }) ∧
      k'.trace.filterMap Out.command? = k.trace.filterMap Out.command? ∧ k'.scroll = k.scroll ∧ k'.config = k.config) AnyErr := by
  unfold Keyd.pdKeyseq
  refine Sat.bind (Q := Unstruck k) ?_ (fun k1 h1 => ?_)
  · split
    · dsimp only
      refine (clearOneshot _).imp (fun k1 h1 => trans ?_ h1)
      refine of_frame (KeyFrame.trans ?_ ((KeyFrame.updateMods _ _ _).trans (.send _ _ _)))
      split
      · exact .send _ _ _
      · exact .refl _
    · exact of_frame ((KeyFrame.send _ _ _).trans (.updateMods _ _ _))
  · show _ ∧ _
    split
    · exact ⟨⟨h1.steps, by
        have := h1.memo
        unfold Kbd.memo at this ⊢
        injection this with _ e1 e2
        exact Memo.mk.injEq _ _ _ _ _ _ ▸ ⟨rfl, e1, e2⟩⟩, h1.ran, h1.scroll, h1.config⟩
    · exact ⟨⟨h1.steps, h1.memo⟩, h1.ran, h1.scroll, h1.config⟩

theorem pdLayer (x : Code) (k : Kbd) (l : Nat) (p : Bool) : Sat (pdLayer k x l p) (Unstruck k) AnyErr := by
  unfold Keyd.pdLayer
  refine Sat.bind (Q := Unstruck k) ?_ (fun k1 h1 => ?_)
  · split
    · exact activate _ _ _
    · exact deactivate _ _
  · split
    · have h2 : Unstruck k1 { k1 with inhibitModifierGuard := true } := same rfl rfl rfl rfl rfl
      have h3 := (h1.trans h2).trans (of_frame  (.updateMods _ none 0))
      exact h3.trans (same rfl rfl rfl rfl rfl)
    · exact h1.trans (of_frame  (.updateMods _ _ _))

theorem pdOneshot (x : Code) (k : Kbd) (l dl : Nat) (p : Bool) (t : Int) :
    Sat (pdOneshot k x l dl p t) (Unstruck k) AnyErr := by
  unfold Keyd.pdOneshot
  split
  · refine (activate _ _ _).bind (fun k1 h1 => ?_)
    exact h1.trans ((of_frame  (.updateMods k1 (some dl) 0)).trans (same rfl rfl rfl rfl rfl))
  · split
    · dsimp only
      split
      · trivial
      · split
        · refine (schedule  _ _).imp (fun k1 h1 => trans ?_ h1)
          exact same rfl rfl rfl rfl rfl
        · exact same rfl rfl rfl rfl rfl
    · exact (deactivate  _ _).bind (fun k1 h1 => h1.trans (of_frame  (.updateMods _ _ _)))

theorem pdMacro (k : Kbd) (m : Nat) (tm iv : Int) (dl : Nat) (t : Int) :
    Sat (pdMacro k m tm iv dl t) (Unstruck k) AnyErr := by
  unfold Keyd.pdMacro
  dsimp only
  refine Sat.bind (Q := Unstruck k) ((clearOneshot  _).imp (fun k1 h1 => by refine trans ?_ h1; exact same rfl rfl rfl rfl rfl))
    (fun k1 h1 => ?_)
  refine (schedule  _ _).imp (fun k2 h2 => trans (h1.trans (of_frame  (.executeMacro k1 dl (k1.config.mac m)))) (trans ?_ h2))
  exact same rfl rfl rfl rfl rfl

theorem pdToggle (x : Code) (k : Kbd) (l : Nat) : Sat (pdToggle k x l) (Unstruck k) AnyErr := by
  unfold Keyd.pdToggle
  dsimp only
  refine Sat.bind (Q := Unstruck k) ?_ (fun k1 h1 => (clearOneshot  _).imp (fun k2 h2 =>
    (h1.trans (of_frame  (.updateMods k1 none 0))).trans h2))
  split
  · exact (activate _ _ _).imp (fun k1 h1 => (modL  _ _ _).trans h1)
  · exact (deactivate  _ _).imp (fun k1 h1 => (modL  _ _ _).trans h1)

theorem pdCommand (k : Kbd) (c : Nat) : Sat (pdCommand k c) (fun k' => k'.steps = k.steps ∧
    k'.memo = k.memo ∧
    k'.trace.filterMap Out.command? = k.config.commands.getD c [] :: k.trace.filterMap Out.command? ∧
    k'.scroll = k.scroll ∧ k'.config = k.config) AnyErr := by
  unfold Keyd.pdCommand
  dsimp only
  refine Sat.bind (clearOneshot _) (fun k1 h1 => ?_)
  have h2 := h1.trans (of_frame (.updateMods k1 none 0))
  exact ⟨h2.steps, h2.memo, h2.ran, h2.scroll, h2.config⟩

theorem stepTimers (k : Kbd) (c : Code) (t : Int) : Sat (stepTimers k c t) (Unstruck k) AnyErr := by
  unfold Keyd.stepTimers
  refine Sat.bind (Q := Unstruck k) ?_ (fun k1 h1 => ?_)
  · split
    · exact (clearOneshot  k).bind (fun k1 h1 => h1.trans (of_frame  (.updateMods _ _ _)))
    · exact refl k
  · split
    · exact h1
    · split
      · refine h1.trans (trans ?_ (of_frame  (.updateMods _ _ _)))
        exact same rfl rfl rfl rfl rfl
      · split
        · rename_i m _ _ _
          refine (schedule  _ _).imp (fun k2 h2 => ?_)
          refine trans (h1.trans (of_frame  (.executeMacro k1 k1.activeMacroLayer (k1.config.mac m)))) (trans ?_ h2)
          exact same rfl rfl rfl rfl rfl
        · exact h1

end Unstruck

theorem unstruck_swap (k : Kbd) (l : Nat) (m : Option Macro) (dl : Nat) (p : Bool) :
    Sat (pdSwap k l m dl p) (Unstruck k) AnyErr := by
  unfold pdSwap
  refine Sat.ite (fun _ => ?_) (fun _ => ?_)
  · refine Sat.bind (Q := Unstruck k) ?_ (fun k1 h1 => ?_)
    · unfold pdSwapLayer
      refine Sat.ite (fun _ => ?_) (fun _ => ?_)
      · refine Sat.bind (Unstruck.deactivate k dl) (fun k1 h1 => ?_)
        refine Sat.bind (Unstruck.activate 0 _ l) (fun k2 h2 => ?_)
        exact (h1.trans ((Unstruck.modL _ _ _).trans h2)).trans ((Unstruck.modL _ _ _).trans (.of_frame (.updateMods _ _ _)))
      · refine Sat.ite (fun _ => ?_) (fun _ => ?_)
        · refine Sat.bind (Unstruck.deactivate k dl) (fun k1 h1 => ?_)
          refine Sat.bind (Unstruck.activate 0 _ l) (fun k2 h2 => ?_)
          exact (h1.trans ((Unstruck.modL _ _ _).trans h2)).trans ((Unstruck.modL _ _ _).trans (.of_frame (.updateMods _ _ _)))
        · cases k.cache.find? (swapHolder k dl) with
          | none => exact .refl k
          | some ce =>
            dsimp only
            refine Sat.bind (Unstruck.deactivate _ dl) (fun k1 h1 => ?_)
            refine Sat.bind (Unstruck.activate _ _ l) (fun k2 h2 => ?_)
            exact (show Unstruck k k1 from ⟨h1.steps, h1.memo, h1.ran, h1.scroll, h1.config⟩).trans (h2.trans (.of_frame (.updateMods _ _ _)))
    · cases m with
      | none => exact h1
      | some m => exact h1.trans (.of_frame (.executeMacro _ _ _))
  · refine Unstruck.of_frame ?_
    split
    · split
      · exact (KeyFrame.send _ _ _).trans (.updateMods _ _ _)
      · exact .refl _
    · exact .refl _

/-- The actions `as` are performed, as far as commands and scroll emulation are concerned. -/
structure Done (k : Kbd) (as : List Act) (k' : Kbd) : Prop where
  config : k'.config = k.config
  ran : k'.trace.filterMap Out.command? = (as.filterMap (commandOf k.config)).reverse ++ k.trace.filterMap Out.command?
  scroll : k'.scroll = as.foldl scrollOf k.scroll

theorem Done.nil {k k' : Kbd} (h : Unstruck k k') : Done k [] k' := ⟨h.config, h.ran, h.scroll⟩

theorem Done.append {k k1 k2 : Kbd} {as bs : List Act} (h1 : Done k as k1) (h2 : Done k1 bs k2) : Done k (as ++ bs) k2 :=
  ⟨h2.config.trans h1.config, by
    rw [h2.ran, h1.ran, h1.config, List.filterMap_append, List.reverse_append, List.append_assoc], by
    rw [h2.scroll, h1.scroll, List.foldl_append]⟩

/-- The action means nothing for commands and scroll emulation, and performs nothing else. -/
def Mute (d : Desc) (p : Bool) : Prop :=
  (∀ a b t, (d, p) ≠ (.overloadIdle a b t, true)) ∧ (∀ c, commandOf c (d, p) = none) ∧ (∀ s, scrollOf s (d, p) = s) ∧
  ∀ l a, d ≠ .overload l a

theorem Done.mute {k k' : Kbd} {d : Desc} {p : Bool} (h : Unstruck k k') (hm : ∀ c, commandOf c (d, p) = none)
    (hs : ∀ s, scrollOf s (d, p) = s) : Done k [(d, p)] k' :=
  ⟨h.config, by simp [hm, h.ran], by simp [hs, h.scroll]⟩

/-- The key pressed last, after the action. -/
def Memo.pressed (m : Memo) (code : Code) (p : Bool) : Memo := { m with newest := if p then code else m.newest }

/-- What processing an action does with the log, with what is remembered, the commands and scroll emulation. -/
structure StruckAs (k : Kbd) (code : Code) (d : Desc) (p : Bool) (t : Int) (k' : Kbd) : Prop where
  steps : k'.steps = k.steps
  done : ∃ as, Performs k.config code t k.memo d p as k'.memo ∧ Done k as k'

/-- The same before the key is recorded as the one pressed last. -/
structure Strikes (k : Kbd) (code : Code) (d : Desc) (p : Bool) (t : Int) (k' : Kbd) : Prop where
  steps : k'.steps = k.steps
  done : ∃ as, Performs k.config code t k.memo d p as (k'.memo.pressed code p) ∧ Done k as k'

theorem StruckAs.config {k k' : Kbd} {code : Code} {d : Desc} {p : Bool} {t : Int} (h : StruckAs k code d p t k') :
    k'.config = k.config := by
  obtain ⟨_, _, h⟩ := h.done
  exact h.config

theorem Performs.newest {c : Config} {code : Code} {t : Int} {m m' : Memo} {d : Desc} {p : Bool} {as : List Act}
    (h : Performs c code t m d p as m') : p = true → m'.newest = code := by
  induction h with
  | itself _ _ => intro e; simp [Memo.after, e]
  | idle _ ih => exact fun _ => ih rfl
  | hold _ => intro e; cases e
  | tapMacro _ _ => intro e; cases e
  | tap _ _ _ _ _ _ => intro e; cases e

/-- What is remembered of the time of the last symbol. -/
theorem Performs.time {c : Config} {code : Code} {t : Int} {m m' : Memo} {d : Desc} {p : Bool} {as : List Act}
    (h : Performs c code t m d p as m') : (d.symbol = true → m'.symbol = t) ∧
      (d.symbol = false → d.performs p = false → m'.symbol = m.symbol) := by
  cases h with
  | itself _ _ => exact ⟨fun e => by simp [Memo.after, e], fun e _ => by simp [Memo.after, e]⟩
  | idle _ => exact ⟨fun e => (by cases e), fun _ e => (by cases e)⟩
  | hold _ => exact ⟨fun e => (by cases e), fun _ _ => rfl⟩
  | tapMacro _ _ => exact ⟨fun e => (by cases e), fun _ _ => rfl⟩
  | tap _ _ _ _ => exact ⟨fun e => (by cases e), fun _ e => (by cases e)⟩

theorem StruckAs.symbol {k k' : Kbd} {code : Code} {d : Desc} {p : Bool} {t : Int} (h : StruckAs k code d p t k') :
    d.symbol = true → k'.lastSimpleKeyTime = t := by
  obtain ⟨_, h, _⟩ := h.done
  exact h.time.1

theorem StruckAs.other {k k' : Kbd} {code : Code} {d : Desc} {p : Bool} {t : Int} (h : StruckAs k code d p t k') :
    d.symbol = false → d.performs p = false → k'.lastSimpleKeyTime = k.lastSimpleKeyTime := by
  obtain ⟨_, h, _⟩ := h.done
  exact h.time.2

theorem after_plain {m : Memo} {code : Code} {d : Desc} {p : Bool} {t : Int} (hs : d.symbol = false) (hl : ∀ l a, d ≠ .overload l a) :
    m.after code t d p = m.pressed code p := by
  unfold Memo.after Memo.pressed
  rw [hs]
  cases d <;> first | rfl | exact absurd rfl (hl _ _)

theorem Unstruck.strikes {k k' : Kbd} {code : Code} {d : Desc} {p : Bool} {t : Int} (h : Unstruck k k') (hs : d.symbol = false)
    (hm : Mute d p) : Strikes k code d p t k' :=
  ⟨h.steps, _, by
    rw [h.memo, ← after_plain (t := t) (d := d) hs hm.2.2.2]
    exact .itself hm.1 (fun l a e => hm.2.2.2 l a (by cases e; rfl)), .mute h hm.2.1 hm.2.2.1⟩

theorem Strikes.of_unstruck {k0 k k' : Kbd} {code : Code} {d : Desc} {p : Bool} {t : Int} (h : Unstruck k0 k)
    (hk : Strikes k code d p t k') : Strikes k0 code d p t k' :=
  ⟨hk.1.trans h.steps, by
    obtain ⟨as, h1, h2⟩ := hk.done
    exact ⟨as, h.config ▸ h.memo ▸ h1, (Done.nil h).append h2⟩⟩

theorem mute_false {d : Desc} (h1 : ∀ s, d ≠ .scroll s) (h2 : ∀ s, d ≠ .scrollToggle s) (h3 : ∀ l a, d ≠ .overload l a) :
    Mute d false := by
  refine ⟨fun a b t => by simp, fun c => ?_, fun s => ?_, h3⟩
  · cases d <;> rfl
  · cases d <;> first | rfl | exact absurd rfl (h1 _) | exact absurd rfl (h2 _)

theorem isTap_iff (k : Kbd) (code : Code) (t : Int) : isTap k code t = true ↔ k.memo.tap k.config code t := by
  unfold isTap Memo.tap Kbd.memo
  rw [decide_eq_true_eq]

theorem idleAction_eq (k : Kbd) (d1 d2 tm : Nat) (t : Int) :
    idleAction k d1 d2 tm t = k.config.desc (if t - k.memo.symbol < tm then d1 else d2) := by
  unfold idleAction
  show _ = k.config.desc (if t - k.lastSimpleKeyTime < tm then d1 else d2)
  by_cases hlt : t - k.lastSimpleKeyTime < tm
  · rw [if_neg (by omega), if_pos hlt]
  · rw [if_pos (by omega), if_neg hlt]

theorem struck_descriptor : ∀ (n : Nat) (k : Kbd) (code : Code) (d : Desc) (dl : Nat) (p : Bool) (t : Int),
    Sat (processDescriptor n k code d dl p t) (StruckAs k code d p t) AnyErr
  | 0, _, _, _, _, _, _ => trivial
  | n+1, k, code, d, dl, p, t => by
    unfold processDescriptor
    dsimp only
    have h0 : Unstruck k (pdMacroPrefix k d dl p) := by
      unfold pdMacroPrefix
      split
      · split
        · exact .of_frame (.executeMacro _ _ _)
        · exact .of_frame (.executeMacro _ _ _)
        · exact .of_frame (.executeMacro _ _ _)
        · exact .refl _
      · exact .refl _
    generalize pdMacroPrefix k d dl p = k0 at h0 ⊢
    refine Sat.bind (Q := Strikes k0 code d p t) ?_ (fun k1 h1 => ?_)
    · have un : ∀ {r : Res Kbd} {d : Desc}, d.symbol = false → Mute d p → Sat r (Unstruck k0) AnyErr →
          Sat r (Strikes k0 code d p t) AnyErr :=
        fun hs hm h => h.imp (fun _ h => h.strikes hs hm)
      have un' : ∀ {r : Res Kbd} {d : Desc}, d.symbol = false → Mute d p → Sat r (Unstruck k0) AnyErr →
          Sat (if p = true then r else .ok k0) (Strikes k0 code d p t) AnyErr := by
        intro r d hs hm h
        split
        · exact un hs hm h
        · exact (Unstruck.refl k0).strikes hs hm
      unfold pdSwitch
      cases d with
      | none => exact (Unstruck.refl k0).strikes rfl ⟨(by intros; simp), fun _ => rfl, fun _ => rfl, (by intros; simp)⟩
      | keyseq c m =>
        refine (Unstruck.pdKeyseq k0 c m dl p t).imp (fun k1 h1 => ?_)
        obtain ⟨h1, h2, h3, h4⟩ := h1
        refine ⟨h1.1, [(.keyseq c m, p)], ?_, h4, h2, h3⟩
        have e : k1.memo.pressed code p = k0.memo.after code t (.keyseq c m) p := by
          rw [h1.2]
          unfold Memo.pressed Memo.after
          simp [Desc.symbol, Kbd.memo]
        rw [e]
        exact .itself (by intros; simp) (by intros; simp)
      | scroll s =>
        exact ⟨rfl, [(.scroll s, p)], .itself (by intros; simp) (by intros; simp), rfl, rfl, rfl⟩
      | scrollToggle s =>
        refine ⟨rfl, [(.scrollToggle s, p)], .itself (by intros; simp) (by intros; simp), rfl, rfl, ?_⟩
        cases p <;> rfl
      | overloadIdle d1 d2 tm =>
        dsimp only
        split
        · rename_i hp
          unfold pdOverloadIdle
          dsimp only
          refine (struck_descriptor n k0 code _ dl true t).bind (fun k1 h1 => ?_)
          subst hp
          refine ⟨h1.1, ?_⟩
          obtain ⟨as, g1, g2⟩ := h1.done
          refine ⟨as, .idle ?_, g2.config, g2.ran, g2.scroll⟩
          have e := idleAction_eq k0 d1 d2 tm t
          have e' : (cacheModify k1 code fun x => { x with d := idleAction k0 d1 d2 tm t }).memo.pressed code true = k1.memo := by
            show Memo.pressed k1.memo code true = k1.memo
            unfold Memo.pressed
            rw [if_pos rfl, ← g1.newest rfl]
          rw [e', ← e]
          exact g1
        · rename_i hp
          have hp : p = false := by simpa using hp
          subst hp
          exact (Unstruck.refl k0).strikes rfl (mute_false (by intros; simp) (by intros; simp) (by intros; simp))
      | overloadTimeout l a tm =>
        refine un' rfl ⟨(by intros; simp), fun _ => rfl, fun _ => rfl, (by intros; simp)⟩ ?_
        unfold pdOverloadTimeout
        exact (Unstruck.schedule _ _).imp (fun _ h => .same h.steps h.memo h.ran h.scroll h.config)
      | overloadTimeoutTap l a tm =>
        refine un' rfl ⟨(by intros; simp), fun _ => rfl, fun _ => rfl, (by intros; simp)⟩ ?_
        unfold pdOverloadTimeout
        exact (Unstruck.schedule _ _).imp (fun _ h => .same h.steps h.memo h.ran h.scroll h.config)
      | layout l => exact un' rfl ⟨(by intros; simp), fun _ => rfl, fun _ => rfl, (by intros; simp)⟩ (Unstruck.setlayout _ _)
      | layer l => exact un rfl ⟨(by intros; simp), fun _ => rfl, fun _ => rfl, (by intros; simp)⟩ (Unstruck.pdLayer _ _ _ _)
      | layerm l m => exact un rfl ⟨(by intros; simp), fun _ => rfl, fun _ => rfl, (by intros; simp)⟩ (Unstruck.pdLayer _ _ _ _)
      | clear => exact un' rfl ⟨(by intros; simp), fun _ => rfl, fun _ => rfl, (by intros; simp)⟩ (Unstruck.clear _)
      | clearm m =>
        refine un' rfl ⟨(by intros; simp), fun _ => rfl, fun _ => rfl, (by intros; simp)⟩ (Sat.bind (Unstruck.clear k0) (fun k1 h1 => ?_))
        exact h1.trans (.of_frame (.executeMacro _ _ _))
      | overload l a =>
        dsimp only
        split
        · rename_i hp
          subst hp
          unfold pdOverloadPress
          refine (Unstruck.activate _ _ _).bind (fun k1 h1 => ?_)
          have h2 : Unstruck { k0 with overloadStartTime := t } (updateMods k1 none 0) := h1.trans (.of_frame (.updateMods _ _ _))
          refine ⟨h2.steps, [(.overload l a, true)], ?_, h2.config, h2.ran, h2.scroll⟩
          rw [h2.memo]
          have e : ({ k0 with overloadStartTime := t } : Kbd).memo.pressed code true = k0.memo.after code t (.overload l a) true := rfl
          rw [e]
          exact .itself (by intros; simp) (by intros; simp)
        · rename_i hp
          have hp : p = false := by simpa using hp
          subst hp
          have hm : ∀ c, commandOf c (.overload l a, false) = none := fun _ => rfl
          have hm' : ∀ s, scrollOf s (.overload l a, false) = s := fun _ => rfl
          have un : ∀ k : Kbd, k.memo.pressed code false = k.memo := fun _ => rfl
          unfold pdOverloadRelease
          dsimp only
          refine (Unstruck.deactivate k0 l).bind (fun k1 h1 => ?_)
          have h2 : Unstruck k0 (updateMods k1 none 0) := h1.trans (.of_frame (.updateMods _ _ _))
          generalize updateMods k1 none 0 = k2 at h2 ⊢
          have htap : isTap k2 code t = true ↔ k0.memo.tap k0.config code t := by
            rw [isTap_iff, h2.memo, h2.config]
          split
          · rename_i ht
            have ht := htap.1 ht
            split
            · rename_i i hi
              have h3 : Unstruck k0 (executeMacro k2 dl (k2.config.mac i)) := h2.trans (.of_frame (.executeMacro _ _ _))
              refine ⟨h3.steps, _, ?_, .mute h3 hm hm'⟩
              rw [un, h3.memo]
              exact .tapMacro ht hi
            · rename_i hi
              refine (struck_descriptor n k2 code _ dl true t).bind (fun k3 h3 => ?_)
              refine (struck_descriptor n k3 code _ dl false t).imp (fun k4 h4 => ?_)
              have c3 := h3.config
              obtain ⟨as, p3, q3⟩ := h3.done
              obtain ⟨bs, p4, q4⟩ := h4.done
              refine ⟨h4.1.trans (h3.1.trans h2.steps), _, .tap (m1 := k3.memo) ht (fun i e => hi i e) ?_ ?_, ((Done.mute h2 hm hm').append q3).append q4⟩
              · rw [h2.memo, h2.config] at p3
                exact p3
              · rw [c3, h2.config] at p4
                exact p4
          · rename_i ht
            refine ⟨h2.steps, _, ?_, .mute h2 hm hm'⟩
            rw [un, h2.memo]
            exact .hold (fun e => ht (htap.2 e))
      | oneshot l => exact un rfl ⟨(by intros; simp), fun _ => rfl, fun _ => rfl, (by intros; simp)⟩ (Unstruck.pdOneshot _ _ _ _ _ _)
      | oneshotm l m => exact un rfl ⟨(by intros; simp), fun _ => rfl, fun _ => rfl, (by intros; simp)⟩ (Unstruck.pdOneshot _ _ _ _ _ _)
      | «macro» m => exact un' rfl ⟨(by intros; simp), fun _ => rfl, fun _ => rfl, (by intros; simp)⟩ (Unstruck.pdMacro _ _ _ _ _ _)
      | macro2 a b m => exact un' rfl ⟨(by intros; simp), fun _ => rfl, fun _ => rfl, (by intros; simp)⟩ (Unstruck.pdMacro _ _ _ _ _ _)
      | toggle l => exact un' rfl ⟨(by intros; simp), fun _ => rfl, fun _ => rfl, (by intros; simp)⟩ (Unstruck.pdToggle _ _ _)
      | togglem l m => exact un' rfl ⟨(by intros; simp), fun _ => rfl, fun _ => rfl, (by intros; simp)⟩ (Unstruck.pdToggle _ _ _)
      | timeout d1 tm d2 =>
        refine un' rfl ⟨(by intros; simp), fun _ => rfl, fun _ => rfl, (by intros; simp)⟩ ?_
        unfold pdTimeout
        exact (Unstruck.schedule _ _).imp (fun _ h => .same h.steps h.memo h.ran h.scroll h.config)
      | command c =>
        dsimp only
        split
        · rename_i hp
          subst hp
          refine (Unstruck.pdCommand k0 c).imp (fun k1 h1 => ?_)
          refine ⟨h1.1, [(.command c, true)], ?_, h1.2.2.2.2, h1.2.2.1, h1.2.2.2.1⟩
          rw [h1.2.1]
          exact .itself (by intros; simp) (by intros; simp)
        · rename_i hp
          have hp : p = false := by simpa using hp
          subst hp
          exact (Unstruck.refl k0).strikes rfl (mute_false (by intros; simp) (by intros; simp) (by intros; simp))
      | swap l => exact un rfl ⟨(by intros; simp), fun _ => rfl, fun _ => rfl, (by intros; simp)⟩ (unstruck_swap _ _ _ _ _)
      | swapm l m => exact un rfl ⟨(by intros; simp), fun _ => rfl, fun _ => rfl, (by intros; simp)⟩ (unstruck_swap _ _ _ _ _)
    · have h2 := Strikes.of_unstruck h0 h1
      obtain ⟨as, g1, g2⟩ := h2.done
      refine ⟨?_, as, ?_, ?_⟩
      · cases p <;> exact h2.steps
      · cases p <;> exact g1
      · cases p <;> exact ⟨g2.config, g2.ran, g2.scroll⟩

/-- The recorded time is what the log says, if the log tells. -/
def IdleInv (k : Kbd) : Prop := ∀ t, lastSymbol k.steps = some t → k.lastSimpleKeyTime = t

theorem idle_engineInv : EngineInv IdleInv AnyErr where
  errs _ _ := trivial
  chord _ _ h := h
  timeouts _ _ h := h
  passed _ _ h := h
  swallowed k evs h := by
    have : ∀ l : List KeyEvent, lastSymbol (l.map Step.swallowed ++ k.steps) = lastSymbol k.steps := by
      intro l
      induction l with
      | nil => rfl
      | cons e l ih => exact ih
    intro t ht
    refine h t ?_
    rw [← ht]
    have h2 := this evs.reverse
    rw [List.map_reverse] at h2
    exact h2.symm
  install k p h := by
    unfold installChord
    dsimp only
    cases freeChordSlot k.activeChords 0 with
    | none => trivial
    | some i => exact h
  strike _ _ _ _ h := h
  enqueue _ _ h _ := h
  resolve k a t h hp _ _ := by
    unfold resolvePendingStep
    dsimp only
    have ex : ∀ k0 : Kbd, k0.steps = k.steps → k0.lastSimpleKeyTime = k.lastSimpleKeyTime →
        Sat (processDescriptor (descBudget (k0.log (.resolve k.pending.code a k.pending.dl t))) (k0.log (.resolve k.pending.code a k.pending.dl t))
          k.pending.code a k.pending.dl true t >>= fun k1 => (.ok (k1, k.pending.queue) : Res _)) (fun r => IdleInv r.1) AnyErr := by
      intro k0 h1 h2
      refine (struck_descriptor _ _ _ _ _ _ _).bind (fun k1 g => ?_)
      intro t' ht'
      show k1.lastSimpleKeyTime = t'
      have ht' : lastSymbol k1.steps = some t' := ht'
      rw [g.1] at ht'
      change (if a.symbol then some t else if a.performs true then none else lastSymbol k0.steps) = some t' at ht'
      split at ht'
      · rename_i hs
        injection ht' with ht'
        rw [g.symbol hs, ht']
      · rename_i hs
        split at ht'
        · cases ht'
        · rename_i hn
          rw [g.other (by simpa using hs) (by simpa using hn)]
          show k0.lastSimpleKeyTime = t'
          rw [h2]
          exact h t' (h1 ▸ ht')
    cases hcs : cacheSet { k with pending := { k.pending with code := 0, queue := [], tapExpiry := 0 } } k.pending.code
        (some { d := a, dl := k.pending.dl, layer := 0 }) with
    | none => exact ex _ rfl rfl
    | some k1 =>
      obtain ⟨l, rfl⟩ := cacheSet_frame hcs
      exact ex _ rfl rfl
  timers k c t h := (Unstruck.stepTimers k c t).imp (fun k' g t' ht' => by
    rw [g.time]
    exact h t' (g.steps ▸ ht'))
  key k c p t h hp := by
    have ex : ∀ (k0 : Kbd) (d : Desc) (dl : Nat) (p : Bool), k0.steps = k.steps → k0.lastSimpleKeyTime = k.lastSimpleKeyTime →
        Sat (processDescriptor (descBudget (k0.log (.key c p t (some (d, dl))))) (k0.log (.key c p t (some (d, dl)))) c d dl p t)
          IdleInv AnyErr := by
      intro k0 d dl p h1 h2
      refine (struck_descriptor _ _ _ _ _ _ _).imp (fun k1 g => ?_)
      intro t' ht'
      rw [g.1] at ht'
      change (if d.symbol then some t else if d.performs p then none else lastSymbol k0.steps) = some t' at ht'
      split at ht'
      · rename_i hs
        injection ht' with ht'
        rw [g.symbol hs, ht']
      · rename_i hs
        split at ht'
        · cases ht'
        · rename_i hn
          rw [g.other (by simpa using hs) (by simpa using hn)]
          show k0.lastSimpleKeyTime = t'
          rw [h2]
          exact h t' (h1 ▸ ht')
    unfold stepKey
    split
    · exact h
    · split
      · split
        · exact h
        · dsimp only
          split
          · exact h
          · rename_i k1 hcs
            obtain ⟨l, rfl⟩ := cacheSet_frame hcs
            exact ex _ _ _ _ rfl rfl
      · split
        · exact h
        · dsimp only
          cases hcs : cacheSet k c none with
          | none => exact ex _ _ _ _ rfl rfl
          | some k1 =>
            obtain ⟨l, rfl⟩ := cacheSet_frame hcs
            exact ex _ _ _ _ rfl rfl

end Keyd
