import Verif.Proofs.NoFuel

/-
  The points at which the action handlers can stop the daemon.
-/

set_option autoImplicit false

namespace Keyd

/-- Where the engine can stop: its assertions, and two counters that can wrap around. -/
def stopPoints : List Err := [
  .assertFail "deactivate_layer: active > 0",
  .wrap "layer_state.active",
  .wrap "layer_state.oneshot_depth",
  .assertFail "nr_timeouts < ARRAY_SIZE(timeouts)",
  .assertFail "chord.queue_sz < ARRAY_SIZE(chord.queue)",
  .assertFail "pending_key.queue_sz < ARRAY_SIZE(pending_key.queue)",
  .assertFail "resolve_chord: code"]

/-- One of these, or the model's own recursion bound. -/
def TameErr (e : Err) : Prop := e = .fuel ∨ e ∈ stopPoints

instance (e : Err) : Decidable (TameErr e) := inferInstanceAs (Decidable (_ ∨ _))

def Tame {α : Type} (r : Res α) : Prop := ∀ e, r = .error e → TameErr e

theorem Tame.ok {α : Type} (a : α) : Tame (.ok a) := by intro e h; cases h

theorem Tame.err {α : Type} {e : Err} (h : TameErr e) : Tame (.error e : Res α) := by
  intro e' h'; cases h'; exact h

theorem Tame.bind {α β : Type} {r : Res α} {f : α → Res β} (h : Tame r) (hf : ∀ a, r = .ok a → Tame (f a)) :
    Tame (r >>= f) := by
  cases r with
  | ok a => exact hf a rfl
  | error e => intro e' he; cases he; exact h e rfl

theorem Tame.sat {α : Type} {r : Res α} {Q : α → Prop} {E : Err → Prop} (h : Tame r) (hq : Sat r Q E) :
    Sat r Q TameErr := by
  cases r with
  | ok a => exact hq
  | error e => exact h e rfl

theorem Tame.of_sat {α : Type} {r : Res α} {Q : α → Prop} (h : Sat r Q TameErr) : Tame r := by
  intro e he
  exact h.of_err he

namespace Tame

theorem deactivate (k : Kbd) (i : Nat) : Tame (deactivateLayer k i) := by
  unfold deactivateLayer
  dsimp only
  split
  · exact .err (by decide)
  · exact .ok _

theorem activate (k : Kbd) (c : Code) (i : Nat) : Tame (activateLayer k c i) := by
  unfold activateLayer
  dsimp only
  split
  · exact .err (by decide)
  · exact .ok _

theorem clearOneshotLayer (i : Nat) : ∀ (n : Nat) (k : Kbd), Tame (clearOneshotLayer i n k)
  | 0, k => .ok _
  | n+1, k => (deactivate k i).bind (fun _ _ => clearOneshotLayer i n _)

theorem clearOneshotLayers : ∀ (l : List Nat) (k : Kbd), Tame (clearOneshotLayers l k)
  | [], k => .ok _
  | i :: l, k => (clearOneshotLayer i _ k).bind (fun _ _ => clearOneshotLayers l _)

theorem clearOneshot (k : Kbd) : Tame (clearOneshot k) :=
  (clearOneshotLayers _ k).bind (fun _ _ => .ok _)

theorem clearToggled : ∀ (l : List Nat) (k : Kbd), Tame (clearToggled l k)
  | [], k => .ok _
  | i :: l, k => by
    unfold Keyd.clearToggled
    split
    · exact (deactivate _ i).bind (fun _ _ => clearToggled l _)
    · exact clearToggled l k

theorem clear (k : Kbd) : Tame (clear k) :=
  (clearOneshot k).bind (fun _ _ => (clearToggled _ _).bind (fun _ _ => .ok _))

theorem setlayout (k : Kbd) (i : Nat) : Tame (setlayout k i) :=
  (clear k).bind (fun _ _ => .ok _)

theorem schedule (k : Kbd) (t : Int) : Tame (scheduleTimeout k t) := by
  unfold scheduleTimeout
  split
  · exact .ok _
  · exact .err (by decide)

theorem pdKeyseq (k : Kbd) (c : Code) (m : UInt8) (dl : Nat) (p : Bool) (t : Int) : Tame (pdKeyseq k c m dl p t) := by
  unfold Keyd.pdKeyseq
  refine Tame.bind ?_ (fun _ _ => .ok _)
  split
  · exact clearOneshot _
  · exact .ok _

theorem pdLayer (k : Kbd) (c : Code) (l : Nat) (p : Bool) : Tame (pdLayer k c l p) := by
  unfold Keyd.pdLayer
  refine Tame.bind ?_ (fun k1 _ => ?_)
  · split
    · exact activate _ _ _
    · exact deactivate _ _
  · split <;> exact .ok _

theorem pdOneshot (k : Kbd) (c : Code) (l dl : Nat) (p : Bool) (t : Int) : Tame (pdOneshot k c l dl p t) := by
  unfold Keyd.pdOneshot
  split
  · exact (activate _ _ _).bind (fun _ _ => .ok _)
  · split
    · dsimp only
      split
      · exact .err (by decide)
      · split
        · exact schedule _ _
        · exact .ok _
    · exact (deactivate _ _).bind (fun _ _ => .ok _)

theorem pdMacro (k : Kbd) (m : Nat) (tm iv : Int) (dl : Nat) (t : Int) : Tame (pdMacro k m tm iv dl t) := by
  unfold Keyd.pdMacro
  exact (clearOneshot _).bind (fun _ _ => schedule _ _)

theorem pdToggle (k : Kbd) (c : Code) (l : Nat) : Tame (pdToggle k c l) := by
  unfold Keyd.pdToggle
  refine Tame.bind ?_ (fun _ _ => clearOneshot _)
  split
  · exact activate _ _ _
  · exact deactivate _ _

theorem pdCommand (k : Kbd) (c : Nat) : Tame (pdCommand k c) := by
  unfold Keyd.pdCommand
  exact (clearOneshot _).bind (fun _ _ => .ok _)

theorem pdOverloadPress (k : Kbd) (c : Code) (l : Nat) (t : Int) : Tame (pdOverloadPress k c l t) := by
  unfold Keyd.pdOverloadPress
  exact (activate _ _ _).bind (fun _ _ => .ok _)

theorem pdSwap (k : Kbd) (l : Nat) (m : Option Macro) (dl : Nat) (p : Bool) : Tame (pdSwap k l m dl p) := by
  unfold Keyd.pdSwap
  split
  · refine Tame.bind ?_ (fun _ _ => .ok _)
    unfold pdSwapLayer
    split
    · exact (deactivate _ _).bind (fun _ _ => (activate _ _ _).bind (fun _ _ => .ok _))
    · split
      · exact (deactivate _ _).bind (fun _ _ => (activate _ _ _).bind (fun _ _ => .ok _))
      · split
        · exact .ok _
        · exact (deactivate _ _).bind (fun _ _ => (activate _ _ _).bind (fun _ _ => .ok _))
  · exact .ok _

theorem stepTimers (k : Kbd) (c : Code) (t : Int) : Tame (stepTimers k c t) := by
  unfold Keyd.stepTimers
  refine Tame.bind ?_ (fun k1 _ => ?_)
  · split
    · exact (clearOneshot _).bind (fun _ _ => .ok _)
    · exact .ok _
  · split
    · exact .ok _
    · split
      · exact .ok _
      · split
        · exact schedule _ _
        · exact .ok _

end Tame


namespace Tame

theorem pdSwitch {pd : Kbd → Code → Desc → Nat → Bool → Int → Res Kbd} (hpd : ∀ k c d dl p t, Tame (pd k c d dl p t))
    (k : Kbd) (c : Code) (d : Desc) (dl : Nat) (p : Bool) (t : Int) : Tame (pdSwitch pd k c d dl p t) := by
  unfold Keyd.pdSwitch
  split
  · exact .ok _
  · exact pdKeyseq _ _ _ _ _ _
  · exact .ok _
  · exact .ok _
  · split
    · exact (hpd _ _ _ _ _ _).bind (fun _ _ => .ok _)
    · exact .ok _
  · split
    · exact schedule _ _
    · exact .ok _
  · split
    · exact schedule _ _
    · exact .ok _
  · split
    · exact setlayout _ _
    · exact .ok _
  · exact pdLayer _ _ _ _
  · exact pdLayer _ _ _ _
  · split
    · exact clear _
    · exact .ok _
  · split
    · exact (clear _).bind (fun _ _ => .ok _)
    · exact .ok _
  · split
    · exact pdOverloadPress _ _ _ _
    · unfold pdOverloadRelease
      refine (deactivate _ _).bind (fun _ _ => ?_)
      dsimp only
      split
      · split
        · exact .ok _
        · exact (hpd _ _ _ _ _ _).bind (fun _ _ => hpd _ _ _ _ _ _)
      · exact .ok _
  · exact pdOneshot _ _ _ _ _ _
  · exact pdOneshot _ _ _ _ _ _
  · split
    · exact pdMacro _ _ _ _ _ _
    · exact .ok _
  · split
    · exact pdMacro _ _ _ _ _ _
    · exact .ok _
  · split
    · exact pdToggle _ _ _
    · exact .ok _
  · split
    · exact pdToggle _ _ _
    · exact .ok _
  · split
    · exact schedule _ _
    · exact .ok _
  · split
    · exact pdCommand _ _
    · exact .ok _
  · exact pdSwap _ _ _ _ _
  · exact pdSwap _ _ _ _ _

theorem descriptor : ∀ (n : Nat) (k : Kbd) (c : Code) (d : Desc) (dl : Nat) (p : Bool) (t : Int),
    Tame (processDescriptor n k c d dl p t)
  | 0, _, _, _, _, _, _ => .err (by decide)
  | n+1, k, c, d, dl, p, t => by
    unfold processDescriptor
    exact (pdSwitch (fun k c d dl p t => descriptor n k c d dl p t) _ _ _ _ _ _).bind (fun _ _ => .ok _)

end Tame

end Keyd
