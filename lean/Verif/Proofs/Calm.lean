import Verif.Proofs.Frames

/-
  What the actions that do not touch the held bindings leave alone.
-/

set_option autoImplicit false

namespace Keyd

/-- A cache entry without the layer it holds. -/
def CacheEntry.strip (e : CacheEntry) : CacheEntry := { e with layer := 0 }

/-- `k'` has the same held bindings (up to the layers they hold), pending key,
chords, tables and ghost log as `k`. -/
structure Calm (k k' : Kbd) : Prop where
  pending : k'.pending = k.pending
  activeChords : k'.activeChords = k.activeChords
  chord : k'.chord = k.chord
  config : k'.config = k.config
  originalConfig : k'.originalConfig = k.originalConfig
  steps : k'.steps = k.steps
  cache : k'.cache.map CacheEntry.strip = k.cache.map CacheEntry.strip

namespace Calm

theorem refl (k : Kbd) : Calm k k := ⟨rfl, rfl, rfl, rfl, rfl, rfl, rfl⟩

theorem trans {a b c : Kbd} (h : Calm a b) (h' : Calm b c) : Calm a c :=
  ⟨h'.1.trans h.1, h'.2.trans h.2, h'.3.trans h.3, h'.4.trans h.4, h'.5.trans h.5, h'.6.trans h.6,
    h'.7.trans h.7⟩

theorem of_frame {k k' : Kbd} (h : KeyFrame k k') : Calm k k' :=
  ⟨h.pending, h.activeChords, h.chord, h.config, h.originalConfig, h.steps, by rw [h.cache]⟩

theorem modL (k : Kbd) (i : Nat) (f : LayerSt → LayerSt) : Calm k (k.modLayer i f) :=
  ⟨rfl, rfl, rfl, rfl, rfl, rfl, rfl⟩

theorem bind {k : Kbd} {r : Res Kbd} {f : Kbd → Res Kbd} (h : Sat r (Calm k) AnyErr)
    (hf : ∀ k', Calm k k' → Sat (f k') (Calm k') AnyErr) : Sat (r >>= f) (Calm k) AnyErr :=
  Sat.bind h (fun k' h' => (hf k' h').imp (fun _ h'' => h'.trans h''))

theorem deactivate (k : Kbd) (i : Nat) : Sat (deactivateLayer k i) (Calm k) AnyErr := by
  unfold deactivateLayer
  dsimp only
  split
  · trivial
  · exact ⟨rfl, rfl, rfl, rfl, rfl, rfl, rfl⟩

theorem modifyFirst_strip (p : CacheEntry → Bool) (i : Nat) : ∀ l : List CacheEntry,
    (modifyFirst p (fun e => { e with layer := i }) l).map CacheEntry.strip = l.map CacheEntry.strip
  | [] => rfl
  | e :: l => by
    unfold modifyFirst
    split
    · rfl
    · simp [modifyFirst_strip p i l]

theorem activate (k : Kbd) (c : Code) (i : Nat) : Sat (activateLayer k c i) (Calm k) AnyErr := by
  unfold activateLayer
  dsimp only
  split
  · trivial
  · refine ⟨rfl, rfl, rfl, rfl, rfl, rfl, ?_⟩
    exact modifyFirst_strip _ _ _

theorem clearOneshotLayer (i : Nat) : ∀ (n : Nat) (k : Kbd), Sat (clearOneshotLayer i n k) (Calm k) AnyErr
  | 0, k => refl k
  | n+1, k => by
    unfold Keyd.clearOneshotLayer
    exact (deactivate k i).bind (fun k1 h1 => (clearOneshotLayer i n _).imp (fun k2 h2 =>
      h1.trans ((modL _ _ _).trans h2)))

theorem clearOneshotLayers : ∀ (l : List Nat) (k : Kbd), Sat (clearOneshotLayers l k) (Calm k) AnyErr
  | [], k => refl k
  | i :: is, k => by
    unfold Keyd.clearOneshotLayers
    exact bind (clearOneshotLayer i _ k) (fun k1 _ => clearOneshotLayers is k1)

theorem clearOneshot (k : Kbd) : Sat (clearOneshot k) (Calm k) AnyErr := by
  unfold Keyd.clearOneshot
  exact (clearOneshotLayers _ k).bind (fun k1 h1 => h1.trans ⟨rfl, rfl, rfl, rfl, rfl, rfl, rfl⟩)

theorem clearToggled : ∀ (l : List Nat) (k : Kbd), Sat (clearToggled l k) (Calm k) AnyErr
  | [], k => refl k
  | i :: is, k => by
    unfold Keyd.clearToggled
    split
    · refine (deactivate _ i).bind (fun k1 h1 => (clearToggled is k1).imp (fun k2 h2 => ?_))
      exact (modL _ _ _).trans (h1.trans h2)
    · exact clearToggled is k

theorem clear (k : Kbd) : Sat (clear k) (Calm k) AnyErr := by
  unfold Keyd.clear
  refine bind (clearOneshot k) (fun k1 _ => ?_)
  refine (clearToggled _ k1).bind (fun k2 h2 => ?_)
  refine h2.trans (trans ?_ (of_frame (.resetKeystate _)))
  exact ⟨rfl, rfl, rfl, rfl, rfl, rfl, rfl⟩

theorem foldl {α : Type} {f : Kbd → α → Kbd} (h : ∀ k a, Calm k (f k a)) :
    ∀ (l : List α) (k : Kbd), Calm k (l.foldl f k)
  | [], k => refl k
  | a :: l, k => (h k a).trans (foldl h l _)

theorem setlayout (k : Kbd) (i : Nat) : Sat (setlayout k i) (Calm k) AnyErr := by
  unfold Keyd.setlayout
  refine bind (clear k) (fun k1 _ => ?_)
  have h2 : Calm k1 ((nonMainLayers k1).foldl (fun k i =>
      if (k.config.layer i).type = .layout then k.modLayer i fun s => { s with active := 0 } else k) k1) := by
    refine foldl ?_ _ _
    intro k c
    split
    · exact ⟨rfl, rfl, rfl, rfl, rfl, rfl, rfl⟩
    · exact refl k
  revert h2
  dsimp only
  generalize (nonMainLayers k1).foldl _ k1 = k2
  intro h2
  split
  · exact h2.trans ⟨rfl, rfl, rfl, rfl, rfl, rfl, rfl⟩
  · exact h2.trans ⟨rfl, rfl, rfl, rfl, rfl, rfl, rfl⟩

theorem schedule (k : Kbd) (t : Int) : Sat (scheduleTimeout k t) (Calm k) AnyErr := by
  unfold scheduleTimeout
  split
  · exact ⟨rfl, rfl, rfl, rfl, rfl, rfl, rfl⟩
  · trivial

theorem pdKeyseq (k : Kbd) (c : Code) (m : UInt8) (dl : Nat) (p : Bool) (t : Int) :
    Sat (pdKeyseq k c m dl p t) (Calm k) AnyErr := by
  unfold Keyd.pdKeyseq
  refine Sat.bind (Q := Calm k) ?_ (fun k1 h1 => ?_)
  · split
    · dsimp only
      refine (clearOneshot _).imp (fun k1 h1 => trans ?_ h1)
      refine of_frame (KeyFrame.trans ?_ ((KeyFrame.updateMods _ _ _).trans (.send _ _ _)))
      split
      · exact .send _ _ _
      · exact .refl _
    · exact of_frame ((KeyFrame.send _ _ _).trans (.updateMods _ _ _))
  · show Calm k _
    split
    · exact h1.trans ⟨rfl, rfl, rfl, rfl, rfl, rfl, rfl⟩
    · exact h1

theorem pdLayer (k : Kbd) (c : Code) (l : Nat) (p : Bool) : Sat (pdLayer k c l p) (Calm k) AnyErr := by
  unfold Keyd.pdLayer
  refine Sat.bind (Q := Calm k) ?_ (fun k1 h1 => ?_)
  · split
    · exact activate _ _ _
    · exact deactivate _ _
  · split
    · have h2 : Calm k1 { k1 with inhibitModifierGuard := true } := ⟨rfl, rfl, rfl, rfl, rfl, rfl, rfl⟩
      have h3 := (h1.trans h2).trans (of_frame (.updateMods _ none 0))
      exact h3.trans ⟨rfl, rfl, rfl, rfl, rfl, rfl, rfl⟩
    · exact h1.trans (of_frame (.updateMods _ _ _))

theorem pdOneshot (k : Kbd) (c : Code) (l dl : Nat) (p : Bool) (t : Int) :
    Sat (pdOneshot k c l dl p t) (Calm k) AnyErr := by
  unfold Keyd.pdOneshot
  split
  · refine (activate _ _ _).bind (fun k1 h1 => ?_)
    exact h1.trans ((of_frame (.updateMods k1 (some dl) 0)).trans ⟨rfl, rfl, rfl, rfl, rfl, rfl, rfl⟩)
  · split
    · dsimp only
      split
      · trivial
      · split
        · refine (schedule _ _).imp (fun k1 h1 => trans ?_ h1)
          exact ⟨rfl, rfl, rfl, rfl, rfl, rfl, rfl⟩
        · exact ⟨rfl, rfl, rfl, rfl, rfl, rfl, rfl⟩
    · exact (deactivate _ _).bind (fun k1 h1 => h1.trans (of_frame (.updateMods _ _ _)))

theorem pdMacro (k : Kbd) (m : Nat) (tm iv : Int) (dl : Nat) (t : Int) :
    Sat (pdMacro k m tm iv dl t) (Calm k) AnyErr := by
  unfold Keyd.pdMacro
  dsimp only
  refine Sat.bind (Q := Calm k) ((clearOneshot _).imp (fun k1 h1 => by refine trans ?_ h1; exact ⟨rfl, rfl, rfl, rfl, rfl, rfl, rfl⟩))
    (fun k1 h1 => ?_)
  refine (schedule _ _).imp (fun k2 h2 => trans (h1.trans (of_frame (.executeMacro k1 dl (k1.config.mac m)))) (trans ?_ h2))
  exact ⟨rfl, rfl, rfl, rfl, rfl, rfl, rfl⟩

theorem pdToggle (k : Kbd) (c : Code) (l : Nat) : Sat (pdToggle k c l) (Calm k) AnyErr := by
  unfold Keyd.pdToggle
  dsimp only
  refine Sat.bind (Q := Calm k) ?_ (fun k1 h1 => (clearOneshot _).imp (fun k2 h2 =>
    (h1.trans (of_frame (.updateMods k1 none 0))).trans h2))
  split
  · exact (activate _ _ _).imp (fun k1 h1 => (modL _ _ _).trans h1)
  · exact (deactivate _ _).imp (fun k1 h1 => (modL _ _ _).trans h1)

theorem pdCommand (k : Kbd) (c : Nat) : Sat (pdCommand k c) (Calm k) AnyErr := by
  unfold Keyd.pdCommand
  dsimp only
  refine Sat.bind (Q := Calm k) ((clearOneshot _).imp (fun k1 h1 => by refine trans ?_ h1; exact ⟨rfl, rfl, rfl, rfl, rfl, rfl, rfl⟩))
    (fun k1 h1 => h1.trans (of_frame (.updateMods _ _ _)))

theorem pdOverloadPress (k : Kbd) (c : Code) (l : Nat) (t : Int) :
    Sat (pdOverloadPress k c l t) (Calm k) AnyErr := by
  unfold Keyd.pdOverloadPress
  dsimp only
  refine Sat.bind (Q := Calm k) ((activate _ _ _).imp (fun k1 h1 => by refine trans ?_ h1; exact ⟨rfl, rfl, rfl, rfl, rfl, rfl, rfl⟩))
    (fun k1 h1 => h1.trans (of_frame (.updateMods _ _ _)))

theorem pdMacroPrefix (k : Kbd) (d : Desc) (dl : Nat) (p : Bool) : KeyFrame k (pdMacroPrefix k d dl p) := by
  unfold Keyd.pdMacroPrefix
  split
  · split
    · exact .executeMacro _ _ _
    · exact .executeMacro _ _ _
    · exact .executeMacro _ _ _
    · exact .refl _
  · exact .refl _

theorem stepTimers (k : Kbd) (c : Code) (t : Int) : Sat (stepTimers k c t) (Calm k) AnyErr := by
  unfold Keyd.stepTimers
  refine Sat.bind (Q := Calm k) ?_ (fun k1 h1 => ?_)
  · split
    · exact (clearOneshot k).bind (fun k1 h1 => h1.trans (of_frame (.updateMods _ _ _)))
    · exact refl k
  · split
    · exact h1
    · split
      · refine h1.trans (trans ?_ (of_frame (.updateMods _ _ _)))
        exact ⟨rfl, rfl, rfl, rfl, rfl, rfl, rfl⟩
      · split
        · rename_i m _ _ _
          refine (schedule _ _).imp (fun k2 h2 => ?_)
          refine trans (h1.trans (of_frame (.executeMacro k1 k1.activeMacroLayer (k1.config.mac m)))) (trans ?_ h2)
          exact ⟨rfl, rfl, rfl, rfl, rfl, rfl, rfl⟩
        · exact h1

end Calm


end Keyd
