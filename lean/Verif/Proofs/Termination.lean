import Verif.Proofs.NoFuel
import Verif.Proofs.Engine

/-
  Termination of `process_event`: a potential that bounds the depth of the recursion.

  Every nested call is either made while a chord is being resolved (which happens once
  within any call), or is paid for: the resolution of a pending key uses up the credit the
  pending key carries, the end of a chord uses up the release event that caused it.
-/

set_option autoImplicit false

namespace Keyd

/-- What the pending key can still cause: the nesting depth of its actions. -/
def pendCredit (k : Kbd) : Nat :=
  if k.pending.code = 0 then 0
  else 1 + max (nestRank k.config k.pending.action1) (nestRank k.config k.pending.action2)

/-- What processing an action may change, as far as termination is concerned. -/
structure Mild (x : Code) (b : Nat) (k k' : Kbd) : Prop where
  config : k'.config = k.config
  activeChords : k'.activeChords = k.activeChords
  chord : k'.chord = k.chord
  queue : k'.pending.queue = k.pending.queue
  steps : k'.steps = k.steps
  code : k'.pending.code = k.pending.code ∨ k'.pending.code = x
  credit : pendCredit k' ≤ max (pendCredit k) b

theorem Mild.of_calm {x : Code} {b : Nat} {k k' : Kbd} (h : Calm k k') : Mild x b k k' := by
  refine ⟨h.config, h.activeChords, h.chord, by rw [h.pending], h.steps, .inl (by rw [h.pending]), ?_⟩
  unfold pendCredit
  rw [h.pending, h.config]
  omega

theorem Mild.trans {x : Code} {b : Nat} {k k' k'' : Kbd} (h : Mild x b k k') (h' : Mild x b k' k'') : Mild x b k k'' := by
  refine ⟨h'.config.trans h.config, h'.activeChords.trans h.activeChords, h'.chord.trans h.chord,
    h'.queue.trans h.queue, h'.steps.trans h.steps, ?_, ?_⟩
  · rcases h'.code with e | e
    · rw [e]; exact h.code
    · exact .inr e
  have := h.credit
  have := h'.credit
  omega

theorem Mild.le {x : Code} {b b' : Nat} {k k' : Kbd} (h : Mild x b k k') (hb : b ≤ b') : Mild x b' k k' :=
  ⟨h.1, h.2, h.3, h.4, h.5, h.6, by have := h.7; omega⟩

theorem Mild.setCache {x : Code} {b : Nat} {k k' : Kbd} (h : Mild x b k k') (l : List CacheEntry) : Mild x b k { k' with cache := l } :=
  ⟨h.1, h.2, h.3, h.4, h.5, h.6, h.7⟩

theorem Mild.setLast {x : Code} {b : Nat} {k k' : Kbd} (h : Mild x b k k') (y : Code) : Mild x b k { k' with lastPressedCode := y } :=
  ⟨h.1, h.2, h.3, h.4, h.5, h.6, h.7⟩

theorem Mild.refl {x : Code} (b : Nat) (k : Kbd) : Mild x b k k := Mild.of_calm (Calm.refl k)

theorem mild_swap (x : Code) (b : Nat) (k : Kbd) (l : Nat) (m : Option Macro) (dl : Nat) (p : Bool) :
    Sat (pdSwap k l m dl p) (Mild x b k) AnyErr := by
  unfold pdSwap
  split
  · refine Sat.bind (Q := Mild x b k) ?_ (fun k1 h1 => ?_)
    · unfold pdSwapLayer
      split
      · refine (Calm.deactivate k dl).bind (fun k1 h1 => ?_)
        refine (Calm.activate (k1.modLayer dl _) 0 l).bind (fun k2 h2 => ?_)
        exact Mild.of_calm ((h1.trans ((Calm.modL k1 dl _).trans h2)).trans
          ((Calm.modL k2 l _).trans (.of_frame (.updateMods _ _ _))))
      · split
        · refine (Calm.deactivate k dl).bind (fun k1 h1 => ?_)
          refine (Calm.activate (k1.modLayer dl _) 0 l).bind (fun k2 h2 => ?_)
          exact Mild.of_calm ((h1.trans ((Calm.modL k1 dl _).trans h2)).trans
            ((Calm.modL k2 l _).trans (.of_frame (.updateMods _ _ _))))
        · split
          · exact Mild.refl b k
          · dsimp only
            refine Sat.bind (Calm.deactivate _ dl) (fun k1 h1 => ?_)
            refine (Calm.activate k1 _ l).bind (fun k2 h2 => ?_)
            refine Mild.trans ((Mild.refl b k).setCache
              (modifyFirst (swapHolder k dl) (fun e => { e with d := .layer l }) k.cache)) (Mild.of_calm ?_)
            exact (h1.trans h2).trans (.of_frame (.updateMods _ _ _))
    · show Mild x b k _
      split
      · exact h1.trans (.of_calm (.of_frame (.executeMacro _ _ _)))
      · exact h1
  · show Mild x b k _
    split
    · split
      · exact .of_calm (.of_frame ((KeyFrame.send _ _ _).trans (.updateMods _ _ _)))
      · exact Mild.refl b k
    · exact Mild.refl b k

/-- Entering the pending state. -/
theorem mild_pending {x : Code} {b : Nat} {k : Kbd} (p : PendingKey) (t : Int) (hq : p.queue = k.pending.queue) (hx : p.code = x)
    (hc : 1 + max (nestRank k.config p.action1) (nestRank k.config p.action2) ≤ b) :
    Sat (scheduleTimeout { k with pending := p } t) (Mild x b k) RealErr := by
  refine (NoFuel.schedule _ _).sat ((Calm.schedule _ _).imp (fun k1 h1 => ?_))
  have h2 : Mild x b k { k with pending := p } := by
    refine ⟨rfl, rfl, rfl, hq, rfl, .inr hx, ?_⟩
    unfold pendCredit
    dsimp only
    split <;> omega
  exact h2.trans (Mild.of_calm h1)

theorem mild_switch {pd : Kbd → Code → Desc → Nat → Bool → Int → Res Kbd} {c : Config} {r : Nat}
    (c' : Code) (hpd : ∀ k d dl p t, k.config = c → nestRank c d < r → Sat (pd k c' d dl p t) (Mild c' (nestRank c d) k) RealErr)
    (hc : NestWF c) {k : Kbd} (hk : k.config = c) (d : Desc) (dl : Nat) (p : Bool) (t : Int)
    (hd : nestRank c d ≤ r) :
    Sat (pdSwitch pd k c' d dl p t) (Mild c' (nestRank c d) k) RealErr := by
  have calm : ∀ {r : Res Kbd} {x : Code} {b : Nat}, NoFuel r → Sat r (Calm k) AnyErr → Sat r (Mild x b k) RealErr :=
    fun hn hr => hn.sat (hr.imp (fun _ hc => Mild.of_calm hc))
  have sub : ∀ {j}, j ∈ nestedOf d → nestRank c (c.desc j) < r := by
    intro j hj
    have := hc.nested hj
    omega
  have sub' : ∀ {j}, j ∈ nestedOf d → nestRank c (c.desc j) ≤ nestRank c d := by
    intro j hj
    have := hc.nested hj
    omega
  unfold pdSwitch
  cases d with
  | none => exact Mild.refl _ k
  | keyseq c'' m => exact calm (NoFuel.pdKeyseq _ _ _ _ _ _) (Calm.pdKeyseq _ _ _ _ _ _)
  | scroll s => exact ⟨rfl, rfl, rfl, rfl, rfl, .inl rfl, Nat.le_max_left _ _⟩
  | scrollToggle s => exact ⟨rfl, rfl, rfl, rfl, rfl, .inl rfl, Nat.le_max_left _ _⟩
  | overloadIdle d1 d2 tm =>
    dsimp only
    split
    · unfold pdOverloadIdle
      have ha : ∃ j ∈ nestedOf (.overloadIdle d1 d2 tm), idleAction k d1 d2 tm t = c.desc j := by
        unfold idleAction
        rw [hk]
        split
        · exact ⟨d2, by simp [nestedOf], rfl⟩
        · exact ⟨d1, by simp [nestedOf], rfl⟩
      obtain ⟨j, hj, he⟩ := ha
      rw [he]
      refine (hpd k (c.desc j) dl true t hk (sub hj)).bind (fun k1 h1 => ?_)
      exact (h1.le (sub' hj)).setCache _
    · exact Mild.refl _ k
  | overloadTimeout l a tm =>
    dsimp only
    split
    · unfold pdOverloadTimeout
      refine mild_pending _ _ rfl rfl ?_
      dsimp only
      rw [hk]
      have h1 := hc.nested (d := .overloadTimeout l a tm) (j := a) (by simp [nestedOf])
      have h2 : nestRank c (.layer l) = 0 := rfl
      omega
    · exact Mild.refl _ k
  | overloadTimeoutTap l a tm =>
    dsimp only
    split
    · unfold pdOverloadTimeout
      refine mild_pending _ _ rfl rfl ?_
      dsimp only
      rw [hk]
      have h1 := hc.nested (d := .overloadTimeoutTap l a tm) (j := a) (by simp [nestedOf])
      have h2 : nestRank c (.layer l) = 0 := rfl
      omega
    · exact Mild.refl _ k
  | layout l =>
    dsimp only
    split
    · exact calm (NoFuel.setlayout _ _) (Calm.setlayout _ _)
    · exact Mild.refl _ k
  | layer l => exact calm (NoFuel.pdLayer _ _ _ _) (Calm.pdLayer _ _ _ _)
  | layerm l m => exact calm (NoFuel.pdLayer _ _ _ _) (Calm.pdLayer _ _ _ _)
  | clear =>
    dsimp only
    split
    · exact calm (NoFuel.clear _) (Calm.clear _)
    · exact Mild.refl _ k
  | clearm m =>
    dsimp only
    split
    · exact (calm (x := c') (b := nestRank c (.clearm m)) (NoFuel.clear _) (Calm.clear _)).bind
        (fun k1 h1 => h1.trans (.of_calm (.of_frame (.executeMacro _ _ _))))
    · exact Mild.refl _ k
  | overload l a =>
    dsimp only
    split
    · exact calm (NoFuel.pdOverloadPress _ _ _ _) (Calm.pdOverloadPress _ _ _ _)
    · unfold pdOverloadRelease
      refine (calm (x := c') (b := nestRank c (.overload l a)) (NoFuel.deactivate _ _) (Calm.deactivate _ _)).bind (fun k1 h1 => ?_)
      dsimp only
      have h2 : Mild c' (nestRank c (.overload l a)) k (updateMods k1 none 0) :=
        h1.trans (.of_calm (.of_frame (.updateMods _ _ _)))
      refine Sat.ite (fun _ => ?_) (fun _ => h2)
      have ha : a ∈ nestedOf (.overload l a) := by simp [nestedOf]
      have hs := sub ha
      have hs' := sub' ha
      rw [hk]
      revert hs hs'
      generalize c.desc a = act
      intro hs hs'
      split
      · exact h2.trans (.of_calm (.of_frame (.executeMacro _ _ _)))
      · refine (hpd _ _ _ _ _ (h2.config.trans hk) hs).bind (fun k2 h3 => ?_)
        refine (hpd _ _ _ _ _ (h3.config.trans (h2.config.trans hk)) hs).imp (fun k4 h4 => ?_)
        exact h2.trans ((h3.trans h4).le hs')
  | oneshot l => exact calm (NoFuel.pdOneshot _ _ _ _ _ _) (Calm.pdOneshot _ _ _ _ _ _)
  | oneshotm l m => exact calm (NoFuel.pdOneshot _ _ _ _ _ _) (Calm.pdOneshot _ _ _ _ _ _)
  | «macro» m =>
    dsimp only
    split
    · exact calm (NoFuel.pdMacro _ _ _ _ _ _) (Calm.pdMacro _ _ _ _ _ _)
    · exact Mild.refl _ k
  | macro2 tm r m =>
    dsimp only
    split
    · exact calm (NoFuel.pdMacro _ _ _ _ _ _) (Calm.pdMacro _ _ _ _ _ _)
    · exact Mild.refl _ k
  | toggle l =>
    dsimp only
    split
    · exact calm (NoFuel.pdToggle _ _ _) (Calm.pdToggle _ _ _)
    · exact Mild.refl _ k
  | togglem l m =>
    dsimp only
    split
    · exact calm (NoFuel.pdToggle _ _ _) (Calm.pdToggle _ _ _)
    · exact Mild.refl _ k
  | timeout d1 tm d2 =>
    dsimp only
    split
    · unfold pdTimeout
      refine mild_pending _ _ rfl rfl ?_
      dsimp only
      rw [hk]
      have h1 := hc.nested (d := .timeout d1 tm d2) (j := d1) (by simp [nestedOf])
      have h2 := hc.nested (d := .timeout d1 tm d2) (j := d2) (by simp [nestedOf])
      omega
    · exact Mild.refl _ k
  | command cm =>
    dsimp only
    split
    · exact calm (NoFuel.pdCommand _ _) (Calm.pdCommand _ _)
    · exact Mild.refl _ k
  | swap l => exact (NoFuel.pdSwap _ _ _ _ _).sat (mild_swap _ _ _ _ _ _ _)
  | swapm l m => exact (NoFuel.pdSwap _ _ _ _ _).sat (mild_swap _ _ _ _ _ _ _)

theorem mild_descriptor {c : Config} (hc : NestWF c) : ∀ (n : Nat) (k : Kbd) (c' : Code) (d : Desc) (dl : Nat)
    (p : Bool) (t : Int), k.config = c → nestRank c d < n →
    Sat (processDescriptor n k c' d dl p t) (Mild c' (nestRank c d) k) RealErr
  | 0, _, _, _, _, _, _, _, hn => by omega
  | n+1, k, c', d, dl, p, t, hk, hn => by
    unfold processDescriptor
    have h0 : Mild c' (nestRank c d) k (pdMacroPrefix k d dl p) := .of_calm (.of_frame (Calm.pdMacroPrefix k d dl p))
    refine (mild_switch (r := n) c' (fun k d dl p t hk hd => mild_descriptor hc n k c' d dl p t hk hd) hc
      (h0.config.trans hk) d dl p t (by omega)).bind (fun k1 h1 => ?_)
    show Mild _ _ k _
    split
    · exact (h0.trans h1).setLast _
    · exact h0.trans h1

end Keyd
