import Verif.Proofs.Direct
import Verif.Props.Clear
import Verif.Spec.Holding

/-
  C06 (ignored events), C13 and C14 (one-shot layers), C15 (wakeup requests),
  C22 (macro repetition).
-/

set_option autoImplicit false

namespace Keyd

attribute [local irreducible] configInit

/-! ### C15 -/

theorem foldl_min (l : List Int) (hpos : ∀ t ∈ l, 0 < t) : ∀ acc : Int, 0 ≤ acc →
    let r := l.foldl (fun acc t => if acc = 0 ∨ t < acc then t else acc) acc
    (r = 0 ↔ acc = 0 ∧ l = []) ∧ (r ≠ 0 → (r = acc ∨ r ∈ l) ∧ (acc ≠ 0 → r ≤ acc) ∧ ∀ t ∈ l, r ≤ t) := by
  induction l with
  | nil => intro acc _; simp
  | cons x l ih =>
    intro acc hacc
    have hx := hpos x (by simp)
    have ih' := ih (fun t ht => hpos t (by simp [ht])) (if acc = 0 ∨ x < acc then x else acc) (by split <;> omega)
    dsimp only at ih' ⊢
    rw [List.foldl_cons]
    revert ih'
    generalize l.foldl (fun acc t => if acc = 0 ∨ t < acc then t else acc) (if acc = 0 ∨ x < acc then x else acc) = r
    rintro ⟨h1, h2⟩
    have hne : (if acc = 0 ∨ x < acc then x else acc) ≠ 0 := by split <;> omega
    have hr : r ≠ 0 := fun h => hne (h1.1 h).1
    obtain ⟨g1, g2, g3⟩ := h2 hr
    refine ⟨⟨fun h => absurd h hr, fun h => by simp at h⟩, fun _ => ⟨?_, ?_, ?_⟩⟩
    · rcases g1 with g1 | g1
      · split at g1
        · right; rw [g1]; simp
        · left; exact g1
      · right; simp [g1]
    · intro _
      have := g2 hne
      split at this <;> omega
    · intro t ht
      rcases List.mem_cons.1 ht with rfl | ht
      · have := g2 hne
        split at this <;> omega
      · exact g3 t ht

/-- What the engine promises when it returns wait `w` at time `now`: zero iff no
deadline is outstanding, otherwise exactly the time to the earliest one; all
outstanding deadlines lie in the future. -/
def ExactWait (deadlines : List Int) (now w : Int) : Prop :=
  (∀ d ∈ deadlines, now < d) ∧
  (w = 0 ↔ deadlines = []) ∧
  (w ≠ 0 → now + w ∈ deadlines ∧ ∀ d ∈ deadlines, now + w ≤ d)

theorem mainLoopTimeout_exact (k : Kbd) (time : Int) (h0 : 0 ≤ time) :
    ExactWait (calculateMainLoopTimeout k time).1.timeouts time (calculateMainLoopTimeout k time).2 ∧
    ∀ d ∈ k.timeouts, time < d → d ∈ (calculateMainLoopTimeout k time).1.timeouts := by
  have hfut : ∀ t ∈ k.timeouts.filter (fun t => t > time), time < t := by
    intro t ht; simpa using (List.mem_filter.1 ht).2
  have hm := foldl_min (k.timeouts.filter (fun t => t > time)) (fun t ht => by have := hfut t ht; omega) 0 (Int.le_refl _)
  unfold calculateMainLoopTimeout ExactWait
  dsimp only at hm ⊢
  revert hm hfut
  generalize hf : k.timeouts.filter (fun t => t > time) = l
  generalize l.foldl (fun acc t => if acc = 0 ∨ t < acc then t else acc) 0 = r
  intro hfut hm
  refine ⟨⟨hfut, ?_, ?_⟩, ?_⟩
  · by_cases hr : r = 0
    · simp [hr]
      exact (hm.1.1 hr).2
    · have := hm.2 hr
      have h1 : time < r := by
        rcases this.1 with h | h
        · exact absurd h hr
        · exact hfut r h
      rw [if_neg hr]
      refine ⟨fun h => by omega, fun h => ?_⟩
      exact absurd (hm.1.2 ⟨rfl, h⟩) hr
  · intro hw
    by_cases hr : r = 0
    · simp [hr] at hw
    · rw [if_neg hr]
      obtain ⟨h1, _, h3⟩ := hm.2 hr
      have e : time + (r - time) = r := by omega
      rw [e]
      refine ⟨?_, h3⟩
      rcases h1 with h | h
      · exact absurd h hr
      · exact h
  · intro d hd hlt
    rw [← hf, List.mem_filter]
    exact ⟨hd, by simpa using hlt⟩

/-- Whatever an event does, the new state and the wait come from the list of
deadlines outstanding at the end. -/
theorem processEvent_wait {n : Nat} {k : Kbd} {code : Code} {pressed : Bool} {time : Int} {r : Kbd × Int}
    (h : processEvent n k code pressed time = .ok r) : ∃ k1, r = calculateMainLoopTimeout k1 time := by
  cases n with
  | zero => cases h
  | succ n =>
    have h : processEventBody (processEvent n) k code pressed time = .ok r := h
    unfold processEventBody at h
    rw [bind_eq_ok] at h
    obtain ⟨⟨k1, b⟩, _, h⟩ := h
    rw [bind_eq_ok] at h
    obtain ⟨k2, _, h⟩ := h
    exact ⟨k2, by injection h with h; exact h.symm⟩

/-- C15. The wait returned after an event is exact. -/
theorem C15_wait_exact {n : Nat} {k k' : Kbd} {ev : KeyEvent} {w : Int} (h0 : 0 ≤ ev.ts)
    (h : kbdProcessEvents n k [ev] = .ok (k', w)) : ExactWait k'.timeouts ev.ts w := by
  rw [kbdProcessEvents_single] at h
  obtain ⟨k1, e⟩ := processEvent_wait h
  have := (mainLoopTimeout_exact k1 ev.ts h0).1
  rw [← e] at this
  exact this

/-! ### C06 -/

/-- The same state, except for the list of future deadlines, from which the expired ones
have been dropped, and the chord queue, which is rewritten by the next event. -/
def Unmoved (now : Int) (k k' : Kbd) : Prop :=
  k'.outputs = k.outputs ∧ k'.keystate = k.keystate ∧ k'.cache = k.cache ∧ k'.layerState = k.layerState ∧
  k'.config = k.config ∧ k'.pending = k.pending ∧ k'.activeChords = k.activeChords ∧ k'.clock = k.clock ∧
  k'.oneshotLatch = k.oneshotLatch ∧ k'.oneshotTimeout = k.oneshotTimeout ∧ k'.lastPressedCode = k.lastPressedCode ∧
  k'.lastPressedOutputCode = k.lastPressedOutputCode ∧ k'.activeMacro = k.activeMacro ∧
  k'.overloadStartTime = k.overloadStartTime ∧ k'.lastSimpleKeyTime = k.lastSimpleKeyTime ∧ k'.scroll = k.scroll ∧
  k'.chord.state = k.chord.state ∧ ∀ d, d ∈ k'.timeouts ↔ d ∈ k.timeouts ∧ now < d

/-- C06. The press of a key that is already down, or that comes when 16 keys are down,
and the release of a key that is not down, do nothing. -/
theorem C06_ignored {n : Nat} {k : Kbd} {ev : KeyEvent} (hq : Undisturbed k ev.code ev.ts)
    (h : (ev.pressed = true ∧ ((∃ e ∈ k.cache, e.code = ev.code) ∨ ∀ e ∈ k.cache, e.code ≠ 0)) ∨
         (ev.pressed = false ∧ ∀ e ∈ k.cache, e.code ≠ ev.code)) :
    ∃ k' w, kbdProcessEvents (n+1) k [ev] = .ok (k', w) ∧ Unmoved ev.ts k k' := by
  rw [kbdProcessEvents_single, processEvent_quiet hq]
  have key : ∃ st, stepKey (quietEntry k ev.code ev.pressed ev.ts) ev.code ev.pressed ev.ts =
      .ok ((quietEntry k ev.code ev.pressed ev.ts).log st) := by
    unfold stepKey
    rw [if_neg hq.key]
    have hg : cacheGet (quietEntry k ev.code ev.pressed ev.ts) ev.code = cacheGet k ev.code := rfl
    rw [hg]
    rcases h with ⟨hp, h⟩ | ⟨hp, h⟩
    · rw [if_pos hp]
      by_cases hs : (cacheGet k ev.code).isSome
      · rw [if_pos hs]
        exact ⟨_, rfl⟩
      · rw [if_neg hs]
        have hno : ∀ e ∈ k.cache, e.code ≠ ev.code := by
          intro e he hc
          apply hs
          unfold cacheGet
          rw [List.find?_isSome]
          exact ⟨e, he, by simpa using hc⟩
        have hfull : ∀ e ∈ k.cache, e.code ≠ 0 := by
          rcases h with ⟨e, he, hc⟩ | h
          · exact absurd hc (hno e he)
          · exact h
        have hslot : ∀ (l : List CacheEntry) (i : Nat), (∀ e ∈ l, e.code ≠ ev.code) → (∀ e ∈ l, e.code ≠ 0) →
            cacheSlot ev.code l i none = none := by
          intro l
          induction l with
          | nil => intros; rfl
          | cons e l ih =>
            intro i h1 h2
            unfold cacheSlot
            rw [if_neg (h1 e (by simp)), if_neg (h2 e (by simp))]
            exact ih _ (fun e he => h1 e (by simp [he])) (fun e he => h2 e (by simp [he]))
        have hset : ∀ ent, cacheSet (quietEntry k ev.code ev.pressed ev.ts) ev.code ent = none := by
          intro ent
          unfold cacheSet
          rw [show cacheSlot ev.code (quietEntry k ev.code ev.pressed ev.ts).cache 0 none = none from
            hslot k.cache 0 hno hfull]
        dsimp only
        rw [hset]
        exact ⟨_, rfl⟩
    · rw [if_neg (by simp [hp])]
      have : cacheGet k ev.code = none := by
        unfold cacheGet
        rw [List.find?_eq_none]
        intro e he
        simpa using h e he
      rw [this]
      exact ⟨_, rfl⟩
  obtain ⟨st, hst⟩ := key
  rw [hst, bind_ok]
  refine ⟨_, _, rfl, ?_⟩
  refine ⟨rfl, rfl, rfl, rfl, rfl, rfl, rfl, rfl, rfl, rfl, rfl, rfl, rfl, rfl, rfl, rfl, rfl, ?_⟩
  intro d
  dsimp only
  rw [List.mem_filter]
  simp [quietEntry, Kbd.log]

/-! ### C13 -/

/-- All one-shot activations of `k` have been taken back in `k'`. -/
structure OneshotsSpent (k k' : Kbd) : Prop where
  depth : ∀ i < k.config.layers.length, (k'.layerState i).oneshotDepth = 0
  active : ∀ i < k.config.layers.length,
    (k'.layerState i).active = (k.layerState i).active - (k.layerState i).oneshotDepth
  latch : k'.oneshotLatch = false
  deadline : k'.oneshotTimeout = 0

theorem spent_of_clear {k k' : Kbd} (h : clearOneshot k = .ok k') : OneshotsSpent k k' := by
  obtain ⟨ls, os, rfl, _, _, g⟩ := clearOneshot_spec h
  refine ⟨?_, ?_, rfl, rfl⟩ <;> (intro i hi; simp [g i, hi])

theorem OneshotsSpent.frame {k k1 k2 k' : Kbd} (h : OneshotsSpent k1 k2) (h1 : k1.layerState = k.layerState)
    (h2 : k1.config = k.config) (h3 : k'.layerState = k2.layerState) (h4 : k'.oneshotLatch = k2.oneshotLatch)
    (h5 : k'.oneshotTimeout = k2.oneshotTimeout) : OneshotsSpent k k' :=
  ⟨by rw [← h2, h3]; exact h.depth, by rw [← h2, ← h1, h3]; exact h.active, by rw [h4]; exact h.latch,
    by rw [h5]; exact h.deadline⟩

/-- The key binding, macro and command actions. -/
def Desc.emits : Desc → Bool
  | .keyseq _ _ => true
  | .macro _ => true
  | .macro2 _ _ _ => true
  | .command _ => true
  | _ => false

theorem scheduleTimeout_ok {k k' : Kbd} {t : Int} (h : scheduleTimeout k t = .ok k') :
    k' = { k with timeouts := k.timeouts ++ [t] } := by
  unfold scheduleTimeout at h
  split at h
  · injection h with h; exact h.symm
  · cases h

theorem emits_spends {n : Nat} {k k' : Kbd} {code : Code} {d : Desc} {dl : Nat} {t : Int} (hd : d.emits = true)
    (h : processDescriptor n k code d dl true t = .ok k') : OneshotsSpent k k' := by
  cases n with
  | zero => cases h
  | succ n =>
    unfold processDescriptor at h
    simp only [if_true] at h
    rw [bind_eq_ok] at h
    obtain ⟨k1, h1, h2⟩ := h
    injection h2 with h2
    subst h2
    suffices OneshotsSpent k k1 from this.frame rfl rfl rfl rfl rfl
    have mac : ∀ (m : Nat) (tm iv : Int), pdMacro k m tm iv dl t = .ok k1 → OneshotsSpent k k1 := by
      intro m tm iv h
      unfold pdMacro at h
      dsimp only at h
      rw [bind_eq_ok] at h
      obtain ⟨k2, h2, h3⟩ := h
      have := spent_of_clear h2
      rw [scheduleTimeout_ok h3]
      have hf := KeyFrame.executeMacro k2 dl (k2.config.mac m)
      exact this.frame rfl rfl hf.layerState hf.oneshotLatch hf.oneshotTimeout
    cases d with
    | keyseq c m =>
      have h1 : pdKeyseq k c m dl true t = .ok k1 := h1
      unfold pdKeyseq at h1
      simp only [if_true] at h1
      rw [bind_eq_ok] at h1
      obtain ⟨k2, h2, h3⟩ := h1
      injection h3 with h3
      have hs := spent_of_clear h2
      have hf : KeyFrame k (sendKey (updateMods (if k.keystate c = true then sendKey k c false else k) (some dl) m) c true) := by
        refine KeyFrame.trans (KeyFrame.trans ?_ (KeyFrame.updateMods _ _ _)) (KeyFrame.send _ _ _)
        split
        · exact KeyFrame.send _ _ _
        · exact KeyFrame.refl _
      subst h3
      split
      · exact hs.frame hf.layerState hf.config rfl rfl rfl
      · exact hs.frame hf.layerState hf.config rfl rfl rfl
    | «macro» m => exact mac _ _ _ h1
    | macro2 a b m => exact mac _ _ _ h1
    | command c =>
      have h1 : pdCommand k c = .ok k1 := h1
      unfold pdCommand at h1
      dsimp only at h1
      rw [bind_eq_ok] at h1
      obtain ⟨k2, h2, h3⟩ := h1
      injection h3 with h3
      subst h3
      have hs := spent_of_clear h2
      have hf := KeyFrame.updateMods k2 none 0
      exact hs.frame rfl rfl hf.layerState hf.oneshotLatch hf.oneshotTimeout
    | _ => cases hd

/-- C13. The press of a key bound (with the one-shot layers active) to a key, macro or
command takes back all one-shot activations. -/
theorem C13_next_key_spends {n : Nat} {k k' : Kbd} {ev : KeyEvent} {w : Int} (hq : Undisturbed k ev.code ev.ts)
    (hp : ev.pressed = true) (hf : Fresh k ev.code) (hd : (lookupDescriptor k ev.code).1.emits = true)
    (h : kbdProcessEvents (n+1) k [ev] = .ok (k', w)) : OneshotsSpent k k' := by
  rw [kbdProcessEvents_single, hp, processEvent_press hq hf, bind_eq_ok] at h
  obtain ⟨k1, h1, h2⟩ := h
  have hs := emits_spends hd h1
  injection h2 with h2
  have e : k' = (calculateMainLoopTimeout k1 ev.ts).1 := by rw [h2]
  rw [e]
  exact hs.frame rfl rfl rfl rfl rfl

/-- Actions that leave one-shot activations alone when their key goes down. -/
def Desc.sparing : Desc → Bool
  | .none => true
  | .layer _ => true
  | .layerm _ _ => true
  | .overload _ _ => true
  | .oneshot _ => true
  | .oneshotm _ _ => true
  | .scroll _ => true
  | .scrollToggle _ => true
  | .overloadTimeout _ _ _ => true
  | .overloadTimeoutTap _ _ _ => true
  | .timeout _ _ _ => true
  | _ => false

/-- One-shot activations are still there, and no layer has lost an activation. -/
structure OneshotsKept (k k' : Kbd) : Prop where
  depth : ∀ i, (k'.layerState i).oneshotDepth = (k.layerState i).oneshotDepth
  active : ∀ i, (k.layerState i).active ≤ (k'.layerState i).active
  deadline : k'.oneshotTimeout = k.oneshotTimeout

theorem OneshotsKept.trans {a b c : Kbd} (h : OneshotsKept a b) (h' : OneshotsKept b c) : OneshotsKept a c :=
  ⟨fun i => (h'.depth i).trans (h.depth i), fun i => Nat.le_trans (h.active i) (h'.active i), h'.deadline.trans h.deadline⟩

theorem OneshotsKept.of_layers {k k' : Kbd} (h1 : k'.layerState = k.layerState) (h2 : k'.oneshotTimeout = k.oneshotTimeout) :
    OneshotsKept k k' := ⟨fun i => by rw [h1], fun i => by rw [h1]; exact Nat.le_refl _, h2⟩

theorem OneshotsKept.keyFrame {k k' : Kbd} (h : KeyFrame k k') : OneshotsKept k k' := .of_layers h.layerState h.oneshotTimeout

theorem OneshotsKept.activate {k k' : Kbd} {code : Code} {l : Nat} (h : activateLayer k code l = .ok k') : OneshotsKept k k' := by
  obtain ⟨c', rfl⟩ := activateLayer_ok h
  refine ⟨fun i => ?_, fun i => ?_, rfl⟩
  · by_cases hi : i = l
    · subst hi; simp
    · simp [upd_other _ _ hi]
  · by_cases hi : i = l
    · subst hi; simp
    · simp [upd_other _ _ hi]

theorem pdLayer_kept {k k' : Kbd} {code : Code} {l : Nat} (h : pdLayer k code l true = .ok k') : OneshotsKept k k' := by
  unfold pdLayer at h
  simp only [if_true] at h
  rw [bind_eq_ok] at h
  obtain ⟨k1, h1, h2⟩ := h
  refine (OneshotsKept.activate h1).trans ?_
  split at h2
  · injection h2 with h2
    subst h2
    have := OneshotsKept.keyFrame (KeyFrame.updateMods { k1 with inhibitModifierGuard := true } none 0)
    exact ⟨this.depth, this.active, this.deadline⟩
  · injection h2 with h2
    subst h2
    exact .keyFrame (.updateMods _ _ _)

theorem pdOneshot_kept {k k' : Kbd} {code : Code} {l dl : Nat} {t : Int} (h : pdOneshot k code l dl true t = .ok k') :
    OneshotsKept k k' := by
  unfold pdOneshot at h
  simp only [if_true] at h
  rw [bind_eq_ok] at h
  obtain ⟨k1, h1, h2⟩ := h
  injection h2 with h2
  subst h2
  have := (OneshotsKept.activate h1).trans (.keyFrame (.updateMods k1 (some dl) 0))
  exact ⟨this.depth, this.active, this.deadline⟩

theorem sparing_keeps {n : Nat} {k k' : Kbd} {code : Code} {d : Desc} {dl : Nat} {t : Int} (hd : d.sparing = true)
    (h : processDescriptor n k code d dl true t = .ok k') : OneshotsKept k k' := by
  cases n with
  | zero => cases h
  | succ n =>
    unfold processDescriptor at h
    simp only [if_true] at h
    rw [bind_eq_ok] at h
    obtain ⟨k1, h1, h2⟩ := h
    injection h2 with h2
    subst h2
    suffices h : OneshotsKept k k1 from ⟨h.depth, h.active, h.deadline⟩
    have hpre : OneshotsKept k (pdMacroPrefix k d dl true) := .keyFrame (Calm.pdMacroPrefix k d dl true)
    cases d with
    | none => injection h1 with h1; subst h1; exact hpre
    | layer l => exact pdLayer_kept h1
    | layerm l m => exact hpre.trans (pdLayer_kept h1)
    | oneshot l => exact pdOneshot_kept h1
    | oneshotm l m => exact hpre.trans (pdOneshot_kept h1)
    | scroll s => injection h1 with h1; subst h1; exact .of_layers rfl rfl
    | scrollToggle s => injection h1 with h1; subst h1; exact .of_layers rfl rfl
    | overload l a =>
      have h1 : pdOverloadPress k code l t = .ok k1 := h1
      unfold pdOverloadPress at h1
      dsimp only at h1
      rw [bind_eq_ok] at h1
      obtain ⟨k2, h2, h3⟩ := h1
      injection h3 with h3
      subst h3
      have := (OneshotsKept.activate h2).trans (.keyFrame (.updateMods k2 none 0))
      exact ⟨this.depth, this.active, this.deadline⟩
    | overloadTimeout l a tm => have := scheduleTimeout_ok h1; subst this; exact .of_layers rfl rfl
    | overloadTimeoutTap l a tm => have := scheduleTimeout_ok h1; subst this; exact .of_layers rfl rfl
    | timeout a tm b => have := scheduleTimeout_ok h1; subst this; exact .of_layers rfl rfl
    | _ => cases hd

/-- C13. Until then it stays: pressing keys bound to other layers, one-shots, or
undecided actions leaves the one-shot activations in place. -/
theorem C13_stays_on_press {n : Nat} {k k' : Kbd} {ev : KeyEvent} {w : Int} (hq : Undisturbed k ev.code ev.ts)
    (hp : ev.pressed = true) (hf : Fresh k ev.code) (hd : (lookupDescriptor k ev.code).1.sparing = true)
    (h : kbdProcessEvents (n+1) k [ev] = .ok (k', w)) : OneshotsKept k k' := by
  rw [kbdProcessEvents_single, hp, processEvent_press hq hf, bind_eq_ok] at h
  obtain ⟨k1, h1, h2⟩ := h
  have hs := sparing_keeps hd h1
  injection h2 with h2
  have e : k' = (calculateMainLoopTimeout k1 ev.ts).1 := by rw [h2]
  rw [e]
  exact ⟨hs.depth, hs.active, hs.deadline⟩

/-- The exact effect of releasing a key bound to `d` on layers and one-shots: the
layer the key held loses an activation, except that a key bound to a one-shot layer
turns its activation into a one-shot one when no key has been typed meanwhile. -/
structure HeldLayerLeft (d : Desc) (latched : Bool) (k k' : Kbd) : Prop where
  active : ∀ i, ((k'.layerState i).active : Int) =
    (k.layerState i).active - (if d.holds = some i ∧ latched = false then 1 else 0)
  depth : ∀ i, (k'.layerState i).oneshotDepth =
    (k.layerState i).oneshotDepth + (if d.holds = some i ∧ latched = true then 1 else 0)

theorem HeldLayerLeft.of_layers {d : Desc} {b : Bool} {k k' : Kbd} (h1 : k'.layerState = k.layerState)
    (h : d.holds = none) : HeldLayerLeft d b k k' := by
  refine ⟨fun i => ?_, fun i => ?_⟩ <;> simp [h1, h]

theorem HeldLayerLeft.frame {d : Desc} {b : Bool} {k k1 k' : Kbd} (h : HeldLayerLeft d b k k1)
    (h1 : k'.layerState = k1.layerState) : HeldLayerLeft d b k k' :=
  ⟨fun i => by rw [h1]; exact h.active i, fun i => by rw [h1]; exact h.depth i⟩

theorem HeldLayerLeft.deactivate {d : Desc} {l : Nat} {k k' : Kbd} (hd : d.holds = some l)
    (h : deactivateLayer k l = .ok k') : HeldLayerLeft d false k k' := by
  obtain ⟨hpos, rfl⟩ := deactivateLayer_ok.1 h
  refine ⟨fun i => ?_, fun i => ?_⟩
  · by_cases hi : i = l
    · subst hi; simp [Kbd.emit, Kbd.modLayer, hd]; omega
    · simp [Kbd.emit, Kbd.modLayer, hd, upd_other _ _ hi, Ne.symm hi]
  · by_cases hi : i = l
    · subst hi; simp [Kbd.emit, Kbd.modLayer]
    · simp [Kbd.emit, Kbd.modLayer, upd_other _ _ hi]

/-- Is the key's layer turned into a one-shot on release? -/
def latchedBy (k : Kbd) : Desc → Bool
  | .oneshot _ => k.oneshotLatch
  | .oneshotm _ _ => k.oneshotLatch
  | _ => false

theorem pdLayer_left {d : Desc} {k k' : Kbd} {code : Code} {l : Nat} (hd : d.holds = some l)
    (h : pdLayer k code l false = .ok k') : HeldLayerLeft d false k k' := by
  unfold pdLayer at h
  simp only [Bool.false_eq_true, if_false] at h
  rw [bind_eq_ok] at h
  obtain ⟨k1, h1, h2⟩ := h
  have := HeldLayerLeft.deactivate hd h1
  split at h2
  · injection h2 with h2
    subst h2
    exact this.frame (KeyFrame.updateMods { k1 with inhibitModifierGuard := true } none 0).layerState
  · injection h2 with h2
    subst h2
    exact this.frame (KeyFrame.updateMods _ _ _).layerState

theorem pdOneshot_left {d : Desc} {k k' : Kbd} {code : Code} {l dl : Nat} {t : Int} (hd : d.holds = some l)
    (h : pdOneshot k code l dl false t = .ok k') : HeldLayerLeft d k.oneshotLatch k k' := by
  unfold pdOneshot at h
  simp only [Bool.false_eq_true, if_false] at h
  split at h
  · rename_i hl
    split at h
    · cases h
    · have key : HeldLayerLeft d true k (k.modLayer l fun s => { s with oneshotDepth := s.oneshotDepth + 1 }) := by
        refine ⟨fun i => ?_, fun i => ?_⟩
        · by_cases hi : i = l
          · subst hi; simp [Kbd.modLayer]
          · simp [Kbd.modLayer, upd_other _ _ hi]
        · by_cases hi : i = l
          · subst hi; simp [Kbd.modLayer, hd]
          · simp [Kbd.modLayer, upd_other _ _ hi, hd, Ne.symm hi]
      rw [hl]
      split at h
      · have := scheduleTimeout_ok h
        subst this
        exact key.frame rfl
      · injection h with h
        subst h
        exact key
  · rename_i hl
    rw [bind_eq_ok] at h
    obtain ⟨k1, h1, h2⟩ := h
    injection h2 with h2
    subst h2
    rw [show k.oneshotLatch = false by simpa using hl]
    exact (HeldLayerLeft.deactivate hd h1).frame (KeyFrame.updateMods _ _ _).layerState

theorem release_left {n : Nat} {k k' : Kbd} {code : Code} {d : Desc} {dl : Nat} {t : Int}
    (hd : ∀ l a, d ≠ .overload l a) (h : processDescriptor n k code d dl false t = .ok k') :
    HeldLayerLeft d (latchedBy k d) k k' := by
  cases n with
  | zero => cases h
  | succ n =>
    unfold processDescriptor at h
    simp only [Bool.false_eq_true, if_false] at h
    rw [bind_eq_ok] at h
    obtain ⟨k1, h1, h2⟩ := h
    injection h2 with h2
    subst h2
    have h1 : pdSwitch (processDescriptor n) k code d dl false t = .ok k1 := h1
    unfold pdSwitch at h1
    simp only [Bool.false_eq_true, if_false] at h1
    have same : ∀ {d : Desc} {b : Bool}, d.holds = none → (Except.ok k : Res Kbd) = .ok k1 → HeldLayerLeft d b k k1 := by
      intro d b hn e
      injection e with e
      subst e
      exact .of_layers rfl hn
    cases d with
    | keyseq c m =>
      have h1 : pdKeyseq k c m dl false t = .ok k1 := h1
      unfold pdKeyseq at h1
      simp only [Bool.false_eq_true, if_false, bind_ok] at h1
      injection h1 with h1
      have hf := (KeyFrame.send k c false).trans (KeyFrame.updateMods _ none 0)
      subst h1
      split
      · exact .of_layers hf.layerState rfl
      · exact .of_layers hf.layerState rfl
    | scroll s => injection h1 with h1; subst h1; exact .of_layers rfl rfl
    | scrollToggle s => injection h1 with h1; subst h1; exact .of_layers rfl rfl
    | layer l => exact pdLayer_left rfl h1
    | layerm l m => exact pdLayer_left rfl h1
    | oneshot l => exact pdOneshot_left rfl h1
    | oneshotm l m => exact pdOneshot_left rfl h1
    | overload l a => exact absurd rfl (hd l a)
    | swap l =>
      simp only [pdSwap, Bool.false_eq_true, if_false] at h1
      exact same rfl h1
    | swapm l m =>
      simp only [pdSwap, Bool.false_eq_true, if_false] at h1
      injection h1 with h1
      subst h1
      have hsend : ∀ e : MacroEntry, (if e.type = .keysequence then updateMods (sendKey k e.code false) none 0 else k).layerState
          = k.layerState := by
        intro e
        split
        · exact ((KeyFrame.send k _ false).trans (KeyFrame.updateMods _ none 0)).layerState
        · rfl
      refine .of_layers ?_ rfl
      split
      · rename_i e he; exact hsend e
      · rfl
    | _ => exact same rfl h1

/-- C13. Releasing keys leaves one-shot activations in place: only the layer the
released key itself held is left, and a one-shot key released before any key was typed
leaves its layer active as a one-shot. (For `overload` keys see C16.) -/
theorem C13_stays_on_release {n : Nat} {k k' : Kbd} {ev : KeyEvent} {w : Int} {ce : CacheEntry}
    (hq : Undisturbed k ev.code ev.ts) (hp : ev.pressed = false) (hc : cacheGet k ev.code = some ce)
    (hd : ∀ l a, ce.d ≠ .overload l a) (h : kbdProcessEvents (n+1) k [ev] = .ok (k', w)) :
    HeldLayerLeft ce.d (latchedBy k ce.d) k k' := by
  rw [kbdProcessEvents_single, hp] at h
  obtain ⟨c', e⟩ := processEvent_release hq hc n
  rw [e, bind_eq_ok] at h
  obtain ⟨k1, h1, h2⟩ := h
  have := release_left hd h1
  injection h2 with h2
  have e : k' = (calculateMainLoopTimeout k1 ev.ts).1 := by rw [h2]
  rw [e]
  have hl : latchedBy { quietEntry k ev.code false ev.ts with
      cache := c'
      steps := .key ev.code false ev.ts (some (ce.d, ce.dl)) :: .passed ⟨ev.code, false, ev.ts⟩ :: k.steps } ce.d
      = latchedBy k ce.d := by cases ce.d <;> rfl
  rw [hl] at this
  exact ⟨this.active, this.depth⟩

/-- What the cache says about a key after actions that keep the held bindings. -/
theorem cacheGet_strip {k k' : Kbd} (h : k'.cache.map CacheEntry.strip = k.cache.map CacheEntry.strip)
    {code : Code} {ce : CacheEntry} (hc : cacheGet k code = some ce) :
    ∃ ce', cacheGet k' code = some ce' ∧ ce'.d = ce.d ∧ ce'.dl = ce.dl := by
  have key : ∀ (l l' : List CacheEntry), l'.map CacheEntry.strip = l.map CacheEntry.strip →
      l.find? (fun e => e.code = code) = some ce →
      ∃ ce', l'.find? (fun e => e.code = code) = some ce' ∧ ce'.d = ce.d ∧ ce'.dl = ce.dl := by
    intro l
    induction l with
    | nil => intro l' _ h; cases h
    | cons e l ih =>
      intro l' h1 h2
      cases l' with
      | nil => simp at h1
      | cons e' l' =>
        simp only [List.map_cons, List.cons.injEq] at h1
        obtain ⟨h1, h3⟩ := h1
        have hcode : e'.code = e.code := by have := congrArg CacheEntry.code h1; exact this
        have hdd : e'.d = e.d := by have := congrArg CacheEntry.d h1; exact this
        have hdl : e'.dl = e.dl := by have := congrArg CacheEntry.dl h1; exact this
        rw [List.find?_cons] at h2
        rw [List.find?_cons, hcode]
        split at h2
        · cases h2; exact ⟨e', rfl, hdd, hdl⟩
        · exact ih l' h3 h2
  exact key _ _ h hc

theorem cacheGet_calm {k k' : Kbd} (h : Calm k k') {code : Code} {ce : CacheEntry} (hc : cacheGet k code = some ce) :
    ∃ ce', cacheGet k' code = some ce' ∧ ce'.d = ce.d ∧ ce'.dl = ce.dl := cacheGet_strip h.cache hc

theorem cacheGet_pressEntry {k : Kbd} {code : Code} {d : Desc} {dl : Nat} {t : Int} (hf : Fresh k code) :
    cacheGet (pressEntry k code d dl t) code = some { code := code, d := d, dl := dl, layer := 0 } := by
  obtain ⟨s, hs⟩ := cacheSlot_some (code := code) k.cache 0 none hf.2
  have hlt : s < k.cache.length := by
    have : ∀ (l : List CacheEntry) (i : Nat) (acc : Option Nat), (∀ a, acc = some a → a < i + l.length) →
        cacheSlot code l i acc = some s → s < i + l.length := by
      intro l
      induction l with
      | nil => intro i acc h1 h2; exact h1 s h2
      | cons e l ih =>
        intro i acc h1 h2
        unfold cacheSlot at h2
        split at h2
        · cases h2; simp
        · have := ih (i+1) _ (by
            intro a ha
            split at ha
            · cases ha; omega
            · have := h1 a ha; simp at this; omega) h2
          simp; omega
    have := this k.cache 0 none (by simp) hs
    omega
  unfold cacheGet pressEntry
  rw [hs]
  simp only [Option.getD_some]
  have hno : ∀ e ∈ k.cache, e.code ≠ code := by
    intro e he hc
    have h1 := hf.1
    unfold cacheGet at h1
    rw [List.find?_eq_none] at h1
    exact h1 e he (by simpa using hc)
  have key : ∀ (l : List CacheEntry) (s : Nat), s < l.length → (∀ e ∈ l, e.code ≠ code) →
      (l.set s { code := code, d := d, dl := dl, layer := 0 }).find? (fun e => e.code = code) =
        some { code := code, d := d, dl := dl, layer := 0 } := by
    intro l
    induction l with
    | nil => intro s h; simp at h
    | cons e l ih =>
      intro s h1 h2
      cases s with
      | zero => simp
      | succ s =>
        rw [List.set_cons_succ, List.find?_cons, show decide (e.code = code) = false by simpa using h2 e (by simp)]
        exact ih s (by simpa using h1) (fun e he => h2 e (by simp [he]))
  exact key _ _ hlt hno

/-- C13. Tapping a key bound to a one-shot layer leaves the layer active, with one more
activation, accounted for as a one-shot. -/
theorem C13_tap {n m : Nat} {k k1 k2 : Kbd} {code : Code} {t1 t2 w1 w2 : Int} {l dl : Nat}
    (hq : Undisturbed k code t1) (hf : Fresh k code) (hd : lookupDescriptor k code = (.oneshot l, dl))
    (h1 : kbdProcessEvents (n+1) k [⟨code, true, t1⟩] = .ok (k1, w1)) (hq1 : Undisturbed k1 code t2)
    (h2 : kbdProcessEvents (m+1) k1 [⟨code, false, t2⟩] = .ok (k2, w2)) :
    (k2.layerState l).active = (k.layerState l).active + 1 ∧
    (k2.layerState l).oneshotDepth = (k.layerState l).oneshotDepth + 1 ∧
    (k.config.oneshotTimeout ≠ 0 → k2.oneshotTimeout = t2 + k.config.oneshotTimeout ∧
      (0 < k.config.oneshotTimeout → 0 ≤ t2 → 0 < w2 ∧ w2 ≤ k.config.oneshotTimeout)) := by
  rw [kbdProcessEvents_single] at h1
  simp only at h1
  rw [processEvent_press hq hf, hd, bind_eq_ok] at h1
  obtain ⟨k3, h3, h4⟩ := h1
  injection h4 with h4
  have e1 : k1 = (calculateMainLoopTimeout k3 t1).1 := by rw [h4]
  have hget := cacheGet_pressEntry (d := .oneshot l) (dl := dl) (t := t1) hf
  have hbud : ∃ b, descBudget k = b + 1 := ⟨_, rfl⟩
  obtain ⟨b, hb⟩ := hbud
  rw [hb] at h3
  unfold processDescriptor at h3
  simp only [if_true] at h3
  rw [bind_eq_ok] at h3
  obtain ⟨k4, h5, h6⟩ := h3
  injection h6 with h6
  have h5 : pdOneshot (pressEntry k code (.oneshot l) dl t1) code l dl true t1 = .ok k4 := h5
  have hcalm := (Calm.pdOneshot (pressEntry k code (.oneshot l) dl t1) code l dl true t1).of_ok h5
  obtain ⟨ce, hce, hcd, hcdl⟩ := cacheGet_calm hcalm hget
  unfold pdOneshot at h5
  simp only [if_true] at h5
  rw [bind_eq_ok] at h5
  obtain ⟨k5, h7, h8⟩ := h5
  injection h8 with h8
  obtain ⟨c5, h9⟩ := activateLayer_ok h7
  have hfr := KeyFrame.updateMods k5 (some dl) 0
  have hce1 : cacheGet k1 code = some ce := by rw [e1, ← h6]; exact hce
  have hlatch : k1.oneshotLatch = true := by rw [e1, ← h6, ← h8]; rfl
  have hls : k1.layerState = upd k.layerState l { k.layerState l with active := (k.layerState l).active + 1, activationTime := k.clock } := by
    rw [e1, ← h6, ← h8]
    show (updateMods k5 (some dl) 0).layerState = _
    rw [hfr.layerState, h9]
    rfl
  have hcfg : k1.config = k.config := by
    rw [e1, ← h6, ← h8]
    show (updateMods k5 (some dl) 0).config = _
    rw [hfr.config, h9]
    rfl
  have hleft := C13_stays_on_release (ev := ⟨code, false, t2⟩) hq1 rfl hce1 (by rw [hcd]; intro _ _ h; cases h) h2
  have hl : latchedBy k1 ce.d = true := by rw [hcd]; exact hlatch
  rw [hl] at hleft
  refine ⟨?_, ?_, ?_⟩
  · have := hleft.active l
    rw [hcd] at this
    simp [Desc.holds] at this
    rw [hls] at this; simp at this; omega
  · have := hleft.depth l
    rw [hcd] at this
    simp [Desc.holds] at this
    rw [this, hls]; simp
  · intro hne
    have h2' := h2
    rw [kbdProcessEvents_single] at h2
    simp only at h2
    obtain ⟨c', e⟩ := processEvent_release hq1 hce1 m
    rw [e, hcd] at h2
    rw [show descBudget k1 = (k1.config.descriptors.length + 1) + 1 from rfl] at h2
    unfold processDescriptor at h2
    simp only [Bool.false_eq_true, if_false] at h2
    rw [bind_eq_ok] at h2
    obtain ⟨k6, h2, h10⟩ := h2
    injection h10 with h10
    rw [bind_eq_ok] at h2
    obtain ⟨k7, h11, h12⟩ := h2
    injection h12 with h12
    have h11 : pdOneshot _ code l ce.dl false t2 = .ok k7 := h11
    unfold pdOneshot at h11
    simp only [Bool.false_eq_true, if_false] at h11
    rw [if_pos (by exact hlatch)] at h11
    split at h11
    · cases h11
    · rw [if_pos (by simp only [Kbd.modLayer, quietEntry]; rw [hcfg]; exact hne)] at h11
      have h13 := scheduleTimeout_ok h11
      have e2 : k2 = (calculateMainLoopTimeout k6 t2).1 := by rw [h10]
      have hot : k2.oneshotTimeout = t2 + k.config.oneshotTimeout := by
        rw [e2, ← h12, h13]
        show t2 + k1.config.oneshotTimeout = _
        rw [hcfg]
      refine ⟨hot, fun hpos h0 => ?_⟩
      have hx := C15_wait_exact (ev := ⟨code, false, t2⟩) h0 h2'
      have hmem : t2 + k.config.oneshotTimeout ∈ k2.timeouts := by
        have := (mainLoopTimeout_exact k6 t2 h0).2 (t2 + k.config.oneshotTimeout) (by
          rw [← h12, h13]
          show _ ∈ _ ++ [t2 + k1.config.oneshotTimeout]
          rw [hcfg]; simp) (by omega)
        rw [e2]; exact this
      have hw : w2 ≠ 0 := by
        intro h
        rw [hx.2.1] at h
        rw [h] at hmem; cases hmem
      obtain ⟨g1, g2⟩ := hx.2.2 hw
      have := hx.1 _ g1
      have := g2 _ hmem
      simp only at *
      omega

end Keyd
