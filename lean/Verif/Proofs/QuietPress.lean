import Verif.Proofs.Quiet
import Verif.Proofs.Frames

/-
  Presses and releases of keys nothing else is concerned with.
-/

set_option autoImplicit false

namespace Keyd

/-- The key is up as far as the engine knows, and fewer than 16 keys are down. -/
def Fresh (k : Kbd) (code : Code) : Prop := cacheGet k code = none ∧ ∃ e ∈ k.cache, e.code = 0

theorem cacheSlot_some_of_acc {code : Code} : ∀ (l : List CacheEntry) (i : Nat) (a : Nat),
    ∃ s, cacheSlot code l i (some a) = some s
  | [], _, a => ⟨a, rfl⟩
  | e :: l, i, a => by
    unfold cacheSlot
    split
    · exact ⟨_, rfl⟩
    · split
      · exact cacheSlot_some_of_acc l (i+1) i
      · exact cacheSlot_some_of_acc l (i+1) a

theorem cacheSlot_some {code : Code} : ∀ (l : List CacheEntry) (i : Nat) (acc : Option Nat),
    (∃ e ∈ l, e.code = 0) → ∃ s, cacheSlot code l i acc = some s
  | [], _, _, h => by obtain ⟨_, h, _⟩ := h; cases h
  | e :: l, i, acc, h => by
    unfold cacheSlot
    split
    · exact ⟨_, rfl⟩
    · split
      · exact cacheSlot_some_of_acc l (i+1) i
      · rename_i h1 h2
        obtain ⟨x, hx, h0⟩ := h
        rcases List.mem_cons.1 hx with rfl | hx
        · exact absurd h0 h2
        · exact cacheSlot_some l (i+1) acc ⟨x, hx, h0⟩

/-- The state in which the action of a pressed key is processed: the binding is
remembered for the release. -/
def pressEntry (k : Kbd) (code : Code) (d : Desc) (dl : Nat) (time : Int) : Kbd :=
  { quietEntry k code true time with
    cache := k.cache.set ((cacheSlot code k.cache 0 none).getD 0) { code := code, d := d, dl := dl, layer := 0 }
    steps := .key code true time (some (d, dl)) :: .passed ⟨code, true, time⟩ :: k.steps }

/-- The press of a key that is up, when nothing else is concerned, processes the
binding found by `lookup_descriptor`. -/
theorem processEvent_press {k : Kbd} {code : Code} {time : Int} (hq : Undisturbed k code time) (hf : Fresh k code) (n : Nat) :
    processEvent (n+1) k code true time = (do
      let k' ← processDescriptor (descBudget k)
        (pressEntry k code (lookupDescriptor k code).1 (lookupDescriptor k code).2 time)
        code (lookupDescriptor k code).1 (lookupDescriptor k code).2 true time
      .ok (calculateMainLoopTimeout k' time)) := by
  rw [processEvent_quiet hq]
  congr 1
  unfold stepKey
  rw [if_neg hq.key]
  have h1 : cacheGet (quietEntry k code true time) code = none := hf.1
  have hl : lookupDescriptor (quietEntry k code true time) code = lookupDescriptor k code := rfl
  simp only [h1, hl, if_true, Option.isSome_none, Bool.false_eq_true, if_false]
  obtain ⟨s, hs⟩ := cacheSlot_some (code := code) k.cache 0 none hf.2
  unfold cacheSet pressEntry
  have : cacheSlot code (quietEntry k code true time).cache 0 none = some s := hs
  rw [this, hs]
  rfl

/-- The release of a key that is down processes the binding remembered when it
was pressed. -/
theorem processEvent_release {k : Kbd} {code : Code} {time : Int} {ce : CacheEntry} (hq : Undisturbed k code time)
    (hc : cacheGet k code = some ce) (n : Nat) :
    ∃ cache', processEvent (n+1) k code false time = (do
      let k' ← processDescriptor (descBudget k)
        { quietEntry k code false time with
          cache := cache'
          steps := .key code false time (some (ce.d, ce.dl)) :: .passed ⟨code, false, time⟩ :: k.steps }
        code ce.d ce.dl false time
      .ok (calculateMainLoopTimeout k' time)) := by
  cases hs : cacheSlot code k.cache 0 none with
  | none =>
    refine ⟨k.cache, ?_⟩
    rw [processEvent_quiet hq]
    congr 1
    unfold stepKey
    rw [if_neg hq.key]
    have h1 : cacheGet (quietEntry k code false time) code = some ce := hc
    have h2 : cacheSlot code (quietEntry k code false time).cache 0 none = none := hs
    unfold cacheSet
    simp only [h1, h2, Bool.false_eq_true, if_false, Option.getD_none]
    rfl
  | some s =>
    refine ⟨k.cache.modify s fun e => { e with code := 0 }, ?_⟩
    rw [processEvent_quiet hq]
    congr 1
    unfold stepKey
    rw [if_neg hq.key]
    have h1 : cacheGet (quietEntry k code false time) code = some ce := hc
    have h2 : cacheSlot code (quietEntry k code false time).cache 0 none = some s := hs
    unfold cacheSet
    simp only [h1, h2, Bool.false_eq_true, if_false, Option.getD_some]
    rfl

/-- A computable version of `Undisturbed`, for the examples. -/
def quietCheck (k : Kbd) (code : Code) (time : Int) : Bool :=
  decide (code ≠ 0) && decide (k.pending.code = 0) && decide (k.activeMacro = none) &&
  decide (k.oneshotTimeout = 0 ∨ time < k.oneshotTimeout) && decide (k.chord.state = .inactive) &&
  k.activeChords.all (fun ac => !ac.active || !ac.chord.keys.contains code) &&
  (List.range k.config.layers.length).all (fun i => !k.isActive i ||
    (k.config.layer i).chords.all (fun ch => !ch.keys.contains code))

theorem quiet_of_check {k : Kbd} {code : Code} {time : Int} (h : quietCheck k code time = true) : Undisturbed k code time := by
  unfold quietCheck at h
  simp only [Bool.and_eq_true, decide_eq_true_eq, List.all_eq_true, Bool.or_eq_true, Bool.not_eq_true',
    List.mem_range] at h
  obtain ⟨⟨⟨⟨⟨⟨h1, h2⟩, h3⟩, h4⟩, h5⟩, h6⟩, h7⟩ := h
  refine ⟨h1, h2, h3, h4, h5, ?_, ?_⟩
  · intro ac ha hact
    rcases h6 ac ha with e | e
    · rw [e] at hact; cases hact
    · simpa using e
  · intro i hi hact ch hch
    rcases h7 i hi with e | e
    · rw [e] at hact; cases hact
    · simpa using e ch hch

def freshCheck (k : Kbd) (code : Code) : Bool := (cacheGet k code).isNone && k.cache.any (fun e => decide (e.code = 0))

theorem fresh_of_check {k : Kbd} {code : Code} (h : freshCheck k code = true) : Fresh k code := by
  unfold freshCheck at h
  simp only [Bool.and_eq_true, List.any_eq_true, decide_eq_true_eq, Option.isNone_iff_eq_none] at h
  exact h

end Keyd
