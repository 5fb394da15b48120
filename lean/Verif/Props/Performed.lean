import Verif.Proofs.Performed
import Verif.Props.Idle

/-
  C59: commands are run exactly when a key is pressed whose action runs them.
  C60: scroll emulation is what the keys bound to `scroll` and `scrollt` say.
-/

set_option autoImplicit false

namespace Keyd

attribute [local irreducible] configInit

/-- C59. Whatever events are handled, in whatever state: the commands run meanwhile are those of the
actions performed by the steps logged, each once, in order. -/
theorem C59_commands {k k' : Kbd} {n : Nat} {evs : List KeyEvent} {w : Int}
    (run : kbdProcessEvents n k evs = .ok (k', w)) :
    ∃ new as, k'.steps = new ++ k.steps ∧ LogPerforms k.config k.memo new as k'.memo ∧
      k'.commandsRun = k.commandsRun ++ as.filterMap (commandOf k.config) := by
  obtain ⟨new, as, h1, h2, h3⟩ := (kbdProcessEvents_sat (since_engineInv k) n k evs (.refl k)).of_ok run
  refine ⟨new, as, h1, h2, ?_⟩
  unfold Kbd.commandsRun Kbd.outputs
  rw [List.filterMap_reverse, List.filterMap_reverse, h3.ran, List.reverse_append, List.reverse_reverse]

/-- The actions of a key press or release run at most one command between them; a release runs none,
except for the tap of an `overload` key. -/
theorem performs_one {c : Config} {code : Code} {t : Int} {m m' : Memo} {d : Desc} {p : Bool} {as : List Act}
    (h : Performs c code t m d p as m') :
    (as.filterMap (commandOf c)).length ≤ 1 ∧
    ((∀ i, d ≠ .command i) → (∀ a b t, d ≠ .overloadIdle a b t) → p = true → as.filterMap (commandOf c) = []) ∧
    ((∀ l a, d ≠ .overload l a) → p = false → as.filterMap (commandOf c) = []) := by
  induction h with
  | @itself m d p h _ =>
    cases d <;> cases p <;> first
      | exact ⟨Nat.zero_le _, fun _ _ _ => rfl, fun _ _ => rfl⟩
      | exact ⟨Nat.le_refl _, fun h => absurd rfl (h _), fun _ h => (by cases h)⟩
  | @idle m m' a b t as h ih => exact ⟨ih.1, fun _ h => absurd rfl (h a b t), fun _ h => (by cases h)⟩
  | hold _ => exact ⟨Nat.zero_le _, fun _ _ _ => rfl, fun _ _ => rfl⟩
  | tapMacro _ _ => exact ⟨Nat.zero_le _, fun _ _ _ => rfl, fun _ _ => rfl⟩
  | @tap m m1 m2 l a as bs _ _ h1 h2 ih1 ih2 =>
    refine ⟨?_, fun _ _ h => (by cases h), fun h => absurd rfl (h l a)⟩
    rw [List.cons_append, List.filterMap_cons_none (by rfl), List.filterMap_append, List.length_append]
    have l1 := ih1.1
    have l2 := ih2.1
    by_cases hd : (∀ i, c.desc a ≠ .command i) ∧ ∀ x y t, c.desc a ≠ .overloadIdle x y t
    · rw [ih1.2.1 hd.1 hd.2 rfl]
      simpa using l2
    · rw [ih2.2.2 (fun l' a' e => hd ⟨fun i => (by rw [e]; simp), fun x y t => (by rw [e]; simp)⟩) rfl]
      simpa using l1

theorem step_one {c : Config} {s : Step} {m m' : Memo} {as : List Act} (h : s.performs c m as m') :
    (as.filterMap (commandOf c)).length ≤ 1 := by
  unfold Step.performs at h
  split at h
  · exact (performs_one h).1
  · exact (performs_one h).1
  · obtain ⟨rfl, _⟩ := h; simp

/-- C59 and C60, determined. The log leaves no choice: the actions performed, and with them the commands run and scroll
emulation, follow from the steps logged. -/
theorem C59_determined {c : Config} {m0 : Memo} {log : List Step} {as bs : List Act} {m m' : Memo} (h : LogPerforms c m0 log as m)
    (h' : LogPerforms c m0 log bs m') : as = bs ∧ m = m' := logPerforms_unique h h'

/-- C59, once. Each key event that reaches a key's action, and each decision of a waiting key, runs at
most one command: a command is not repeated while its key is held, nor run again by timers. -/
theorem C59_once {k k' : Kbd} {n : Nat} {evs : List KeyEvent} {w : Int}
    (run : kbdProcessEvents n k evs = .ok (k', w)) :
    ∃ new xs, k'.steps = new ++ k.steps ∧ k'.commandsRun = k.commandsRun ++ xs ∧
      xs.length ≤ (new.filter Step.acts).length := by
  obtain ⟨new, as, h1, h2, h3⟩ := C59_commands run
  refine ⟨new, _, h1, h3, ?_⟩
  clear h1 h3
  generalize k'.memo = m' at h2
  induction h2 with
  | nil => simp
  | @step s log as bs m m' h hs ih =>
    rw [List.filterMap_append, List.length_append, List.filter_cons]
    have h1 := step_one hs
    by_cases hn : s.acts = true
    · rw [if_pos hn, List.length_cons]; omega
    · rw [if_neg hn]
      have : bs = [] := by
        unfold Step.performs at hs
        split at hs
        · exact absurd rfl hn
        · exact absurd rfl hn
        · exact hs.1
      subst this
      simpa using ih

/-- C59, a command key. Pressing a key bound to `command(<string>)` runs the string, once; releasing it
runs nothing. -/
theorem C59_press {k k' : Kbd} {code : Code} {i dl : Nat} (hc : code ≠ 0) (hd : Direct k code) (hf : Fresh k code)
    (fuel : Nat) (t w : Int)
    (hl : lookupDescriptor { k with layerState := afterExpiry k t } code = (.command i, dl))
    (run : kbdProcessEvents (fuel + 1) k [⟨code, true, t⟩] = .ok (k', w)) :
    k'.commandsRun = k.commandsRun ++ [k.config.commands.getD i []] := by
  obtain ⟨new, as, h1, h2, h3⟩ := C59_commands run
  obtain ⟨d, dl', k2, k3, hl', ha, hp, hr⟩ := direct_press hd hc hf run
  rw [hl] at hl'
  injection hl' with e1 e2
  subst e1 e2
  have hk' : k' = (calculateMainLoopTimeout _ t).1 := congrArg Prod.fst hr
  have hst : k'.steps = [.key code true t (some (.command i, dl)), .passed ⟨code, true, t⟩] ++ k.steps := by
    rw [hk']
    exact ((struck_descriptor _ _ _ _ _ _ _).of_ok hp).1.trans ha.steps
  rw [h1] at hst
  have hnew := List.append_cancel_right hst
  subst hnew
  rw [h3]
  congr 1
  generalize k'.memo = m' at h2
  cases h2 with
  | step h hs =>
    cases h with
    | step h hs' =>
      cases h
      obtain ⟨rfl, rfl⟩ := hs'
      cases hs
      rfl

theorem C59_release {k k' : Kbd} {code : Code} {ce : CacheEntry} (hc : code ≠ 0) (hd : Direct k code)
    (hce : cacheGet k code = some ce) (hno : ∀ l a, ce.d ≠ .overload l a) (fuel : Nat) (t w : Int)
    (run : kbdProcessEvents (fuel + 1) k [⟨code, false, t⟩] = .ok (k', w)) :
    k'.commandsRun = k.commandsRun := by
  obtain ⟨new, as, h1, h2, h3⟩ := C59_commands run
  obtain ⟨k2, k3, ha, hp, hr⟩ := direct_release hd hc hce run
  have hk' : k' = (calculateMainLoopTimeout _ t).1 := congrArg Prod.fst hr
  have hst : k'.steps = [.key code false t (some (ce.d, ce.dl)), .passed ⟨code, false, t⟩] ++ k.steps := by
    rw [hk']
    exact ((struck_descriptor _ _ _ _ _ _ _).of_ok hp).1.trans ha.steps
  rw [h1] at hst
  have hnew := List.append_cancel_right hst
  subst hnew
  rw [h3]
  generalize k'.memo = m' at h2
  cases h2 with
  | step h hs =>
    cases h with
    | step h hs' =>
      cases h
      obtain ⟨rfl, rfl⟩ := hs'
      rw [List.append_nil, List.nil_append, (performs_one hs).2.2 hno rfl, List.append_nil]

/-- C60. Whatever events are handled, in whatever state: scroll emulation is what the performed actions
make of it. -/
theorem C60_scroll {k k' : Kbd} {n : Nat} {evs : List KeyEvent} {w : Int}
    (run : kbdProcessEvents n k evs = .ok (k', w)) :
    ∃ new as, k'.steps = new ++ k.steps ∧ LogPerforms k.config k.memo new as k'.memo ∧ k'.scroll = as.foldl scrollOf k.scroll := by
  obtain ⟨new, as, h1, h2, h3⟩ := (kbdProcessEvents_sat (since_engineInv k) n k evs (.refl k)).of_ok run
  exact ⟨new, as, h1, h2, h3.scroll⟩

/-- C60, left alone. Scroll emulation changes only by keys bound to `scroll` or `scrollt`: if no action
performed is one of these, it is as before. -/
theorem C60_only {k k' : Kbd} {n : Nat} {evs : List KeyEvent} {w : Int}
    (run : kbdProcessEvents n k evs = .ok (k', w)) :
    k'.scroll = k.scroll ∨ ∃ new as s p, k'.steps = new ++ k.steps ∧ LogPerforms k.config k.memo new as k'.memo ∧
      ((.scroll s, p) ∈ as ∨ (.scrollToggle s, p) ∈ as) := by
  obtain ⟨new, as, h1, h2, h3⟩ := C60_scroll run
  by_cases h : ∃ s p, (Desc.scroll s, p) ∈ as ∨ (Desc.scrollToggle s, p) ∈ as
  · obtain ⟨s, p, h⟩ := h
    exact .inr ⟨new, as, s, p, h1, h2, h⟩
  · left
    rw [h3]
    clear h1 h2 h3
    induction as with
    | nil => rfl
    | cons a as ih =>
      rw [List.foldl_cons]
      obtain ⟨d, p⟩ := a
      have hd : scrollOf k.scroll (d, p) = k.scroll := by
        cases d <;> first | rfl | skip
        · exact absurd ⟨_, _, .inr List.mem_cons_self⟩ h
        · exact absurd ⟨_, _, .inl List.mem_cons_self⟩ h
      rw [hd]
      exact ih (fun ⟨s, p, h'⟩ => h ⟨s, p, h'.imp (List.mem_cons_of_mem _) (List.mem_cons_of_mem _)⟩)

/-- C60, the keys. Pressing or releasing a key performs its action on scroll emulation: `scroll(n)`
turns it on with sensitivity `n` when pressed and off when released, `scrollt(n)` flips it when
pressed. -/
theorem C60_press {k k' : Kbd} {code : Code} {d : Desc} {dl : Nat} (hc : code ≠ 0) (hd : Direct k code) (hf : Fresh k code)
    (fuel : Nat) (t w : Int)
    (hl : lookupDescriptor { k with layerState := afterExpiry k t } code = (d, dl))
    (run : kbdProcessEvents (fuel + 1) k [⟨code, true, t⟩] = .ok (k', w)) :
    (∀ s, d = .scroll s → k'.scroll = { k.scroll with sensitivity := s, active := true }) ∧
    (∀ s, d = .scrollToggle s → k'.scroll = { k.scroll with sensitivity := s, active := !k.scroll.active }) := by
  obtain ⟨d', dl', k2, k3, hl', ha, hp, hr⟩ := direct_press hd hc hf run
  rw [hl] at hl'
  injection hl' with e1 e2
  subst e1 e2
  obtain ⟨new, as, h1, h2, h3⟩ := C60_scroll run
  have hk' : k' = (calculateMainLoopTimeout _ t).1 := congrArg Prod.fst hr
  have hst : k'.steps = [.key code true t (some (d, dl)), .passed ⟨code, true, t⟩] ++ k.steps := by
    rw [hk']
    exact ((struck_descriptor _ _ _ _ _ _ _).of_ok hp).1.trans ha.steps
  rw [h1] at hst
  have hnew := List.append_cancel_right hst
  subst hnew
  rw [h3]
  generalize k'.memo = m' at h2
  cases h2 with
  | step h hs =>
    cases h with
    | step h hs' =>
      cases h
      obtain ⟨rfl, rfl⟩ := hs'
      constructor
      · intro s e
        subst e
        cases hs
        rfl
      · intro s e
        subst e
        cases hs
        rfl

theorem C60_release {k k' : Kbd} {code : Code} {ce : CacheEntry} (hc : code ≠ 0) (hd : Direct k code)
    (hce : cacheGet k code = some ce) (fuel : Nat) (t w : Int)
    (run : kbdProcessEvents (fuel + 1) k [⟨code, false, t⟩] = .ok (k', w)) :
    (∀ s, ce.d = .scroll s → k'.scroll = { k.scroll with sensitivity := s, active := false }) ∧
    (∀ s, ce.d = .scrollToggle s → k'.scroll = { k.scroll with sensitivity := s }) := by
  obtain ⟨k2, k3, ha, hp, hr⟩ := direct_release hd hc hce run
  obtain ⟨new, as, h1, h2, h3⟩ := C60_scroll run
  have hk' : k' = (calculateMainLoopTimeout _ t).1 := congrArg Prod.fst hr
  have hst : k'.steps = [.key code false t (some (ce.d, ce.dl)), .passed ⟨code, false, t⟩] ++ k.steps := by
    rw [hk']
    exact ((struck_descriptor _ _ _ _ _ _ _).of_ok hp).1.trans ha.steps
  rw [h1] at hst
  have hnew := List.append_cancel_right hst
  subst hnew
  rw [h3]
  generalize k'.memo = m' at h2
  cases h2 with
  | step h hs =>
    cases h with
    | step h hs' =>
      cases h
      obtain ⟨rfl, rfl⟩ := hs'
      have hs : Performs k.config code t _ ce.d false _ _ := hs
      constructor
      · intro s e
        rw [e] at hs
        cases hs
        rfl
      · intro s e
        rw [e] at hs
        cases hs
        rfl

/-! Concrete cases. -/

def performText : Str :=
  b!"[main]\na = command(ls)\nb = overload(nav, command(pwd))\nc = scroll(30)\nd = scrollt(20)\ne = overloadi(command(id), f, 0)\n[nav]\nx = y\n"

/-- A command key held for a second, then a tapped `overload` key: each command once. -/
theorem C59_witness_run : runText performText [press 30 1000, wakeup 1500, release 30 2000, press 48 3000, release 48 3010]
    = some [.command b!"ls", .layer 6 true, .layer 6 false, .command b!"pwd"] := by
  set_option maxRecDepth 100000 in decide +kernel

theorem performWitness : checkRun performText [press 30 1000, press 46 1010] (fun _ => true)
    (fun k => directCheck k 32 && freshCheck k 32 && directCheck k 30 && directCheck k 46 && decide (k.oneshotTimeout = 0) &&
      decide (lookupDescriptor k 32 = (.scrollToggle 20, 0)) && decide ((cacheGet k 30).map (·.d) = some (.command 0)) &&
      decide ((cacheGet k 46).map (·.d) = some (.scroll 30)) && decide (k.scroll.active = true)) = true := by
  set_option maxRecDepth 100000 in decide +kernel

theorem performWitness' : checkRun performText [press 48 1010] (fun _ => true)
    (fun k => directCheck k 30 && freshCheck k 30 && directCheck k 46 && freshCheck k 46 && decide (k.oneshotTimeout = 0) &&
      decide (lookupDescriptor k 30 = (.command 0, 0)) && decide (lookupDescriptor k 46 = (.scroll 30, 0)) &&
      decide (k.config.commands.getD 0 [] = b!"ls")) = true := by
  set_option maxRecDepth 100000 in decide +kernel

/-- The hypotheses of `C59_press` and `C60_press` are met … -/
theorem C59_witness : ∃ k, Reach (fun _ => True) k ∧ Direct k 30 ∧ Fresh k 30 ∧ Direct k 46 ∧ Fresh k 46 ∧
    (∀ t, lookupDescriptor { k with layerState := afterExpiry k t } 30 = (.command 0, 0)) ∧
    (∀ t, lookupDescriptor { k with layerState := afterExpiry k t } 46 = (.scroll 30, 0)) ∧
    k.config.commands.getD 0 [] = b!"ls" := by
  obtain ⟨k, h1, h2⟩ := checkRun_reach (cfg := fun _ => True) performWitness' (fun _ _ => trivial)
  simp only [Bool.and_eq_true, decide_eq_true_eq] at h2
  obtain ⟨⟨⟨⟨⟨⟨⟨a1, a2⟩, a3⟩, a4⟩, a5⟩, a6⟩, a7⟩, a8⟩ := h2
  have he : ∀ t, afterExpiry k t = k.layerState := by
    intro t
    unfold afterExpiry
    rw [if_neg (fun h => h.1 a5)]
  refine ⟨k, h1, direct_of_check a1, fresh_of_check a2, direct_of_check a3, fresh_of_check a4, ?_, ?_, a8⟩
  · intro t; rw [he]; exact a6
  · intro t; rw [he]; exact a7

/-- … and those of the release theorems. -/
theorem C60_witness : ∃ k, Reach (fun _ => True) k ∧ Direct k 32 ∧ Fresh k 32 ∧ Direct k 30 ∧ Direct k 46 ∧
    (∀ t, lookupDescriptor { k with layerState := afterExpiry k t } 32 = (.scrollToggle 20, 0)) ∧
    (cacheGet k 30).map (·.d) = some (.command 0) ∧ (cacheGet k 46).map (·.d) = some (.scroll 30) ∧ k.scroll.active = true := by
  obtain ⟨k, h1, h2⟩ := checkRun_reach (cfg := fun _ => True) performWitness (fun _ _ => trivial)
  simp only [Bool.and_eq_true, decide_eq_true_eq] at h2
  obtain ⟨⟨⟨⟨⟨⟨⟨⟨a1, a2⟩, a3⟩, a4⟩, a5⟩, a6⟩, a7⟩, a8⟩, a9⟩ := h2
  have he : ∀ t, afterExpiry k t = k.layerState := by
    intro t
    unfold afterExpiry
    rw [if_neg (fun h => h.1 a5)]
  refine ⟨k, h1, direct_of_check a1, fresh_of_check a2, direct_of_check a3, direct_of_check a4, ?_, a7, a8, a9⟩
  intro t; rw [he]; exact a6

end Keyd
