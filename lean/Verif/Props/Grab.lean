import Verif.Model.Grab

/-
  C80: taking over a device.
-/

set_option autoImplicit false

namespace Keyd

/-- A schedule: the states passed through and the steps between them, newest first; each event of the user with where `device_grab` was. -/
inductive GrabRun : List (GrabPc × KernelKey) → Grabbing → Prop
  | start : GrabRun [] {}
  | user {evs : List (GrabPc × KernelKey)} {g g' : Grabbing} {e : KernelKey} (h : GrabRun evs g) (s : GrabStep g (some e) g') :
    GrabRun (evs ++ [(g.pc, e)]) g'
  | own {evs : List (GrabPc × KernelKey)} {g g' : Grabbing} (h : GrabRun evs g) (s : GrabStep g none g') : GrabRun evs g'

/-- Which keys are down for someone who has been given these events. -/
def downAfter : List KernelKey → Nat → Bool
  | [], _ => false
  | evs@(e :: es), c => (evs.reverse.find? (fun e => e.1 = c)).elim false (fun e => e.2)

theorem downAfter_eq (evs : List KernelKey) (c : Nat) : downAfter evs c = (evs.reverse.find? (fun e => e.1 = c)).elim false (fun e => e.2) := by
  cases evs <;> rfl

theorem downAfter_snoc (evs : List KernelKey) (e : KernelKey) (c : Nat) :
    downAfter (evs ++ [e]) c = if c = e.1 then e.2 else downAfter evs c := by
  rw [downAfter_eq, downAfter_eq, List.reverse_append, List.reverse_singleton, List.singleton_append, List.find?_cons]
  by_cases h : c = e.1
  · rw [if_pos h]
    simp [h]
  · rw [if_neg h]
    have : (decide (e.1 = c)) = false := by simp [Ne.symm h]
    rw [this]

/-- The events of a schedule that happened while the device was not grabbed, and since. -/
def beforeGrab (evs : List (GrabPc × KernelKey)) : List KernelKey := (evs.filter (fun e => e.1 = .polling ∨ e.1 = .settled)).map Prod.snd
def sinceGrab (evs : List (GrabPc × KernelKey)) : List KernelKey := (evs.filter (fun e => ¬ (e.1 = .polling ∨ e.1 = .settled))).map Prod.snd

theorem keysDown_zero {down : Nat → Bool} (h : keysDown down = 0) (c : Nat) (hc : c < KEY_MAX) : down c = false := by
  have h1 := List.eq_nil_of_length_eq_zero h
  cases hd : down c with
  | false => rfl
  | true =>
    have : c ∈ (List.range KEY_MAX).filter down := List.mem_filter.2 ⟨List.mem_range.2 hc, hd⟩
    rw [h1] at this
    cases this

structure GrabInv (evs : List (GrabPc × KernelKey)) (g : Grabbing) : Prop where
  host : g.host = beforeGrab evs
  /-- what keyd was and is given -/
  read : g.dropped ++ g.queue = evs.map Prod.snd
  /-- the device's keys -/
  down : ∀ c, g.down c = downAfter (evs.map Prod.snd) c
  /-- nothing is thrown away before the grab -/
  kept : g.pc = .polling ∨ g.pc = .settled → g.dropped = [] ∧ sinceGrab evs = []
  /-- the events in order: those before the grab come first -/
  order : evs.map Prod.snd = beforeGrab evs ++ sinceGrab evs
  /-- once it has returned, all that the host got has been thrown away -/
  gone : g.pc = .done → beforeGrab evs <+: g.dropped
  /-- no key is down at the host from the moment the loop ends, if none is pressed between its end and the grab -/
  clean : g.pc ≠ .polling → (∀ e ∈ evs, e.1 = .settled → e.2.2 = false) → ∀ c, c < KEY_MAX → downAfter (beforeGrab evs) c = false

theorem beforeGrab_snoc (evs : List (GrabPc × KernelKey)) (pc : GrabPc) (e : KernelKey) :
    beforeGrab (evs ++ [(pc, e)]) = if pc = .polling ∨ pc = .settled then beforeGrab evs ++ [e] else beforeGrab evs := by
  unfold beforeGrab
  rw [List.filter_append, List.map_append]
  cases pc <;> simp

theorem sinceGrab_snoc (evs : List (GrabPc × KernelKey)) (pc : GrabPc) (e : KernelKey) :
    sinceGrab (evs ++ [(pc, e)]) = if pc = .polling ∨ pc = .settled then sinceGrab evs else sinceGrab evs ++ [e] := by
  unfold sinceGrab
  rw [List.filter_append, List.map_append]
  cases pc <;> simp

theorem grabInv {evs : List (GrabPc × KernelKey)} {g : Grabbing} (run : GrabRun evs g) : GrabInv evs g := by
  induction run with
  | start => exact ⟨rfl, rfl, fun _ => rfl, fun _ => ⟨rfl, rfl⟩, rfl, fun h => (by cases h), fun h => absurd rfl h⟩
  | @user evs g g' e h s ih =>
    cases s with
    | user code pressed hne =>
    have hout : (g.pc = .polling ∨ g.pc = .settled) ∨ (g.pc = .draining ∨ g.pc = .done) := by cases g.pc <;> simp
    refine ⟨?_, ?_, ?_, ?_, ?_, ?_, ?_⟩
    · show (if g.grabbed then g.host else g.host ++ [(code, pressed)]) = _
      rw [beforeGrab_snoc, ← ih.host]
      unfold Grabbing.grabbed
      cases g.pc <;> simp
    · show g.dropped ++ (g.queue ++ [(code, pressed)]) = _
      rw [← List.append_assoc, ih.read, List.map_append]
      rfl
    · intro c
      show (if c = code then pressed else g.down c) = _
      rw [List.map_append, List.map_singleton, downAfter_snoc, ih.down c]
    · intro hpc
      rw [sinceGrab_snoc, if_pos hpc]
      exact ih.kept hpc
    · rw [List.map_append, ih.order, beforeGrab_snoc, sinceGrab_snoc, List.map_singleton]
      by_cases hpc : g.pc = .polling ∨ g.pc = .settled
      · rw [if_pos hpc, if_pos hpc, (ih.kept hpc).2]
        simp
      · rw [if_neg hpc, if_neg hpc, List.append_assoc]
    · intro hpc
      have hpc : g.pc = .done := hpc
      rw [beforeGrab_snoc, if_neg (by rw [hpc]; decide)]
      exact ih.gone hpc
    · intro hpc hs c hc
      have hpc : g.pc ≠ .polling := hpc
      have h0 := ih.clean hpc (fun e he => hs e (List.mem_append_left _ he)) c hc
      rw [beforeGrab_snoc]
      by_cases h1 : g.pc = .polling ∨ g.pc = .settled
      · have h2 := hs (g.pc, (code, pressed)) (by simp) (h1.resolve_left hpc)
        rw [if_pos h1, downAfter_snoc, h0]
        split
        · exact h2
        · rfl
      · rw [if_neg h1]; exact h0
  | @own evs g g' h s ih =>
    cases s with
    | poll hp =>
      refine ⟨ih.host, ih.read, ih.down, fun _ => ih.kept (.inl hp), ih.order, ?_, ?_⟩
      · intro hpc
        dsimp only at hpc
        split at hpc <;> cases hpc
      · intro hpc _ c hc
        dsimp only at hpc
        split at hpc
        · rename_i hz
          have h1 := ih.down c
          rw [keysDown_zero hz c hc, ih.order, (ih.kept (.inl hp)).2, List.append_nil] at h1
          exact h1.symm
        · exact absurd rfl hpc
    | grab hp =>
      refine ⟨ih.host, ih.read, ih.down, fun h => ?_, ih.order, fun h => (by cases h), fun _ => ih.clean (by rw [hp]; decide)⟩
      rcases h with h | h <;> cases h
    | read e q hp hq =>
      refine ⟨ih.host, ?_, ih.down, fun h => ?_, ih.order, fun h => ?_, ih.clean⟩
      · have := ih.read
        rw [hq] at this
        rw [← this]
        simp
      · have h : g.pc = .polling ∨ g.pc = .settled := h
        rw [hp] at h
        rcases h with h | h <;> cases h
      · have h : g.pc = .done := h
        rw [hp] at h
        cases h
    | done hp hq =>
      refine ⟨ih.host, ih.read, ih.down, fun h => ?_, ih.order, fun _ => ?_, fun _ => ih.clean (by rw [hp]; decide)⟩
      · rcases h with h | h <;> cases h
      · have h1 := ih.read
        rw [hq, List.append_nil, ih.order] at h1
        show beforeGrab evs <+: g.dropped
        rw [h1]
        exact List.prefix_append _ _

attribute [local irreducible] keysDown in
/-- C80. As long as a key is down, the device is not taken over: the host goes on getting its events. -/
theorem C80_waits {g g' : Grabbing} {code : Nat} (hp : g.pc = .polling) (hd : g.down code = true) (hc : code < KEY_MAX) {e : Option KernelKey} (s : GrabStep g e g') :
    g'.pc = .polling ∧ ∀ k, e = some k → g'.host = g.host ++ [k] := by
  cases s with
  | user c pressed h =>
    refine ⟨hp, fun k hk => ?_⟩
    injection hk with hk
    subst hk
    show (if g.grabbed then g.host else _) = _
    rw [if_neg (by unfold Grabbing.grabbed; rw [hp]; decide)]
  | poll _ =>
    refine ⟨?_, fun k hk => by cases hk⟩
    have hn : keysDown g.down ≠ 0 := fun h => by rw [keysDown_zero h code hc] at hd; cases hd
    exact if_neg hn
  | grab h => rw [hp] at h; cases h
  | read _ _ h => rw [hp] at h; cases h
  | done h => rw [hp] at h; cases h

/-- C80. Once the device is taken over, no key of it is down for the host, provided none is pressed between the last check and the grab. -/
theorem C80_no_stuck_keys {evs : List (GrabPc × KernelKey)} {g : Grabbing} (run : GrabRun evs g) (hg : g.grabbed = true)
    (hs : ∀ e ∈ evs, e.1 = .settled → e.2.2 = false) : ∀ c, c < KEY_MAX → downAfter g.host c = false := by
  have hi := grabInv run
  rw [hi.host]
  refine hi.clean (fun h => ?_) hs
  unfold Grabbing.grabbed at hg
  rw [h] at hg
  exact absurd hg (by decide)

/-- C80. In any schedule: when `device_grab` has returned, what is left for keyd to read is a final part of the events, all of them later than those the host
was given; so no event is both passed on by the kernel and processed by keyd. -/
theorem C80_nothing_twice {evs : List (GrabPc × KernelKey)} {g : Grabbing} (run : GrabRun evs g) (hd : g.pc = .done) :
    ∃ lost, evs.map Prod.snd = g.host ++ lost ++ g.queue := by
  have hi := grabInv run
  obtain ⟨lost, hl⟩ := hi.gone hd
  exact ⟨lost, by rw [← hi.read, ← hl, hi.host]⟩

/-- C80. Nothing the user does once `device_grab` has returned is lost. -/
theorem C80_nothing_lost {g g' : Grabbing} {e : Option KernelKey} (hd : g.pc = .done) (s : GrabStep g e g') :
    g'.pc = .done ∧ g'.host = g.host ∧ ∃ k, e = some k ∧ g'.queue = g.queue ++ [k] := by
  cases s with
  | user c pressed h =>
    refine ⟨hd, ?_, _, rfl, rfl⟩
    show (if g.grabbed then g.host else _) = _
    rw [if_pos (by unfold Grabbing.grabbed; rw [hd]; decide)]
  | poll h => rw [hd] at h; cases h
  | grab h => rw [hd] at h; cases h
  | read _ _ h => rw [hd] at h; cases h
  | done h => rw [hd] at h; cases h

theorem keysDown_none : keysDown (fun _ => false) = 0 := by
  unfold keysDown
  rw [List.filter_eq_nil_iff.2 (fun _ _ => by simp)]
  rfl

/-- C80 fails if a key is pressed between the check and the grab: it stays down for the host, and keyd does not see it. -/
theorem C80_fails_race : ∃ evs g, GrabRun evs g ∧ g.pc = .done ∧ downAfter g.host 30 = true ∧ g.queue = [(30, false)] := by
  have r1 : GrabRun [] _ := .own .start (.poll {} rfl)
  have e1 : (if keysDown (fun _ => false) = 0 then GrabPc.settled else .polling) = .settled := if_pos keysDown_none
  have r1 : GrabRun [] { pc := .settled } := by
    rw [← e1]; exact r1
  have r2 := r1.user (.user _ 30 true (by decide))
  have r3 := r2.own (.grab _ rfl)
  have r4 := r3.own (.read _ (30, true) [] rfl rfl)
  have r5 := r4.own (.done _ rfl rfl)
  have r6 := r5.user (.user _ 30 false (by decide))
  exact ⟨_, _, r6, rfl, rfl, rfl⟩

/-- C80. A key held while the device is found, released, and pressed again once it has been taken over. -/
theorem C80_example : ∃ evs g, GrabRun evs g ∧ g.pc = .done ∧ g.host = [(30, true), (30, false)] ∧ g.queue = [(30, true)] ∧
    (∀ e ∈ evs, e.1 = .settled → e.2.2 = false) := by
  have r0 := GrabRun.start.user (.user _ 30 true (by decide))
  have r1 := r0.own (.poll _ rfl)
  have d1 : keysDown (fun c => if c = 30 then true else false) ≠ 0 := by
    intro h
    exact absurd (keysDown_zero h 30 (by decide)) (by decide)
  have e1 : (if keysDown (fun c => if c = 30 then true else false) = 0 then GrabPc.settled else .polling) = .polling := if_neg d1
  dsimp only at r1
  rw [e1] at r1
  have r2 := r1.user (.user _ 30 false (by decide))
  have r3 := r2.own (.poll _ rfl)
  have e2 : (fun c => if c = 30 then false else (if c = 30 then true else false)) = (fun _ : Nat => false) := by
    funext c; split <;> rfl
  dsimp only at r3
  rw [e2, if_pos keysDown_none] at r3
  have r4 := r3.own (.grab _ rfl)
  have r5 := r4.own (.read _ (30, true) [(30, false)] rfl rfl)
  have r6 := r5.own (.read _ (30, false) [] rfl rfl)
  have r7 := r6.own (.done _ rfl rfl)
  have r8 := r7.user (.user _ 30 true (by decide))
  refine ⟨_, _, r8, rfl, rfl, rfl, ?_⟩
  decide

end Keyd
