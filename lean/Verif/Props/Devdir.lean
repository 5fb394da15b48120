import Verif.Model.Devdir

/-
  C95: no device is missed, whenever it is plugged in.
-/

set_option autoImplicit false

namespace Keyd

theorem openNode_same (good : Nat → Bool) (s : DirSys) (name : Str) :
    (openNode good s name).nodes = s.nodes ∧ (openNode good s name).fresh = s.fresh ∧ (openNode good s name).stage = s.stage ∧ (openNode good s name).queue = s.queue ∧
    (openNode good s name).atStart = s.atStart ∧ (openNode good s name).listed = s.listed ∧ (openNode good s name).workers = s.workers := by
  unfold openNode
  split
  · split
    · split <;> exact ⟨rfl, rfl, rfl, rfl, rfl, rfl, rfl⟩
    · exact ⟨rfl, rfl, rfl, rfl, rfl, rfl, rfl⟩
  · exact ⟨rfl, rfl, rfl, rfl, rfl, rfl, rfl⟩

theorem openNode_keeps (good : Nat → Bool) (s : DirSys) (name : Str) {i : Nat} (h : i ∈ s.opened) : i ∈ (openNode good s name).opened := by
  unfold openNode
  split
  · split
    · split
      · exact List.mem_append_left _ h
      · exact h
    · exact h
  · exact h

theorem find_name {nodes : List (Str × Nat)} (hn : (nodes.map Prod.fst).Nodup) {p : Str × Nat} (hp : p ∈ nodes) : nodes.find? (fun q => q.1 = p.1) = some p := by
  induction nodes with
  | nil => cases hp
  | cons q qs ih =>
    rw [List.map_cons, List.nodup_cons] at hn
    rw [List.find?_cons]
    rcases List.mem_cons.1 hp with rfl | hp
    · simp
    · have : q.1 ≠ p.1 := fun e => hn.1 (by rw [e]; exact List.mem_map_of_mem hp)
      simp only [this, decide_false]
      exact ih hn.2 hp

theorem openNode_opens {good : Nat → Bool} {s : DirSys} (hn : (s.nodes.map Prod.fst).Nodup) {p : Str × Nat} (hp : p ∈ s.nodes) (he : eventName p.1 = true) (hg : good p.2 = true) :
    p.2 ∈ (openNode good s p.1).opened := by
  unfold openNode
  rw [if_pos he, find_name hn hp]
  dsimp only
  rw [if_pos hg]
  exact List.mem_append_right _ List.mem_cons_self

/-- What holds at every moment. -/
structure DirInv (good : Nat → Bool) (s : DirSys) : Prop where
  names : (s.nodes.map Prod.fst).Nodup
  ids : ∀ p ∈ s.nodes, p.2 < s.fresh
  early : ∀ i ∈ s.atStart, i < s.fresh
  scanning : s.stage = .scanning → ∀ p ∈ s.nodes, (p.2 ∉ s.atStart → p.1 ∈ s.queue) ∧
    (p.2 ∈ s.atStart → p.1 ∈ s.listed → eventName p.1 = true → good p.2 = true → p.1 ∈ s.workers ∨ p.2 ∈ s.opened)
  running : s.stage = .running → ∀ p ∈ s.nodes, eventName p.1 = true → good p.2 = true → p.2 ∈ s.opened ∨ p.1 ∈ s.queue
  fresh : s.stage = .starting ∨ s.stage = .watching → s.listed = [] ∧ s.workers = []

theorem dirInv_step {good : Nat → Bool} {s : DirSys} (h : DirInv good s) (e : DirEvent) : DirInv good (dirStep good s e) := by
  cases e with
  | create name =>
    dsimp only [dirStep]
    split
    · exact h
    · rename_i hn
      have hmem : ∀ p, p ∈ s.nodes ++ [(name, s.fresh)] → p ∈ s.nodes ∨ p = (name, s.fresh) := by
        intro p hp
        rcases List.mem_append.1 hp with hp | hp
        · exact .inl hp
        · exact .inr (List.mem_singleton.1 hp)
      refine ⟨?_, ?_, ?_, ?_, ?_, h.fresh⟩
      · dsimp only
        rw [List.map_append, List.nodup_append]
        refine ⟨h.names, by simp, ?_⟩
        intro a ha b hb
        simp only [List.map_cons, List.map_nil, List.mem_cons, List.not_mem_nil, or_false] at hb
        subst hb
        exact fun e => hn (by rw [← e]; exact ha)
      · intro p hp
        rcases hmem p hp with hp | rfl
        · exact Nat.lt_succ_of_lt (h.ids p hp)
        · exact Nat.lt_succ_self _
      · exact fun i hi => Nat.lt_succ_of_lt (h.early i hi)
      · intro hs p hp
        dsimp only at hs ⊢
        have hq : (if s.stage = .starting then s.queue else s.queue ++ [name]) = s.queue ++ [name] := if_neg (by rw [hs]; decide)
        rw [hq]
        rcases hmem p hp with hp | rfl
        · exact ⟨fun hh => List.mem_append_left _ ((h.scanning hs p hp).1 hh), (h.scanning hs p hp).2⟩
        · refine ⟨fun _ => List.mem_append_right _ List.mem_cons_self, fun hh => ?_⟩
          exact absurd (h.early _ hh) (Nat.lt_irrefl _)
      · intro hs p hp he hg
        dsimp only at hs ⊢
        have hq : (if s.stage = .starting then s.queue else s.queue ++ [name]) = s.queue ++ [name] := if_neg (by rw [hs]; decide)
        rw [hq]
        rcases hmem p hp with hp | rfl
        · exact (h.running hs p hp he hg).imp_right (List.mem_append_left _)
        · exact .inr (List.mem_append_right _ List.mem_cons_self)
  | remove name =>
    dsimp only [dirStep]
    have hsub : ∀ p, p ∈ s.nodes.filter (fun p => decide (p.1 ≠ name)) → p ∈ s.nodes := fun p hp => (List.mem_filter.1 hp).1
    refine ⟨?_, fun p hp => h.ids p (hsub p hp), h.early, fun hs p hp => h.scanning hs p (hsub p hp), fun hs p hp => h.running hs p (hsub p hp), h.fresh⟩
    exact h.names.sublist (List.Sublist.map _ List.filter_sublist)
  | watch =>
    dsimp only [dirStep]
    split
    · rename_i hs
      exact ⟨h.names, h.ids, h.early, (fun e => by cases e), (fun e => by cases e), fun _ => h.fresh (.inl hs)⟩
    · exact h
  | scan =>
    dsimp only [dirStep]
    split
    · rename_i hs
      refine ⟨h.names, h.ids, ?_, ?_, (fun e => by cases e), ?_⟩
      · intro i hi
        obtain ⟨p, hp, rfl⟩ := List.mem_map.1 hi
        exact h.ids p hp
      · intro _ p hp
        refine ⟨fun hh => absurd (List.mem_map_of_mem hp) hh, fun _ hl => ?_⟩
        rw [(h.fresh (.inr hs)).1] at hl
        cases hl
      · rintro (e | e) <;> cases e
    · exact h
  | list name =>
    dsimp only [dirStep]
    split
    · rename_i hs
      refine ⟨h.names, h.ids, h.early, ?_, (fun e => by rw [hs.1] at e; cases e), ?_⟩
      · intro _ p hp
        refine ⟨(h.scanning hs.1 p hp).1, fun ha hl he hg => ?_⟩
        rcases List.mem_cons.1 hl with e | hl
        · exact .inl (List.mem_append_right _ (by rw [e]; exact List.mem_cons_self))
        · exact ((h.scanning hs.1 p hp).2 ha hl he hg).imp_left (List.mem_append_left _)
      · rintro (e | e) <;> (dsimp only at e; rw [hs.1] at e; cases e)
    · exact h
  | worker name =>
    dsimp only [dirStep]
    split
    · rename_i hs
      obtain ⟨o1, o2, o3, o4, o5, o6, o7⟩ := openNode_same good { s with workers := s.workers.erase name } name
      refine ⟨by rw [o1]; exact h.names, by rw [o1, o2]; exact h.ids, by rw [o5, o2]; exact h.early, ?_, ?_, ?_⟩
      · intro _ p hp
        rw [o1] at hp
        rw [o4, o5, o6, o7]
        refine ⟨(h.scanning hs.1 p hp).1, fun ha hl he hg => ?_⟩
        by_cases e : p.1 = name
        · right
          subst e
          exact openNode_opens (s := { s with workers := s.workers.erase p.1 }) h.names hp he hg
        · rcases (h.scanning hs.1 p hp).2 ha hl he hg with hw | hw
          · exact .inl ((List.mem_erase_of_ne e).2 hw)
          · exact .inr (openNode_keeps _ _ _ hw)
      · intro e
        rw [o3] at e
        dsimp only at e
        rw [hs.1] at e
        cases e
      · rw [o3]
        dsimp only
        rw [hs.1]
        rintro (e | e) <;> cases e
    · exact h
  | scanned =>
    dsimp only [dirStep]
    split
    · rename_i hs
      obtain ⟨h1, h2, h3⟩ := hs
      refine ⟨h.names, h.ids, h.early, (fun e => by cases e), ?_, ?_⟩
      · intro _ p hp he hg
        by_cases ha : p.2 ∈ s.atStart
        · rcases (h.scanning h1 p hp).2 ha (h3 p hp ha) he hg with hw | hw
          · rw [h2] at hw; cases hw
          · exact .inl hw
        · exact .inr ((h.scanning h1 p hp).1 ha)
      · rintro (e | e) <;> cases e
    · exact h
  | notice =>
    dsimp only [dirStep]
    split
    · rename_i hs
      split
      · exact h
      · rename_i n q hq
        obtain ⟨o1, o2, o3, o4, o5, o6, o7⟩ := openNode_same good { s with queue := q } n
        refine ⟨by rw [o1]; exact h.names, by rw [o1, o2]; exact h.ids, by rw [o5, o2]; exact h.early, ?_, ?_, ?_⟩
        · intro e
          rw [o3] at e
          dsimp only at e
          rw [hs] at e
          cases e
        · intro _ p hp he hg
          rw [o1] at hp
          rw [o4]
          by_cases e : p.1 = n
          · left
            subst e
            exact openNode_opens (s := { s with queue := q }) h.names hp he hg
          · rcases h.running hs p hp he hg with hw | hw
            · exact .inl (openNode_keeps _ _ _ hw)
            · rw [hq] at hw
              rcases List.mem_cons.1 hw with hw | hw
              · exact absurd hw e
              · exact .inr hw
        · rw [o3]
          dsimp only
          rw [hs]
          rintro (e | e) <;> cases e
    · exact h

theorem dirInv_run (good : Nat → Bool) (es : List DirEvent) : DirInv good (dirRun good es) := by
  have : ∀ s, DirInv good s → DirInv good (es.foldl (dirStep good) s) := by
    induction es with
    | nil => exact fun _ h => h
    | cons e es ih => exact fun s h => ih _ (dirInv_step h e)
  refine this _ ⟨List.nodup_nil, (fun _ h => by cases h), (fun _ h => by cases h), (fun e => by cases e), (fun e => by cases e), fun _ => ⟨rfl, rfl⟩⟩

/-! ### C95 -/

/-- C95. Whenever a device node appears - before the daemon, during its start, while it lists the directory, or later - and whatever else comes and goes: once the main loop runs
and has read its notices, every usable event node that exists has been opened; before that, its notice is waiting. -/
theorem C95_found (good : Nat → Bool) (es : List DirEvent) (hr : (dirRun good es).stage = .running) (name : Str) (i : Nat) (hp : (name, i) ∈ (dirRun good es).nodes)
    (he : b!"event" <+: name) (hg : good i = true) :
    i ∈ (dirRun good es).opened ∨ name ∈ (dirRun good es).queue :=
  (dirInv_run good es).running hr (name, i) hp (List.isPrefixOf_iff_prefix.2 he) hg

theorem openNode_count {good : Nat → Bool} {s : DirSys} {n : Str} {i : Nat} (h : ∀ p ∈ s.nodes, p.2 = i → p.1 = n) (name : Str) :
    (openNode good s name).opened.count i ≤ s.opened.count i + (if name = n then 1 else 0) := by
  unfold openNode
  split
  · split
    · rename_i p hp
      have h1 := List.mem_of_find?_eq_some hp
      have h2 : p.1 = name := by simpa using List.find?_some hp
      split
      · dsimp only
        rw [List.count_append]
        by_cases e : p.2 = i
        · rw [if_pos (by rw [← h2]; exact h p h1 e), e]
          simp
        · have : [p.2].count i = 0 := by
            rw [List.count_eq_zero]
            intro hm
            exact e (List.mem_singleton.1 hm).symm
          omega
      · omega
    · omega
  · omega

/-- What holds of the only node `i` that ever has the name `n`. -/
structure OnceInv (n : Str) (i : Nat) (s : DirSys) : Prop where
  own : ∀ p ∈ s.nodes, p.2 = i → p.1 = n
  lt : i < s.fresh
  begin : s.stage ≠ .running → n ∉ s.queue ∧ s.opened.count i + s.workers.count n ≤ (if n ∈ s.listed then 1 else 0)
  loop : s.stage = .running → s.opened.count i + s.queue.count n ≤ 1

theorem onceInv_step {good : Nat → Bool} {n : Str} {i : Nat} {s : DirSys} (h : OnceInv n i s) {e : DirEvent} (he : e ≠ .create n) : OnceInv n i (dirStep good s e) := by
  cases e with
  | create name =>
    have hname : name ≠ n := fun e => he (by rw [e])
    dsimp only [dirStep]
    split
    · exact h
    · refine ⟨?_, Nat.lt_succ_of_lt h.lt, ?_, ?_⟩
      · intro p hp hi
        rcases List.mem_append.1 hp with hp | hp
        · exact h.own p hp hi
        · rw [List.mem_singleton] at hp
          subst hp
          have := h.lt
          dsimp only at hi
          omega
      · intro hs
        dsimp only at hs ⊢
        refine ⟨?_, (h.begin hs).2⟩
        split
        · exact (h.begin hs).1
        · intro hm
          rcases List.mem_append.1 hm with hm | hm
          · exact (h.begin hs).1 hm
          · exact hname (List.mem_singleton.1 hm).symm
      · intro hs
        dsimp only at hs ⊢
        rw [if_neg (by rw [hs]; decide), List.count_append]
        have : [name].count n = 0 := by
          rw [List.count_eq_zero]
          intro hm
          exact hname (List.mem_singleton.1 hm).symm
        have := h.loop hs
        omega
  | remove name =>
    exact ⟨fun p hp => h.own p (List.mem_filter.1 hp).1, h.lt, h.begin, h.loop⟩
  | watch =>
    dsimp only [dirStep]
    split
    · rename_i hs
      exact ⟨h.own, h.lt, fun _ => h.begin (by rw [hs]; decide), (fun e => by cases e)⟩
    · exact h
  | scan =>
    dsimp only [dirStep]
    split
    · rename_i hs
      exact ⟨h.own, h.lt, fun _ => h.begin (by rw [hs]; decide), (fun e => by cases e)⟩
    · exact h
  | list name =>
    dsimp only [dirStep]
    split
    · rename_i hs
      obtain ⟨b1, b2⟩ := h.begin (by rw [hs.1]; decide)
      refine ⟨h.own, h.lt, fun _ => ⟨b1, ?_⟩, (fun e => by dsimp only at e; rw [hs.1] at e; cases e)⟩
      dsimp only
      rw [List.count_append]
      by_cases e : name = n
      · subst e
        rw [if_neg hs.2] at b2
        rw [if_pos List.mem_cons_self]
        simp
        omega
      · have : [name].count n = 0 := by
          rw [List.count_eq_zero]
          intro hm
          exact e (List.mem_singleton.1 hm).symm
        rw [this]
        have e2 : (n ∈ name :: s.listed) ↔ n ∈ s.listed := by
          rw [List.mem_cons]
          exact ⟨fun hh => hh.resolve_left (fun x => e x.symm), .inr⟩
        simp only [e2]
        omega
    · exact h
  | worker name =>
    dsimp only [dirStep]
    split
    · rename_i hs
      obtain ⟨o1, o2, o3, o4, o5, o6, o7⟩ := openNode_same good { s with workers := s.workers.erase name } name
      have hc := openNode_count (good := good) (s := { s with workers := s.workers.erase name }) h.own name
      obtain ⟨b1, b2⟩ := h.begin (by rw [hs.1]; decide)
      refine ⟨by rw [o1]; exact h.own, by rw [o2]; exact h.lt, ?_, ?_⟩
      · intro _
        rw [o4, o6, o7]
        refine ⟨b1, ?_⟩
        dsimp only at hc ⊢
        by_cases e : name = n
        · subst e
          rw [if_pos rfl] at hc
          rw [List.count_erase_self]
          have : 0 < s.workers.count name := List.count_pos_iff.2 hs.2
          omega
        · rw [if_neg e] at hc
          rw [List.count_erase_of_ne (fun x => e x.symm)]
          omega
      · intro x
        rw [o3] at x
        dsimp only at x
        rw [hs.1] at x
        cases x
    · exact h
  | scanned =>
    dsimp only [dirStep]
    split
    · rename_i hs
      obtain ⟨b1, b2⟩ := h.begin (by rw [hs.1]; decide)
      refine ⟨h.own, h.lt, (fun e => absurd rfl e), fun _ => ?_⟩
      dsimp only
      rw [List.count_eq_zero.2 b1]
      have : (if n ∈ s.listed then 1 else 0) ≤ 1 := by split <;> omega
      omega
    · exact h
  | notice =>
    dsimp only [dirStep]
    split
    · rename_i hs
      split
      · exact h
      · rename_i m q hq
        obtain ⟨o1, o2, o3, o4, o5, o6, o7⟩ := openNode_same good { s with queue := q } m
        have hc := openNode_count (good := good) (s := { s with queue := q }) h.own m
        have hl := h.loop hs
        refine ⟨by rw [o1]; exact h.own, by rw [o2]; exact h.lt, ?_, ?_⟩
        · intro x
          rw [o3] at x
          exact absurd hs x
        · intro _
          rw [o4]
          dsimp only at hc ⊢
          rw [hq, List.count_cons] at hl
          by_cases e : m = n
          · rw [if_pos e] at hc
            rw [if_pos (by simpa using e)] at hl
            omega
          · rw [if_neg e] at hc
            omega
    · exact h

/-- Names that were never created are nowhere. -/
theorem unnamed_run {good : Nat → Bool} {n : Str} : ∀ (es : List DirEvent), .create n ∉ es → ∀ s : DirSys, n ∉ s.nodes.map Prod.fst → n ∉ s.queue →
    n ∉ (es.foldl (dirStep good) s).nodes.map Prod.fst ∧ n ∉ (es.foldl (dirStep good) s).queue
  | [], _, _, h1, h2 => ⟨h1, h2⟩
  | e :: es, he, s, h1, h2 => by
    rw [List.foldl_cons]
    refine unnamed_run es (fun h => he (List.mem_cons_of_mem _ h)) _ ?_ ?_
    · cases e with
      | create name =>
        dsimp only [dirStep]
        split
        · exact h1
        · dsimp only
          rw [List.map_append]
          intro hm
          rcases List.mem_append.1 hm with hm | hm
          · exact h1 hm
          · simp only [List.map_cons, List.map_nil, List.mem_cons, List.not_mem_nil, or_false] at hm
            exact he (by rw [hm]; exact List.mem_cons_self)
      | remove name =>
        dsimp only [dirStep]
        intro hm
        obtain ⟨p, hp, rfl⟩ := List.mem_map.1 hm
        exact h1 (List.mem_map_of_mem (List.mem_filter.1 hp).1)
      | watch => dsimp only [dirStep]; split <;> exact h1
      | scan => dsimp only [dirStep]; split <;> exact h1
      | list name => dsimp only [dirStep]; split <;> exact h1
      | worker name => dsimp only [dirStep]; split; rw [(openNode_same ..).1]; exact h1; exact h1
      | scanned => dsimp only [dirStep]; split <;> exact h1
      | notice =>
        dsimp only [dirStep]
        split
        · split
          · exact h1
          · rw [(openNode_same ..).1]; exact h1
        · exact h1
    · cases e with
      | create name =>
        dsimp only [dirStep]
        split
        · exact h2
        · dsimp only
          split
          · exact h2
          · intro hm
            rcases List.mem_append.1 hm with hm | hm
            · exact h2 hm
            · exact he (by rw [List.mem_singleton.1 hm]; exact List.mem_cons_self)
      | remove name => exact h2
      | watch => dsimp only [dirStep]; split <;> exact h2
      | scan => dsimp only [dirStep]; split <;> exact h2
      | list name => dsimp only [dirStep]; split <;> exact h2
      | worker name => dsimp only [dirStep]; split; rw [(openNode_same ..).2.2.2.1]; exact h2; exact h2
      | scanned => dsimp only [dirStep]; split <;> exact h2
      | notice =>
        dsimp only [dirStep]
        split
        · split
          · exact h2
          · rename_i m q hq
            rw [(openNode_same ..).2.2.2.1]
            dsimp only
            intro hm
            exact h2 (by rw [hq]; exact List.mem_cons_of_mem _ hm)
        · exact h2

/-- Only nodes that exist, or have existed, are opened. -/
theorem opened_lt (good : Nat → Bool) (es : List DirEvent) : (∀ p ∈ (dirRun good es).nodes, p.2 < (dirRun good es).fresh) ∧
    ∀ i ∈ (dirRun good es).opened, i < (dirRun good es).fresh ∧ good i = true := by
  have step : ∀ s name, (∀ p ∈ s.nodes, p.2 < s.fresh) → (∀ i ∈ s.opened, i < s.fresh ∧ good i = true) →
      ∀ i ∈ (openNode good s name).opened, i < s.fresh ∧ good i = true := by
    intro s name h1 h2 i hi
    unfold openNode at hi
    split at hi
    · split at hi
      · rename_i p hp
        split at hi
        · rename_i hg
          dsimp only at hi
          rcases List.mem_append.1 hi with hi | hi
          · exact h2 i hi
          · rw [List.mem_singleton] at hi
            subst hi
            exact ⟨h1 p (List.mem_of_find?_eq_some hp), hg⟩
        · exact h2 i hi
      · exact h2 i hi
    · exact h2 i hi
  have : ∀ s : DirSys, ((∀ p ∈ s.nodes, p.2 < s.fresh) ∧ ∀ i ∈ s.opened, i < s.fresh ∧ good i = true) →
      (∀ p ∈ (es.foldl (dirStep good) s).nodes, p.2 < (es.foldl (dirStep good) s).fresh) ∧
      ∀ i ∈ (es.foldl (dirStep good) s).opened, i < (es.foldl (dirStep good) s).fresh ∧ good i = true := by
    induction es with
    | nil => exact fun _ h => h
    | cons e es ih =>
      rintro s ⟨h1, h2⟩
      refine ih _ ?_
      cases e with
      | create name =>
        dsimp only [dirStep]
        split
        · exact ⟨h1, h2⟩
        · refine ⟨?_, fun i hi => ⟨Nat.lt_succ_of_lt (h2 i hi).1, (h2 i hi).2⟩⟩
          intro p hp
          rcases List.mem_append.1 hp with hp | hp
          · exact Nat.lt_succ_of_lt (h1 p hp)
          · rw [List.mem_singleton.1 hp]
            exact Nat.lt_succ_self _
      | remove name => exact ⟨fun p hp => h1 p (List.mem_filter.1 hp).1, h2⟩
      | watch => dsimp only [dirStep]; split <;> exact ⟨h1, h2⟩
      | scan => dsimp only [dirStep]; split <;> exact ⟨h1, h2⟩
      | list name => dsimp only [dirStep]; split <;> exact ⟨h1, h2⟩
      | worker name =>
        dsimp only [dirStep]
        split
        · rw [(openNode_same ..).1, (openNode_same ..).2.1]
          exact ⟨h1, step { s with workers := s.workers.erase name } name h1 h2⟩
        · exact ⟨h1, h2⟩
      | scanned => dsimp only [dirStep]; split <;> exact ⟨h1, h2⟩
      | notice =>
        dsimp only [dirStep]
        split
        · split
          · exact ⟨h1, h2⟩
          · rename_i m q hq
            rw [(openNode_same ..).1, (openNode_same ..).2.1]
            exact ⟨h1, step { s with queue := q } m h1 h2⟩
        · exact ⟨h1, h2⟩
  exact this _ ⟨(fun _ h => by cases h), (fun _ h => by cases h)⟩

/-- C95, once. A node that appears before the daemon watches the directory, or when the main loop runs, and whose name is not used again, is opened at most once. -/
theorem C95_once (good : Nat → Bool) (es1 es2 : List DirEvent) (name : Str) (h1 : .create name ∉ es1) (h2 : .create name ∉ es2)
    (hs : (dirRun good es1).stage = .starting ∨ (dirRun good es1).stage = .running) :
    (dirRun good (es1 ++ .create name :: es2)).opened.count (dirRun good es1).fresh ≤ 1 := by
  obtain ⟨n1, n2⟩ := unnamed_run (good := good) es1 h1 {} List.not_mem_nil List.not_mem_nil
  have hnodes := (opened_lt good es1).1
  have hopened := (opened_lt good es1).2
  have hinv := dirInv_run good es1
  have e : dirRun good (es1 ++ .create name :: es2) = es2.foldl (dirStep good) (dirStep good (dirRun good es1) (.create name)) := by
    unfold dirRun
    rw [List.foldl_append, List.foldl_cons]
  rw [e]
  change name ∉ (dirRun good es1).nodes.map Prod.fst at n1
  change name ∉ (dirRun good es1).queue at n2
  generalize dirRun good es1 = s at *
  have hz : s.opened.count s.fresh = 0 := List.count_eq_zero.2 (fun hm => Nat.lt_irrefl _ (hopened _ hm).1)
  have start : OnceInv name s.fresh (dirStep good s (.create name)) := by
    dsimp only [dirStep]
    rw [if_neg n1]
    refine ⟨?_, Nat.lt_succ_self _, ?_, ?_⟩
    · intro p hp hi
      rcases List.mem_append.1 hp with hp | hp
      · exact absurd (hnodes p hp) (by rw [hi]; exact Nat.lt_irrefl _)
      · rw [List.mem_singleton.1 hp]
    · intro hr
      dsimp only at hr ⊢
      have hst := hs.resolve_right hr
      rw [if_pos hst, hz, (hinv.fresh (.inl hst)).2]
      exact ⟨n2, Nat.zero_le _⟩
    · intro hr
      dsimp only at hr ⊢
      rw [if_neg (by rw [hr]; decide), hz, List.count_append, List.count_eq_zero.2 n2]
      simp
  have run : ∀ (es : List DirEvent), .create name ∉ es → ∀ s', OnceInv name s.fresh s' → OnceInv name s.fresh (es.foldl (dirStep good) s') := by
    intro es
    induction es with
    | nil => exact fun _ _ h => h
    | cons x es ih =>
      intro hx s' h
      exact ih (fun hh => hx (List.mem_cons_of_mem _ hh)) _ (onceInv_step h (fun hh => hx (by rw [hh]; exact List.mem_cons_self)))
  have fin := run es2 h2 _ start
  by_cases hr : (es2.foldl (dirStep good) (dirStep good s (.create name))).stage = .running
  · have := fin.loop hr
    omega
  · have := (fin.begin hr).2
    have : (if name ∈ (es2.foldl (dirStep good) (dirStep good s (.create name))).listed then 1 else 0) ≤ 1 := by split <;> omega
    omega

/-- C95, only devices. Only nodes that exist or have existed and that keyd can use are ever opened as devices. -/
theorem C95_only (good : Nat → Bool) (es : List DirEvent) (i : Nat) (h : i ∈ (dirRun good es).opened) : i < (dirRun good es).fresh ∧ good i = true :=
  (opened_lt good es).2 i h

/-! ### Witnesses -/

/-- A keyboard is there, a second one appears while the directory is being listed (and is not listed), a third one later; the first is unplugged. -/
theorem C95_example : dirRun (fun _ => true) [.create b!"event0", .create b!"mice", .watch, .scan, .list b!"event0", .create b!"event7", .list b!"mice", .worker b!"mice", .worker b!"event0",
      .scanned, .notice, .remove b!"event0", .create b!"event9", .notice] =
    { nodes := [(b!"mice", 1), (b!"event7", 2), (b!"event9", 3)], fresh := 4, stage := .running, atStart := [0, 1], listed := [b!"mice", b!"event0"], opened := [0, 2, 3] } := by
  decide +kernel

/-- A keyboard that appears between the beginning of the watch and the listing is opened twice: it is listed, and its notice waits too. -/
theorem C95_twice : (dirRun (fun _ => true) [.watch, .create b!"event0", .scan, .list b!"event0", .worker b!"event0", .scanned, .notice]).opened = [0, 0] := by
  decide +kernel

end Keyd
