import Verif.Proofs.Performed

/-
  A key pressed as `overloadi` is held with the action chosen at the press.
-/

set_option autoImplicit false

namespace Keyd

/-- The keys pressed as `overloadi` are held with the action chosen. -/
def Chosen (c : Config) (m0 : Memo) (new : List Step) (cache : List CacheEntry) : Prop :=
  ∀ code, code ≠ 0 → ∀ d dl, Chose c m0 code new d dl → d.steady = true → ∀ e ∈ cache, e.code = code → e = ⟨code, d, dl, 0⟩

/-- The release of a key pressed as `overloadi` is the release of the action chosen. -/
def ChoseLog (c : Config) (m0 : Memo) : List Step → Prop
  | [] => True
  | .key code false _ (some (d', dl')) :: log =>
    (code ≠ 0 → ∀ d dl, Chose c m0 code log d dl → d.steady = true → d' = d ∧ dl' = dl) ∧ ChoseLog c m0 log
  | _ :: log => ChoseLog c m0 log

/-- The choices since `k0` are kept. -/
def KeepsInv (k0 k : Kbd) : Prop := MemInv k ∧ Since k0 k ∧ ∃ new, k.steps = new ++ k0.steps ∧
  Chosen k0.config k0.memo new k.cache ∧ ChoseLog k0.config k0.memo new

theorem Chosen.gentle {c : Config} {m0 : Memo} {new : List Step} {k k' : Kbd} (h : Chosen c m0 new k.cache)
    (g : Gentle 0 k k') : Chosen c m0 new k'.cache := by
  intro code hc d' dl hch hd e' he' hec
  obtain ⟨e, he, r1, r2⟩ := forall₂_right g.cache e' he'
  have h2 : e.code = code := by rw [← hec]; exact (strip_code r1).symm
  rw [r2 (by rw [h2]; exact hc)]
  exact h code hc d' dl hch hd e he h2

theorem chose_skip {c : Config} {m0 : Memo} {code : Code} {s : Step} {log : List Step} {d : Desc} {dl : Nat}
    (h : Chose c m0 code (s :: log) d dl) : (∃ t u, s = .key code true t (some u)) ∨ s.about code = false ∧ Chose c m0 code log d dl := by
  generalize hq : s :: log = q at h
  cases h with
  | press _ =>
    injection hq with e1 e2
    exact .inl ⟨_, _, e1⟩
  | later h hs =>
    injection hq with e1 e2
    subst e1 e2
    exact .inr ⟨hs, h⟩

/-- Pressing an `overloadi` key leaves it held with the action chosen, if this is a steady one. -/
theorem idle_held (n : Nat) (k : Kbd) (code : Code) (a b T dl : Nat) (t : Int) (hc : code ≠ 0) (hu : Uniq k.cache)
    (hown : ∀ e ∈ k.cache, e.code = code → e = ⟨code, .overloadIdle a b T, dl, 0⟩)
    (hd : (k.config.desc (if t - k.memo.symbol < T then a else b)).steady = true) :
    Sat (processDescriptor n k code (.overloadIdle a b T) dl true t) (fun k' => ∀ e ∈ k'.cache, e.code = code →
      e = ⟨code, k.config.desc (if t - k.memo.symbol < T then a else b), dl, 0⟩) AnyErr := by
  cases n with
  | zero => trivial
  | succ n =>
    refine Sat.intro (fun k' run => ?_)
    unfold processDescriptor at run
    change (pdOverloadIdle _ k code a b T dl t >>= fun k => (.ok { k with lastPressedCode := code } : Res Kbd)) = .ok k' at run
    obtain ⟨k1, e1, e2⟩ := bind_eq_ok.1 run
    injection e2 with e2
    unfold pdOverloadIdle at e1
    dsimp only at e1
    have hact : idleAction k a b T t = k.config.desc (if t - k.memo.symbol < T then a else b) := by
      unfold idleAction
      show _ = k.config.desc (if t - k.lastSimpleKeyTime < T then a else b)
      by_cases hlt : t - k.lastSimpleKeyTime < T
      · rw [if_neg (by omega), if_pos hlt]
      · rw [if_pos (by omega), if_neg hlt]
    rw [hact] at e1
    obtain ⟨k2, e3, e1⟩ := bind_eq_ok.1 e1
    injection e1 with e1
    generalize k.config.desc (if t - k.memo.symbol < T then a else b) = d at *
    have ha := ((acts_descriptor n k code d dl true t hu (fun h => (by cases h))).of_ok e3).1
    have hall : ∀ e ∈ k2.cache, e.code = code → e = ⟨code, .overloadIdle a b T, dl, 0⟩ := by
      intro e' he' hec
      obtain ⟨e, he, r1, _, _, r4⟩ := forall₂_right ha.cache e' he'
      have h2 : e.code = code := by rw [← r1]; exact hec
      have h1 := hown e he h2
      rw [r4 (by rw [h2]; exact hc) (by rw [h1]) (.inr hd), h1]
    have hu2 : Uniq k2.cache := hu.of_codes ha.codes
    have hk' : k'.cache = modifyFirst (fun e => e.code = code) (fun e => { e with d := d }) k2.cache := by
      rw [← e2, ← e1]; rfl
    rw [hk']
    clear hk' e1 e2 e3 ha hown run
    revert hall hu2
    generalize k2.cache = l
    intro hall hu2
    induction l with
    | nil => intro e he; cases he
    | cons x l ih =>
      unfold modifyFirst
      unfold Uniq at hu2
      rw [List.pairwise_cons] at hu2
      by_cases hx : x.code = code
      · rw [if_pos (by simpa using hx)]
        intro e he hec
        rcases List.mem_cons.1 he with rfl | he
        · rw [hall x List.mem_cons_self hx]
        · exact absurd (hu2.1 e he (hx.trans hec.symm)) (by rw [hx]; exact hc)
      · rw [if_neg (by simpa using hx)]
        intro e he hec
        rcases List.mem_cons.1 he with rfl | he
        · exact absurd hec hx
        · exact ih (fun e he => hall e (List.mem_cons_of_mem _ he)) hu2.2 e he hec

theorem chosen_key {k0 k : Kbd} (hm : MemInv k) (hs : Since k0 k) {new : List Step} (hst : k.steps = new ++ k0.steps)
    (h : Chosen k0.config k0.memo new k.cache) (hl : ChoseLog k0.config k0.memo new) (code : Code) (p : Bool) (t : Int) :
    Sat (stepKey k code p t) (fun k' => ∃ new, k'.steps = new ++ k0.steps ∧
      Chosen k0.config k0.memo new k'.cache ∧ ChoseLog k0.config k0.memo new) AnyErr := by
  have hcfg := hs.config
  obtain ⟨new', as, hst', hlp, _⟩ := hs
  have e : new' = new := List.append_cancel_right (hst'.symm.trans hst)
  subst e
  clear hst'
  generalize k0.config = c at *
  generalize k0.memo = m0 at *
  generalize k0.steps = old at *
  unfold stepKey
  by_cases hc : code = 0
  · rw [if_pos hc]; exact ⟨_, hst, h, hl⟩
  rw [if_neg hc]
  cases p with
  | true =>
    rw [if_pos rfl]
    have ignored : ∃ new, (k.log (.key code true t none)).steps = new ++ old ∧ Chosen c m0 new (k.log (.key code true t none)).cache ∧
        ChoseLog c m0 new := by
      refine ⟨.key code true t none :: new', ?_, ?_, hl⟩
      · show _ :: k.steps = _
        rw [hst]; rfl
      · intro x hx d dl hch hd e he hec
        rcases chose_skip hch with ⟨_, _, e⟩ | ⟨_, h2⟩
        · cases e
        · exact h x hx d dl h2 hd e he hec
    refine Sat.ite (fun _ => ignored) (fun hn => ?_)
    cases hlk : lookupDescriptor k code with
    | mk d dl =>
      dsimp only
      cases hs : cacheSet k code (some { d := d, dl := dl, layer := 0 }) with
      | none => exact ignored
      | some k1 =>
        dsimp only
        obtain ⟨e1, e2, e3, e4, e5, e6⟩ := cacheSet_entry hm.uniq hc hs
        have hk1 : k1.steps = k.steps ∧ k1.config = k.config ∧ k1.memo = k.memo := by rw [e1]; exact ⟨rfl, rfl, rfl⟩
        have hq := acts_descriptor (descBudget (k1.log (.key code true t (some (d, dl))))) (k1.log (.key code true t (some (d, dl))))
          code d dl true t e2 (fun h => (by cases h))
        refine Sat.intro (fun k2 run => ?_)
        have ha := (hq.of_ok run).1
        refine ⟨.key code true t (some (d, dl)) :: new', ?_, ?_, hl⟩
        · rw [ha.steps]
          show _ :: k1.steps = _
          rw [hk1.1, hst]; rfl
        · intro x hx d' dl' hch hd e he hec
          by_cases hxc : x = code
          · subst hxc
            generalize hq : Step.key x true t (some (d, dl)) :: new' = q at hch
            cases hch with
            | @press log as' m t' a b T _ hlp' =>
              injection hq with q1 q2
              cases q1
              subst q2
              obtain ⟨_, rfl⟩ := logPerforms_unique hlp hlp'
              have hmm : (k1.log (.key x true t (some (.overloadIdle a b T, dl)))).memo = k.memo := hk1.2.2
              have hcc : (k1.log (.key x true t (some (.overloadIdle a b T, dl)))).config = c := hk1.2.1.trans hcfg
              have g := (idle_held _ (k1.log (.key x true t (some (.overloadIdle a b T, dl)))) x a b T dl t hx e2 e3 (by
                rw [hmm, hcc]; exact hd)).of_ok run
              rw [hmm, hcc] at g
              exact g e he hec
            | later _ hs' =>
              injection hq with q1 q2
              subst q1
              simp [Step.about] at hs'
          · rcases chose_skip hch with ⟨_, _, q⟩ | ⟨_, h2⟩
            · cases q; exact absurd rfl hxc
            · obtain ⟨e0, he0, r1, _, _, r4⟩ := forall₂_right ha.cache e he
              have h4 : e0.code = x := by rw [← r1]; exact hec
              have h3 := h x hx d' dl' h2 hd e0 (e5 e0 he0 (by rw [h4]; exact hxc) (by rw [h4]; exact hx)) h4
              rw [r4 (by rw [h4]; exact hx) (by rw [h3]) (.inl (by rw [h4]; exact hxc)), h3]
  | false =>
    rw [if_neg (by simp)]
    cases hg : cacheGet k code with
    | none =>
      refine ⟨.key code false t none :: new', ?_, ?_, hl⟩
      · show _ :: k.steps = _
        rw [hst]; rfl
      · intro x hx d dl hch hd e he hec
        rcases chose_skip hch with ⟨_, _, e⟩ | ⟨_, h2⟩
        · cases e
        · exact h x hx d dl h2 hd e he hec
    | some ce =>
      obtain ⟨pre, post, c1, c2, c3, c4⟩ := cacheSet_none_split hg
      rw [c4]
      dsimp only [Option.getD_some]
      have hu := hm.uniq
      rw [c1] at hu
      have hmem : ce ∈ k.cache := by rw [c1]; exact List.mem_append_right _ List.mem_cons_self
      have hown : ∀ e ∈ pre ++ { ce with code := 0 } :: post, e.code ≠ code := by
        intro e he hec
        rw [List.mem_append, List.mem_cons] at he
        unfold Uniq at hu
        rw [List.pairwise_append, List.pairwise_cons] at hu
        obtain ⟨_, ⟨h5, _⟩, h6⟩ := hu
        rcases he with he | he | he
        · exact c3 e he hec
        · rw [he] at hec; exact hc hec.symm
        · exact hc (by rw [← c2]; exact h5 e he (c2.trans hec.symm))
      refine (acts_descriptor _ _ code ce.d ce.dl false t (uniq_replace hu (.inr (.inl rfl))) (fun _ => hown)).imp ?_
      rintro k2 ⟨ha, _⟩
      refine ⟨.key code false t (some (ce.d, ce.dl)) :: new', ?_, ?_, fun hc d dl hch hd => ?_, hl⟩
      · rw [ha.steps]
        show _ :: k.steps = _
        rw [hst]; rfl
      · intro x hx d' dl' hch hd e he hec
        rcases chose_skip hch with ⟨_, _, q⟩ | ⟨hab, h2⟩
        · cases q
        · have hxc : code ≠ x := by simpa [Step.about] using hab
          obtain ⟨e0, he0, r1, _, _, r4⟩ := forall₂_right ha.cache e he
          have h4 : e0.code = x := by rw [← r1]; exact hec
          have he0 : e0 ∈ pre ++ { ce with code := 0 } :: post := he0
          have hin : e0 ∈ k.cache := by
            rw [c1, List.mem_append, List.mem_cons]
            rw [List.mem_append, List.mem_cons] at he0
            rcases he0 with he0 | he0 | he0
            · exact .inl he0
            · rw [he0] at h4; exact absurd h4.symm hx
            · exact .inr (.inr he0)
          have h3 := h x hx d' dl' h2 hd e0 hin h4
          rw [r4 (by rw [h4]; exact hx) (by rw [h3]) (.inl (by rw [h4]; exact fun e => hxc e.symm)), h3]
      · have := h code hc d dl hch hd ce hmem c2
        rw [this]
        exact ⟨rfl, rfl⟩

theorem chosen_resolve {k0 k : Kbd} (hm : MemInv k) {new : List Step} (hst : k.steps = new ++ k0.steps)
    (h : Chosen k0.config k0.memo new k.cache) (hl : ChoseLog k0.config k0.memo new) (a : Desc) (t : Int) (hp : k.pending.code ≠ 0) :
    Sat (resolvePendingStep k a t) (fun r => ∃ new, r.1.steps = new ++ k0.steps ∧
      Chosen k0.config k0.memo new r.1.cache ∧ ChoseLog k0.config k0.memo new) AnyErr := by
  generalize k0.config = c at *
  generalize k0.memo = m0 at *
  generalize k0.steps = old at *
  unfold resolvePendingStep
  dsimp only
  have hu0 := hm.uniq
  have ex : ∀ k1 : Kbd, Uniq k1.cache → k1.steps = k.steps → (∀ e ∈ k1.cache, e.code ≠ k.pending.code → e.code ≠ 0 → e ∈ k.cache) →
      Sat (processDescriptor (descBudget (k1.log (.resolve k.pending.code a k.pending.dl t))) (k1.log (.resolve k.pending.code a k.pending.dl t))
        k.pending.code a k.pending.dl true t >>= fun k1 => (.ok (k1, k.pending.queue) : Res _)) (fun r => ∃ new, r.1.steps = new ++ old ∧
          Chosen c m0 new r.1.cache ∧ ChoseLog c m0 new) AnyErr := by
    intro k1 u1 s1 g1
    refine (acts_descriptor _ (k1.log (.resolve k.pending.code a k.pending.dl t)) k.pending.code a k.pending.dl true t u1
      (fun h => (by cases h))).bind (fun k2 ha => ?_)
    have ha := ha.1
    refine ⟨.resolve k.pending.code a k.pending.dl t :: new, ?_, ?_, hl⟩
    · show k2.steps = _
      rw [ha.steps]
      show _ :: k1.steps = _
      rw [s1, hst]; rfl
    · intro x hx d' dl' hch hd e he hec
      have he : e ∈ k2.cache := he
      rcases chose_skip hch with ⟨_, _, q⟩ | ⟨hab, h2⟩
      · cases q
      · have hxc : k.pending.code ≠ x := by simpa [Step.about] using hab
        obtain ⟨e0, he0, r1, _, _, r4⟩ := forall₂_right ha.cache e he
        have h4 : e0.code = x := by rw [← r1]; exact hec
        have h3 := h x hx d' dl' h2 hd e0 (g1 e0 he0 (by rw [h4]; exact fun e => hxc e.symm) (by rw [h4]; exact hx)) h4
        rw [r4 (by rw [h4]; exact hx) (by rw [h3]) (.inl (by rw [h4]; exact fun e => hxc e.symm)), h3]
  cases hcs : cacheSet { k with pending := { k.pending with code := 0, queue := [], tapExpiry := 0 } } k.pending.code
      (some { d := a, dl := k.pending.dl, layer := 0 }) with
  | none => exact ex _ hm.uniq rfl (fun e he _ _ => he)
  | some k1 =>
    obtain ⟨e1, e2, e3, e4, e5, e6⟩ := cacheSet_entry (k := { k with pending := { k.pending with code := 0, queue := [], tapExpiry := 0 } })
      hm.uniq hp hcs
    exact ex k1 e2 (by rw [e1]) (fun e he h1 h2 => e5 e he h1 h2)

theorem keeps_engineInv (k0 : Kbd) : EngineInv (KeepsInv k0) AnyErr where
  errs _ _ := trivial
  chord k ch h := ⟨mem_engineInv.chord k ch h.1, (since_engineInv k0).chord k ch h.2.1, h.2.2⟩
  timeouts k ts h := ⟨mem_engineInv.timeouts k ts h.1, (since_engineInv k0).timeouts k ts h.2.1, h.2.2⟩
  passed k e h := ⟨mem_engineInv.passed k e h.1, (since_engineInv k0).passed k e h.2.1, by
    obtain ⟨_, _, new, h1, h2, h3⟩ := h
    refine ⟨.passed e :: new, ?_, ?_, h3⟩
    · show _ :: k.steps = _
      rw [h1]; rfl
    · intro x hx d dl hch hd e' he hec
      rcases chose_skip hch with ⟨_, _, e⟩ | ⟨_, g2⟩
      · cases e
      · exact h2 x hx d dl g2 hd e' he hec⟩
  swallowed k evs h := ⟨mem_engineInv.swallowed k evs h.1, (since_engineInv k0).swallowed k evs h.2.1, by
    obtain ⟨_, _, h⟩ := h
    have : ∀ l : List KeyEvent, ∃ new, l.map Step.swallowed ++ k.steps = new ++ k0.steps ∧
        Chosen k0.config k0.memo new k.cache ∧ ChoseLog k0.config k0.memo new := by
      intro l
      induction l with
      | nil => exact h
      | cons e l ih =>
        obtain ⟨new, h1, h2, h3⟩ := ih
        refine ⟨.swallowed e :: new, ?_, ?_, h3⟩
        · rw [List.map_cons, List.cons_append, h1]; rfl
        · intro x hx d dl hch hd e' he hec
          rcases chose_skip hch with ⟨_, _, e⟩ | ⟨_, g2⟩
          · cases e
          · exact h2 x hx d dl g2 hd e' he hec
    have h2 := this evs.reverse
    rw [List.map_reverse] at h2
    exact h2⟩
  install k p h := (mem_engineInv.install k p h.1).and (((since_engineInv k0).install k p h.2.1).and (by
    unfold installChord
    dsimp only
    cases freeChordSlot k.activeChords 0 with
    | none => trivial
    | some i => exact h.2.2))
  strike k i ks a h := ⟨mem_engineInv.strike k i ks a h.1, (since_engineInv k0).strike k i ks a h.2.1, h.2.2⟩
  enqueue k q h hp := ⟨mem_engineInv.enqueue k q h.1 hp, (since_engineInv k0).enqueue k q h.2.1 hp, h.2.2⟩
  resolve k a t h hp h1 h2 := (mem_engineInv.resolve k a t h.1 hp h1 h2).and (((since_engineInv k0).resolve k a t h.2.1 hp h1 h2).and (by
    obtain ⟨hm, _, new, g1, g2, g3⟩ := h
    exact chosen_resolve hm g1 g2 g3 a t hp))
  timers k c t h := (mem_engineInv.timers k c t h.1).and (((since_engineInv k0).timers k c t h.2.1).and (by
    obtain ⟨hm, _, new, g1, g2, g3⟩ := h
    exact (Gentle.stepTimers (x := 0) k c t).imp (fun k' g => ⟨new, g.steps.trans g1, g2.gentle g, g3⟩)))
  key k c p t h hp := (mem_engineInv.key k c p t h.1 hp).and (((since_engineInv k0).key k c p t h.2.1 hp).and (by
    obtain ⟨hm, hs, new, g1, g2, g3⟩ := h
    exact chosen_key hm hs g1 g2 g3 c p t))

end Keyd
