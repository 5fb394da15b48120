import Verif.Proofs.Holders
import Verif.Proofs.QuietPress

/-
  The invariant behind C03, C04 and C05: every activation of a layer and every
  plain key that is down is accounted for by a held key.
-/

set_option autoImplicit false

namespace Keyd

open Move

/-- The held keys with their bindings (code 0: free slot). -/
def Kbd.held (k : Kbd) : List (Code × Desc) := k.cache.map fun e => (e.code, e.d)

def holdsIt (i : Nat) (p : Code × Desc) : Bool := decide (p.1 ≠ 0) && decide (p.2.holds = some i)

def heldCount (l : List (Code × Desc)) (i : Nat) : Nat := l.countP (holdsIt i)

theorem holders_held (k : Kbd) (i : Nat) : holders k i = heldCount k.held i := by
  unfold holders heldCount Kbd.held
  rw [List.countP_map]
  rfl

theorem heldCount_mid (pre post : List (Code × Desc)) (p : Code × Desc) (i : Nat) :
    (heldCount (pre ++ p :: post) i : Int) = heldCount (pre ++ post) i + (if p.1 = 0 then 0 else unit p.2.holds i) := by
  unfold heldCount
  rw [List.countP_append, List.countP_cons, List.countP_append]
  unfold unit holdsIt
  by_cases h1 : p.1 = 0 <;> by_cases h2 : p.2.holds = some i <;> simp [h1, h2]; omega

theorem Calm.held {k k' : Kbd} (h : Calm k k') : k'.held = k.held := by
  have := congrArg (List.map fun e : CacheEntry => (e.code, e.d)) h.cache
  rw [List.map_map, List.map_map] at this
  exact this

/-- Different slots hold different keys. -/
def Apart (l : List (Code × Desc)) : Prop := l.Pairwise fun a b => a.1 ≠ 0 → a.1 ≠ b.1

/-- Every plain key that is down belongs to a held key. -/
def Owned (k : Kbd) (l : List (Code × Desc)) : Prop :=
  ∀ c, Plain c → k.keystate c = true → ∃ p ∈ l, p.1 ≠ 0 ∧ p.2.outKey = some c

structure InBalance (L Y tap alt : Nat → Prop) (k : Kbd) : Prop where
  apart : Apart k.held
  bal : ∀ i, L i → exc k i = heldCount k.held i
  flags : FlagsL L k
  pend : k.pending.code ≠ 0 → ∃ p ∈ k.held, p.1 = k.pending.code ∧ p.2.deferred = true
  keys : Owned k k.held
  ctx : Ctx L Y tap alt k.config

variable {L Y tap alt : Nat → Prop}

theorem InBalance.covered {k : Kbd} (h : InBalance L Y tap alt k) : Covered L k :=
  ⟨fun i hi => by rw [h.bal i hi]; omega, h.flags⟩

theorem InBalance.move {k k' : Kbd} (h : InBalance L Y tap alt k) (hm : Move L zero noKey k k') :
    InBalance L Y tap alt k' := by
  refine ⟨by rw [hm.calm.held]; exact h.apart, ?_, hm.flags h.flags, ?_, ?_, by rw [hm.calm.config]; exact h.ctx⟩
  · intro i hi
    rw [hm.exc i hi, hm.calm.held, h.bal i hi]
    simp [zero]
  · rw [hm.calm.pending, hm.calm.held]; exact h.pend
  · intro c hc hd
    rw [hm.calm.held]
    rcases hm.keys c hc hd with h1 | h1
    · exact h.keys c hc h1
    · exact h1.elim

theorem InBalance.frame {k k' : Kbd} (h : InBalance L Y tap alt k) (h1 : k'.cache = k.cache)
    (h2 : k'.pending.code = k.pending.code) (h3 : k'.config = k.config) (h4 : k'.layerState = k.layerState)
    (h5 : k'.keystate = k.keystate) : InBalance L Y tap alt k' := by
  have hh : k'.held = k.held := by unfold Kbd.held; rw [h1]
  refine ⟨by rw [hh]; exact h.apart, ?_, ?_, by rw [h2, hh]; exact h.pend, ?_, by rw [h3]; exact h.ctx⟩
  · intro i hi; unfold exc; rw [hh, h4]; exact h.bal i hi
  · unfold FlagsL; rw [h4]; exact h.flags
  · unfold Owned; rw [hh, h5]; exact h.keys

/-- A key has been entered among the held ones, its action not yet taken. -/
structure Entered (L Y tap alt : Nat → Prop) (k : Kbd) (code : Code) (d : Desc)
    (pre post : List (Code × Desc)) : Prop where
  held : k.held = pre ++ (code, d) :: post
  code : code ≠ 0
  apart : Apart k.held
  bal : ∀ i, L i → exc k i = heldCount (pre ++ post) i
  flags : FlagsL L k
  pend : k.pending.code = 0
  keys : Owned k (pre ++ post)
  ctx : Ctx L Y tap alt k.config

/-- The effect of an action other than `overloadi` when its key goes down. -/
structure Struck (L : Nat → Prop) (d : Desc) (code : Code) (k k' : Kbd) : Prop where
  held : k'.held = k.held
  config : k'.config = k.config
  exc : ∀ i, L i → exc k' i = Keyd.exc k i + unit d.holds i
  flags : FlagsL L k'
  pend : k'.pending.code = 0 ∨ (k'.pending.code = code ∧ d.deferred = true)
  keys : ∀ c, Plain c → k'.keystate c = true → k.keystate c = true ∨ d.outKey = some c

theorem struck_defer {k : Kbd} {code : Code} {d : Desc} {p : PendingKey} {t : Int} (hp : p.code = code)
    (hd : d.deferred = true) (hf : FlagsL L k) :
    Sat (scheduleTimeout { k with pending := p } t) (Struck L d code k) NoDeact := by
  have hh : d.holds = none := by cases d <;> first | rfl | cases hd
  have ho : d.outKey = none := by cases d <;> first | rfl | cases hd
  refine (Move.schedule (L := L) { k with pending := p } t).imp (fun k' hm => ?_)
  refine ⟨hm.calm.held, hm.calm.config, ?_, hm.flags hf, .inr ⟨by rw [hm.calm.pending]; exact hp, hd⟩, ?_⟩
  · intro i hi
    rw [hm.exc i hi, hh]
    simp [zero, unit, exc]
  · intro c hc h
    rcases hm.keys c hc h with h | h
    · exact .inl h
    · exact h.elim

theorem strike {n : Nat} {k : Kbd} {code : Code} {d : Desc} {dl : Nat} {t : Int}
    (hT : SoberT L Y tap alt d) (hctx : Ctx L Y tap alt k.config) (hcov : Covered L k) (hpend : k.pending.code = 0)
    (hidle : d.idle = false) :
    Sat (processDescriptor n k code d dl true t) (Struck L d code k) NoDeact := by
  cases hd : d.deferred with
  | false =>
    refine (press_ok n k code d dl t hctx hT hd hcov.2 (fun _ => hcov)).imp (fun k' hm => ?_)
    exact ⟨hm.calm.held, hm.calm.config, hm.exc, hm.flags hcov.2, .inl (by rw [hm.calm.pending]; exact hpend), hm.keys⟩
  | true =>
    cases n with
    | zero => exact noDeact_fuel
    | succ n =>
      unfold processDescriptor
      have wrap : ∀ {r : Res Kbd}, Sat r (Struck L d code k) NoDeact →
          Sat (r >>= fun k => .ok (if true = true then { k with lastPressedCode := code } else k)) (Struck L d code k) NoDeact := by
        intro r h
        refine Sat.bind h (fun k1 h1 => ?_)
        exact ⟨h1.held, h1.config, h1.exc, h1.flags, h1.pend, h1.keys⟩
      refine wrap ?_
      cases d with
      | overloadTimeout l a tm => exact struck_defer rfl hd hcov.2
      | overloadTimeoutTap l a tm => exact struck_defer rfl hd hcov.2
      | timeout a tm b => exact struck_defer rfl hd hcov.2
      | overloadIdle a b tm => cases hidle
      | _ => cases hd

theorem heldCount_perm_mid {pre post : List (Code × Desc)} {code : Code} {d : Desc} (hc : code ≠ 0) (i : Nat) :
    (heldCount (pre ++ (code, d) :: post) i : Int) = heldCount (pre ++ post) i + unit d.holds i := by
  rw [heldCount_mid]; simp [hc]

/-- Once its action is taken, the books balance again. -/
theorem Entered.settle {k k' : Kbd} {code : Code} {d d' : Desc} {pre post : List (Code × Desc)}
    (h : Entered L Y tap alt k code d pre post) (hs : Struck L d' code k k') {k'' : Kbd}
    (hheld : k''.held = pre ++ (code, d') :: post) (h2 : k''.pending = k'.pending) (h3 : k''.config = k'.config)
    (h4 : k''.layerState = k'.layerState) (h5 : k''.keystate = k'.keystate) : InBalance L Y tap alt k'' := by
  refine ⟨?_, ?_, ?_, ?_, ?_, ?_⟩
  · have := h.apart
    rw [h.held] at this
    rw [hheld]
    unfold Apart at this ⊢
    rw [List.pairwise_append] at this ⊢
    rw [List.pairwise_cons] at this ⊢
    refine ⟨this.1, ⟨this.2.1.1, this.2.1.2⟩, ?_⟩
    intro a ha b hb
    rcases List.mem_cons.1 hb with rfl | hb
    · exact this.2.2 a ha (code, d) (List.mem_cons_self ..)
    · exact this.2.2 a ha b (List.mem_cons_of_mem _ hb)
  · intro i hi
    have e : exc k'' i = exc k' i := by unfold exc; rw [h4]
    rw [e, hs.exc i hi, h.bal i hi, hheld, heldCount_perm_mid h.code]
  · unfold FlagsL; rw [h4]; exact hs.flags
  · intro hne
    rw [h2] at hne ⊢
    rcases hs.pend with h | ⟨h, hd⟩
    · exact absurd h hne
    · exact ⟨(code, d'), by rw [hheld]; simp, h.symm, hd⟩
  · intro c hc hd
    rw [h5] at hd
    rw [hheld]
    rcases hs.keys c hc hd with hd | hd
    · obtain ⟨p, hp, hx⟩ := h.keys c hc hd
      refine ⟨p, ?_, hx⟩
      rw [List.mem_append] at hp ⊢
      rcases hp with hp | hp
      · exact .inl hp
      · exact .inr (List.mem_cons_of_mem _ hp)
    · exact ⟨(code, d'), by simp, h.code, hd⟩
  · rw [h3, hs.config]; exact h.ctx

theorem modifyFirst_held {code : Code} {d' : Desc} : ∀ (l : List CacheEntry) {pre post : List (Code × Desc)} {d : Desc},
    l.map (fun e => (e.code, e.d)) = pre ++ (code, d) :: post → (∀ p ∈ pre, p.1 ≠ code) →
    (modifyFirst (fun e => decide (e.code = code)) (fun e => { e with d := d' }) l).map (fun e => (e.code, e.d)) =
      pre ++ (code, d') :: post
  | [], pre, post, d, h, _ => by simp at h
  | e :: l, pre, post, d, h, hp => by
    cases pre with
    | nil =>
      simp at h
      obtain ⟨⟨h1, h2⟩, h3⟩ := h
      unfold modifyFirst
      rw [if_pos (by simpa using h1)]
      simp [h1, h3]
    | cons p pre =>
      simp only [List.map_cons, List.cons_append, List.cons.injEq] at h
      obtain ⟨h1, h2⟩ := h
      unfold modifyFirst
      have : e.code ≠ code := by have := hp p (List.mem_cons_self ..); rw [← h1] at this; exact this
      rw [if_neg (by simpa using this)]
      simp only [List.map_cons, List.cons_append, List.cons.injEq]
      exact ⟨h1, modifyFirst_held l h2 (fun q hq => hp q (List.mem_cons_of_mem _ hq))⟩

theorem Entered.pre_ne {k : Kbd} {code : Code} {d : Desc} {pre post : List (Code × Desc)}
    (h : Entered L Y tap alt k code d pre post) : ∀ p ∈ pre, p.1 ≠ code := by
  intro p hp e
  have := h.apart
  rw [h.held] at this
  unfold Apart at this
  rw [List.pairwise_append] at this
  exact this.2.2 p hp (code, d) (List.mem_cons_self ..) (by rw [e]; exact h.code) e

theorem Entered.covered {k : Kbd} {code : Code} {d : Desc} {pre post : List (Code × Desc)}
    (h : Entered L Y tap alt k code d pre post) : Covered L k :=
  ⟨fun i hi => by rw [h.bal i hi]; omega, h.flags⟩

/-- Pressing restores the balance. -/
theorem Entered.press {n : Nat} {k : Kbd} {code : Code} {d : Desc} {dl : Nat} {t : Int} {pre post : List (Code × Desc)}
    (h : Entered L Y tap alt k code d pre post) (hT : SoberT L Y tap alt d) :
    Sat (processDescriptor n k code d dl true t) (InBalance L Y tap alt) NoDeact := by
  cases hidle : d.idle with
  | false =>
    refine (strike hT h.ctx h.covered h.pend hidle).imp (fun k' hs => ?_)
    exact h.settle hs (by rw [hs.held, h.held]) rfl rfl rfl rfl
  | true =>
    cases n with
    | zero => exact noDeact_fuel
    | succ n =>
      cases d with
      | overloadIdle a b tm =>
        unfold processDescriptor
        have key : Sat (pdOverloadIdle (processDescriptor n) k code a b tm dl t) (InBalance L Y tap alt) NoDeact := by
          unfold pdOverloadIdle
          dsimp only
          have hact : SoberT L Y tap alt (idleAction k a b tm t) ∧ (idleAction k a b tm t).idle = false := by
            unfold idleAction
            split
            · exact ⟨h.ctx.table.descs _, h.ctx.alts _ hT.2.2⟩
            · exact ⟨h.ctx.table.descs _, h.ctx.alts _ hT.2.1⟩
          revert hact
          generalize idleAction k a b tm t = act
          rintro ⟨hact, hact'⟩
          refine Sat.bind (strike hact h.ctx h.covered h.pend hact') (fun k1 hs => ?_)
          refine h.settle hs ?_ rfl rfl rfl rfl
          exact modifyFirst_held k1.cache (by rw [← h.held, ← hs.held]; rfl) h.pre_ne
        refine Sat.bind (Q := InBalance L Y tap alt) key (fun k1 h1 => ?_)
        exact h1.frame rfl rfl rfl rfl rfl
      | _ => cases hidle

theorem cacheSlot_split {code : Code} : ∀ (l : List CacheEntry) (i : Nat) (acc : Option Nat) (s : Nat),
    cacheSlot code l i acc = some s →
    (∃ pre x post, l = pre ++ x :: post ∧ s = i + pre.length ∧ x.code = code ∧ ∀ e ∈ pre, e.code ≠ code) ∨
    ((∀ e ∈ l, e.code ≠ code) ∧ (acc = some s ∨ ∃ pre x post, l = pre ++ x :: post ∧ s = i + pre.length ∧ x.code = 0))
  | [], i, acc, s, h => .inr ⟨by simp, .inl h⟩
  | e :: l, i, acc, s, h => by
    unfold cacheSlot at h
    split at h
    · rename_i hc
      cases h
      exact .inl ⟨[], e, l, rfl, by simp, hc, by simp⟩
    · rename_i hc
      rcases cacheSlot_split l (i+1) _ s h with ⟨pre, x, post, h1, h2, h3, h4⟩ | ⟨h1, h2⟩
      · refine .inl ⟨e :: pre, x, post, by rw [h1]; rfl, by simp; omega, h3, ?_⟩
        intro y hy
        rcases List.mem_cons.1 hy with rfl | hy
        · exact hc
        · exact h4 y hy
      · refine .inr ⟨?_, ?_⟩
        · intro y hy
          rcases List.mem_cons.1 hy with rfl | hy
          · exact hc
          · exact h1 y hy
        · rcases h2 with h2 | ⟨pre, x, post, g1, g2, g3⟩
          · split at h2
            · rename_i h0
              cases h2
              exact .inr ⟨[], e, l, rfl, by simp, h0⟩
            · exact .inl h2
          · exact .inr ⟨e :: pre, x, post, by rw [g1]; rfl, by simp; omega, g3⟩

/-- `cache_set` with an entry. -/
theorem cacheSet_some_split {k k' : Kbd} {code : Code} {ent : CacheEntry} (h : cacheSet k code (some ent) = some k') :
    ∃ pre x post, k.cache = pre ++ x :: post ∧ k' = { k with cache := pre ++ { ent with code := code } :: post } ∧
      (x.code = code ∨ (x.code = 0 ∧ ∀ e ∈ k.cache, e.code ≠ code)) := by
  unfold cacheSet at h
  split at h
  · cases h
  · rename_i s hs
    cases h
    have key : ∀ pre x post, k.cache = pre ++ x :: post → s = 0 + pre.length →
        k.cache.set s { ent with code := code } = pre ++ { ent with code := code } :: post := by
      intro pre x post h1 h2
      rw [h1, h2, Nat.zero_add, List.set_append_right _ _ (Nat.le_refl _)]
      simp
    rcases cacheSlot_split _ _ _ _ hs with ⟨pre, x, post, h1, h2, h3, _⟩ | ⟨h1, h2⟩
    · exact ⟨pre, x, post, h1, by simp [key pre x post h1 h2], .inl h3⟩
    · rcases h2 with h2 | ⟨pre, x, post, g1, g2, g3⟩
      · cases h2
      · exact ⟨pre, x, post, g1, by simp [key pre x post g1 g2], .inr ⟨g3, h1⟩⟩

theorem modify_mid {α : Type} (f : α → α) (x : α) (post : List α) : ∀ (pre : List α),
    (pre ++ x :: post).modify pre.length f = pre ++ f x :: post
  | [] => by simp [List.modify_zero_cons]
  | a :: pre => by simp [List.modify_succ_cons, modify_mid f x post pre]

/-- `cache_set(code, NULL)` on a held key. -/
theorem cacheSet_none_split {k : Kbd} {code : Code} {ce : CacheEntry} (h : cacheGet k code = some ce) :
    ∃ pre post, k.cache = pre ++ ce :: post ∧ ce.code = code ∧ (∀ e ∈ pre, e.code ≠ code) ∧
      cacheSet k code none = some { k with cache := pre ++ { ce with code := 0 } :: post } := by
  unfold cacheGet at h
  rw [List.find?_eq_some_iff_append] at h
  obtain ⟨hc, pre, post, hl, hp⟩ := h
  have hc : ce.code = code := by simpa using hc
  have hp : ∀ e ∈ pre, e.code ≠ code := by intro e he; simpa using hp e he
  refine ⟨pre, post, hl, hc, hp, ?_⟩
  have slot : ∀ (pre : List CacheEntry) (i : Nat) (acc : Option Nat), (∀ e ∈ pre, e.code ≠ code) →
      cacheSlot code (pre ++ ce :: post) i acc = some (i + pre.length) := by
    intro pre
    induction pre with
    | nil => intro i acc _; unfold cacheSlot; simp [hc]
    | cons e pre ih =>
      intro i acc h
      have := h e (List.mem_cons_self ..)
      simp only [List.cons_append]
      unfold cacheSlot
      rw [if_neg this, ih _ _ (fun x hx => h x (List.mem_cons_of_mem _ hx))]
      simp; omega
  unfold cacheSet
  rw [hl, slot pre 0 none hp]
  simp only [Nat.zero_add]
  rw [modify_mid]

theorem apart_mid {pre post : List (Code × Desc)} {p q : Code × Desc} (h : Apart (pre ++ p :: post))
    (hq : q.1 ≠ 0 → ∀ x ∈ pre ++ post, x.1 ≠ q.1) : Apart (pre ++ q :: post) := by
  unfold Apart at h ⊢
  rw [List.pairwise_append, List.pairwise_cons] at h ⊢
  refine ⟨h.1, ⟨?_, h.2.1.2⟩, ?_⟩
  · intro x hx hq0 e
    exact hq hq0 x (List.mem_append.2 (.inr hx)) e.symm
  · intro x hx y hy
    rcases List.mem_cons.1 hy with rfl | hy
    · intro hx0 e
      exact hq (by rw [← e]; exact hx0) x (List.mem_append.2 (.inl hx)) e
    · exact h.2.2 x hx y (List.mem_cons_of_mem _ hy)

theorem apart_others {pre post : List (Code × Desc)} {p : Code × Desc} (h : Apart (pre ++ p :: post)) (hp : p.1 ≠ 0) :
    ∀ x ∈ pre ++ post, x.1 ≠ p.1 := by
  unfold Apart at h
  rw [List.pairwise_append, List.pairwise_cons] at h
  intro x hx e
  rcases List.mem_append.1 hx with hx | hx
  · exact h.2.2 x hx p (List.mem_cons_self ..) (by rw [e]; exact hp) e
  · exact h.2.1.1 x hx hp e.symm

/-- Entering a key among the held ones, over a slot that keeps nothing active or
down. -/
theorem InBalance.enter {k k' : Kbd} (h : InBalance L Y tap alt k) {code : Code} {d : Desc} {x : Code × Desc}
    {pre post : List (Code × Desc)} (hk : k.held = pre ++ x :: post) (hk' : k'.held = pre ++ (code, d) :: post)
    (hc : code ≠ 0) (hx : x.1 = code ∧ x.2.deferred = true ∨ x.1 = 0 ∧ ∀ p ∈ k.held, p.1 ≠ code)
    (h1 : k'.layerState = k.layerState) (h2 : k'.keystate = k.keystate) (h3 : k'.config = k.config)
    (h4 : k'.pending.code = 0) : Entered L Y tap alt k' code d pre post := by
  have hnone : x.1 ≠ 0 → x.2.holds = none ∧ x.2.outKey = none := by
    intro h0
    rcases hx with ⟨_, hd⟩ | ⟨h, _⟩
    · revert hd
      cases x.2 <;> intro hd <;> first | exact ⟨rfl, rfl⟩ | cases hd
    · exact absurd h h0
  refine ⟨hk', hc, ?_, ?_, by unfold FlagsL; rw [h1]; exact h.flags, h4, ?_, by rw [h3]; exact h.ctx⟩
  · have ha := h.apart
    rw [hk'] 
    rw [hk] at ha
    refine apart_mid ha (fun _ => ?_)
    rcases hx with ⟨h, _⟩ | ⟨_, h⟩
    · have := apart_others ha (by rw [h]; exact hc)
      rw [h] at this
      exact this
    · intro y hy
      refine h y ?_
      rw [hk]
      rw [List.mem_append] at hy ⊢
      exact hy.imp id (List.mem_cons_of_mem _)
  · intro i hi
    have e : exc k' i = exc k i := by unfold exc; rw [h1]
    rw [e, h.bal i hi, hk, heldCount_mid]
    split
    · omega
    · rename_i h0
      rw [(hnone h0).1]; simp [unit]
  · intro c hc' hd
    rw [h2] at hd
    obtain ⟨p, hp, hp0, hp1⟩ := h.keys c hc' hd
    rw [hk, List.mem_append, List.mem_cons] at hp
    rcases hp with hp | rfl | hp
    · exact ⟨p, List.mem_append.2 (.inl hp), hp0, hp1⟩
    · rw [(hnone hp0).2] at hp1; cases hp1
    · exact ⟨p, List.mem_append.2 (.inr hp), hp0, hp1⟩

theorem balance_key (k : Kbd) (c : Code) (p : Bool) (t : Int) (hs : Stored (SoberT L Y tap alt) k)
    (h : InBalance L Y tap alt k) (hpass : PassesPending k c p) :
    Sat (stepKey k c p t) (InBalance L Y tap alt) NoDeact := by
  unfold stepKey
  refine Sat.ite (fun _ => h) (fun hc0 => Sat.ite (fun hp => Sat.ite (fun _ => ?_) (fun hget => ?_)) (fun hp => ?_))
  · exact h.frame rfl rfl rfl rfl rfl
  · have hl := hs.lookup soberT_closed c
    have hpend : k.pending.code = 0 := by
      rcases hpass with h | h | ⟨h, _⟩
      · exact absurd h hc0
      · exact h
      · rw [h] at hp; cases hp
    revert hl
    generalize lookupDescriptor k c = r
    obtain ⟨d, dl⟩ := r
    intro hl
    dsimp only at hl ⊢
    split
    · exact h.frame rfl rfl rfl rfl rfl
    · rename_i k' hk'
      obtain ⟨pre, x, post, h1, h2, h3⟩ := cacheSet_some_split hk'
      have hno : ∀ e ∈ k.cache, e.code ≠ c := by
        intro e he hec
        apply hget
        unfold cacheGet
        rw [List.find?_isSome]
        exact ⟨e, he, by simpa using hec⟩
      have hx0 : x.code = 0 := by
        rcases h3 with h3 | h3
        · exact absurd h3 (hno x (by rw [h1]; simp))
        · exact h3.1
      subst h2
      refine Entered.press (pre := pre.map fun e => (e.code, e.d)) (post := post.map fun e => (e.code, e.d))
        (h.enter (x := (x.code, x.d)) (by unfold Kbd.held; rw [h1]; simp) ?_ hc0 (.inr ⟨hx0, ?_⟩) rfl rfl rfl hpend) hl
      · simp [Kbd.held, Kbd.log]
      · intro q hq
        obtain ⟨e, he, rfl⟩ := List.mem_map.1 hq
        exact hno e he
  · split
    · exact h.frame rfl rfl rfl rfl rfl
    · rename_i ce hce
      dsimp only
      obtain ⟨pre, post, h1, h2, h3, h4⟩ := cacheSet_none_split hce
      have hT : SoberT L Y tap alt ce.d := hs.cache ce (List.mem_of_find?_eq_some hce)
      rw [h4]
      simp only [Option.getD_some]
      have hheld : k.held = pre.map (fun e => (e.code, e.d)) ++ (c, ce.d) :: post.map (fun e => (e.code, e.d)) := by
        unfold Kbd.held; rw [h1]; simp [h2]
      have hheld' : ({ k with cache := pre ++ { ce with code := 0 } :: post } : Kbd).held =
          pre.map (fun e => (e.code, e.d)) ++ (0, ce.d) :: post.map (fun e => (e.code, e.d)) := by
        unfold Kbd.held; simp
      revert hheld hheld'
      generalize pre.map (fun e => (e.code, e.d)) = pre'
      generalize post.map (fun e => (e.code, e.d)) = post'
      generalize hk1 : ({ k with cache := pre ++ { ce with code := 0 } :: post } : Kbd) = k1
      intro hheld hheld'
      have e1 : ∀ i, exc (k1.log (.key c false t (some (ce.d, ce.dl)))) i = exc k i := by
        intro i; rw [← hk1]; rfl
      have e2 : (k1.log (.key c false t (some (ce.d, ce.dl)))).config = k.config := by rw [← hk1]; rfl
      have e3 : (k1.log (.key c false t (some (ce.d, ce.dl)))).held = pre' ++ (0, ce.d) :: post' := hheld'
      have e4 : (k1.log (.key c false t (some (ce.d, ce.dl)))).layerState = k.layerState := by rw [← hk1]; rfl
      have e5 : (k1.log (.key c false t (some (ce.d, ce.dl)))).keystate = k.keystate := by rw [← hk1]; rfl
      have e6 : (k1.log (.key c false t (some (ce.d, ce.dl)))).pending = k.pending := by rw [← hk1]; rfl
      revert e1 e2 e3 e4 e5 e6
      generalize k1.log (.key c false t (some (ce.d, ce.dl))) = k2
      intro e1 e2 e3 e4 e5 e6
      have hexc : ∀ i, L i → exc k i = heldCount (pre' ++ post') i + unit ce.d.holds i := by
        intro i hi
        rw [h.bal i hi, hheld, heldCount_mid]
        simp [hc0]
      refine (release_ok _ k2 c ce.d ce.dl t (by rw [e2]; exact h.ctx) hT (by unfold FlagsL; rw [e4]; exact h.flags) ?_).imp ?_
      · intro i hi
        rw [e1, hexc i hi]
        omega
      · rintro k' ⟨hm, hup⟩
        have ha := h.apart
        refine ⟨?_, ?_, hm.flags (by unfold FlagsL; rw [e4]; exact h.flags), ?_, ?_, by rw [hm.calm.config, e2]; exact h.ctx⟩
        · rw [hm.calm.held, e3]
          rw [hheld] at ha
          exact apart_mid ha (fun h => absurd rfl h)
        · intro i hi
          rw [hm.exc i hi, e1, hexc i hi, hm.calm.held, e3, heldCount_mid]
          simp
          omega
        · rw [hm.calm.pending, e6]
          intro hne
          obtain ⟨q, hq, hq1, hq2⟩ := h.pend hne
          have hcne : c ≠ k.pending.code := by
            rcases hpass with h | h | ⟨_, h⟩
            · exact absurd h hc0
            · exact absurd h hne
            · exact h
          rw [hheld, List.mem_append, List.mem_cons] at hq
          rw [hm.calm.held, e3]
          rcases hq with hq | rfl | hq
          · exact ⟨q, List.mem_append.2 (.inl hq), hq1, hq2⟩
          · exact absurd hq1 hcne
          · exact ⟨q, List.mem_append.2 (.inr (List.mem_cons_of_mem _ hq)), hq1, hq2⟩
        · intro x hx hd
          rcases hm.keys x hx hd with h0 | h0
          · rw [e5] at h0
            obtain ⟨q, hq, hq0, hq1⟩ := h.keys x hx h0
            rw [hheld, List.mem_append, List.mem_cons] at hq
            rw [hm.calm.held, e3]
            rcases hq with hq | rfl | hq
            · exact ⟨q, List.mem_append.2 (.inl hq), hq0, hq1⟩
            · rw [hup x hx hq1] at hd; cases hd
            · exact ⟨q, List.mem_append.2 (.inr (List.mem_cons_of_mem _ hq)), hq0, hq1⟩
          · exact h0.elim

theorem balance_resolve (k : Kbd) (a : Desc) (t : Int) (h : InBalance L Y tap alt k) (hc : k.pending.code ≠ 0)
    (hT : SoberT L Y tap alt a) :
    Sat (resolvePendingStep k a t) (fun r => InBalance L Y tap alt r.1) NoDeact := by
  unfold resolvePendingStep
  dsimp only
  refine Sat.bind (Q := InBalance L Y tap alt) ?_ (fun k1 h1 => h1)
  obtain ⟨q, hq, hq1, hq2⟩ := h.pend hc
  obtain ⟨e, he, rfl⟩ := List.mem_map.1 hq
  cases hset : cacheSet { k with pending := { k.pending with code := 0, queue := [], tapExpiry := 0 } } k.pending.code
      (some { d := a, dl := k.pending.dl, layer := 0 }) with
  | none =>
    exfalso
    unfold cacheSet at hset
    split at hset
    · rename_i hslot
      have hg : (cacheGet k k.pending.code).isSome := by
        unfold cacheGet
        rw [List.find?_isSome]
        exact ⟨e, he, by simpa using hq1⟩
      obtain ⟨ce, hce⟩ := Option.isSome_iff_exists.1 hg
      obtain ⟨_, _, _, _, _, h4⟩ := cacheSet_none_split hce
      unfold cacheSet at h4
      rw [show cacheSlot k.pending.code k.cache 0 none = none from hslot] at h4
      cases h4
    · cases hset
  | some k' =>
    simp only [Option.getD_some]
    obtain ⟨pre, x, post, h1, h2, h3⟩ := cacheSet_some_split hset
    have h1 : k.cache = pre ++ x :: post := h1
    have hxc : x.code = k.pending.code := by
      rcases h3 with h3 | ⟨_, h3⟩
      · exact h3
      · exact absurd hq1 (h3 e he)
    have hheld : k.held = pre.map (fun e => (e.code, e.d)) ++ (x.code, x.d) :: post.map (fun e => (e.code, e.d)) := by
      unfold Kbd.held; rw [h1]; simp
    have hxd : x.d.deferred = true := by
      have ho := apart_others (p := (x.code, x.d)) (by rw [← hheld]; exact h.apart) (by simpa [hxc] using hc)
      rw [hheld, List.mem_append, List.mem_cons] at hq
      rcases hq with hq | hq | hq
      · exact absurd (hq1.trans hxc.symm) (ho _ (List.mem_append.2 (.inl hq)))
      · have : e.d = x.d := by injection hq
        rw [← this]; exact hq2
      · exact absurd (hq1.trans hxc.symm) (ho _ (List.mem_append.2 (.inr hq)))
    subst h2
    refine Entered.press (h.enter hheld ?_ hc (.inl ⟨hxc, hxd⟩) rfl rfl rfl rfl) hT
    simp [Kbd.held, Kbd.log]

theorem balance_timers (k : Kbd) (c : Code) (t : Int) (h : InBalance L Y tap alt k) :
    Sat (stepTimers k c t) (InBalance L Y tap alt) NoDeact := by
  unfold stepTimers
  refine Sat.bind (Q := InBalance L Y tap alt) ?_ (fun k1 h1 => ?_)
  · refine Sat.ite (fun _ => ?_) (fun _ => h)
    refine Sat.bind (Move.clearOneshot (L := L) h.covered) (fun k1 h1 => ?_)
    exact (h.move h1).move (Move.updateMods _ _ _)
  · split
    · exact h1
    · refine Sat.ite (fun _ => ?_) (fun _ => Sat.ite (fun _ => ?_) (fun _ => h1))
      · refine InBalance.move (k := { k1 with activeMacro := none }) ?_ (Move.updateMods _ _ _)
        exact h1.frame rfl rfl rfl rfl rfl
      · dsimp only
        refine (Move.schedule (L := L) _ _).imp (fun k2 h2 => InBalance.move ?_ h2)
        exact (h1.move (Move.executeMacro _ _ _)).frame rfl rfl rfl rfl rfl

theorem balance_tInv : TInv (SoberT L Y tap alt) (InBalance L Y tap alt) NoDeact where
  errs := by
    intro e he
    rcases he with rfl | rfl | rfl | rfl | rfl | rfl | rfl <;> (intro h; simp at h)
  chord := fun k ch h => h.frame rfl rfl rfl rfl rfl
  timeouts := fun k ts h => h.frame rfl rfl rfl rfl rfl
  passed := fun k ev h => h.frame rfl rfl rfl rfl rfl
  swallowed := fun k evs h => h.frame rfl rfl rfl rfl rfl
  activeChords := fun k ac h => h.frame rfl rfl rfl rfl rfl
  enqueue := fun k q h => h.frame rfl rfl rfl rfl rfl
  resolve := fun k a t _ h hc _ hT _ => balance_resolve k a t h hc hT
  timers := fun k c t _ h => balance_timers k c t h
  key := fun k c p t hs h hp => balance_key k c p t hs h hp

end Keyd
