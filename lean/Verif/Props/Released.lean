import Verif.Props.Holding
import Verif.Props.Arrivals
import Verif.Props.Alternation
import Verif.Props.Release

/-
  C03 and C04 in terms of the events that arrived: when every key that was pressed has been released.
-/

set_option autoImplicit false

namespace Keyd

attribute [local irreducible] configInit

/-- Whether the latest event about a key that was acted upon (or ignored) is a press. -/
def lastWay (code : Code) : List Step → Option Bool
  | [] => none
  | .key c p _ _ :: rest => if c = code then some p else lastWay code rest
  | _ :: rest => lastWay code rest

/-- Every key in the table of held keys was pressed and not released since. -/
def Way (k : Kbd) : Prop := ∀ e ∈ k.cache, e.code ≠ 0 → lastWay e.code k.steps = some true

theorem Way.quiet {k k' : Kbd} (h : Way k) (h1 : k'.cache = k.cache) (h2 : k'.steps = k.steps) : Way k' := by
  unfold Way; rw [h1, h2]; exact h

theorem Way.codes {k k' : Kbd} (h : Way k) (h1 : k'.cache.map CacheEntry.code = k.cache.map CacheEntry.code)
    (h2 : k'.steps = k.steps) : Way k' := by
  intro e he h0
  have : e.code ∈ k.cache.map CacheEntry.code := by rw [← h1]; exact List.mem_map_of_mem he
  obtain ⟨e', he', hc⟩ := List.mem_map.1 this
  rw [h2, ← hc]
  exact h e' he' (by rw [hc]; exact h0)

theorem way_key {k : Kbd} (h : MemInv k) (hw : Way k) (code : Code) (p : Bool) (t : Int) : Sat (stepKey k code p t) Way AnyErr := by
  unfold stepKey
  refine Sat.ite (fun _ => hw) (fun hc => Sat.ite (fun hp => ?_) (fun hp => ?_))
  · have other : ∀ (x : Option (Desc × Nat)) (e : CacheEntry), e ∈ k.cache → e.code ≠ 0 → lastWay e.code (.key code true t x :: k.steps) = some true := by
      intro x e he h0
      show (if code = e.code then some true else lastWay e.code k.steps) = some true
      split
      · rfl
      · exact hw e he h0
    refine Sat.ite (fun _ => other none) (fun hn => ?_)
    cases hlk : lookupDescriptor k code with
    | mk d dl =>
      dsimp only
      cases hs : cacheSet k code (some { d := d, dl := dl, layer := 0 }) with
      | none => exact other none
      | some k1 =>
        dsimp only
        obtain ⟨e1, e2, e3, e4, e5, e6⟩ := cacheSet_entry h.uniq hc hs
        refine (acts_descriptor _ (k1.log (.key code true t (some (d, dl)))) code d dl true t e2 (fun h => (by cases h))).imp ?_
        rintro k2 ⟨ha, -⟩
        have : Way (k1.log (.key code true t (some (d, dl)))) := by
          intro e he h0
          have hst : (k1.log (.key code true t (some (d, dl)))).steps = .key code true t (some (d, dl)) :: k.steps := by rw [e1]; rfl
          rw [hst]
          by_cases hec : e.code = code
          · show (if code = e.code then some true else lastWay e.code k.steps) = some true
            rw [if_pos hec.symm]
          · exact other _ e (e5 e he hec h0) h0
        exact this.codes ha.codes ha.steps
  · cases hg : cacheGet k code with
    | none =>
      have hno := cacheGet_none.1 hg
      intro e he h0
      show (if code = e.code then some false else lastWay e.code k.steps) = some true
      rw [if_neg (fun x => hno e he x.symm)]
      exact hw e he h0
    | some ce =>
      obtain ⟨pre, post, c1, c2, c3, c4⟩ := cacheSet_none_split hg
      dsimp only
      rw [c4]
      dsimp only [Option.getD_some]
      have hu := h.uniq
      rw [c1] at hu
      have hown : ∀ e ∈ pre ++ { ce with code := 0 } :: post, e.code ≠ code := by
        intro e he hec
        rw [List.mem_append, List.mem_cons] at he
        unfold Uniq at hu
        rw [List.pairwise_append, List.pairwise_cons] at hu
        obtain ⟨_, ⟨h5, _⟩, h6⟩ := hu
        rcases he with he | he | he
        · exact c3 e he hec
        · rw [he] at hec; exact hc hec.symm
        · exact hc (by rw [← c2]; exact h5 e he (c2.trans hec.symm))
      refine (acts_descriptor _ _ code ce.d ce.dl false t (uniq_replace hu (.inr (.inl rfl))) (fun _ => hown)).imp ?_
      rintro k2 ⟨ha, _⟩
      refine Way.codes ?_ ha.codes ha.steps
      intro e he h0
      have he : e ∈ pre ++ { ce with code := 0 } :: post := he
      show (if code = e.code then some false else lastWay e.code k.steps) = some true
      rw [if_neg (fun x => hown e he x.symm)]
      rw [List.mem_append, List.mem_cons] at he
      refine hw e ?_ h0
      rw [c1, List.mem_append, List.mem_cons]
      rcases he with he | he | he
      · exact .inl he
      · rw [he] at h0; exact absurd rfl h0
      · exact .inr (.inr he)

theorem way_resolve {k : Kbd} (h : MemInv k) (hw : Way k) (hp : k.pending.code ≠ 0) (hin : ∃ e ∈ k.cache, e.code = k.pending.code) (a : Desc) (t : Int) :
    Sat (resolvePendingStep k a t) (fun r => Way r.1) AnyErr := by
  unfold resolvePendingStep
  dsimp only
  have h0 : Uniq ({ k with pending := { k.pending with code := 0, queue := [], tapExpiry := 0 } } : Kbd).cache := h.uniq
  have w0 : Way { k with pending := { k.pending with code := 0, queue := [], tapExpiry := 0 } } := hw.quiet rfl rfl
  have hlast : lastWay k.pending.code k.steps = some true := by
    obtain ⟨e, he, hc⟩ := hin
    rw [← hc]; exact hw e he (by rw [hc]; exact hp)
  have hsteps : ({ k with pending := { k.pending with code := 0, queue := [], tapExpiry := 0 } } : Kbd).steps = k.steps := rfl
  generalize ({ k with pending := { k.pending with code := 0, queue := [], tapExpiry := 0 } } : Kbd) = k0 at h0 w0 hsteps ⊢
  generalize k.pending.code = code at *
  generalize k.pending.dl = dl at *
  cases hs : cacheSet k0 code (some { d := a, dl := dl, layer := 0 }) with
  | none =>
    dsimp only [Option.getD_none]
    refine Sat.bind (acts_descriptor _ (k0.log (.resolve code a dl t)) code a dl true t h0 (fun h => (by cases h))) ?_
    rintro k2 ⟨ha, hl⟩
    refine Way.codes (k := k0.log (.resolve code a dl t)) (k' := k2) ?_ ha.codes ha.steps
    exact fun e he hx => w0 e he hx
  | some k1 =>
    obtain ⟨e1, e2, e3, e4, e5, e6⟩ := cacheSet_entry h0 hp hs
    dsimp only [Option.getD_some]
    refine Sat.bind (acts_descriptor _ (k1.log (.resolve code a dl t)) code a dl true t e2 (fun h => (by cases h))) ?_
    rintro k2 ⟨ha, hl⟩
    refine Way.codes (k := k1.log (.resolve code a dl t)) (k' := k2) ?_ ha.codes ha.steps
    intro e he hx
    have hst : (k1.log (.resolve code a dl t)).steps = .resolve code a dl t :: k0.steps := by rw [e1]; rfl
    rw [hst]
    show lastWay e.code k0.steps = some true
    by_cases hec : e.code = code
    · rw [hec, hsteps]; exact hlast
    · exact w0 e (e5 e he hec hx) hx

/-- What is kept by the engine. -/
structure Tracking (L Y tap alt : Nat → Prop) (k : Kbd) : Prop where
  bal : InBalance L Y tap alt k
  mem : MemInv k
  way : Way k

theorem tracking_tInv (L Y tap alt : Nat → Prop) : TInv (SoberT L Y tap alt) (Tracking L Y tap alt) AnyErr where
  errs _ _ := trivial
  chord k ch h := ⟨balance_tInv.chord k ch h.bal, mem_engineInv.chord k ch h.mem, h.way.quiet rfl rfl⟩
  timeouts k ts h := ⟨balance_tInv.timeouts k ts h.bal, mem_engineInv.timeouts k ts h.mem, h.way.quiet rfl rfl⟩
  passed k ev h := ⟨balance_tInv.passed k ev h.bal, mem_engineInv.passed k ev h.mem, h.way⟩
  swallowed k evs h := by
    refine ⟨balance_tInv.swallowed k evs h.bal, mem_engineInv.swallowed k evs h.mem, ?_⟩
    intro e he h0
    have : ∀ l : List KeyEvent, lastWay e.code (l.map Step.swallowed ++ k.steps) = some true := by
      intro l
      induction l with
      | nil => exact h.way e he h0
      | cons x l ih => exact ih
    have h2 := this evs.reverse
    rw [List.map_reverse] at h2
    exact h2
  activeChords k ac h := ⟨balance_tInv.activeChords k ac h.bal, h.mem.quiet rfl rfl rfl rfl rfl rfl, h.way.quiet rfl rfl⟩
  enqueue k q h := ⟨balance_tInv.enqueue k q h.bal, ⟨h.mem.uniq, h.mem.last, h.mem.start, h.mem.held, h.mem.pend, h.mem.tap, h.mem.log⟩, h.way.quiet rfl rfl⟩
  resolve k a t hs h hp h0 hT ha := by
    refine Sat.intro (fun r hr => ⟨(balance_tInv.resolve k a t hs h.bal hp h0 hT ha).of_ok hr, (mem_engineInv.resolve k a t h.mem hp h0 ha).of_ok hr, ?_⟩)
    refine (way_resolve h.mem h.way hp ?_ a t).of_ok hr
    obtain ⟨q, hq, hq1, _⟩ := h.bal.pend hp
    obtain ⟨e, he, rfl⟩ := List.mem_map.1 hq
    exact ⟨e, he, hq1⟩
  timers k c t hs h := by
    refine Sat.intro (fun r hr => ⟨(balance_tInv.timers k c t hs h.bal).of_ok hr, (mem_engineInv.timers k c t h.mem).of_ok hr, ?_⟩)
    have g := (Gentle.stepTimers (x := 0) k c t).of_ok hr
    have ha : Acts 0 .none false 0 k r := .of_gentle_zero g
    exact h.way.codes ha.codes ha.steps
  key k c p t hs h hp := by
    exact Sat.intro (fun r hr => ⟨(balance_tInv.key k c p t hs h.bal hp).of_ok hr, (mem_engineInv.key k c p t h.mem hp).of_ok hr,
      (way_key h.mem h.way c p t).of_ok hr⟩)

theorem tracking_reach {tap alt : Nat → Prop} {k : Kbd} (h : Reach (fun c => WF c ∧ Orderly tap alt c) k) : Way k := by
  suffices ∃ c, WF c ∧ HistoryOf c k ∧ Stored (SoberT (LayerTarget c) (LayoutTarget c) tap alt) k ∧
      Tracking (LayerTarget c) (LayoutTarget c) tap alt k by
    obtain ⟨_, _, _, _, h⟩ := this
    exact h.way
  induction h with
  | init c hc =>
    refine ⟨c, hc.1, .start, .new soberT_closed (newKeyboard_balance hc.1 hc.2).ctx.table, newKeyboard_balance hc.1 hc.2, newKeyboard_mem c, ?_⟩
    intro e he h0
    have he : e ∈ List.replicate 16 ({} : CacheEntry) := he
    rw [List.eq_of_mem_replicate he] at h0
    exact absurd rfl h0
  | events n k evs k' w _ run ih =>
    obtain ⟨c, h1, h2, h3⟩ := ih
    have e1 := (kbdProcessEvents_sat ((tracking_tInv _ _ tap alt).engineInv soberT_closed) n k evs h3).of_ok run
    exact ⟨c, h1, .events n k evs k' w h2 run, e1⟩
  | bind k e k' ok _ run hc ih =>
    obtain ⟨c, h1, h2, h3, h4⟩ := ih
    have hh := HistoryOf.bind k e k' ok h2 run
    have hf := kbdEval_frame run
    have hl := (layerFacts_history h1 hh).1
    have hctx := sober_ctx hc.1 hl.shape.symm hc.2
    refine ⟨c, h1, hh, ?_, ?_⟩
    · rw [hf]
      exact ⟨h3.cache, h3.a1, h3.a2, h3.chords, hctx.table⟩
    · rw [hf]
      exact ⟨⟨h4.bal.apart, h4.bal.bal, h4.bal.flags, h4.bal.pend, h4.bal.keys, hctx⟩, h4.mem.quiet rfl rfl rfl rfl rfl rfl, h4.way.quiet rfl rfl⟩
  | scroll k s _ ih =>
    obtain ⟨c, h1, h2, h3, h4⟩ := ih
    exact ⟨c, h1, .scroll k s h2, h3.frame rfl rfl rfl rfl, h4.bal.frame rfl rfl rfl rfl rfl, h4.mem.quiet rfl rfl rfl rfl rfl rfl, h4.way.quiet rfl rfl⟩

/-- Every key that was pressed has been released: the last event of each key is a release. -/
def KeysUp (arrived : List KeyEvent) : Prop :=
  ∀ pre e post, arrived = pre ++ e :: post → e.code ≠ 0 → e.pressed = true → ∃ e' ∈ post, e'.code = e.code ∧ e'.pressed = false

theorem lastWay_last {x : Code} (h0 : x ≠ 0) : ∀ steps : List Step, lastWay x steps = some true →
    ∃ pre t, (steps.reverse.filterMap Step.keyEvent).filter (isKey x) = pre ++ [⟨x, true, t⟩]
  | [], h => by cases h
  | s :: steps, h => by
    rw [List.reverse_cons, List.filterMap_append, List.filter_append]
    have skip : s.keyEvent = none → lastWay x steps = some true → ∃ pre t, (steps.reverse.filterMap Step.keyEvent).filter (isKey x) ++
        ([s].filterMap Step.keyEvent).filter (isKey x) = pre ++ [⟨x, true, t⟩] := by
      intro hs hl
      obtain ⟨pre, t, e⟩ := lastWay_last h0 steps hl
      refine ⟨pre, t, ?_⟩
      rw [e, List.filterMap_cons, hs]
      simp
    cases s with
    | key c p t r =>
      have h : (if c = x then some p else lastWay x steps) = some true := h
      split at h
      · rename_i hc
        cases h
        refine ⟨(steps.reverse.filterMap Step.keyEvent).filter (isKey x), t, ?_⟩
        congr 1
        show ([⟨c, true, t⟩] : List KeyEvent).filter (isKey x) = _
        rw [hc]
        simp [isKey, h0]
      · rename_i hc
        obtain ⟨pre, t', e⟩ := lastWay_last h0 steps h
        refine ⟨pre, t', ?_⟩
        rw [e]
        show _ ++ ([⟨c, p, t⟩] : List KeyEvent).filter (isKey x) = _
        have : isKey x ⟨c, p, t⟩ = false := by simp [isKey, hc]
        rw [List.filter_cons, this]
        simp
    | _ => exact skip rfl h

theorem Fed.weaken {cfg cfg' : Config → Prop} (hc : ∀ c, cfg c → cfg' c) {evs : List KeyEvent} {k : Kbd} (h : Fed cfg evs k) : Fed cfg' evs k := by
  induction h with
  | init c h => exact .init c (hc c h)
  | events n k b evs k' w _ run ih => exact .events n k b evs k' w ih run
  | bind k b e k' a _ run h ih => exact .bind k b e k' a ih run (hc _ h)
  | scroll k b s _ hs ih => exact .scroll k b s ih hs

/-- When every key that was pressed has been released and no event waits for the decision of another key, no key is held. -/
theorem keysUp_released {tap alt : Nat → Prop} {arrived : List KeyEvent} {k : Kbd}
    (h : Fed (fun c => Bound c ∧ NoChords c ∧ Orderly tap alt c) arrived k) (hq : k.behindKey = []) (hup : KeysUp arrived) : AllReleased k := by
  intro e he
  by_contra h0
  have hw : Way k := tracking_reach (h.weaken (cfg' := fun c => WF c ∧ Orderly tap alt c) (fun c hc => ⟨C27_wellformed c hc.1, hc.2.2⟩)).reach
  obtain ⟨pre, t, e1⟩ := lastWay_last h0 k.steps (hw e he h0)
  have e2 := C18_key_order_partial arrived k (h.weaken (fun c hc => ⟨hc.1, hc.2.1⟩)) e.code
  rw [hq, List.append_nil] at e2
  have e3 : arrived.filter (isKey e.code) = pre ++ [⟨e.code, true, t⟩] := by rw [← e2]; exact e1
  obtain ⟨l1, l2, s1, s2, s3⟩ := List.filter_eq_append_iff.1 e3
  obtain ⟨m1, m2, t1, t2, t3, t4⟩ := List.filter_eq_cons_iff.1 s3
  obtain ⟨e', h1, h2, h3⟩ := hup (l1 ++ m1) ⟨e.code, true, t⟩ m2 (by rw [s1, t1, List.append_assoc]) h0 rfl
  have : e' ∈ m2.filter (isKey e.code) := List.mem_filter.2 ⟨h1, by simp only [isKey, Bool.and_eq_true, beq_iff_eq, bne_iff_ne]; exact ⟨h2, by rw [h2]; exact h0⟩⟩
  rw [t4] at this
  cases this

/-- C03, for the events that arrived and what the host sees: when every key that was pressed has been released, and no event waits for the
decision of another key, then no key is down at the host, except modifiers (see C81) and keys that macros of several steps have left down. -/
theorem C03_history {tap alt : Nat → Prop} {arrived : List KeyEvent} {k : Kbd} {x : Code}
    (h : Fed (fun c => Bound c ∧ NoChords c ∧ Orderly tap alt c ∧ NotInMacros x c) arrived k) (hq : k.behindKey = []) (hup : KeysUp arrived)
    (hx : Plain x) : ¬ DownAtHost x k.outputs := by
  intro hd
  have hr := keysUp_released (h.weaken (fun c hc => ⟨hc.1, hc.2.1, hc.2.2.1⟩)) hq hup
  have := C03_no_stuck_keys (h.weaken (fun c hc => ⟨C27_wellformed c hc.1, hc.2.2.1⟩)).reach hr hx
  rw [(C01_keystate_is_host_state x k (h.weaken (fun c hc => hc.2.2.2)).reach).2 hd] at this
  cases this

/-- C04, for the events that arrived: when every key that was pressed has been released, and no event waits for the decision of another
key, then a layer is active only as often as it is toggled and as it is to be used for one more key. -/
theorem C04_history {tap alt : Nat → Prop} {arrived : List KeyEvent} {k : Kbd}
    (h : Fed (fun c => Bound c ∧ NoChords c ∧ Orderly tap alt c) arrived k) (hq : k.behindKey = []) (hup : KeysUp arrived)
    {i : Nat} (hi : ordinary k.config i = true) :
    (k.layerState i).active = (if (k.layerState i).toggled then 1 else 0) + (k.layerState i).oneshotDepth := by
  have hr := keysUp_released h hq hup
  rw [(C04_activations_accounted (h.weaken (fun c hc => ⟨C27_wellformed c hc.1, hc.2.2⟩)).reach).1 i hi]
  have : holders k i = 0 := by
    unfold holders
    rw [List.countP_eq_zero]
    intro e he
    simp [hr e he]
  rw [this]; simp

/-! ### A case -/

def keysUpB : List KeyEvent → Bool
  | [] => true
  | e :: post => (e.code == 0 || !e.pressed || post.any (fun e' => e'.code == e.code && !e'.pressed)) && keysUpB post

theorem keysUp_of_check : ∀ evs : List KeyEvent, keysUpB evs = true → KeysUp evs
  | [], _ => by
    intro pre e post h
    cases pre <;> cases h
  | x :: evs, hb => by
    intro pre e post h h0 hp
    simp only [keysUpB, Bool.and_eq_true, Bool.or_eq_true, beq_iff_eq, Bool.not_eq_true', List.any_eq_true] at hb
    cases pre with
    | nil =>
      cases h
      rcases hb.1 with (hb | hb) | ⟨e', h1, h2, h3⟩
      · exact absurd hb h0
      · rw [hp] at hb; cases hb
      · exact ⟨e', h1, h2, h3⟩
    | cons y pre =>
      cases h
      exact keysUp_of_check _ hb.2 pre e post rfl h0 hp

/-- The hypotheses are met after a history with layers held, tapped, toggled and used once, and keys decided late. -/
theorem C03_history_example : ∃ (tap alt : Nat → Prop) (arrived : List KeyEvent) (k : Kbd),
    Fed (fun c => Bound c ∧ NoChords c ∧ Orderly tap alt c ∧ ∀ x, NotInMacros x c) arrived k ∧ k.behindKey = [] ∧ KeysUp arrived ∧ arrived.length = 19 := by
  have h : checkRun holdingText [press 30 10, press 18 20, release 18 30, press 46 40, release 46 50, press 35 60, release 30 70, release 35 80,
     press 32 90, release 32 100, press 32 200, press 35 210, release 35 450, release 32 460, press 18 470, release 18 480,
     press 33 1000, wakeup 1150, release 33 1200] (fun c => orderlyB c && c.layers.all (fun l => l.chords.isEmpty) && c.macros.isEmpty)
     (fun k => k.behindKey == []) = true := by
    set_option maxRecDepth 100000 in decide +kernel
  obtain ⟨c, k, hb, _, hp, hq, hr, _⟩ := checkRun_history h
  simp only [Bool.and_eq_true, List.all_eq_true, List.isEmpty_iff] at hp
  refine ⟨_, _, _, k, fed_run hr ⟨hb, hp.1.2, orderlyB_sound hp.1.1, ?_⟩, by simpa using hq, keysUp_of_check _ (by decide), rfl⟩
  intro x m hm
  rw [hp.2] at hm
  cases hm

end Keyd
