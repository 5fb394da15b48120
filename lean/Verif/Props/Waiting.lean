import Verif.Proofs.Undecided
import Verif.Proofs.DirectSteps
import Verif.Spec.Waiting

/-
  C17: `overloadt`, `overloadt2` and `timeout`.
-/

set_option autoImplicit false

namespace Keyd

attribute [local irreducible] configInit

/-- No chord has a say in an event of key `code`. -/
structure Unchorded (k : Kbd) (code : Code) : Prop where
  /-- no chord is being struck -/
  chord : k.chord.state = .inactive
  /-- the key is not part of a chord being held -/
  held : code ≠ 0 → ∀ ac ∈ k.activeChords, ac.active = true → code ∉ ac.chord.keys
  /-- nor of a chord of an active layer -/
  chords : code ≠ 0 → ∀ i < k.config.layers.length, k.isActive i = true →
    ∀ ch ∈ (k.config.layer i).chords, code ∉ ch.keys

theorem Unchorded.of {k k' : Kbd} {code : Code} (h : Unchorded k code) (h1 : k'.chord.state = k.chord.state)
    (h2 : k'.activeChords = k.activeChords) (h3 : k'.config = k.config) (h4 : k'.layerState = k.layerState) :
    Unchorded k' code := by
  refine ⟨h1.trans h.chord, by rw [h2]; exact h.held, ?_⟩
  rw [h3]
  intro hc i hi ha
  unfold Kbd.isActive at ha
  rw [h4] at ha
  exact h.chords hc i hi ha

theorem handleChord_unchorded {k : Kbd} {code : Code} {pressed : Bool} {time : Int} (h : Unchorded k code) (pe : PE) :
    handleChord pe k code pressed time =
      .ok ({ k with chord := { k.chord with
        queue := if code = 0 then [] else [⟨code, pressed, time⟩], «match» := none, startCode := code } }, false) := by
  unfold handleChord
  have : (if code ≠ 0 ∧ (!pressed) = true then findActiveChord code k.activeChords 0 else none) = none := by
    split
    · rename_i hc; exact findActiveChord_none _ _ (h.held hc.1)
    · rfl
  rw [this]
  simp only
  unfold chordMachine
  rw [h.chord]
  simp only
  unfold enqueueChordEvent
  by_cases hc : code = 0
  · simp only [hc, if_true]
    rw [bind_ok]
    unfold chordDecide
    rw [empty_checkChord rfl]
    simp only [h.chord]
  · rw [if_neg hc]
    simp only [List.length_nil, Nat.zero_lt_succ, if_true, List.nil_append, if_neg hc]
    rw [bind_ok]
    unfold chordDecide
    have hcc : ∀ k1 : Kbd, k1.chord.queue = [⟨code, pressed, time⟩] → k1.config = k.config →
        k1.layerState = k.layerState → checkChordMatch k1 = (0, k1) := by
      intro k1 e1 e2 e3
      apply quiet_checkChord e1
      intro i hi ha
      rw [e2] at hi ⊢
      unfold Kbd.isActive at ha
      rw [e3] at ha
      exact h.chords hc i hi ha
    rw [hcc]
    · simp only [h.chord]
    all_goals rfl

theorem processEvent_unchorded {k : Kbd} {code : Code} {pressed : Bool} {time : Int} (h : Unchorded k code) (n : Nat) :
    processEvent (n+1) k code pressed time = (do
      let (k1, handled) ← handlePendingKey (processEvent n) (directEntry k code pressed time) code pressed time
      let k2 ← (if handled then .ok k1 else do
        let k1 ← stepTimers k1 code time
        stepKey k1 code pressed time : Res Kbd)
      .ok (calculateMainLoopTimeout k2 time)) := by
  show processEventBody (processEvent n) k code pressed time = _
  unfold processEventBody
  rw [handleChord_unchorded h, bind_ok]
  simp only [Bool.false_eq_true, if_false]
  have : (if code = 0 then
      ({ k with chord := { k.chord with
        queue := if code = 0 then [] else [⟨code, pressed, time⟩], «match» := none, startCode := code } } : Kbd)
      else ({ k with chord := { k.chord with
        queue := if code = 0 then [] else [⟨code, pressed, time⟩], «match» := none, startCode := code } } : Kbd).log
          (.passed ⟨code, pressed, time⟩)) = directEntry k code pressed time := by
    unfold directEntry
    split <;> rfl
  rw [this]
  cases handlePendingKey (processEvent n) (directEntry k code pressed time) code pressed time with
  | error e => rfl
  | ok r => rfl

/-- C17, press. Pressing a key bound to a waiting action does nothing yet, except that the deadline is
set: nothing is typed, no layer is activated, and the engine asks to be woken no later than the
deadline. -/
theorem C17_press {cfg : Config → Prop} {k k' : Kbd} (h : Reach cfg k) {code : Code} {d tap hold : Desc} {dl T : Nat}
    {kind : Waiter} (hd : Direct k code) (hc : code ≠ 0) (hf : Fresh k code) (fuel : Nat) (t w : Int) (h0 : 0 ≤ t)
    (hl : lookupDescriptor { k with layerState := afterExpiry k t } code = (d, dl))
    (hw : d.waits k.config = some (kind, tap, hold, T))
    (run : kbdProcessEvents (fuel + 1) k [⟨code, true, t⟩] = .ok (k', w)) :
    Pends k' code dl kind tap hold (t + T) [] ∧ k'.typed = k.typed ∧ k'.layerState = afterExpiry k t ∧
    k'.config = k.config ∧ lastUse code k'.steps = some (.pressed d dl) ∧
    (0 < T → t + T ∈ k'.timeouts ∧ 0 < w ∧ w ≤ T) ∧
    (¬(k.oneshotTimeout ≠ 0 ∧ k.oneshotTimeout ≤ t) → k.activeMacro = none → k'.outputs = k.outputs) := by
  obtain ⟨d', dl', k2, k3, hl', ha, hp, hr⟩ := direct_press hd hc hf run
  rw [hl] at hl'
  injection hl' with e1 e2
  subst e1 e2
  have hq : k2.pending.queue = [] := by
    rw [ha.pending]; exact noneBehind_reach h hd.pending
  have key : ∃ p : PendingKey, scheduleTimeout { k2 with pending := p } (t + T) >>= (fun k => .ok { k with lastPressedCode := code }) = .ok k3 ∧
      p.code = code ∧ p.dl = dl ∧ p.behaviour = kind.behaviour ∧ p.action1 = tap ∧ p.action2 = hold ∧ p.expire = t + T ∧
      p.queue = [] := by
    unfold processDescriptor descBudget at hp
    cases d <;> try (cases hw; done)
    all_goals
      simp only [Desc.waits, Option.some.injEq, Prod.mk.injEq] at hw
      obtain ⟨rfl, rfl, rfl, rfl⟩ := hw
      rw [← ha.config]
      exact ⟨_, hp, rfl, rfl, rfl, rfl, rfl, rfl, hq⟩
  obtain ⟨p, hs, p1, p2, p3, p4, p5, p6, p7⟩ := key
  rw [bind_eq_ok] at hs
  obtain ⟨k4, hs, h4⟩ := hs
  injection h4 with h4
  unfold scheduleTimeout at hs
  dsimp only at hs
  split at hs
  · injection hs with hs
    have hk' : k' = (calculateMainLoopTimeout k3 t).1 := congrArg Prod.fst hr
    have hw' : w = (calculateMainLoopTimeout k3 t).2 := congrArg Prod.snd hr
    have hk3 : k3 = { k2 with pending := p, timeouts := k2.timeouts ++ [t + T], lastPressedCode := code } := by
      rw [← h4, ← hs]
    have hmt := mainLoopTimeout_exact k3 t h0
    rw [← hk', ← hw'] at hmt
    refine ⟨⟨hc, ?_, ?_, ?_, ?_, ?_, ?_, ?_, ?_⟩, ?_, ?_, ?_, ?_, ?_, ?_⟩
    · rw [hk', hk3]; exact p1
    · rw [hk', hk3]; exact p2
    · rw [hk', hk3]; exact p3
    · rw [hk', hk3]; exact p4
    · rw [hk', hk3]; exact p5
    · rw [hk', hk3]; exact p6
    · rw [hk', hk3]; exact p7
    · rw [hk', hk3]
      show ∀ e ∈ p.queue, e.code ≠ 0
      rw [p7]; simp
    · rw [hk', hk3]; exact ha.typed
    · rw [hk', hk3]; exact ha.layers
    · rw [hk', hk3]; exact ha.config
    · have : k'.steps = k2.steps := by rw [hk', hk3]; rfl
      rw [this, ha.steps]
      simp [lastUse]
    · intro hT
      have hmem : t + T ∈ k'.timeouts := hmt.2 (t + T) (by rw [hk3]; simp) (by omega)
      refine ⟨hmem, ?_⟩
      have hne : w ≠ 0 := by
        intro e
        have := hmt.1.2.1.1 e
        rw [this] at hmem
        cases hmem
      obtain ⟨g1, g2⟩ := hmt.1.2.2 hne
      have g3 := hmt.1.1 _ g1
      have g4 := g2 _ hmem
      omega
    · intro hx hy
      have := (ha.still hx hy).1
      rw [← this, hk', hk3]
      rfl
  · cases hs

/-- The matter is settled: action `d` is performed as the press of the key, in a state where nothing
else has happened since the event arrived, and after that the events that were waiting are handled in
the order they arrived. -/
def SettledAs (fuel : Nat) (k : Kbd) (code : Code) (dl : Nat) (d : Desc) (t : Int) (waiting : List KeyEvent) (k' : Kbd) : Prop :=
  ∃ k1 k2 k3 w3, k1.outputs = k.outputs ∧ k1.keystate = k.keystate ∧ k1.layerState = k.layerState ∧ k1.config = k.config ∧
    k1.pending.code = 0 ∧ k1.activeChords = k.activeChords ∧ k1.chord.state = k.chord.state ∧
    (∃ more, k1.steps = .resolve code d dl t :: (more ++ k.steps) ∧ ∀ s ∈ more, ∃ ev, s = .passed ev) ∧
    ((∃ e ∈ k.cache, e.code = code) → ∃ ce, cacheGet k1 code = some ce ∧ ce.d = d ∧ ce.dl = dl) ∧
    processDescriptor (descBudget k1) k1 code d dl true t = .ok k2 ∧
    kbdProcessEvents fuel k2 waiting = .ok (k3, w3) ∧
    k' = { k3 with timeouts := k'.timeouts }

theorem cacheSlot_of_mem {code : Code} : ∀ (l : List CacheEntry) (i : Nat) (acc : Option Nat),
    (∃ e ∈ l, e.code = code) → ∃ s, cacheSlot code l i acc = some s
  | [], _, _, h => by obtain ⟨_, h, _⟩ := h; cases h
  | e :: l, i, acc, h => by
    unfold cacheSlot
    split
    · exact ⟨_, rfl⟩
    · rename_i hne
      obtain ⟨e', he', hc'⟩ := h
      rcases List.mem_cons.1 he' with rfl | he'
      · exact absurd hc' hne
      · split <;> exact cacheSlot_of_mem _ _ _ ⟨e', he', hc'⟩

theorem settled {fuel : Nat} {k k' : Kbd} {code : Code} {dl : Nat} {d : Desc} {kind : Waiter} {tap hold : Desc} {expire : Int}
    {queue : List KeyEvent} {ev : KeyEvent} {w : Int} (hp : Pends k code dl kind tap hold expire queue)
    (hu : Unchorded k ev.code) (hm : MemInv k) (hne : ¬ EarlierRelease code queue ev) (hd : d ≠ .none)
    (hdec : ∀ p : PendingKey, p = { k.pending with queue := enqueued queue ev } →
      pendingDecision p ev.code ev.pressed ev.ts = d)
    (run : kbdProcessEvents (fuel + 1) k [ev] = .ok (k', w)) :
    SettledAs fuel k code dl d ev.ts (enqueued queue ev) k' := by
  obtain ⟨ec, ep, et⟩ := ev
  rw [kbdProcessEvents_single, processEvent_unchorded hu, bind_eq_ok] at run
  obtain ⟨⟨k1, b⟩, h1, run⟩ := run
  dsimp only at run h1 hdec hd ⊢
  unfold handlePendingKey at h1
  have hpe : (directEntry k ec ep et).pending = k.pending := rfl
  rw [hpe, if_neg (by rw [hp.code]; exact hp.key)] at h1
  have henq : pendingEnqueue (directEntry k ec ep et) ec ep et = .error (.assertFail "pending_key.queue_sz < ARRAY_SIZE(pending_key.queue)") ∨
      pendingEnqueue (directEntry k ec ep et) ec ep et = .ok (some { directEntry k ec ep et with pending := { k.pending with queue := enqueued queue ⟨ec, ep, et⟩ } }) := by
    unfold pendingEnqueue enqueued
    dsimp only
    by_cases hc : ec = 0
    · right
      rw [if_pos hc, if_pos hc, ← hp.queue]
      rfl
    · rw [if_neg hc, if_neg hc, hpe, hp.queue]
      simp only [hp.code]
      split
      · exact .inl rfl
      · right
        rw [if_neg]
        rintro ⟨x1, x2, x3⟩
        apply hne
        refine ⟨hc, by simpa using x1, x3, ?_⟩
        intro e he hec
        simp only [Bool.not_eq_true', List.any_eq_false, decide_eq_true_eq] at x2
        exact x2 e he hec
  rcases henq with henq | henq
  · rw [henq] at h1; cases h1
  · rw [henq, bind_ok] at h1
    dsimp only at h1
    rw [hdec _ rfl, if_neg hd, bind_eq_ok] at h1
    obtain ⟨⟨k2, q⟩, h2, h1⟩ := h1
    dsimp only at h1
    rw [bind_eq_ok] at h1
    obtain ⟨⟨k3, w3⟩, h3, h1⟩ := h1
    injection h1 with h1
    have e1 := congrArg Prod.fst h1
    have e2 := congrArg Prod.snd h1
    dsimp only at e1 e2
    subst e1 e2
    simp only [if_true] at run
    rw [bind_ok] at run
    injection run with run
    have hk' : k' = (calculateMainLoopTimeout k3 et).1 := (congrArg Prod.fst run).symm
    unfold resolvePendingStep at h2
    dsimp only at h2
    rw [hp.code, hp.dl] at h2
    generalize hkc : ({ directEntry k ec ep et with pending := { k.pending with code := 0, dl := dl, queue := [], tapExpiry := 0 } } : Kbd) = kc at h2
    have hsteps : ∃ more, kc.steps = more ++ k.steps ∧ ∀ s ∈ more, ∃ ev, s = .passed ev := by
      rw [← hkc]
      unfold directEntry
      dsimp only
      split
      · exact ⟨[], rfl, by simp⟩
      · exact ⟨[_], rfl, by simp⟩
    rw [bind_eq_ok] at h2
    obtain ⟨k4, h4, h2⟩ := h2
    injection h2 with h2
    have e3 := congrArg Prod.fst h2
    have e4 := congrArg Prod.snd h2
    dsimp only at e3 e4
    subst e3 e4
    have hcs : ∃ cache', (cacheSet kc code (some { d := d, dl := dl, layer := 0 })).getD kc = { kc with cache := cache' } := by
      unfold cacheSet
      cases cacheSlot code kc.cache 0 none with
      | none => exact ⟨kc.cache, rfl⟩
      | some s => exact ⟨_, rfl⟩
    have hcg : (∃ e ∈ kc.cache, e.code = code) →
        ∃ ce, cacheGet ((cacheSet kc code (some { d := d, dl := dl, layer := 0 })).getD kc) code = some ce ∧ ce.d = d ∧ ce.dl = dl := by
      intro he
      obtain ⟨s, hs⟩ := cacheSlot_of_mem (code := code) kc.cache 0 none he
      cases hset : cacheSet kc code (some { d := d, dl := dl, layer := 0 }) with
      | none => unfold cacheSet at hset; rw [hs] at hset; cases hset
      | some kd =>
        dsimp only [Option.getD_some]
        obtain ⟨_, _, e3, ⟨e, he, hec⟩, _⟩ := cacheSet_entry (by rw [← hkc]; exact hm.uniq) hp.key hset
        cases hg : cacheGet kd code with
        | none => exact absurd hec (cacheGet_none.1 hg e he)
        | some ce =>
          have hmem : ce ∈ kd.cache := List.mem_of_find?_eq_some hg
          have hcc : ce.code = code := by simpa using List.find?_some hg
          have := e3 ce hmem hcc
          exact ⟨ce, rfl, by rw [this], by rw [this]⟩
    have hkce : kc.cache = k.cache := by rw [← hkc]; rfl
    rw [hkce] at hcg
    obtain ⟨cache', hcs⟩ := hcs
    rw [hcs] at h4 hcg
    obtain ⟨more, m1, m2⟩ := hsteps
    refine ⟨({ kc with cache := cache' } : Kbd).log (.resolve code d dl et), _, k3, w3, ?_, ?_, ?_, ?_, ?_, ?_, ?_, ⟨more, ?_, m2⟩, ?_, h4, h3, ?_⟩
    · rw [← hkc]; rfl
    · rw [← hkc]; rfl
    · rw [← hkc]; rfl
    · rw [← hkc]; rfl
    · rw [← hkc]; rfl
    · rw [← hkc]; rfl
    · rw [← hkc]; rfl
    · rw [← m1]; rfl
    · exact hcg
    · rw [hk']; rfl

/-- C17, hold. An event or wakeup at or after the deadline settles the matter as a hold, unless it is
the release of a key pressed before the undecided one. -/
theorem C17_hold {cfg : Config → Prop} {k k' : Kbd} (h : Reach cfg k) {code : Code} {dl : Nat} {kind : Waiter} {tap hold : Desc}
    {expire : Int} {queue : List KeyEvent} (hp : Pends k code dl kind tap hold expire queue) (ev : KeyEvent)
    (hu : Unchorded k ev.code) (hd : hold ≠ .none) (hlate : expire ≤ ev.ts) (hne : ¬ EarlierRelease code queue ev)
    (fuel : Nat) (w : Int) (run : kbdProcessEvents (fuel + 1) k [ev] = .ok (k', w)) :
    SettledAs fuel k code dl hold ev.ts (enqueued queue ev) k' := by
  refine settled hp hu (memInv_reach h) hne hd ?_ run
  rintro p rfl
  unfold pendingDecision
  dsimp only
  rw [if_pos (by rw [hp.expire]; exact hlate), hp.hold]

/-- C17, hold by a nested tap. For `overloadt2`, the release before the deadline of a key that was
pressed after the undecided one settles the matter as a hold. -/
theorem C17_hold_nested {cfg : Config → Prop} {k k' : Kbd} (h : Reach cfg k) {code : Code} {dl : Nat} {tap hold : Desc}
    {expire : Int} {queue : List KeyEvent} (hp : Pends k code dl .overloadt2 tap hold expire queue) (ev : KeyEvent)
    (hu : Unchorded k ev.code) (hd : hold ≠ .none) (hearly : ev.ts < expire) (hrel : ev.pressed = false)
    (hcode : ev.code ≠ code) (hkey : ev.code ≠ 0) (hmem : ∃ e ∈ queue, e.code = ev.code)
    (fuel : Nat) (w : Int) (run : kbdProcessEvents (fuel + 1) k [ev] = .ok (k', w)) :
    SettledAs fuel k code dl hold ev.ts (enqueued queue ev) k' := by
  obtain ⟨e, he, hec⟩ := hmem
  refine settled hp hu (memInv_reach h) (fun hx => hx.2.2.2 e he hec) hd ?_ run
  rintro p rfl
  unfold pendingDecision
  dsimp only
  rw [if_neg (by rw [hp.expire]; omega), hp.code, if_neg hcode, hp.kind, if_neg (by simp [hrel]), if_neg (by simp [hrel]),
    if_pos (by simp [Waiter.behaviour, hrel]), if_pos, hp.hold]
  rw [List.any_eq_true]
  refine ⟨e, ?_, by simpa using hec⟩
  unfold enqueued
  rw [if_neg hkey]
  exact List.mem_append_left _ he

/-- C17, tap. The release of the undecided key itself before the deadline settles the matter as a tap. -/
theorem C17_tap {cfg : Config → Prop} {k k' : Kbd} (h : Reach cfg k) {code : Code} {dl : Nat} {kind : Waiter} {tap hold : Desc}
    {expire : Int} {queue : List KeyEvent} (hp : Pends k code dl kind tap hold expire queue) (t : Int)
    (hu : Unchorded k code) (hd : tap ≠ .none) (hearly : t < expire)
    (fuel : Nat) (w : Int) (run : kbdProcessEvents (fuel + 1) k [⟨code, false, t⟩] = .ok (k', w)) :
    SettledAs fuel k code dl tap t (queue ++ [⟨code, false, t⟩]) k' := by
  have henq : enqueued queue ⟨code, false, t⟩ = queue ++ [⟨code, false, t⟩] := if_neg hp.key
  rw [← henq]
  have hm := memInv_reach h
  refine settled hp (ev := ⟨code, false, t⟩) hu hm (fun hx => hx.2.2.1 rfl) hd ?_ run
  rintro p rfl
  unfold pendingDecision
  dsimp only
  rw [if_neg (by rw [hp.expire]; omega), hp.code, if_pos rfl, hm.tap, if_neg (by simp), hp.tap]

/-- C17, interruption. For `timeout`, the press of another key before the deadline settles the matter
as a tap. -/
theorem C17_interrupted {cfg : Config → Prop} {k k' : Kbd} (h : Reach cfg k) {code : Code} {dl : Nat} {tap hold : Desc}
    {expire : Int} {queue : List KeyEvent} (hp : Pends k code dl .timeout tap hold expire queue) (c : Code) (t : Int)
    (hu : Unchorded k c) (hc : c ≠ 0) (hcode : c ≠ code) (hd : tap ≠ .none) (hearly : t < expire)
    (fuel : Nat) (w : Int) (run : kbdProcessEvents (fuel + 1) k [⟨c, true, t⟩] = .ok (k', w)) :
    SettledAs fuel k code dl tap t (queue ++ [⟨c, true, t⟩]) k' := by
  have henq : enqueued queue ⟨c, true, t⟩ = queue ++ [⟨c, true, t⟩] := if_neg hc
  rw [← henq]
  refine settled hp (ev := ⟨c, true, t⟩) hu (memInv_reach h) (fun hx => by cases hx.2.1) hd ?_ run
  rintro p rfl
  unfold pendingDecision
  dsimp only
  rw [if_neg (by rw [hp.expire]; omega), hp.code, if_neg hcode, hp.kind, if_pos (by simp [Waiter.behaviour, hc]), hp.tap]

/-- Nothing happened except that time went by and the event was noted. -/
structure Idled (k k' : Kbd) : Prop where
  outputs : k'.outputs = k.outputs
  keystate : k'.keystate = k.keystate
  layers : k'.layerState = k.layerState
  config : k'.config = k.config
  cache : k'.cache = k.cache
  chords : k'.activeChords = k.activeChords
  chord : k'.chord.state = k.chord.state

theorem Idled.refl (k : Kbd) : Idled k k := ⟨rfl, rfl, rfl, rfl, rfl, rfl, rfl⟩

theorem Idled.trans {a b c : Kbd} (h : Idled a b) (h' : Idled b c) : Idled a c :=
  ⟨h'.1.trans h.1, h'.2.trans h.2, h'.3.trans h.3, h'.4.trans h.4, h'.5.trans h.5, h'.6.trans h.6, h'.7.trans h.7⟩

/-- C17, undecided. Any other event before the deadline leaves the matter open: the event is put
behind the undecided key, nothing else happens, and the deadline stays in the engine's calendar. -/
theorem C17_undecided {k : Kbd} {code : Code} {dl : Nat} {kind : Waiter} {tap hold : Desc}
    {expire : Int} {queue : List KeyEvent} (hp : Pends k code dl kind tap hold expire queue) (ev : KeyEvent)
    (hu : Unchorded k ev.code) (hearly : ev.ts < expire) (hind : Indecisive kind code queue ev) (hroom : queue.length < 32)
    (fuel : Nat) : ∃ k' w, kbdProcessEvents (fuel + 1) k [ev] = .ok (k', w) ∧
      Pends k' code dl kind tap hold expire (enqueued queue ev) ∧ Idled k k' ∧ (expire ∈ k.timeouts → expire ∈ k'.timeouts) := by
  obtain ⟨ec, ep, et⟩ := ev
  dsimp only at hu hearly
  rw [kbdProcessEvents_single, processEvent_unchorded hu]
  dsimp only
  unfold handlePendingKey
  have hpe : (directEntry k ec ep et).pending = k.pending := rfl
  rw [hpe, if_neg (by rw [hp.code]; exact hp.key)]
  have henq : pendingEnqueue (directEntry k ec ep et) ec ep et = .ok (some { directEntry k ec ep et with pending := { k.pending with queue := enqueued queue ⟨ec, ep, et⟩ } }) := by
    unfold pendingEnqueue enqueued
    dsimp only
    by_cases hc : ec = 0
    · rw [if_pos hc, if_pos hc, ← hp.queue]
      rfl
    · rw [if_neg hc, if_neg hc, hpe, hp.queue, if_neg (by omega)]
      simp only [hp.code]
      rw [if_neg]
      rintro ⟨x1, x2, x3⟩
      rcases hind with e | ⟨_, e, _⟩ | ⟨_, _, _, e, he, hec⟩
      · exact hc e
      · dsimp only at e; rw [e] at x1; cases x1
      · simp only [Bool.not_eq_true', List.any_eq_false, decide_eq_true_eq] at x2
        exact x2 e he hec
  rw [henq, bind_ok]
  dsimp only
  have hcode : ec ≠ code := by
    rcases hind with e | ⟨e, _⟩ | ⟨e, _⟩
    · intro e'; exact hp.key (by rw [← e']; exact e)
    · exact e
    · exact e
  have hdec : pendingDecision { k.pending with queue := enqueued queue ⟨ec, ep, et⟩ } ec ep et = .none := by
    unfold pendingDecision
    dsimp only
    rw [if_neg (by rw [hp.expire]; omega), hp.code, if_neg hcode, hp.kind]
    rcases hind with e | ⟨_, e1, e2⟩ | ⟨_, e1, e2, _⟩
    · dsimp only at e
      rw [if_neg (fun x => x.1 e), if_neg (fun x => x.1 e)]
      have hno : ((enqueued queue ⟨ec, ep, et⟩).any fun x => decide (x.code = ec)) = false := by
        unfold enqueued
        rw [if_pos e, e, List.any_eq_false]
        intro x hx
        simpa using hp.keys x (by rw [hp.queue]; exact hx)
      rw [hno]
      split <;> simp
    · dsimp only at e1
      rw [if_neg (by cases kind <;> simp [Waiter.behaviour] at e2 ⊢), if_neg (by cases kind <;> simp [Waiter.behaviour]), if_neg (by simp [e1])]
    · dsimp only at e1
      rw [if_neg (by simp [e1]), if_neg (by simp [e1]), if_neg (by cases kind <;> simp [Waiter.behaviour] at e2 ⊢)]
  have hkeys : ∀ e ∈ enqueued queue ⟨ec, ep, et⟩, e.code ≠ 0 := by
    unfold enqueued
    split
    · rw [← hp.queue]; exact hp.keys
    · rename_i hc
      intro e he
      rcases List.mem_append.1 he with he | he
      · exact hp.keys e (by rw [hp.queue]; exact he)
      · rw [List.mem_singleton.1 he]; exact hc
  rw [hdec, if_pos rfl, bind_ok]
  simp only [if_true]
  rw [bind_ok]
  refine ⟨_, _, rfl, ⟨hp.key, hp.code, hp.dl, hp.kind, hp.tap, hp.hold, hp.expire, rfl, hkeys⟩, ⟨rfl, rfl, rfl, rfl, rfl, rfl, rfl⟩, ?_⟩
  intro hmem
  show expire ∈ List.filter _ k.timeouts
  rw [List.mem_filter]
  exact ⟨hmem, by simpa using hearly⟩

/-- C17, undecided, for any number of events: as long as every event is before the deadline and none
of them settles the matter, nothing happens. -/
theorem C17_keeps_waiting {code : Code} {dl : Nat} {kind : Waiter} {tap hold : Desc} {expire : Int} (fuel : Nat) :
    ∀ (evs : List KeyEvent) {queue : List KeyEvent} {k : Kbd}, Pends k code dl kind tap hold expire queue →
      AllIndecisive kind code expire queue evs → (∀ ev ∈ evs, Unchorded k ev.code) → queue.length + evs.length ≤ 32 →
      ∃ k', feedEach (fuel + 1) k evs = .ok k' ∧ Pends k' code dl kind tap hold expire (evs.foldl enqueued queue) ∧ Idled k k' ∧
        (expire ∈ k.timeouts → expire ∈ k'.timeouts)
  | [], _, k, hp, _, _, _ => ⟨k, rfl, hp, .refl k, fun h => h⟩
  | ev :: evs, queue, k, hp, ⟨h1, h2, h3⟩, hu, hl => by
    rw [List.length_cons] at hl
    obtain ⟨k1, w, e1, e2, e3, e4⟩ := C17_undecided hp ev (hu ev List.mem_cons_self) h1 h2 (by omega) fuel
    have hlen : (enqueued queue ev).length ≤ queue.length + 1 := by
      unfold enqueued
      split
      · omega
      · rw [List.length_append]; exact Nat.le_refl _
    obtain ⟨k2, g1, g2, g3, g4⟩ := C17_keeps_waiting fuel evs e2 h3
      (fun ev' hev' => (hu ev' (List.mem_cons_of_mem _ hev')).of e3.chord e3.chords e3.config e3.layers) (by omega)
    refine ⟨k2, ?_, g2, e3.trans g3, fun h => g4 (e4 h)⟩
    unfold feedEach
    rw [e1, bind_ok]
    exact g1

theorem stepKey_release {k : Kbd} {code : Code} {t : Int} (hc : code ≠ 0) (hm : MemInv k) :
    Sat (stepKey k code false t) (fun k' => (∃ u, k'.steps = .key code false t u :: k.steps) ∧
      (k'.pending = k.pending ∨ k'.pending.code = code)) AnyErr := by
  unfold stepKey
  rw [if_neg hc, if_neg (by simp)]
  cases hg : cacheGet k code with
  | none => exact ⟨⟨none, rfl⟩, .inl rfl⟩
  | some ce =>
    obtain ⟨pre, post, c1, c2, c3, c4⟩ := cacheSet_none_split hg
    rw [c4]
    dsimp only [Option.getD_some]
    have hu := hm.uniq
    rw [c1] at hu
    have hown : ∀ e ∈ pre ++ { ce with code := 0 } :: post, e.code ≠ code := by
      intro e he hec
      rw [List.mem_append, List.mem_cons] at he
      unfold Uniq at hu
      rw [List.pairwise_append, List.pairwise_cons] at hu
      obtain ⟨_, ⟨h5, _⟩, h6⟩ := hu
      rcases he with he | he | he
      · exact c3 e he hec
      · rw [he] at hec; exact hc hec.symm
      · exact hc (by rw [← c2]; exact h5 e he (c2.trans hec.symm))
    refine (acts_descriptor _ _ code ce.d ce.dl false t (uniq_replace hu (.inr (.inl rfl))) (fun _ => hown)).imp ?_
    rintro k2 ⟨ha, _⟩
    exact ⟨⟨_, ha.steps⟩, ha.target⟩

/-- C17. The release of a key that was pressed before the undecided key is handled at once, whatever
the time; the other key stays undecided (unless the action of the released key itself waits: then
that key is the undecided one). -/
theorem C17_earlier_release {cfg : Config → Prop} {k k' : Kbd} (h : Reach cfg k) {code : Code} {dl : Nat} {kind : Waiter} {tap hold : Desc}
    {expire : Int} {queue : List KeyEvent} (hp : Pends k code dl kind tap hold expire queue) (ev : KeyEvent)
    (hu : Unchorded k ev.code) (hearlier : EarlierRelease code queue ev) (fuel : Nat) (w : Int)
    (run : kbdProcessEvents (fuel + 1) k [ev] = .ok (k', w)) :
    (∃ u, k'.steps = .key ev.code false ev.ts u :: .passed ev :: k.steps) ∧
    (Pends k' code dl kind tap hold expire queue ∨ k'.pending.code = ev.code) := by
  obtain ⟨ec, ep, et⟩ := ev
  obtain ⟨hc, hrel, hcode, hq⟩ := hearlier
  dsimp only at hc hrel hcode hq hu ⊢
  subst hrel
  rw [kbdProcessEvents_single, processEvent_unchorded hu, bind_eq_ok] at run
  obtain ⟨⟨k1, b⟩, h1, run⟩ := run
  dsimp only at run h1
  unfold handlePendingKey at h1
  have hpe : (directEntry k ec false et).pending = k.pending := rfl
  rw [hpe, if_neg (by rw [hp.code]; exact hp.key)] at h1
  have henq : pendingEnqueue (directEntry k ec false et) ec false et = .error (.assertFail "pending_key.queue_sz < ARRAY_SIZE(pending_key.queue)") ∨
      pendingEnqueue (directEntry k ec false et) ec false et = .ok none := by
    unfold pendingEnqueue
    dsimp only
    rw [if_neg hc, hpe, hp.queue]
    split
    · exact .inl rfl
    · right
      rw [if_pos]
      refine ⟨rfl, ?_, by rw [hp.code]; exact hcode⟩
      simp only [Bool.not_eq_true', List.any_eq_false, decide_eq_true_eq]
      exact hq
  rcases henq with henq | henq
  · rw [henq] at h1; cases h1
  · rw [henq, bind_ok] at h1
    dsimp only at h1
    injection h1 with h1
    have e1 := congrArg Prod.fst h1
    have e2 := congrArg Prod.snd h1
    dsimp only at e1 e2
    subst e1 e2
    simp only [Bool.false_eq_true, if_false] at run
    rw [bind_eq_ok] at run
    obtain ⟨k3, h3, run⟩ := run
    rw [bind_eq_ok] at h3
    obtain ⟨k2, h2, h3⟩ := h3
    injection run with run
    have hk' : k' = (calculateMainLoopTimeout k3 et).1 := (congrArg Prod.fst run).symm
    have hg := (Gentle.stepTimers (x := 0) (directEntry k ec false et) ec et).of_ok h2
    have hm : MemInv k2 := by
      refine MemInv.gentle ?_ hg
      unfold directEntry
      simp only [if_neg hc]
      exact ((memInv_reach h).log_other (s := .passed ⟨ec, false, et⟩) trivial (fun _ _ => rfl) (fun _ => rfl)
        (fun _ => rfl)).quiet rfl rfl rfl rfl rfl rfl
    obtain ⟨⟨u, g1⟩, g2⟩ := (stepKey_release (t := et) hc hm).of_ok h3
    have hst : k2.steps = .passed ⟨ec, false, et⟩ :: k.steps := by
      rw [hg.steps]
      unfold directEntry
      simp only [if_neg hc]
    rw [hg.pending, hpe] at g2
    refine ⟨⟨u, by rw [hk']; show k3.steps = _; rw [g1, hst]⟩, ?_⟩
    rcases g2 with g2 | g2
    · left
      have : k'.pending = k.pending := by rw [hk']; exact g2
      exact ⟨hp.key, by rw [this]; exact hp.code, by rw [this]; exact hp.dl, by rw [this]; exact hp.kind, by rw [this]; exact hp.tap,
        by rw [this]; exact hp.hold, by rw [this]; exact hp.expire, by rw [this]; exact hp.queue, by rw [this]; exact hp.keys⟩
    · right
      rw [hk']; exact g2

/-- What settling on a layer means: the layer is activated, nothing is typed, and then the events
that were waiting are handled. -/
theorem C17_hold_effect {fuel : Nat} {k k' : Kbd} {code : Code} {dl l : Nat} {t : Int} {waiting : List KeyEvent}
    (h : SettledAs fuel k code dl (.layer l) t waiting k') :
    ∃ k2 k3 w3, (k2.layerState l).active = (k.layerState l).active + 1 ∧ (∀ i, i ≠ l → k2.layerState i = k.layerState i) ∧
      k2.typed = k.typed ∧ kbdProcessEvents fuel k2 waiting = .ok (k3, w3) ∧ k' = { k3 with timeouts := k'.timeouts } := by
  obtain ⟨k1, k2, k3, w3, a1, a2, a3, a4, a5, a6, a7, a8, a9, hp, hq, he⟩ := h
  refine ⟨k2, k3, w3, ?_⟩
  unfold processDescriptor descBudget at hp
  change (pdLayer k1 code l true >>= fun k => (.ok { k with lastPressedCode := code } : Res Kbd)) = .ok k2 at hp
  rw [bind_eq_ok] at hp
  obtain ⟨k4, h4, hp⟩ := hp
  injection hp with hp
  unfold pdLayer at h4
  rw [if_pos rfl, bind_eq_ok] at h4
  obtain ⟨k5, h5, h4⟩ := h4
  have hty := typed_activateLayer h5
  obtain ⟨cache', h5⟩ := activateLayer_ok h5
  have hl4 : k4.layerState = k5.layerState ∧ k4.typed = k5.typed := by
    split at h4
    · injection h4 with h4
      rw [← h4]
      exact ⟨(KeyFrame.updateMods { k5 with inhibitModifierGuard := true } none 0).layerState, typed_updateMods _ _ _⟩
    · injection h4 with h4
      rw [← h4]
      exact ⟨(KeyFrame.updateMods k5 none 0).layerState, typed_updateMods _ _ _⟩
  have hl2 : k2.layerState = upd k.layerState l { k.layerState l with active := (k.layerState l).active + 1, activationTime := k1.clock } := by
    rw [← hp]
    show k4.layerState = _
    rw [hl4.1, h5, a3]
  refine ⟨?_, ?_, ?_, hq, he⟩
  · rw [hl2, upd_same]
  · intro i hi
    rw [hl2, upd_other _ _ hi]
  · rw [← hp]
    show k4.typed = _
    rw [hl4.2, hty]
    unfold Kbd.typed
    rw [a1]

/-- What settling on a key means: the key is pressed, and then the events that were waiting are
handled, with the key held. -/
theorem C17_tap_effect {fuel : Nat} {k k' : Kbd} {code x : Code} {m : UInt8} {dl : Nat} {t : Int} {waiting : List KeyEvent}
    (hr : RealKey x) (hx : isModifierKey x = false) (h : SettledAs fuel k code dl (.keyseq x m) t waiting k') :
    ∃ k2 k3 w3, k2.typed = k.typed ++ (if k.keystate x then [(x, false)] else []) ++ [(x, true)] ∧ k2.keystate x = true ∧
      k2.pending.code = 0 ∧ k2.activeChords = k.activeChords ∧ k2.chord.state = k.chord.state ∧ k2.config = k.config ∧
      (∀ i, (k2.layerState i).active ≤ (k.layerState i).active) ∧
      ((∃ e ∈ k.cache, e.code = code) → ∃ ce, cacheGet k2 code = some ce ∧ ce.d = .keyseq x m ∧ ce.dl = dl) ∧
      kbdProcessEvents fuel k2 waiting = .ok (k3, w3) ∧ k' = { k3 with timeouts := k'.timeouts } := by
  obtain ⟨k1, k2, k3, w3, a1, a2, a3, a4, a5, a6, a7, a8, a9, hp, hq, he⟩ := h
  refine ⟨k2, k3, w3, ?_⟩
  have hcl : Calm k1 k2 := by
    unfold processDescriptor descBudget at hp
    change (pdKeyseq k1 x m dl true t >>= fun k => (.ok { k with lastPressedCode := code } : Res Kbd)) = .ok k2 at hp
    rw [bind_eq_ok] at hp
    obtain ⟨k4, h4, hp⟩ := hp
    injection hp with hp
    have := (Calm.pdKeyseq k1 x m dl true t).of_ok h4
    rw [← hp]
    exact this.trans ⟨rfl, rfl, rfl, rfl, rfl, rfl, rfl⟩
  unfold processDescriptor descBudget at hp
  change (pdKeyseq k1 x m dl true t >>= fun k => (.ok { k with lastPressedCode := code } : Res Kbd)) = .ok k2 at hp
  rw [bind_eq_ok] at hp
  obtain ⟨k4, h4, hp⟩ := hp
  injection hp with hp
  obtain ⟨e1, e2⟩ := typed_pdKeyseq_press hr hx h4
  have e3 : k1.typed = k.typed := by unfold Kbd.typed; rw [a1]
  have e4 : k2.typed = k4.typed := by rw [← hp]; rfl
  have e5 : k2.keystate = k4.keystate := by rw [← hp]
  refine ⟨?_, ?_, ?_, ?_, ?_, ?_, ?_, ?_, hq, he⟩
  · rw [e4, e1, e3, a2]
  · rw [e5]; exact e2
  · rw [hcl.pending]; exact a5
  · rw [hcl.activeChords]; exact a6
  · rw [hcl.chord]; exact a7
  · rw [hcl.config]; exact a4
  · intro i
    have hls : k2.layerState = k4.layerState := by rw [← hp]
    unfold pdKeyseq at h4
    simp only [if_true] at h4
    rw [bind_eq_ok] at h4
    obtain ⟨k6, h6, h7⟩ := h4
    have h8 : k4.layerState = k6.layerState := by injection h7 with h7; rw [← h7]; split <;> rfl
    obtain ⟨ls, os, e, _, _, hls6⟩ := clearOneshot_spec h6
    have hfr : ∀ z : Kbd, z.layerState = k1.layerState → (sendKey (updateMods z (some dl) m) x true).layerState = k.layerState := by
      intro z hz
      rw [(KeyFrame.send _ _ _).layerState, (KeyFrame.updateMods _ _ _).layerState, hz, a3]
    rw [hls, h8, e]
    dsimp only
    rw [hls6 i, hfr _ (by split <;> first | exact (KeyFrame.send _ _ _).layerState | rfl)]
    repeat' split
    all_goals first | exact Nat.sub_le _ _ | exact Nat.le_refl _
  · intro hm
    obtain ⟨ce, c1, c2, c3⟩ := a9 hm
    obtain ⟨ce', c4, c5, c6⟩ := cacheGet_calm hcl c1
    exact ⟨ce', c4, c5.trans c2, c6.trans c3⟩

/-- C17, a plain tap: a key bound to a waiting action whose tap action is the key `x` is pressed and
released before the deadline, with nothing in between. Then `x` is pressed and released. -/
theorem C17_tap_types {cfg : Config → Prop} {k k' : Kbd} (h : Reach cfg k) {code x : Code} {m : UInt8} {dl : Nat} {kind : Waiter}
    {hold : Desc} {expire : Int} (hp : Pends k code dl kind (.keyseq x m) hold expire [])
    (hheld : ∃ e ∈ k.cache, e.code = code) (hr : RealKey x) (hx : isModifierKey x = false) (t : Int)
    (hu : Unchorded k code) (hearly : t < expire) (fuel : Nat) (w : Int)
    (run : kbdProcessEvents (fuel + 2) k [⟨code, false, t⟩] = .ok (k', w)) :
    k'.typed = k.typed ++ (if k.keystate x then [(x, false)] else []) ++ [(x, true), (x, false)] := by
  have hs := C17_tap h hp t hu (by simp) hearly (fuel + 1) w run
  obtain ⟨k2, k3, w3, b1, b2, b3, b4, b5, b6, b7, b8, b9, b10⟩ := C17_tap_effect hr hx hs
  obtain ⟨ce, c1, c2, c3⟩ := b8 hheld
  have hd : Direct k2 code := by
    refine ⟨b3, b5.trans hu.chord, fun hc => by rw [b4]; exact hu.held hc, fun hc i hi ha => ?_⟩
    rw [b6] at hi ⊢
    refine hu.chords hc i hi ?_
    unfold Kbd.isActive at ha ⊢
    have := b7 i
    simp only [decide_eq_true_eq] at ha ⊢
    omega
  obtain ⟨k4, k5, g1, g2, g3⟩ := direct_release hd hp.key c1 b9
  rw [c2, c3] at g2
  unfold processDescriptor descBudget at g2
  change (pdKeyseq k4 x m dl false t >>= fun k => (.ok k : Res Kbd)) = .ok k5 at g2
  rw [bind_eq_ok] at g2
  obtain ⟨k6, h6, g2⟩ := g2
  injection g2 with g2
  have hk3 : k3 = (calculateMainLoopTimeout k5 t).1 := congrArg Prod.fst g3
  have e1 : k'.typed = k6.typed := by
    rw [b10]
    show k3.typed = _
    rw [hk3, g2]
    rfl
  have e2 : k4.keystate x = true := by rw [g1.keys x hx]; exact b2
  rw [e1, typed_pdKeyseq_release hr hx h6, e2, g1.typed, b1]
  simp

/-! Concrete cases. -/

def pendsCheck (k : Kbd) (code : Code) (dl : Nat) (kind : Waiter) (tap hold : Desc) (expire : Int) (queue : List KeyEvent) : Bool :=
  decide (code ≠ 0) && decide (k.pending.code = code) && decide (k.pending.dl = dl) && decide (k.pending.behaviour = kind.behaviour) &&
  decide (k.pending.action1 = tap) && decide (k.pending.action2 = hold) && decide (k.pending.expire = expire) &&
  decide (k.pending.queue = queue) && k.pending.queue.all (fun e => decide (e.code ≠ 0))

theorem pends_of_check {k : Kbd} {code : Code} {dl : Nat} {kind : Waiter} {tap hold : Desc} {expire : Int} {queue : List KeyEvent}
    (h : pendsCheck k code dl kind tap hold expire queue = true) : Pends k code dl kind tap hold expire queue := by
  unfold pendsCheck at h
  simp only [Bool.and_eq_true, decide_eq_true_eq, List.all_eq_true] at h
  obtain ⟨⟨⟨⟨⟨⟨⟨⟨h1, h2⟩, h3⟩, h4⟩, h5⟩, h6⟩, h7⟩, h8⟩, h9⟩ := h
  exact ⟨h1, h2, h3, h4, h5, h6, h7, h8, h9⟩

def unchordedCheck (k : Kbd) : Bool :=
  decide (k.chord.state = .inactive) && k.activeChords.all (fun ac => !ac.active) &&
  k.config.layers.all (fun l => l.chords.isEmpty)

theorem unchorded_of_check {k : Kbd} (h : unchordedCheck k = true) (code : Code) : Unchorded k code := by
  unfold unchordedCheck at h
  simp only [Bool.and_eq_true, decide_eq_true_eq, List.all_eq_true, Bool.not_eq_true', List.isEmpty_iff] at h
  obtain ⟨⟨h1, h2⟩, h3⟩ := h
  refine ⟨h1, fun _ ac hac ha => ?_, fun _ i hi _ ch hch => ?_⟩
  · rw [h2 ac hac] at ha; cases ha
  · have hl : k.config.layer i ∈ k.config.layers := by
      unfold Config.layer
      rw [List.getD_eq_getElem?_getD, List.getElem?_eq_getElem hi]
      exact List.getElem_mem hi
    rw [h3 _ hl] at hch
    cases hch

def waitText : Str := b!"[main]\na = overloadt(nav, b, 200)\nd = overloadt2(nav, e, 200)\nf = timeout(g, 200, h)\n[nav]\nx = y\n"

/-- A tap; a hold; a hold with a key typed meanwhile, which is handled in the layer. -/
theorem C17_witness_tap : runText waitText [press 30 1000, release 30 1100] = some [.key 48 true, .key 48 false] := by
  set_option maxRecDepth 100000 in decide +kernel

theorem C17_witness_hold : runText waitText [press 30 1000, press 45 1100, release 45 1150, wakeup 1200, release 30 1300] =
    some [.layer 6 true, .key 21 true, .key 21 false, .layer 6 false] := by
  set_option maxRecDepth 100000 in decide +kernel

/-- `overloadt2`: a key is tapped meanwhile. -/
theorem C17_witness_nested : runText waitText [press 32 1000, press 45 1100, release 45 1150] =
    some [.layer 6 true, .key 21 true, .key 21 false] := by
  set_option maxRecDepth 100000 in decide +kernel

/-- `timeout`: another key is pressed meanwhile. -/
theorem C17_witness_interrupted : runText waitText [press 33 1000, press 45 1100] =
    some [.key 34 true, .key 45 true] := by
  set_option maxRecDepth 100000 in decide +kernel

theorem waitWitness1 : checkRun waitText [press 30 1000] (fun _ => true)
    (fun k => unchordedCheck k && pendsCheck k 30 0 .overloadt (.keyseq 48 0) (.layer 6) 1200 [] &&
      k.cache.any (fun e => decide (e.code = 30)) && decide ((1200 : Int) ∈ k.timeouts)) = true := by
  set_option maxRecDepth 100000 in decide +kernel

theorem waitWitness2 : checkRun waitText [press 32 1000, press 45 1100] (fun _ => true)
    (fun k => unchordedCheck k && pendsCheck k 32 0 .overloadt2 (.keyseq 18 0) (.layer 6) 1200 [press 45 1100]) = true := by
  set_option maxRecDepth 100000 in decide +kernel

theorem waitWitness3 : checkRun waitText [press 33 1000] (fun _ => true)
    (fun k => unchordedCheck k && pendsCheck k 33 0 .timeout (.keyseq 34 0) (.keyseq 35 0) 1200 []) = true := by
  set_option maxRecDepth 100000 in decide +kernel

/-- The hypotheses of the theorems about undecided keys are met: for `overloadt` … -/
theorem C17_witness_overloadt : ∃ k, Reach (fun _ => True) k ∧ (∀ c, Unchorded k c) ∧
    Pends k 30 0 .overloadt (.keyseq 48 0) (.layer 6) 1200 [] ∧ (∃ e ∈ k.cache, e.code = 30) ∧ (1200 : Int) ∈ k.timeouts ∧
    AllIndecisive .overloadt 30 1200 [] [press 45 1100, wakeup 1120, release 45 1150] ∧ ¬ EarlierRelease 30 [] (wakeup 1200) := by
  obtain ⟨k, h1, h2⟩ := checkRun_reach (cfg := fun _ => True) waitWitness1 (fun _ _ => trivial)
  simp only [Bool.and_eq_true, decide_eq_true_eq] at h2
  refine ⟨k, h1, unchorded_of_check h2.1.1.1, pends_of_check h2.1.1.2, ?_, h2.2, ?_, ?_⟩
  · have := h2.1.2
    rw [List.any_eq_true] at this
    simpa using this
  · refine ⟨by decide, .inr (.inl ⟨by decide, rfl, by decide⟩), by decide, .inl rfl, by decide,
      .inr (.inr ⟨by decide, rfl, by decide, press 45 1100, by decide, rfl⟩), trivial⟩
  · intro h; exact h.1 rfl

/-- … for `overloadt2` … -/
theorem C17_witness_overloadt2 : ∃ k, Reach (fun _ => True) k ∧ (∀ c, Unchorded k c) ∧
    Pends k 32 0 .overloadt2 (.keyseq 18 0) (.layer 6) 1200 [press 45 1100] := by
  obtain ⟨k, h1, h2⟩ := checkRun_reach (cfg := fun _ => True) waitWitness2 (fun _ _ => trivial)
  simp only [Bool.and_eq_true] at h2
  exact ⟨k, h1, unchorded_of_check h2.1, pends_of_check h2.2⟩

/-- … and for `timeout`. -/
theorem C17_witness_timeout : ∃ k, Reach (fun _ => True) k ∧ (∀ c, Unchorded k c) ∧
    Pends k 33 0 .timeout (.keyseq 34 0) (.keyseq 35 0) 1200 [] := by
  obtain ⟨k, h1, h2⟩ := checkRun_reach (cfg := fun _ => True) waitWitness3 (fun _ _ => trivial)
  simp only [Bool.and_eq_true] at h2
  exact ⟨k, h1, unchorded_of_check h2.1, pends_of_check h2.2⟩

theorem waitWitness4 : checkRun waitText [] (fun _ => true)
    (fun k => directCheck k 30 && freshCheck k 30 && decide (k.oneshotTimeout = 0) &&
      decide ((lookupDescriptor k 30) = (.overloadTimeout 6 0 200, 0)) &&
      decide (Desc.waits k.config (.overloadTimeout 6 0 200) = some (.overloadt, .keyseq 48 0, .layer 6, 200))) = true := by
  set_option maxRecDepth 100000 in decide +kernel

/-- The hypotheses of `C17_press` are met. -/
theorem C17_press_witness : ∃ k, Reach (fun _ => True) k ∧ Direct k 30 ∧ Fresh k 30 ∧
    lookupDescriptor { k with layerState := afterExpiry k 1000 } 30 = (.overloadTimeout 6 0 200, 0) ∧
    Desc.waits k.config (.overloadTimeout 6 0 200) = some (.overloadt, .keyseq 48 0, .layer 6, 200) := by
  obtain ⟨k, h1, h2⟩ := checkRun_reach (cfg := fun _ => True) waitWitness4 (fun _ _ => trivial)
  simp only [Bool.and_eq_true, decide_eq_true_eq] at h2
  refine ⟨k, h1, direct_of_check h2.1.1.1.1, fresh_of_check h2.1.1.1.2, ?_, h2.2⟩
  have : afterExpiry k 1000 = k.layerState := by
    unfold afterExpiry
    rw [if_neg (fun h => h.1 h2.1.1.2)]
  rw [this]
  exact h2.1.2

/-- The hypotheses of `C17_earlier_release` are met: `x` was pressed before `a` and is released while
`a` is undecided. -/
theorem waitWitness5 : checkRun waitText [press 45 900, press 30 1000] (fun _ => true)
    (fun k => unchordedCheck k && pendsCheck k 30 0 .overloadt (.keyseq 48 0) (.layer 6) 1200 []) = true := by
  set_option maxRecDepth 100000 in decide +kernel

theorem C17_earlier_witness : ∃ k, Reach (fun _ => True) k ∧ (∀ c, Unchorded k c) ∧
    Pends k 30 0 .overloadt (.keyseq 48 0) (.layer 6) 1200 [] ∧ EarlierRelease 30 [] (release 45 1300) := by
  obtain ⟨k, h1, h2⟩ := checkRun_reach (cfg := fun _ => True) waitWitness5 (fun _ _ => trivial)
  simp only [Bool.and_eq_true] at h2
  exact ⟨k, h1, unchorded_of_check h2.1, pends_of_check h2.2, by decide, rfl, by decide, by simp⟩

end Keyd
