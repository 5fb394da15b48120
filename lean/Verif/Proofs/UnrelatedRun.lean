import Verif.Proofs.MacroBound

/-
  A binding of a key that is not pressed has no effect (C110): the events.
-/

set_option autoImplicit false

namespace Keyd

/-- No press in the list is of a key with additions. -/
def SparedQ (au : Added) (q : List KeyEvent) : Prop := ∀ e ∈ q, e.pressed = true → au.spares e.code

/-- What is known about the keyboard without the additions. -/
structure Fit (c : Config) (au : Added) (k : Kbd) : Prop where
  stored : Stored (InTables c) k
  config : k.config = c
  mac : MacIn c.macros.length k
  pend : SparedQ au k.pending.queue
  queue : k.chord.state = .inactive ∨ SparedQ au k.chord.queue
  slots : k.activeChords.length = 3

/-- The two computations agree up to `g`, and the results satisfy `P`. -/
def Sim {α : Type} (g : α → α) (P : α → Prop) (x' x : Res α) : Prop := x' = x.map g ∧ Sat x P AnyErr

theorem Sim.bind {α β : Type} {g : α → α} {h : β → β} {P : α → Prop} {Q : β → Prop} {x x' : Res α} {f f' : α → Res β} (hx : Sim g P x' x)
    (e : ∀ a, P a → Sim h Q (f' (g a)) (f a)) : Sim h Q (x' >>= f') (x >>= f) := by
  obtain ⟨e1, e2⟩ := hx
  rw [e1]
  cases x with
  | error _ => exact ⟨rfl, trivial⟩
  | ok a => exact e a e2

theorem Sim.imp {α : Type} {g : α → α} {P Q : α → Prop} {x' x : Res α} (h : Sim g P x' x) (hi : ∀ a, P a → Q a) : Sim g Q x' x := ⟨h.1, h.2.imp hi⟩

theorem Sim.fail {α : Type} {g : α → α} {P : α → Prop} (e : Err) : Sim g P (.error e) (.error e) := ⟨rfl, trivial⟩

def augP {α : Type} (au : Added) (r : Kbd × α) : Kbd × α := (r.1.aug au, r.2)

variable {c : Config} {au : Added} {k k' : Kbd}

theorem Fit.same (h : Fit c au k) (e1 : k'.cache = k.cache) (e2 : k'.pending = k.pending) (e3 : k'.activeChords = k.activeChords)
    (e4 : k'.config = k.config) (e5 : k'.activeMacro = k.activeMacro) (e6 : k'.chord = k.chord) : Fit c au k' :=
  ⟨h.stored.frame e1 e2 e3 e4, e4.trans h.config, h.mac.same e5, by rw [e2]; exact h.pend, by rw [e6]; exact h.queue, by rw [e3]; exact h.slots⟩

theorem Fit.calm (h : Fit c au k) (hc : Calm k k') (hm : MacIn c.macros.length k') : Fit c au k' :=
  ⟨h.stored.calm hc, hc.config.trans h.config, hm, by rw [hc.pending]; exact h.pend, by rw [hc.chord]; exact h.queue, by rw [hc.activeChords]; exact h.slots⟩

theorem Fit.chord (h : Fit c au k) (ch : ChordSt) (hq : ch.state = .inactive ∨ SparedQ au ch.queue) : Fit c au { k with chord := ch } :=
  ⟨h.stored.frame rfl rfl rfl rfl, h.config, h.mac.same rfl, h.pend, hq, h.slots⟩

/-- What is known of a later state; while a chord is being resolved nothing happens to the events that wait for it. -/
structure FitR (c : Config) (au : Added) (k k' : Kbd) : Prop where
  fit : Fit c au k'
  chord : k.chord.state = .resolving → k'.chord = k.chord

theorem FitR.trans {a b d : Kbd} (h : FitR c au a b) (h' : FitR c au b d) : FitR c au a d :=
  ⟨h'.fit, fun e => by
    have e1 := h.chord e
    exact (h'.chord (by rw [e1]; exact e)).trans e1⟩

theorem FitR.from {a b : Kbd} (h : FitR c au k a) (e : k.chord = b.chord) : FitR c au b a := ⟨h.fit, fun hb => by rw [← e] at hb ⊢; exact h.chord hb⟩

/-- Events with the additions. -/
def PEAug (c : Config) (au : Added) (pe : PE) : Prop := ∀ k y p t, Fit c au k → (p = true → au.spares y) →
  Sim (augP au) (fun r => FitR c au k r.1) (pe (k.aug au) y p t) (pe k y p t)

theorem fit_schedule (t : Int) (h : Fit c au k) : Sim (Kbd.aug au) (Fit c au) (scheduleTimeout (k.aug au) t) (scheduleTimeout k t) := by
  refine ⟨aug_schedule t, ?_⟩
  unfold scheduleTimeout
  split
  · exact h.same rfl rfl rfl rfl rfl rfl
  · trivial

theorem fit_catchUp {pe : PE} (hpe : PEAug c au pe) : ∀ (n : Nat) (k : Kbd) (w ts lim : Int), Fit c au k →
    Sim (augP au) (fun r => FitR c au k r.1) (catchUp pe n (k.aug au) w ts lim) (catchUp pe n k w ts lim)
  | 0, _, _, _, _, _ => Sim.fail _
  | n + 1, k, w, ts, lim, h => by
    unfold catchUp
    split
    · exact (hpe k 0 false ts h (fun e => nomatch e)).bind (fun a ha => (fit_catchUp hpe n a.1 a.2 (ts + a.2) lim ha.fit).imp (fun _ hb => ha.trans hb))
    · exact ⟨rfl, h, fun _ => rfl⟩

theorem fit_loop {pe : PE} (hpe : PEAug c au pe) : ∀ (evs : List KeyEvent) (k : Kbd) (w ts : Int), Fit c au k → SparedQ au evs →
    Sim (augP au) (fun r => FitR c au k r.1) (processEventsLoop pe evs (k.aug au) w ts) (processEventsLoop pe evs k w ts)
  | [], _, _, _, h, _ => ⟨rfl, h, fun _ => rfl⟩
  | e :: evs, k, w, ts, h, hq => by
    unfold processEventsLoop
    refine (fit_catchUp hpe _ k w ts e.ts h).bind (fun a ha => ?_)
    refine (hpe a.1 e.code e.pressed e.ts ha.fit (hq e List.mem_cons_self)).bind (fun b hb => ?_)
    exact (fit_loop hpe evs b.1 b.2 (e.ts + b.2) hb.fit (fun x hx => hq x (List.mem_cons_of_mem _ hx))).imp (fun _ hd => (ha.trans hb).trans hd)

theorem aug_deref (q : Nat × Nat) : derefChord (k.aug au) q = derefChord k q := by
  unfold derefChord
  rw [show (k.aug au).config = k.config.aug au from rfl, aug_chords]

theorem chord_code {i : Nat} (h : i < 3) : KEYD.CHORD_1 ≤ KEYD.CHORD_1 + UInt8.ofNat i ∧ KEYD.CHORD_1 + UInt8.ofNat i ≤ KEYD.CHORD_MAX := by
  have : i = 0 ∨ i = 1 ∨ i = 2 := by omega
  rcases this with rfl | rfl | rfl <;> decide

theorem fit_install (q : Nat × Nat) (h : Fit c au k) :
    Sim (augP au) (fun r => Fit c au r.1 ∧ au.spares r.2.1 ∧ r.1.chord = k.chord) (installChord (k.aug au) q) (installChord k q) := by
  unfold installChord
  dsimp only
  rw [show (k.aug au).activeChords = k.activeChords from rfl, aug_deref]
  cases hs : freeChordSlot k.activeChords 0 with
  | none => exact Sim.fail _
  | some i =>
    refine ⟨rfl, ?_, .inl (chord_code ?_), rfl⟩
    · refine ⟨⟨h.stored.cache, h.stored.a1, h.stored.a2, ?_, h.stored.table⟩, h.config, h.mac.same rfl, h.pend, h.queue, ?_⟩
      · intro a ha
        rcases List.mem_or_eq_of_mem_set ha with ha | rfl
        · exact h.stored.chords a ha
        · unfold derefChord
          rcases getD_mem_or (k.config.layer q.1).chords q.2 ⟨[], .none⟩ with hm | hm
          · exact h.stored.table.chords _ _ hm
          · dsimp only
            rw [hm]; exact trivial
      · show (k.activeChords.set i _).length = 3
        rw [List.length_set]; exact h.slots
    · obtain ⟨a, _, h1, _⟩ := freeChordSlot_some _ _ _ hs
      have h2 := (List.getElem?_eq_some_iff.1 h1).1
      have h3 := h.slots
      omega

theorem fit_resolveChord {pe : PE} (hpe : PEAug c au pe) (k : Kbd) (h : Fit c au k) (hq : SparedQ au k.chord.queue) :
    Sim (Kbd.aug au) (Fit c au) (resolveChord pe (k.aug au)) (resolveChord pe k) := by
  have h0 : Fit c au { k with chord := { k.chord with state := .resolving } } := h.chord _ (.inr hq)
  unfold resolveChord
  dsimp only
  refine Sim.bind (g := augP au) (P := fun r => Fit c au r.1 ∧ SparedQ au r.1.chord.queue) ?_ (fun a ha => ?_)
  · rw [show (k.aug au).chord = k.chord from rfl]
    split
    · exact ⟨rfl, h0, hq⟩
    · refine (fit_install (k := { k with chord := { k.chord with state := .resolving } }) _ h0).bind (fun b hb => ?_)
      refine (hpe (b.1.logSwallowed (b.1.chord.queue.take b.2.2)) b.2.1 true b.1.chord.lastCodeTime (hb.1.same rfl rfl rfl rfl rfl rfl) (fun _ => hb.2.1)).bind
        (fun d hd => ⟨rfl, hd.fit, ?_⟩)
      have e : d.1.chord = b.1.chord := hd.chord (by show b.1.chord.state = _; rw [hb.2.2])
      show SparedQ au d.1.chord.queue
      rw [e, hb.2.2]
      exact hq
  · obtain ⟨a, n⟩ := a
    show Sim _ _ (if a.chord.queue.length < n then _ else _) (if a.chord.queue.length < n then _ else _)
    split
    · exact Sim.fail _
    · exact (fit_loop hpe _ a 0 0 ha.1 (fun x hx => ha.2 x (List.mem_of_mem_drop hx))).bind (fun d hd => ⟨rfl, hd.fit.chord _ (.inl rfl)⟩)

theorem fit_abortChord {pe : PE} (hpe : PEAug c au pe) (k : Kbd) (h : Fit c au k) (hq : SparedQ au k.chord.queue) :
    Sim (Kbd.aug au) (Fit c au) (abortChord pe (k.aug au)) (abortChord pe k) :=
  fit_resolveChord hpe { k with chord := { k.chord with «match» := none } } (h.chord _ (.inr hq)) hq

theorem Fit.strike (h : Fit c au k) (i : Nat) (a : ActiveChord) (ha : a.chord.d = (k.activeChords.getD i {}).chord.d) :
    Fit c au { k with activeChords := k.activeChords.set i a } := by
  refine ⟨⟨h.stored.cache, h.stored.a1, h.stored.a2, ?_, h.stored.table⟩, h.config, h.mac.same rfl, h.pend, h.queue, ?_⟩
  · intro x hx
    rcases List.mem_or_eq_of_mem_set hx with hx | rfl
    · exact h.stored.chords x hx
    · rw [ha]
      rcases getD_mem_or k.activeChords i {} with hm | hm
      · exact h.stored.chords _ hm
      · rw [hm]; exact trivial
  · show (k.activeChords.set i _).length = 3
    rw [List.length_set]; exact h.slots

theorem fit_strikeChord {pe : PE} (hpe : PEAug c au pe) (i : Nat) (y : Code) (t : Int) (h : Fit c au k) :
    Sim (Kbd.aug au) (FitR c au k) (strikeChord pe (k.aug au) i y t) (strikeChord pe k i y t) := by
  have h' : Fit c au (k.logSwallowed [⟨y, false, t⟩]) := h.same rfl rfl rfl rfl rfl rfl
  unfold strikeChord
  dsimp only
  rw [show (k.aug au).activeChords = k.activeChords from rfl]
  split
  · have g : ∀ (a : ActiveChord) (x : Code), a.chord.d = (k.activeChords.getD i {}).chord.d → Sim (Kbd.aug au) (FitR c au k)
        (do let r ← pe (Kbd.aug au { (k.logSwallowed [⟨y, false, t⟩]) with activeChords := k.activeChords.set i a }) x false t; Except.ok (ε := Err) r.1)
        (do let r ← pe { (k.logSwallowed [⟨y, false, t⟩]) with activeChords := k.activeChords.set i a } x false t; Except.ok (ε := Err) r.1) := fun a x e =>
      (hpe _ x false t (h'.strike i a e) (fun e => nomatch e)).bind (fun d hd => ⟨rfl, hd.from rfl⟩)
    exact g _ _ rfl
  · exact ⟨rfl, h'.strike i _ rfl, fun _ => rfl⟩

theorem fit_handled {P : Kbd → Prop} {x x' : Res Kbd} (b : Bool) (h : Sim (Kbd.aug au) P x' x) :
    Sim (augP au) (fun r => P r.1) (x' >>= fun k => .ok (k, b)) (x >>= fun k => Except.ok (ε := Err) (k, b)) := h.bind (fun _ ha => ⟨rfl, ha⟩)

theorem fit_enqueueChord (y : Code) (p : Bool) (t : Int) (h : Fit c au k) (hq : SparedQ au k.chord.queue) (hy : p = true → au.spares y) :
    Sim (Kbd.aug au) (fun a => Fit c au a ∧ SparedQ au a.chord.queue) (enqueueChordEvent (k.aug au) y p t) (enqueueChordEvent k y p t) := by
  unfold enqueueChordEvent
  rw [show (k.aug au).chord = k.chord from rfl]
  split
  · exact ⟨rfl, h, hq⟩
  · split
    · have hq' : SparedQ au (k.chord.queue ++ [⟨y, p, t⟩]) := by
        intro e he
        rcases List.mem_append.1 he with he | he
        · exact hq e he
        · rw [List.mem_singleton.1 he]; exact hy
      exact ⟨rfl, h.chord _ (.inr hq'), hq'⟩
    · exact Sim.fail _

theorem aug_checkChord : checkChordMatch (k.aug au) = ((checkChordMatch k).1, (checkChordMatch k).2.aug au) := by
  have e : chordScan (k.aug au) = chordScan k := by
    unfold chordScan
    rw [show (k.aug au).config = k.config.aug au from rfl, aug_length]
    congr 1
    funext acc i
    rw [aug_chords]
    rfl
  unfold checkChordMatch
  rw [e]
  dsimp only
  cases (chordScan k).full <;> rfl

theorem Fit.check (h : Fit c au k) (hq : SparedQ au k.chord.queue) : Fit c au (checkChordMatch k).2 ∧ SparedQ au (checkChordMatch k).2.chord.queue := by
  unfold checkChordMatch
  dsimp only
  split
  · exact ⟨h.chord _ (.inr hq), hq⟩
  · exact ⟨h, hq⟩

theorem fit_chordDecide {pe : PE} (hpe : PEAug c au pe) (t : Int) {f f' : Kbd → Res (Kbd × Bool)} (h : Fit c au k) (hq : SparedQ au k.chord.queue)
    (hf : ∀ k, Fit c au k → SparedQ au k.chord.queue → Sim (augP au) (fun r => Fit c au r.1) (f' (Kbd.aug au k)) (f k)) :
    Sim (augP au) (fun r => Fit c au r.1) (chordDecide pe (k.aug au) t f') (chordDecide pe k t f) := by
  have hc := h.check hq
  unfold chordDecide
  rw [aug_checkChord]
  revert hc
  obtain ⟨n, a⟩ := checkChordMatch k
  intro hc
  obtain ⟨hc, hq⟩ := hc
  match n with
  | 0 => exact hf a hc hq
  | 2 =>
    show Sim _ _ (if a.config.chordHoldTimeout ≠ 0 then _ else _) (if a.config.chordHoldTimeout ≠ 0 then _ else _)
    split
    · exact fit_handled true (fit_schedule (k := { a with chord := { a.chord with lastCodeTime := t, state := .pendingHoldTimeout } }) _ (hc.chord _ (.inr hq)))
    · exact fit_handled true (fit_resolveChord hpe { a with chord := { a.chord with lastCodeTime := t } } (hc.chord _ (.inr hq)) hq)
  | 1 => exact fit_handled true (fit_schedule (k := { a with chord := { a.chord with state := .pendingDisambiguation, lastCodeTime := t } }) _ (hc.chord _ (.inr hq)))
  | n + 3 => exact fit_handled true (fit_schedule (k := { a with chord := { a.chord with state := .pendingDisambiguation, lastCodeTime := t } }) _ (hc.chord _ (.inr hq)))

theorem fit_chordMachine {pe : PE} (hpe : PEAug c au pe) (y : Code) (p : Bool) (t : Int) (h : Fit c au k) (hy : p = true → au.spares y) :
    Sim (augP au) (fun r => FitR c au k r.1) (chordMachine pe (k.aug au) y p t) (chordMachine pe k y p t) := by
  have other : ∀ {x x' : Res (Kbd × Bool)}, k.chord.state ≠ .resolving → Sim (augP au) (fun r => Fit c au r.1) x' x → Sim (augP au) (fun r => FitR c au k r.1) x' x :=
    fun hne hs => hs.imp (fun _ ha => ⟨ha, fun e => absurd e hne⟩)
  unfold chordMachine
  rw [show (k.aug au).chord = k.chord from rfl, show (k.aug au).config.chordInterkeyTimeout = k.config.chordInterkeyTimeout from rfl,
    show (k.aug au).config.chordHoldTimeout = k.config.chordHoldTimeout from rfl]
  cases hst : k.chord.state with
  | resolving => exact ⟨rfl, h, fun _ => rfl⟩
  | inactive =>
    refine other (by rw [hst]; exact fun e => nomatch e) ?_
    refine (fit_enqueueChord (k := { k with chord := { k.chord with queue := [], «match» := none, startCode := y } }) y p t
      (h.chord _ (.inr fun _ he => (List.not_mem_nil he).elim)) (fun _ he => (List.not_mem_nil he).elim) hy).bind (fun a ha => ?_)
    exact fit_chordDecide hpe t ha.1 ha.2 (fun _ hb _ => ⟨rfl, hb⟩)
  | pendingDisambiguation =>
    have hq : SparedQ au k.chord.queue := h.queue.resolve_left (by rw [hst]; exact fun e => nomatch e)
    refine other (by rw [hst]; exact fun e => nomatch e) ?_
    dsimp only
    split
    · split
      · split
        · split
          · have h1 : Sim (Kbd.aug au) (fun a => Fit c au a ∧ SparedQ au a.chord.queue) (scheduleTimeout (k.aug au) (t + (k.config.chordHoldTimeout - k.config.chordInterkeyTimeout)))
                (scheduleTimeout k (t + (k.config.chordHoldTimeout - k.config.chordInterkeyTimeout))) := by
              obtain ⟨e1, e2⟩ := fit_schedule (t + (k.config.chordHoldTimeout - k.config.chordInterkeyTimeout)) h
              exact ⟨e1, (e2.and_any (Calm.schedule k _)).imp (fun a ha => ⟨ha.1, by rw [ha.2.chord]; exact hq⟩)⟩
            exact h1.bind (fun a ha => ⟨rfl, ha.1.chord _ (.inr ha.2)⟩)
          · exact fit_handled true (fit_resolveChord hpe k h hq)
        · exact fit_handled true (fit_abortChord hpe k h hq)
      · exact ⟨rfl, h⟩
    · refine (fit_enqueueChord y p t h hq hy).bind (fun a ha => ?_)
      split
      · exact fit_handled true (fit_abortChord hpe a ha.1 ha.2)
      · exact fit_chordDecide hpe t ha.1 ha.2 (fun b hb hq => fit_handled true (fit_abortChord hpe b hb hq))
  | pendingHoldTimeout =>
    have hq : SparedQ au k.chord.queue := h.queue.resolve_left (by rw [hst]; exact fun e => nomatch e)
    refine other (by rw [hst]; exact fun e => nomatch e) ?_
    dsimp only
    split
    · split
      · exact fit_handled true (fit_resolveChord hpe k h hq)
      · exact ⟨rfl, h⟩
    · refine (fit_enqueueChord y p t h hq hy).bind (fun a ha => ?_)
      split
      · rw [show (a.aug au).chord = a.chord from rfl]
        cases a.chord.match with
        | none => exact Sim.fail _
        | some q =>
          dsimp only
          rw [aug_deref]
          split
          · exact fit_handled true (fit_abortChord hpe a ha.1 ha.2)
          · exact ⟨rfl, ha.1⟩
      · exact ⟨rfl, ha.1⟩

theorem fit_handleChord {pe : PE} (hpe : PEAug c au pe) (y : Code) (p : Bool) (t : Int) (h : Fit c au k) (hy : p = true → au.spares y) :
    Sim (augP au) (fun r => FitR c au k r.1) (handleChord pe (k.aug au) y p t) (handleChord pe k y p t) := by
  unfold handleChord
  rw [show (k.aug au).activeChords = k.activeChords from rfl]
  cases (if y ≠ 0 ∧ !p then findActiveChord y k.activeChords 0 else none) with
  | some i => exact fit_handled true (fit_strikeChord hpe i y t h)
  | none => exact fit_chordMachine hpe y p t h hy

theorem fit_pendingEnqueue (y : Code) (p : Bool) (t : Int) (h : Fit c au k) (hy : p = true → au.spares y) :
    Sim (Option.map (Kbd.aug au)) (fun r => ∀ a, r = some a → FitR c au k a) (pendingEnqueue (k.aug au) y p t) (pendingEnqueue k y p t) := by
  unfold pendingEnqueue
  rw [show (k.aug au).pending = k.pending from rfl]
  split
  · exact ⟨rfl, by rintro _ ⟨⟩; exact ⟨h, fun _ => rfl⟩⟩
  · split
    · exact Sim.fail _
    · split
      · exact ⟨rfl, by rintro _ ⟨⟩⟩
      · refine ⟨rfl, ?_⟩
        rintro _ ⟨⟩
        refine ⟨⟨⟨h.stored.cache, h.stored.a1, h.stored.a2, h.stored.chords, h.stored.table⟩, h.config, h.mac.same rfl, ?_, h.queue, h.slots⟩, fun _ => rfl⟩
        intro e he
        rcases List.mem_append.1 he with he | he
        · exact h.pend e he
        · rw [List.mem_singleton.1 he]; exact hy

/-- The action of a key. -/
theorem fit_descriptor (hw : WF c) (hn : NestWF c) {n n' : Nat} (y : Code) (d : Desc) (dl : Nat) (p : Bool) (t : Int) (h : Fit c au k) (hd : InTables c d)
    (h1 : nestRank c d < n) (h2 : nestRank c d < n') :
    Sim (Kbd.aug au) (FitR c au k) (processDescriptor n' (k.aug au) y d dl p t) (processDescriptor n k y d dl p t) := by
  refine ⟨aug_descriptor hw hn n n' k y d dl p t h.config hd h1 h2, ?_⟩
  have s1 := Stored.processDescriptor (inTables_closed c) n k y d dl p t hd h.stored
  have s2 := macIn_descriptor hw.inTables n k y d dl p t h.config hd h.mac
  have s3 : Sat (processDescriptor n k y d dl p t) (Mild y (nestRank c d) k) AnyErr := (mild_descriptor hn n k y d dl p t h.config h1).mono (fun _ h => h) (fun _ _ => trivial)
  exact ((s1.and_any s2).and_any s3).imp (fun a ha => ⟨⟨ha.1.1, ha.2.config.trans h.config, ha.1.2, by rw [ha.2.queue]; exact h.pend, by rw [ha.2.chord]; exact h.queue,
    by rw [ha.2.activeChords]; exact h.slots⟩, fun _ => ha.2.chord⟩)

theorem aug_budget (k : Kbd) (hk : k.config = c) (d : Desc) : nestRank c d < descBudget k ∧ nestRank c d < descBudget (k.aug au) := by
  have h := descBudget_rank k d
  rw [hk] at h
  refine ⟨h, Nat.lt_of_lt_of_le h ?_⟩
  unfold descBudget
  rw [show (k.aug au).config.descriptors = k.config.descriptors ++ au.ds from rfl, List.length_append]
  omega

theorem aug_cacheSetD (y : Code) (e : Option CacheEntry) : (cacheSet (k.aug au) y e).getD (k.aug au) = ((cacheSet k y e).getD k).aug au := by
  rw [aug_cacheSet]
  cases cacheSet k y e <;> rfl

theorem cacheSet_rest {e : Option CacheEntry} {y : Code} (h : cacheSet k y e = some k') : ∃ l, k' = { k with cache := l } := by
  unfold cacheSet at h
  split at h
  · cases h
  · split at h
    all_goals first | (cases h; exact ⟨_, rfl⟩) | cases h

theorem Fit.cacheSet {y : Code} {e : Option CacheEntry} (h : Fit c au k) (he : ∀ x, e = some x → InTables c x.d) (hs : cacheSet k y e = some k') : Fit c au k' := by
  have s := h.stored.cacheSet he hs
  obtain ⟨l, rfl⟩ := cacheSet_rest hs
  exact ⟨s, h.config, h.mac.same rfl, h.pend, h.queue, h.slots⟩

theorem Fit.cacheSetD {y : Code} {e : Option CacheEntry} (h : Fit c au k) (he : ∀ x, e = some x → InTables c x.d) : Fit c au ((Keyd.cacheSet k y e).getD k) := by
  cases hs : Keyd.cacheSet k y e with
  | none => exact h
  | some k' => exact h.cacheSet he hs

theorem cacheSetD_chord (k : Kbd) (y : Code) (e : Option CacheEntry) : ((Keyd.cacheSet k y e).getD k).chord = k.chord := by
  cases hs : Keyd.cacheSet k y e with
  | none => rfl
  | some k' =>
    obtain ⟨l, rfl⟩ := cacheSet_rest hs
    rfl

theorem fit_resolvePending (hw : WF c) (hn : NestWF c) (a : Desc) (t : Int) (h : Fit c au k) (ha : InTables c a) :
    Sim (augP au) (fun r => FitR c au k r.1 ∧ SparedQ au r.2) (resolvePendingStep (k.aug au) a t) (resolvePendingStep k a t) := by
  unfold resolvePendingStep
  dsimp only
  have h0 : Fit c au { k with pending := { k.pending with code := 0, queue := [], tapExpiry := 0 } } :=
    ⟨⟨h.stored.cache, h.stored.a1, h.stored.a2, h.stored.chords, h.stored.table⟩, h.config, h.mac.same rfl, fun _ he => (List.not_mem_nil he).elim, h.queue, h.slots⟩
  have e := aug_cacheSetD (au := au) (k := { k with pending := { k.pending with code := 0, queue := [], tapExpiry := 0 } })
    k.pending.code (some { d := a, dl := k.pending.dl, layer := 0 })
  have h1 := h0.cacheSetD (y := k.pending.code) (e := some { d := a, dl := k.pending.dl, layer := 0 }) (by rintro _ ⟨⟩; exact ha)
  have h' : ∀ x y : Kbd, x = y.aug au → Fit c au y → y.chord = k.chord → Sim (augP au) (fun r => FitR c au k r.1 ∧ SparedQ au r.2) (do
      let r ← processDescriptor (descBudget (x.log (.resolve k.pending.code a k.pending.dl t)))
        (x.log (.resolve k.pending.code a k.pending.dl t)) k.pending.code a k.pending.dl true t
      Except.ok (ε := Err) (r, k.pending.queue)) (do
      let r ← processDescriptor (descBudget (y.log (.resolve k.pending.code a k.pending.dl t)))
        (y.log (.resolve k.pending.code a k.pending.dl t)) k.pending.code a k.pending.dl true t
      Except.ok (ε := Err) (r, k.pending.queue)) := by
    rintro x y rfl hy hch
    have hy' : Fit c au (y.log (.resolve k.pending.code a k.pending.dl t)) := hy.same rfl rfl rfl rfl rfl rfl
    have hb := aug_budget (au := au) _ hy'.config a
    exact (fit_descriptor hw hn _ a _ true t hy' ha hb.1 hb.2).bind (fun b hb => ⟨rfl, hb.from hch, h.pend⟩)
  exact h' _ _ e h1 (cacheSetD_chord _ _ _)

theorem fit_decision (h : Fit c au k) (y : Code) (p : Bool) (t : Int) : InTables c (pendingDecision k.pending y p t) := by
  unfold pendingDecision
  repeat' split
  all_goals first | exact h.stored.a1 | exact h.stored.a2 | exact trivial

theorem fit_handlePending (hw : WF c) (hn : NestWF c) {pe : PE} (hpe : PEAug c au pe) (y : Code) (p : Bool) (t : Int) (h : Fit c au k) (hy : p = true → au.spares y) :
    Sim (augP au) (fun r => FitR c au k r.1) (handlePendingKey pe (k.aug au) y p t) (handlePendingKey pe k y p t) := by
  unfold handlePendingKey
  rw [show (k.aug au).pending = k.pending from rfl]
  split
  · exact ⟨rfl, h, fun _ => rfl⟩
  · refine (fit_pendingEnqueue y p t h hy).bind (fun r hr => ?_)
    cases r with
    | none => exact ⟨rfl, h, fun _ => rfl⟩
    | some a =>
      have ha := hr a rfl
      show Sim _ _ (if pendingDecision a.pending y p t = .none then _ else _) (if pendingDecision a.pending y p t = .none then _ else _)
      split
      · exact ⟨rfl, ha⟩
      · refine (fit_resolvePending hw hn _ t ha.fit (fit_decision ha.fit y p t)).bind (fun b hb => ?_)
        exact (fit_loop hpe b.2 b.1 0 0 hb.1.fit hb.2).bind (fun _ hd => ⟨rfl, (ha.trans hb.1).trans hd⟩)

theorem fit_timers (y : Code) (t : Int) (h : Fit c au k) : Sim (Kbd.aug au) (FitR c au k) (stepTimers (k.aug au) y t) (stepTimers k y t) := by
  suffices hs : Sim (Kbd.aug au) (Fit c au) (stepTimers (k.aug au) y t) (stepTimers k y t) from
    ⟨hs.1, (hs.2.and_any (Calm.stepTimers k y t)).imp (fun a ha => ⟨ha.1, fun _ => ha.2.chord⟩)⟩
  have first : Sim (Kbd.aug au) (Fit c au)
      (if (k.aug au).oneshotTimeout ≠ 0 ∧ t ≥ (k.aug au).oneshotTimeout then do let k ← clearOneshot (k.aug au); Except.ok (ε := Err) (updateMods k none 0) else .ok (k.aug au))
      (if k.oneshotTimeout ≠ 0 ∧ t ≥ k.oneshotTimeout then do let k ← clearOneshot k; Except.ok (ε := Err) (updateMods k none 0) else .ok k) := by
    rw [show (k.aug au).oneshotTimeout = k.oneshotTimeout from rfl]
    split
    · refine Sim.bind (P := Fit c au) ⟨aug_clearOneshot, ((Calm.clearOneshot k).and_any (macIn_clearOneshot h.mac)).imp (fun a ha => h.calm ha.1 ha.2)⟩ (fun a ha => ?_)
      rw [aug_updateMods]
      exact ⟨rfl, ha.calm (.of_frame (.updateMods _ _ _)) (ha.mac.frame (.updateMods _ _ _))⟩
    · exact ⟨rfl, h⟩
  unfold stepTimers
  refine first.bind (fun a ha => ?_)
  rw [show (a.aug au).activeMacro = a.activeMacro from rfl]
  cases hm : a.activeMacro with
  | none => exact ⟨rfl, ha⟩
  | some m =>
    dsimp only
    rw [show (a.aug au).macroTimeout = a.macroTimeout from rfl]
    split
    · have e := aug_updateMods (au := au) (k := { a with activeMacro := none }) none 0
      have h0 : Fit c au { a with activeMacro := none } := ⟨ha.stored.frame rfl rfl rfl rfl, ha.config, macIn_none rfl, ha.pend, ha.queue, ha.slots⟩
      exact ⟨congrArg Except.ok e, h0.calm (.of_frame (.updateMods _ _ _)) (h0.mac.frame (.updateMods _ _ _))⟩
    · split
      · have hl : m < a.config.macros.length := by rw [ha.config]; exact ha.mac m hm
        rw [show (a.aug au).activeMacroLayer = a.activeMacroLayer from rfl, show (a.aug au).config = a.config.aug au from rfl, aug_mac _ hl, aug_executeMacro]
        have h0 : Fit c au (executeMacro a a.activeMacroLayer (a.config.mac m)) := ha.calm (.of_frame (.executeMacro _ _ _)) (ha.mac.frame (.executeMacro _ _ _))
        exact fit_schedule (k := { executeMacro a a.activeMacroLayer (a.config.mac m) with
          macroTimeout := t + (executeMacro a a.activeMacroLayer (a.config.mac m)).macroRepeatInterval }) _ (h0.same rfl rfl rfl rfl rfl rfl)
      · exact ⟨rfl, ha⟩

theorem fit_key (hw : WF c) (hn : NestWF c) (y : Code) (p : Bool) (t : Int) (h : Fit c au k) (hy : p = true → au.spares y) :
    Sim (Kbd.aug au) (FitR c au k) (stepKey (k.aug au) y p t) (stepKey k y p t) := by
  unfold stepKey
  rw [show cacheGet (k.aug au) y = cacheGet k y from rfl]
  split
  · exact ⟨rfl, h, fun _ => rfl⟩
  · split
    · rename_i hp
      rw [aug_lookup (hy hp)]
      split
      · exact ⟨rfl, h.same rfl rfl rfl rfl rfl rfl, fun _ => rfl⟩
      · have hl := h.stored.lookup (inTables_closed c) y
        revert hl
        generalize lookupDescriptor k y = r
        obtain ⟨d, dl⟩ := r
        intro hl
        dsimp only at hl ⊢
        rw [aug_cacheSet]
        cases hs : cacheSet k y (some { d := d, dl := dl, layer := 0 }) with
        | none => exact ⟨rfl, h.same rfl rfl rfl rfl rfl rfl, fun _ => rfl⟩
        | some a =>
          have ha : Fit c au (a.log (.key y true t (some (d, dl)))) := (h.cacheSet (by rintro _ ⟨⟩; exact hl) hs).same rfl rfl rfl rfl rfl rfl
          have hb := aug_budget (au := au) _ ha.config d
          refine (fit_descriptor hw hn _ _ _ _ _ ha hl hb.1 hb.2).imp (fun _ hr => hr.from ?_)
          obtain ⟨l, rfl⟩ := cacheSet_rest hs
          rfl
    · cases hg : cacheGet k y with
      | none => exact ⟨rfl, h.same rfl rfl rfl rfl rfl rfl, fun _ => rfl⟩
      | some ce =>
        dsimp only
        rw [aug_cacheSetD]
        have hd : InTables c ce.d := h.stored.cache ce (List.mem_of_find?_eq_some hg)
        have ha : Fit c au (((cacheSet k y none).getD k).log (.key y false t (some (ce.d, ce.dl)))) :=
          (h.cacheSetD (y := y) (e := none) (by simp)).same rfl rfl rfl rfl rfl rfl
        have hb := aug_budget (au := au) _ ha.config ce.d
        exact (fit_descriptor hw hn _ _ _ _ _ ha hd hb.1 hb.2).imp (fun _ hr => hr.from (cacheSetD_chord _ _ _))

theorem fit_body (hw : WF c) (hn : NestWF c) {pe : PE} (hpe : PEAug c au pe) : PEAug c au (processEventBody pe) := by
  intro k y p t h hy
  unfold processEventBody
  refine (fit_handleChord hpe y p t h hy).bind (fun r hr => ?_)
  obtain ⟨a, b⟩ := r
  dsimp only [augP]
  refine Sim.bind (g := Kbd.aug au) (P := FitR c au k) ?_ (fun b hb => ⟨rfl, hb.fit.same rfl rfl rfl rfl rfl rfl, hb.chord⟩)
  cases b with
  | true => exact ⟨rfl, hr⟩
  | false =>
    rw [if_neg (show ¬ (false = true) by decide), if_neg (show ¬ (false = true) by decide)]
    have hl : (if y = 0 then a.aug au else (a.aug au).log (.passed ⟨y, p, t⟩)) = (if y = 0 then a else a.log (.passed ⟨y, p, t⟩)).aug au := by
      split <;> rfl
    have hch : (if y = 0 then a else a.log (.passed ⟨y, p, t⟩)).chord = a.chord := by
      split <;> rfl
    have ha : Fit c au (if y = 0 then a else a.log (.passed ⟨y, p, t⟩)) := by
      split
      · exact hr.fit
      · exact Fit.same hr.fit rfl rfl rfl rfl rfl rfl
    rw [hl]
    refine (fit_handlePending hw hn hpe y p t ha hy).bind (fun r hr2 => ?_)
    obtain ⟨b, x⟩ := r
    have hr3 : FitR c au k b := FitR.trans hr (hr2.from hch)
    cases x with
    | true => exact ⟨rfl, hr3⟩
    | false => exact (fit_timers y t hr3.fit).bind (fun d hd => (fit_key hw hn y p t hd.fit hy).imp (fun _ he => (hr3.trans hd).trans he))

/-- One event. -/
theorem fit_processEvent (hw : WF c) (hn : NestWF c) : ∀ n, PEAug c au (processEvent n)
  | 0 => fun _ _ _ _ _ _ => Sim.fail _
  | n + 1 => fit_body hw hn (fit_processEvent hw hn n)

/-- A batch of events. -/
theorem fit_events (hw : WF c) (hn : NestWF c) (n : Nat) (k : Kbd) (evs : List KeyEvent) (h : Fit c au k) (hq : SparedQ au evs) :
    Sim (augP au) (fun r => Fit c au r.1) (kbdProcessEvents n (k.aug au) evs) (kbdProcessEvents n k evs) :=
  (fit_loop (fit_processEvent hw hn n) evs k 0 0 h hq).imp (fun _ hr => hr.fit)

end Keyd
