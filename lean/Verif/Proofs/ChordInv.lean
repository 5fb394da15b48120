import Verif.Proofs.Conserve
import Verif.Proofs.Tame
import Verif.Proofs.ConfigInv

/-
  The chord noted while the engine waits is one of the configuration, and the events held back
  begin with the presses that struck it.
-/

set_option autoImplicit false

namespace Keyd

/-- The chord at `p` is struck by the first events of `q`. -/
def NotedBy (c : Config) (p : Nat × Nat) (q : List KeyEvent) : Prop :=
  ∃ L ch, c.layers[p.1]? = some L ∧ L.chords[p.2]? = some ch ∧ ch.keys.length ≤ q.length ∧
    (∀ e ∈ q.take ch.keys.length, e.pressed = true ∧ e.code ∈ ch.keys) ∧ ch.keys ≠ []

theorem NotedBy.append {c : Config} {p : Nat × Nat} {q : List KeyEvent} (h : NotedBy c p q) (q' : List KeyEvent) :
    NotedBy c p (q ++ q') := by
  obtain ⟨L, ch, h1, h2, h3, h4⟩ := h
  refine ⟨L, ch, h1, h2, by rw [List.length_append]; omega, ?_⟩
  rw [List.take_append_of_le_length h3]
  exact h4

/-- An active chord is one of the configuration. It was struck by presses of its keys, which were
absorbed together, and the keys crossed off have been released since; at least one is left. -/
def SlotOk (c : Config) (ab : List KeyEvent) (a : ActiveChord) : Prop :=
  ∃ (L : Layer) (ch : Chord) (before strokes after : List KeyEvent) (up : List Code),
    L ∈ c.layers ∧ ch ∈ L.chords ∧ a.chord.d = ch.d ∧
    ab = before ++ strokes ++ after ∧ strokes.length = ch.keys.length ∧
    (∀ e ∈ strokes, e.pressed = true ∧ e.code ∈ ch.keys) ∧
    a.chord.keys = ch.keys.map (fun x => if x ∈ up then 0 else x) ∧
    (∀ x ∈ up, ∃ t, (⟨x, false, t⟩ : KeyEvent) ∈ after) ∧ (∃ x ∈ ch.keys, x ∉ up)

theorem SlotOk.append {c : Config} {ab : List KeyEvent} {a : ActiveChord} (h : SlotOk c ab a) (q : List KeyEvent) :
    SlotOk c (ab ++ q) a := by
  obtain ⟨L, ch, b, s, f, up, h1, h2, h3, h4, h5, h6, h7, h8, h9⟩ := h
  refine ⟨L, ch, b, s, f ++ q, up, h1, h2, h3, ?_, h5, h6, h7, fun x hx => ?_, h9⟩
  · rw [h4, List.append_assoc (b ++ s)]
  · obtain ⟨t, ht⟩ := h8 x hx
    exact ⟨t, List.mem_append_left _ ht⟩

/-- Striking off one key, when another is left. -/
theorem SlotOk.strike {c : Config} {ab : List KeyEvent} {a : ActiveChord} (h : SlotOk c ab a) (code : Code) (t : Int)
    (hn : code ≠ 0) (hleft : (chordStrike code a.chord.keys).all (· = 0) = false) :
    SlotOk c (ab ++ [⟨code, false, t⟩]) (strickenChord code a a.active) := by
  obtain ⟨L, ch, b, s, f, up, h1, h2, h3, h4, h5, h6, h7, h8, h9⟩ := h
  have hk : chordStrike code a.chord.keys = ch.keys.map (fun x => if x ∈ code :: up then 0 else x) := by
    unfold chordStrike
    rw [h7, List.map_map]
    refine List.map_congr_left (fun x _ => ?_)
    show (if (if x ∈ up then 0 else x) = code then 0 else (if x ∈ up then 0 else x)) = _
    by_cases hx : x ∈ up
    · rw [if_pos hx, if_neg (fun h => hn h.symm), if_pos (List.mem_cons_of_mem _ hx)]
    · rw [if_neg hx]
      by_cases hxc : x = code
      · rw [if_pos hxc, if_pos (by rw [hxc]; exact List.mem_cons_self)]
      · rw [if_neg hxc, if_neg (by rw [List.mem_cons]; exact fun h => h.elim hxc hx)]
  refine ⟨L, ch, b, s, f ++ [⟨code, false, t⟩], code :: up, h1, h2, h3, ?_, h5, h6, hk, fun x hx => ?_, ?_⟩
  · rw [h4, List.append_assoc (b ++ s)]
  · rcases List.mem_cons.1 hx with rfl | hx
    · exact ⟨t, List.mem_append_right _ (List.mem_singleton.2 rfl)⟩
    · obtain ⟨u, hu⟩ := h8 x hx
      exact ⟨u, List.mem_append_left _ hu⟩
  · rw [hk] at hleft
    rw [List.all_eq_false] at hleft
    obtain ⟨y, hy, hy0⟩ := hleft
    obtain ⟨x, hx, rfl⟩ := List.mem_map.1 hy
    refine ⟨x, hx, fun hin => ?_⟩
    rw [if_pos hin] at hy0
    exact hy0 (by decide)

structure AbsorbOk (c : Config) (ab : List KeyEvent) (as : List ActiveChord) : Prop where
  plain : ∀ e ∈ ab, ¬ IsChordCode e.code
  slots : ∀ a ∈ as, a.active = true → SlotOk c ab a

structure MatInv (c : Config) (k : Kbd) : Prop where
  term : TermInv c k
  absorbed : AbsorbOk c k.absorbed k.activeChords
  hold : k.chord.state = .pendingHoldTimeout → k.chord.match ≠ none
  presses : k.chord.state = .pendingDisambiguation → ∀ e ∈ k.chord.queue, e.pressed = true
  noted : waiting k.chord.state = true → ∀ p, k.chord.match = some p → NotedBy c p k.chord.queue

/-- The part of it that does not depend on the chord machine. -/
structure MatBase (c : Config) (k : Kbd) : Prop where
  term : TermInv c k
  absorbed : AbsorbOk c k.absorbed k.activeChords

theorem MatInv.base {c : Config} {k : Kbd} (h : MatInv c k) : MatBase c k := ⟨h.term, h.absorbed⟩

theorem MatBase.idle {c : Config} {k : Kbd} (h : MatBase c k) (hs : waiting k.chord.state = false) : MatInv c k := by
  refine ⟨h.1, h.2, fun h' => ?_, fun h' => ?_, fun h' => ?_⟩
  · rw [h'] at hs; cases hs
  · rw [h'] at hs; cases hs
  · rw [h'] at hs; cases hs

theorem MatInv.congr {c : Config} {k k' : Kbd} (h : MatInv c k) (ht : TermInv c k') (hs : k'.absorbed = k.absorbed)
    (hc : k'.chord = k.chord) (ha : k'.activeChords = k.activeChords) : MatInv c k' :=
  ⟨ht, by rw [hs, ha]; exact h.absorbed, by rw [hc]; exact h.hold, by rw [hc]; exact h.presses, by rw [hc]; exact h.noted⟩

theorem absorbed_of_steps {k k' : Kbd} (h : k'.steps = k.steps) : k'.absorbed = k.absorbed := by
  unfold Kbd.absorbed
  rw [h]

/-! ### The scan finds chords that are struck -/

theorem chordEventMatch_full {ch : Chord} {q : List KeyEvent} (h : chordEventMatch ch q = .full) :
    (∀ e ∈ q, e.pressed = true → e.code ∈ ch.keys) ∧ (q.filter (·.pressed)).length = ch.keys.length ∧
    (q.filter (·.pressed)).length ≠ 0 := by
  unfold chordEventMatch at h
  dsimp only at h
  split at h
  · cases h
  · rename_i hany
    split at h
    · cases h
    · rename_i hz
      split at h
      · rename_i hl
        refine ⟨fun e he hp => ?_, hl, hz⟩
        simp at hany
        exact hany e he hp
      · cases h

/-- A found chord is in the configuration and struck. -/
def FoundBy (c : Config) (q : List KeyEvent) (p : Nat × Nat) : Prop :=
  ∃ L ch, c.layers[p.1]? = some L ∧ L.chords[p.2]? = some ch ∧ chordEventMatch ch q = .full

theorem foldl_keep {α β : Type} {P : β → Prop} {f : β → α → β} : ∀ (l : List α) (b : β), P b →
    (∀ b a, a ∈ l → P b → P (f b a)) → P (l.foldl f b)
  | [], _, h, _ => h
  | a :: l, b, h, hs => foldl_keep l (f b a) (hs b a List.mem_cons_self h) (fun b x hx hb => hs b x (List.mem_cons_of_mem _ hx) hb)

theorem chordScan_sound (k : Kbd) (p : Nat × Nat) (h : (chordScan k).full = some p) :
    FoundBy k.config k.chord.queue p := by
  have : ∀ p, (chordScan k).full = some p → FoundBy k.config k.chord.queue p := by
    unfold chordScan
    refine foldl_keep (P := fun r : ChordScan => ∀ p, r.full = some p → FoundBy k.config k.chord.queue p) _ _
      (fun p h => by cases h) ?_
    intro b i hi hb
    have hi : i < k.config.layers.length := List.mem_range.1 hi
    split
    · refine foldl_keep (P := fun r : ChordScan => ∀ p, r.full = some p → FoundBy k.config k.chord.queue p) _ _ hb ?_
      rintro b ⟨j, ch⟩ hj hb p hp
      unfold chordScanStep at hp
      dsimp only at hp
      obtain ⟨⟨ch', j'⟩, hx, he⟩ := List.mem_map.1 hj
      injection he with e1 e2
      dsimp only at e1 e2
      subst e1; subst e2
      have hget := List.mem_zipIdx_iff_getElem?.1 hx
      dsimp only at hget
      have hlay : k.config.layers[i]? = some (k.config.layer i) := by
        unfold Config.layer
        rw [List.getD_eq_getElem?_getD, List.getElem?_eq_getElem hi]; rfl
      split at hp
      · rename_i hm
        split at hp
        · injection hp with hp
          subst hp
          exact ⟨_, _, hlay, hget, hm⟩
        · exact hb p hp
      · exact hb p hp
      · exact hb p hp
    · exact hb
  exact this p h

/-- When every event is a press, the found chord is struck by the whole queue. -/
theorem FoundBy.noted {c : Config} {q : List KeyEvent} {p : Nat × Nat} (h : FoundBy c q p)
    (hq : ∀ e ∈ q, e.pressed = true) : NotedBy c p q := by
  obtain ⟨L, ch, h1, h2, h3⟩ := h
  obtain ⟨g1, g2, g3⟩ := chordEventMatch_full h3
  have hf : q.filter (·.pressed) = q := List.filter_eq_self.2 hq
  rw [hf] at g2
  refine ⟨L, ch, h1, h2, by omega, ?_⟩
  rw [← g2, List.take_length]
  exact ⟨fun e he => ⟨hq e he, g1 e he (hq e he)⟩, fun h => g3 (by rw [hf, g2, h]; rfl)⟩

theorem checkChordMatch_noted {c : Config} {k : Kbd} (hc : k.config = c)
    (hq : (∀ e ∈ k.chord.queue, e.pressed = true) ∨ (∀ e ∈ k.chord.queue, e.pressed = false)) :
    ∃ n m l, checkChordMatch k = (n, { k with chord := { k.chord with «match» := m, matchLayer := l } }) ∧
      (n = 2 → m ≠ none) ∧
      (m = k.chord.match ∨ ∃ p, m = some p ∧ NotedBy c p k.chord.queue) ∧
      (n ≠ 0 → ∀ e ∈ k.chord.queue, e.pressed = true) := by
  have hnil : (∀ e ∈ k.chord.queue, e.pressed = false) → chordScan k = {} := by
    intro hr
    unfold chordScan
    have hf : k.chord.queue.filter (·.pressed) = [] := by
      rw [List.filter_eq_nil_iff]
      intro e he
      rw [hr e he]; simp
    have hno : ∀ ch : Chord, chordEventMatch ch k.chord.queue = .no := by
      intro ch
      unfold chordEventMatch
      rw [hf]
      rfl
    refine foldl_keep (P := fun r : ChordScan => r = {}) _ _ rfl ?_
    intro b i _ hb
    split
    · refine foldl_keep (P := fun r : ChordScan => r = {}) _ _ hb ?_
      intro b a _ hb
      unfold chordScanStep
      rw [hno]
      exact hb
    · exact hb
  unfold checkChordMatch
  dsimp only
  match hfull : (chordScan k).full with
  | some (l, i) =>
    have hfound := chordScan_sound k _ hfull
    have hp : ∀ e ∈ k.chord.queue, e.pressed = true := by
      rcases hq with hq | hq
      · exact hq
      · rw [hnil hq] at hfull; cases hfull
    exact ⟨_, _, _, rfl, fun _ h => (by cases h), .inr ⟨_, rfl, hc ▸ hfound.noted hp⟩, fun _ => hp⟩
  | none =>
    refine ⟨_, k.chord.match, k.chord.matchLayer, rfl, fun h => ?_, .inl rfl, fun hn => ?_⟩
    · exfalso
      split at h <;> omega
    · rcases hq with hq | hq
      · exact hq
      · rw [hnil hq] at hn; exact absurd rfl hn

/-! ### The engine keeps it -/

def MatKeep (c : Config) (pe : PE) : Prop :=
  ∀ k code p t, MatInv c k → Sat (pe k code p t) (fun r => MatInv c r.1 ∧ SameMode k r.1) TameErr

section
variable {c : Config} {pe : PE} (hp : MatKeep c pe)
include hp

theorem catchUp_mat : ∀ (n : Nat) (k : Kbd) (to ts lim : Int), MatInv c k →
    Sat (catchUp pe n k to ts lim) (fun r => MatInv c r.1 ∧ SameMode k r.1) TameErr
  | 0, _, _, _, _, _ => .inl rfl
  | n+1, k, to, ts, lim, hi => by
    unfold catchUp
    refine Sat.ite (fun hc => ?_) (fun _ => ⟨hi, SameMode.refl k⟩)
    refine (hp k 0 false ts hi).bind (fun r hr => ?_)
    obtain ⟨k1, t⟩ := r
    obtain ⟨h1, h3⟩ := hr
    dsimp only at h1 h3 ⊢
    exact (catchUp_mat n k1 t (ts + t) lim h1).imp (fun r hr => ⟨hr.1, h3.trans hr.2⟩)

theorem loop_mat : ∀ (evs : List KeyEvent) (k : Kbd) (to ts : Int), MatInv c k →
    Sat (processEventsLoop pe evs k to ts) (fun r => MatInv c r.1 ∧ SameMode k r.1) TameErr
  | [], k, to, ts, hi => ⟨hi, SameMode.refl k⟩
  | ev :: rest, k, to, ts, hi => by
    unfold processEventsLoop
    refine (catchUp_mat hp _ k to ts ev.ts hi).bind (fun r hr => ?_)
    obtain ⟨k1, to1, ts1⟩ := r
    obtain ⟨h1, h3⟩ := hr
    dsimp only at h1 h3 ⊢
    refine (hp k1 ev.code ev.pressed ev.ts h1).bind (fun r hr => ?_)
    obtain ⟨k2, t⟩ := r
    obtain ⟨g1, g3⟩ := hr
    dsimp only at g1 g3 ⊢
    refine (loop_mat rest k2 t (ev.ts + t) g1).imp ?_
    intro r hr
    exact ⟨hr.1, (h3.trans g3).trans hr.2⟩

theorem resolveChord_mat (hc : TermCfg c) {k : Kbd} (h : MatBase c k)
    (hn : ∀ p, k.chord.match = some p → NotedBy c p k.chord.queue) :
    Sat (resolveChord pe k) (fun k' => MatInv c k' ∧ k'.chord.state = .inactive) TameErr := by
  unfold resolveChord
  dsimp only
  refine Sat.bind (Q := fun r : Kbd × Nat => MatInv c r.1 ∧ r.1.chord = { k.chord with state := .resolving } ∧
      r.2 ≤ k.chord.queue.length) ?_ (fun r hr => ?_)
  · split
    · exact ⟨MatBase.idle ⟨h.term.setChord _, h.absorbed⟩ rfl, rfl, Nat.zero_le _⟩
    · rename_i p hm
      obtain ⟨L, ch, hL, hch, hlen, htake, hne⟩ := hn p hm
      have hd : derefChord { k with chord := { k.chord with state := .resolving } } p = ch := by
        unfold derefChord
        dsimp only
        rw [h.term.config, layer_of_getElem hL, List.getD_eq_getElem?_getD, hch]
        rfl
      have hkeys : ∀ x ∈ ch.keys, ¬ IsChordCode x := by
        have := hc.chords p.1 p.2
        rw [layer_of_getElem hL, List.getD_eq_getElem?_getD, hch] at this
        exact this
      unfold installChord
      rw [hd]
      dsimp only
      split
      · exact .inr (by decide)
      · rename_i j hj
        rw [bind_ok]
        dsimp only
        have hl : MatInv c (Kbd.logSwallowed { k with chord := { k.chord with state := .resolving }, activeChords := k.activeChords.set j ⟨true, ch, k.chord.matchLayer⟩ } (k.chord.queue.take ch.keys.length)) := by
          refine MatBase.idle ⟨TermInv.setSlot (k := Kbd.logSwallowed { k with chord := { k.chord with state := .resolving } } (k.chord.queue.take ch.keys.length)) ⟨h.term.1, h.term.2, h.term.3⟩ j _ hkeys, ?_⟩ rfl
          have := absorbed_swallow { k with chord := { k.chord with state := .resolving }, activeChords := k.activeChords.set j ⟨true, ch, k.chord.matchLayer⟩ } (k.chord.queue.take ch.keys.length)
          rw [this]
          refine ⟨fun e he => ?_, fun a ha hact => ?_⟩
          · rcases List.mem_append.1 he with he | he
            · exact h.absorbed.plain e he
            · exact hkeys _ (htake e he).2
          · rcases List.mem_or_eq_of_mem_set ha with ha | rfl
            · exact (h.absorbed.slots a ha hact).append _
            · refine ⟨L, ch, k.absorbed, _, [], [], List.mem_of_getElem? hL, List.mem_of_getElem? hch, rfl, (List.append_nil _).symm,
                by rw [List.length_take]; omega, htake, ?_, fun x hx => (by cases hx), ?_⟩
              · simp
              · obtain ⟨x, hx⟩ := List.exists_mem_of_ne_nil _ hne
                exact ⟨x, hx, List.not_mem_nil⟩
        refine (hp _ _ true _ hl).bind (fun r hr => ?_)
        obtain ⟨k2, t⟩ := r
        obtain ⟨g1, g3⟩ := hr
        dsimp only at g1 g3 ⊢
        exact ⟨g1, g3.resolving rfl, hlen⟩
  · obtain ⟨k1, off⟩ := r
    obtain ⟨h1, h2, h3⟩ := hr
    dsimp only at h1 h2 h3 ⊢
    have hq : k1.chord.queue = k.chord.queue := by rw [h2]
    refine Sat.ite (fun hlt => ?_) (fun _ => ?_)
    · rw [hq] at hlt; omega
    · refine (loop_mat hp (k1.chord.queue.drop off) k1 0 0 h1).bind (fun r hr => ?_)
      obtain ⟨k2, t⟩ := r
      obtain ⟨g1, g3⟩ := hr
      dsimp only at g1 g3 ⊢
      exact ⟨MatBase.idle ⟨g1.term.setChord _, g1.absorbed⟩ rfl, rfl⟩

theorem abortChord_mat (hc : TermCfg c) {k : Kbd} (h : MatBase c k) :
    Sat (abortChord pe k) (fun k' => MatInv c k' ∧ k'.chord.state = .inactive) TameErr :=
  resolveChord_mat hp hc ⟨h.term.setChord _, h.absorbed⟩ (fun p h => by cases h)

omit hp in
theorem enqueueChord_mat {k : Kbd} (code : Code) (p : Bool) (t : Int) :
    Sat (enqueueChordEvent k code p t) (fun k' => ∃ q, k' = { k with chord := { k.chord with queue := k.chord.queue ++ q } } ∧
      (∀ e ∈ q, e.pressed = p)) TameErr := by
  unfold enqueueChordEvent
  refine Sat.ite (fun h0 => ?_) (fun _ => Sat.ite (fun _ => ?_) (fun _ => .inr (by decide)))
  · exact ⟨[], by rw [List.append_nil], by simp⟩
  · exact ⟨_, rfl, by simp⟩

theorem chordDecide_mat (hc : TermCfg c) {k : Kbd} (t : Int) (h : MatBase c k)
    (hq : (∀ e ∈ k.chord.queue, e.pressed = true) ∨ (∀ e ∈ k.chord.queue, e.pressed = false))
    (hn : ∀ p, k.chord.match = some p → NotedBy c p k.chord.queue)
    (ifNone : Kbd → Res (Kbd × Bool)) {Q : Kbd × Bool → Prop}
    (hNone : ∀ k', MatBase c k' → k'.chord.state = k.chord.state → Sat (ifNone k') Q TameErr)
    (hQ : ∀ k', MatInv c k' → k'.chord.state ≠ .resolving → Q (k', true)) :
    Sat (chordDecide pe k t ifNone) Q TameErr := by
  obtain ⟨n, m, l, hm, h2, h3, h4⟩ := checkChordMatch_noted h.term.config hq
  have hn' : ∀ p, m = some p → NotedBy c p k.chord.queue := by
    intro p hp
    rcases h3 with h3 | ⟨p', h3, h5⟩
    · exact hn p (by rw [← h3]; exact hp)
    · rw [h3] at hp; injection hp with hp; rw [← hp]; exact h5
  unfold chordDecide
  rw [hm]
  split
  · rename_i heq
    cases heq
    exact hNone _ ⟨h.term.setChord _, h.absorbed⟩ rfl
  · rename_i heq
    cases heq
    dsimp only
    have hall := h4 (by decide)
    refine Sat.ite (fun _ => ?_) (fun _ => ?_)
    · refine Sat.bind (Tame.sat (Tame.schedule _ _) (Calm.schedule _ _)) (fun k1 h1 => hQ _ ?_ ?_)
      · refine ⟨TermInv.calm (h.term.setChord _) h1, by rw [absorbed_of_steps h1.steps, h1.activeChords]; exact h.absorbed, ?_, ?_, ?_⟩
        · rw [h1.chord]; exact fun _ => h2 rfl
        · rw [h1.chord]; exact fun h => by cases h
        · rw [h1.chord]; exact fun _ => hn'
      · rw [h1.chord]; exact fun h => by cases h
    · refine Sat.bind (resolveChord_mat hp hc ?_ ?_)
        (fun k1 h1 => hQ k1 h1.1 (by rw [h1.2]; exact fun h => by cases h))
      · exact ⟨h.term.setChord _, h.absorbed⟩
      · exact hn'
  · rename_i h0 _ heq
    cases heq
    dsimp only
    have hall := h4 (fun hz => h0 hz)
    refine Sat.bind (Tame.sat (Tame.schedule _ _) (Calm.schedule _ _)) (fun k1 h1 => hQ _ ?_ ?_)
    · refine ⟨TermInv.calm (h.term.setChord _) h1, by rw [absorbed_of_steps h1.steps, h1.activeChords]; exact h.absorbed, ?_, ?_, ?_⟩
      · rw [h1.chord]; exact fun h => by cases h
      · rw [h1.chord]; exact fun _ => hall
      · rw [h1.chord]; exact fun _ => hn'
    · rw [h1.chord]; exact fun h => by cases h

def AfterMat (c : Config) (k : Kbd) (r : Kbd × Bool) : Prop := MatInv c r.1 ∧ SameMode k r.1

theorem chordMachine_mat (hc : TermCfg c) {k : Kbd} (code : Code) (p : Bool) (t : Int) (h : MatInv c k) :
    Sat (chordMachine pe k code p t) (AfterMat c k) TameErr := by
  have skip : AfterMat c k (k, false) := ⟨h, SameMode.refl k⟩
  unfold chordMachine
  split
  · exact skip
  · rename_i hst
    have nores : k.chord.state ≠ .resolving := by rw [hst]; exact fun h => by cases h
    dsimp only
    refine (enqueueChord_mat code p t).bind (fun k1 h1 => ?_)
    obtain ⟨q, rfl, hq⟩ := h1
    dsimp only
    refine chordDecide_mat hp hc t ?_ ?_ ?_ _ ?_ ?_
    · exact ⟨h.term.setChord _, h.absorbed⟩
    · cases p
      · exact .inr (by simpa using hq)
      · exact .inl (by simpa using hq)
    · exact fun p h => by cases h
    · intro k' g1 g4
      have g4 : k'.chord.state = .inactive := g4.trans hst
      exact ⟨g1.idle (by rw [g4]; rfl), ⟨fun hr => absurd hr nores, fun _ => (by rw [g4]; exact fun h => by cases h)⟩⟩
    · intro k' g1 g3
      exact ⟨g1, ⟨fun hr => absurd hr nores, fun _ => g3⟩⟩
  · rename_i hst
    have nores : k.chord.state ≠ .resolving := by rw [hst]; exact fun h => by cases h
    have fin : ∀ k', MatInv c k' → k'.chord.state ≠ .resolving → AfterMat c k (k', true) :=
      fun k' g1 g3 => ⟨g1, ⟨fun hr => absurd hr nores, fun _ => g3⟩⟩
    have hw : waiting k.chord.state = true := by rw [hst]; rfl
    refine Sat.ite (fun h0 => ?_) (fun h0 => ?_)
    · refine Sat.ite (fun _ => Sat.ite (fun hsome => ?_) (fun _ => ?_)) (fun _ => skip)
      · dsimp only
        refine Sat.ite (fun _ => ?_) (fun _ => ?_)
        · refine Sat.bind (Tame.sat (Tame.schedule k _) (Calm.schedule k _)) (fun k1 h1 => ?_)
          refine fin _ ⟨(h.term.calm h1).setChord _, by show AbsorbOk c k1.absorbed k1.activeChords; rw [absorbed_of_steps h1.steps, h1.activeChords]; exact h.absorbed, ?_, ?_, ?_⟩ (fun h => by cases h)
          · dsimp only
            rw [h1.chord]
            intro _ hnone
            rw [hnone] at hsome
            cases hsome
          · exact fun h => by cases h
          · dsimp only
            rw [h1.chord]
            exact fun _ => h.noted hw
        · refine (resolveChord_mat hp hc h.base (h.noted hw)).bind (fun k1 h1 => ?_)
          exact fin _ h1.1 (by rw [h1.2]; exact fun h => by cases h)
      · refine (abortChord_mat hp hc h.base).bind (fun k1 h1 => ?_)
        exact fin _ h1.1 (by rw [h1.2]; exact fun h => by cases h)
    · refine (enqueueChord_mat code p t).bind (fun k1 h1 => ?_)
      obtain ⟨q, rfl, hq⟩ := h1
      have ab : ∀ k', MatBase c k' → Sat (do let k ← abortChord pe k'; Except.ok (k, true)) (AfterMat c k) TameErr := by
        intro k' g1
        refine (abortChord_mat hp hc g1).bind (fun k2 f2 => ?_)
        exact fin _ f2.1 (by rw [f2.2]; exact fun h => by cases h)
      refine Sat.ite (fun _ => ab _ ⟨h.term.setChord _, h.absorbed⟩) (fun hpr => ?_)
      have hpt : p = true := by simpa using hpr
      subst hpt
      refine chordDecide_mat hp hc t ?_ (.inl ?_) ?_ _ (fun k' g1 _ => ab k' g1)
        (fun k' g1 g3 => fin k' g1 g3)
      · exact ⟨h.term.setChord _, h.absorbed⟩
      · intro e he
        rcases List.mem_append.1 he with he | he
        · exact h.presses hst e he
        · exact hq e he
      · intro p hp'
        exact (h.noted hw p hp').append q
  · rename_i hst
    have nores : k.chord.state ≠ .resolving := by rw [hst]; exact fun h => by cases h
    have fin : ∀ k', MatInv c k' → k'.chord.state ≠ .resolving → AfterMat c k (k', true) :=
      fun k' g1 g3 => ⟨g1, ⟨fun hr => absurd hr nores, fun _ => g3⟩⟩
    have hw : waiting k.chord.state = true := by rw [hst]; rfl
    refine Sat.ite (fun h0 => ?_) (fun h0 => ?_)
    · refine Sat.ite (fun _ => ?_) (fun _ => skip)
      refine (resolveChord_mat hp hc h.base (h.noted hw)).bind (fun k1 h1 => ?_)
      exact fin _ h1.1 (by rw [h1.2]; exact fun h => by cases h)
    · refine (enqueueChord_mat code p t).bind (fun k1 h1 => ?_)
      obtain ⟨q, rfl, hq⟩ := h1
      have keep : AfterMat c k ({ k with chord := { k.chord with queue := k.chord.queue ++ q } }, true) := by
        refine fin _ ⟨h.term.setChord _, h.absorbed, fun _ => h.hold hst, ?_, fun _ p hp => ?_⟩ nores
        · intro h'
          dsimp only at h'
          rw [hst] at h'; cases h'
        · exact (h.noted hw p hp).append q
      refine Sat.ite (fun _ => ?_) (fun _ => keep)
      split
      · rename_i hnone
        exact absurd hnone (h.hold hst)
      · refine Sat.ite (fun _ => ?_) (fun _ => keep)
        refine Sat.bind (abortChord_mat hp hc ?_) (fun k2 h2 => ?_)
        · exact ⟨h.term.setChord _, h.absorbed⟩
        · exact fin _ h2.1 (by rw [h2.2]; exact fun h => by cases h)

theorem strikeChord_mat {k : Kbd} {i : Nat} {code : Code} (t : Int)
    (hn : code ≠ 0) (hf : findActiveChord code k.activeChords 0 = some i) (h : MatInv c k) :
    Sat (strikeChord pe k i code t) (fun k' => AfterMat c k (k', true)) TameErr := by
  obtain ⟨a, _, ha, hact, hmem⟩ := findActiveChord_some _ _ _ _ hf
  rw [Nat.sub_zero] at ha
  have hin : a ∈ k.activeChords := List.mem_of_getElem? ha
  have hkeys : ∀ x ∈ chordStrike code a.chord.keys, ¬ IsChordCode x := by
    intro x hx
    obtain ⟨y, hy, he⟩ := List.mem_map.1 hx
    split at he
    · subst he; decide
    · subst he; exact h.term.keys a hin _ hy
  have hget : k.activeChords.getD i {} = a := by rw [List.getD_eq_getElem?_getD, ha]; rfl
  have hi : ∀ b : Bool, (b = true → SlotOk c (k.absorbed ++ [⟨code, false, t⟩]) (strickenChord code a b)) →
      MatInv c (setSlot (k.logSwallowed [⟨code, false, t⟩]) i (strickenChord code a b)) := by
    intro b hslot
    refine ⟨TermInv.setSlot (k := k.logSwallowed [⟨code, false, t⟩]) ⟨h.term.1, h.term.2, h.term.3⟩ i _ hkeys, ?_, h.hold, h.presses, h.noted⟩
    have : (setSlot (k.logSwallowed [⟨code, false, t⟩]) i (strickenChord code a b)).absorbed = k.absorbed ++ [⟨code, false, t⟩] :=
      absorbed_swallow k _
    rw [this]
    refine ⟨fun e he => ?_, fun x hx hxa => ?_⟩
    · rcases List.mem_append.1 he with he | he
      · exact h.absorbed.plain e he
      · rw [List.mem_singleton] at he
        subst he
        exact h.term.keys a hin _ hmem
    · rcases List.mem_or_eq_of_mem_set hx with hx | rfl
      · exact (h.absorbed.slots x hx hxa).append _
      · exact hslot hxa
  have hm : ∀ b, SameMode k (setSlot (k.logSwallowed [⟨code, false, t⟩]) i b) := fun b => SameMode.of_chord rfl
  unfold strikeChord
  rw [hget]
  dsimp only
  refine Sat.ite (fun _ => ?_) (fun hleft => ?_)
  · refine (hp _ (KEYD.CHORD_1 + UInt8.ofNat i) false t (hi false (fun h => by cases h))).bind (fun r hr => ?_)
    obtain ⟨k1, t1⟩ := r
    obtain ⟨g1, g3⟩ := hr
    dsimp only at g1 g3 ⊢
    exact ⟨g1, (hm _).trans g3⟩
  · exact ⟨hi a.active (fun _ => (h.absorbed.slots a hin hact).strike code t hn (by simpa using hleft)), hm _⟩

theorem handleChord_mat (hc : TermCfg c) {k : Kbd} (code : Code) (p : Bool) (t : Int) (h : MatInv c k) :
    Sat (handleChord pe k code p t) (AfterMat c k) TameErr := by
  unfold handleChord
  split
  · rename_i i hf
    split at hf
    · rename_i hcode
      exact (strikeChord_mat hp t hcode.1 hf h).bind (fun k1 h1 => h1)
    · cases hf
  · exact chordMachine_mat hp hc code p t h

omit hp in
theorem descriptor_mat (hc : TermCfg c) {k : Kbd} (h : MatInv c k) (code : Code) (d : Desc) (dl : Nat) (p : Bool) (t : Int) :
    Sat (processDescriptor (descBudget k) k code d dl p t) (fun k' => MatInv c k' ∧ SameMode k k') TameErr := by
  refine Tame.sat (Tame.descriptor _ _ _ _ _ _ _) ((mild_descriptor hc.nest _ k code d dl p t h.term.config
    (h.term.config ▸ descBudget_rank k d)).imp (fun k' hm => ?_))
  exact ⟨h.congr (h.term.mild hm) (absorbed_of_steps hm.steps) hm.chord hm.activeChords, SameMode.of_chord hm.chord⟩

theorem handlePendingKey_mat (hc : TermCfg c) {k : Kbd} (code : Code) (p : Bool) (t : Int) (h : MatInv c k) :
    Sat (handlePendingKey pe k code p t) (AfterMat c k) TameErr := by
  have skip : AfterMat c k (k, false) := ⟨h, SameMode.refl k⟩
  unfold handlePendingKey
  refine Sat.ite (fun _ => skip) (fun hpend => ?_)
  refine Sat.bind (Q := fun o => match o with
      | none => True
      | some k1 => ∃ q, k1 = { k with pending := { k.pending with queue := q } }) ?_ (fun o ho => ?_)
  · unfold pendingEnqueue
    refine Sat.ite (fun h0 => ?_) (fun _ => Sat.ite (fun _ => ?_) (fun _ => Sat.ite (fun _ => trivial) (fun _ => ?_)))
    · exact ⟨k.pending.queue, rfl⟩
    · exact .inr (by decide)
    · exact ⟨_, rfl⟩
  · split
    · exact skip
    · rename_i k1
      obtain ⟨q, rfl⟩ := ho
      dsimp only
      refine Sat.ite (fun _ => ?_) (fun hne => ?_)
      · exact ⟨h.congr ⟨h.term.1, h.term.2, h.term.3⟩ rfl rfl rfl, SameMode.of_chord rfl⟩
      · generalize hact : pendingDecision _ code p t = action
        unfold resolvePendingStep
        dsimp only
        refine Sat.bind (Q := fun r : Kbd × List KeyEvent => MatInv c r.1 ∧ SameMode k r.1) ?_ (fun r hr => ?_)
        · generalize hk2 : (Option.getD _ _ : Kbd).log _ = k2
          have ex : MatInv c k2 ∧ SameMode k k2 := by
            subst hk2
            cases hcs : cacheSet { k with pending := { k.pending with code := 0, queue := [], tapExpiry := 0 } } k.pending.code
              (some { d := action, dl := k.pending.dl, layer := 0 }) with
            | none =>
              refine ⟨h.congr ⟨h.term.1, h.term.2, h.term.3⟩ ?_ rfl rfl, SameMode.of_chord rfl⟩
              show (Kbd.log _ _).absorbed = _
              rw [absorbed_log]
              exact List.append_nil _
            | some k3 =>
              obtain ⟨l, rfl⟩ := cacheSet_frame hcs
              refine ⟨h.congr ⟨h.term.1, h.term.2, h.term.3⟩ ?_ rfl rfl, SameMode.of_chord rfl⟩
              show (Kbd.log _ _).absorbed = _
              rw [absorbed_log]
              exact List.append_nil _
          refine (descriptor_mat hc ex.1 k.pending.code action k.pending.dl true t).bind (fun k3 h3 => ?_)
          exact ⟨h3.1, ex.2.trans h3.2⟩
        · obtain ⟨k3, q'⟩ := r
          obtain ⟨h3, h4⟩ := hr
          dsimp only at h3 h4 ⊢
          refine (loop_mat hp q' k3 0 0 h3).bind (fun r hr => ?_)
          obtain ⟨k4, t4⟩ := r
          obtain ⟨g1, g3⟩ := hr
          dsimp only at g1 g3 ⊢
          exact ⟨g1, h4.trans g3⟩

omit hp in
theorem stepKey_mat (hc : TermCfg c) {k : Kbd} (code : Code) (p : Bool) (t : Int) (h : MatInv c k) :
    Sat (stepKey k code p t) (fun k' => MatInv c k' ∧ SameMode k k') TameErr := by
  have lg : ∀ l b u, MatInv c (Kbd.log { k with cache := l } (.key code b t u)) ∧
      SameMode k (Kbd.log { k with cache := l } (.key code b t u)) := by
    intro l b u
    refine ⟨h.congr ⟨h.term.1, h.term.2, h.term.3⟩ ?_ rfl rfl, SameMode.of_chord rfl⟩
    rw [absorbed_log]
    exact List.append_nil _
  have run : ∀ l u d dl b b', Sat (processDescriptor (descBudget (Kbd.log { k with cache := l } (.key code b t u)))
      (Kbd.log { k with cache := l } (.key code b t u)) code d dl b' t) (fun k' => MatInv c k' ∧ SameMode k k') TameErr := by
    intro l u d dl b b'
    exact (descriptor_mat hc (lg l b u).1 code d dl b' t).imp (fun k1 h1 => ⟨h1.1, (lg l b u).2.trans h1.2⟩)
  unfold stepKey
  refine Sat.ite (fun h0 => ?_) (fun h0 => Sat.ite (fun hp' => Sat.ite (fun _ => ?_) (fun _ => ?_)) (fun hp' => ?_))
  · exact ⟨h, SameMode.refl k⟩
  · exact lg k.cache true none
  · dsimp only
    split
    · exact lg k.cache true none
    · rename_i k1 hk1
      obtain ⟨l, rfl⟩ := cacheSet_frame hk1
      exact run l _ _ _ _ _
  · split
    · exact lg k.cache false none
    · rename_i ce _
      dsimp only
      cases hcs : cacheSet k code none with
      | none => exact run k.cache _ _ _ _ _
      | some k1 =>
        obtain ⟨l, rfl⟩ := cacheSet_frame hcs
        exact run l _ _ _ _ _

theorem processEventBody_mat (hc : TermCfg c) : MatKeep c (processEventBody pe) := by
  intro k code p t h
  unfold processEventBody
  refine (handleChord_mat hp hc code p t h).bind (fun r hr => ?_)
  obtain ⟨k1, b1⟩ := r
  obtain ⟨h1, h2⟩ := hr
  dsimp only at h1 h2 ⊢
  refine Sat.bind (Q := fun k' => MatInv c k' ∧ SameMode k k') ?_
    (fun k' g => ⟨g.1.congr ⟨g.1.term.1, g.1.term.2, g.1.term.3⟩ rfl rfl rfl, g.2.trans (SameMode.of_chord rfl)⟩)
  refine Sat.ite (fun hb => ⟨h1, h2⟩) (fun hb => ?_)
  generalize hk2 : (if code = 0 then k1 else k1.log (.passed ⟨code, p, t⟩)) = k2
  have ex : MatInv c k2 ∧ k2.chord = k1.chord := by
    subst hk2
    split
    · exact ⟨h1, rfl⟩
    · refine ⟨h1.congr ⟨h1.term.1, h1.term.2, h1.term.3⟩ ?_ rfl rfl, rfl⟩
      rw [absorbed_log]
      exact List.append_nil _
  obtain ⟨e1, e3⟩ := ex
  have e3 : SameMode k k2 := h2.trans (SameMode.of_chord e3)
  refine (handlePendingKey_mat hp hc code p t e1).bind (fun r hr => ?_)
  obtain ⟨k3, b3⟩ := r
  obtain ⟨g1, g2⟩ := hr
  dsimp only at g1 g2 ⊢
  refine Sat.ite (fun hb => ⟨g1, e3.trans g2⟩) (fun hb => ?_)
  refine Sat.bind (Tame.sat (Tame.stepTimers k3 code t) (Calm.stepTimers k3 code t)) (fun k4 f => ?_)
  refine (stepKey_mat hc code p t (g1.congr (g1.term.calm f) (absorbed_of_steps f.steps) f.chord f.activeChords)).imp (fun k5 f5 => ?_)
  exact ⟨f5.1, (e3.trans g2).trans ((SameMode.of_chord f.chord).trans f5.2)⟩

end

theorem processEvent_mat {c : Config} (hc : TermCfg c) : ∀ n, MatKeep c (processEvent n)
  | 0 => fun _ _ _ _ _ => .inl rfl
  | n+1 => processEventBody_mat (processEvent_mat hc n) hc

end Keyd
