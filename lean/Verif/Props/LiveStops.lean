import Verif.Proofs.ChordLoose
import Verif.Props.ChordLife
import Verif.Props.ChordLines
import Verif.Props.Holding

/-
  C50 with bindings that change at run time.
-/

set_option autoImplicit false

namespace Keyd

attribute [local irreducible] configInit

/-- A keyboard history in which `keyd bind reset` never arrives while a chord is being decided, that
is while key events are held back behind one. Other bindings may change at any time. -/
inductive Considerate (c : Config) : Kbd → Prop
  | start : Considerate c (newKeyboard c)
  | events (fuel : Nat) (k : Kbd) (evs : List KeyEvent) (k' : Kbd) (wait : Int)
      (h : Considerate c k) (run : kbdProcessEvents fuel k evs = .ok (k', wait)) : Considerate c k'
  | bind (k : Kbd) (exp : Str) (k' : Kbd) (accepted : Bool) (h : Considerate c k)
      (run : kbdEval k exp = .ok (k', accepted)) (ok : exp ≠ b!"reset" ∨ k.behindChord = []) : Considerate c k'
  | scroll (k : Kbd) (s : Scroll) (h : Considerate c k) : Considerate c { k with scroll := s }

theorem Considerate.history {c : Config} {k : Kbd} (h : Considerate c k) : HistoryOf c k := by
  induction h with
  | start => exact .start
  | events n k evs k' w _ run ih => exact .events n k evs k' w ih run
  | bind k e k' ok _ run _ ih => exact .bind k e k' ok ih run
  | scroll k s _ ih => exact .scroll k s ih

/-- Every configuration a keyboard runs with can be obtained from its text by bindings. -/
theorem bound_history {c : Config} (hb : Bound c) {k : Kbd} (h : HistoryOf c k) : Bound k.config := by
  induction h with
  | start => exact hb
  | events n k evs k' w _ run ih =>
    have I : OutInv (fun k => Bound k.config) := by
      refine ⟨?_, ?_, ?_, ?_, ?_⟩
      · intro k k' _ hc _ _ h; rw [hc]; exact h
      · intro k c b h; rw [sendKey_config]; exact h
      · intro k c h _; exact h
      · intro k o _ h; exact h
      · intro k i t _ h
        have : ∀ (l : List MacroOut) (k : Kbd), (emitMacro k l).config = k.config := by
          intro l
          induction l with
          | nil => intro k; rfl
          | cons o l ih => intro k; cases o <;> (unfold emitMacro; rw [ih]; rfl)
        rw [this]; exact h
    exact (kbdProcessEvents_sat I.engineInv n k evs ih).of_ok run
  | bind k e k' ok hk run ih =>
    by_cases he : e = b!"reset"
    · subst he
      rw [C25_reset_restores c k hk] at run
      rw [← (show _ = k' from congrArg Prod.fst (Except.ok.inj run))]
      exact hb
    · unfold kbdEval at run
      rw [if_neg he] at run
      obtain ⟨r, r1, r2⟩ := bind_eq_ok.1 run
      obtain ⟨c1, ok1⟩ := r
      rw [← (show _ = k' from congrArg Prod.fst (Except.ok.inj r2))]
      exact .bind _ _ _ _ ih r1
  | scroll k s _ ih => exact ih

theorem reach_history {c : Config} (hb : Bound c) {k : Kbd} (h : HistoryOf c k) : Reach Bound k := by
  induction h with
  | start => exact .init c hb
  | events n k evs k' w _ run ih => exact .events n k evs k' w ih run
  | bind k e k' ok hk run ih => exact .bind k e k' ok ih run (bound_history hb (.bind k e k' ok hk run))
  | scroll k s _ ih => exact .scroll k s ih

/-- A binding other than `reset` leaves every chord where it is, though its action may change. -/
theorem noted_bind {c c' : Config} (hw : WF c) {exp : Str} {ok : Bool} (run : configAddEntry c exp = .ok (c', ok))
    {p : Nat × Nat} {q : List KeyEvent} (h : NotedBy c p q) : NotedBy c' p q := by
  obtain ⟨L, ch, h1, h2, h3, h4, h5⟩ := h
  rcases configAddEntry_cases hw run with ⟨_, hl, _⟩ | ⟨_, _, idx, l, l', c1, d, g1, g2, g3, g4, g5, g6⟩
  · exact ⟨L, ch, by rw [hl]; exact h1, h2, h3, h4, h5⟩
  · have hlay : c'.layers = c.layers.set idx l' := by rw [g5]
    by_cases hi : p.1 = idx
    · have hL : L = l := by rw [hi, g2] at h1; exact (Option.some.inj h1).symm
      subst hL
      have hlt : idx < c.layers.length := (List.getElem?_eq_some_iff.1 g2).1
      have keep : ∃ ch', l'.chords[p.2]? = some ch' ∧ ch'.keys = ch.keys := by
        rcases setLayerEntry_chords g4 with e | ⟨_, codes, _, e⟩
        · exact ⟨ch, by rw [e]; exact h2, rfl⟩
        · rw [e]
          unfold upsert
          split
          · rename_i i _
            rw [List.getElem?_modify, h2]
            refine ⟨_, rfl, ?_⟩
            split <;> rfl
          · have := (List.getElem?_eq_some_iff.1 h2).1
            rw [List.getElem?_append_left this]
            exact ⟨ch, h2, rfl⟩
      obtain ⟨ch', k1, k2⟩ := keep
      refine ⟨l', ch', ?_, k1, ?_⟩
      · rw [hlay, hi, List.getElem?_set_self hlt]
      · rw [k2]
        exact ⟨h3, h4, h5⟩
    · refine ⟨L, ch, ?_, h2, h3, h4, h5⟩
      rw [hlay, List.getElem?_set_ne (fun e => hi e.symm)]
      exact h1

theorem loose_init (s : Prop) (c : Config) : LooseInv s c (newKeyboard c) :=
  LooseInv.idle (matInv_init c).term rfl

theorem loose_reach {k : Kbd} (h : Reach Bound k) : LooseInv False k.config k := by
  induction h with
  | init c hc => exact loose_init _ c
  | events n k evs k' w hr run ih =>
    have hc : TermCfg k.config := (C27_reachable k hr).termCfg
    have := ((loop_loose (processEvent_loose hc n) evs k 0 0 ih).of_ok run).1
    have e : k'.config = k.config := this.term.config
    rw [e]
    exact this
  | bind k e k' ok hr run hc' ih =>
    have e1 := kbdEval_frame run
    rw [e1]
    exact ⟨⟨rfl, ih.term.2, ih.term.3⟩, ih.2, False.elim, False.elim⟩
  | scroll k s hr ih => exact ⟨⟨rfl, ih.term.2, ih.term.3⟩, ih.2, ih.3, ih.4⟩

theorem loose_considerate {c : Config} (hb : Bound c) {k : Kbd} (h : Considerate c k) : LooseInv True k.config k := by
  induction h with
  | start => exact loose_init _ c
  | events n k evs k' w hr run ih =>
    have hc : TermCfg k.config := (C27_wellformed _ (bound_history hb hr.history)).termCfg
    have := ((loop_loose (processEvent_loose hc n) evs k 0 0 ih).of_ok run).1
    have e : k'.config = k.config := this.term.config
    rw [e]
    exact this
  | bind k e k' ok hr run hok ih =>
    have e1 := kbdEval_frame run
    have keep : ∀ p, waiting k.chord.state = true → k.chord.match = some p → NotedBy k'.config p k.chord.queue := by
      intro p hwt hm
      have old := ih.noted trivial hwt p hm
      by_cases he : e = b!"reset"
      · rcases hok with hok | hok
        · exact absurd he hok
        · exfalso
          have hq : k.chord.queue = [] := by
            unfold Kbd.behindChord at hok
            cases hs : k.chord.state <;> rw [hs] at hok hwt <;> first | exact hok | cases hwt
          obtain ⟨L, ch, _, _, h3, _, h5⟩ := old
          rw [hq] at h3
          exact h5 (List.length_eq_zero_iff.1 (Nat.le_zero.1 h3))
      · unfold kbdEval at run
        rw [if_neg he] at run
        obtain ⟨r, r1, r2⟩ := bind_eq_ok.1 run
        obtain ⟨c1, ok1⟩ := r
        rw [← (show _ = k' from congrArg Prod.fst (Except.ok.inj r2))]
        exact noted_bind (C27_wellformed _ (bound_history hb hr.history)) r1 old
    rw [e1]
    exact ⟨⟨rfl, ih.term.2, ih.term.3⟩, ih.2, ih.3, fun _ hwt p hm => keep p hwt hm⟩
  | scroll k s hr ih => exact ⟨⟨rfl, ih.term.2, ih.term.3⟩, ih.2, ih.3, ih.4⟩

/-- C50. Whatever bindings are changed at run time, and whenever, handling any batch of events
succeeds, stops the daemon at one of the seven places of `C50_stops`, or reads beyond the queue of
events held back behind a chord. Nothing else can happen. -/
theorem C50_stops_bind (c : Config) (hb : Bound c) (k : Kbd) (h : HistoryOf c k) (evs : List KeyEvent) :
    ∃ depth, ∀ n, depth ≤ n →
      (∃ k' w, kbdProcessEvents n k evs = .ok (k', w)) ∨ (∃ e ∈ stopPoints, kbdProcessEvents n k evs = .error e) ∨
      kbdProcessEvents n k evs = .error (.oob "chord.queue + queue_offset") := by
  have hr := reach_history hb h
  have hc : TermCfg k.config := (C27_reachable k hr).termCfg
  obtain ⟨d, r, hne, hd⟩ := C24_terminates k hr evs
  refine ⟨d, fun n hn => ?_⟩
  have hs := loop_loose (processEvent_loose hc n) evs k 0 0 (loose_reach hr)
  have he : processEventsLoop (processEvent n) evs k 0 0 = kbdProcessEvents n k evs := rfl
  rw [he, hd n hn] at hs
  rw [hd n hn]
  cases r with
  | ok r => exact .inl ⟨r.1, r.2, rfl⟩
  | error e =>
    right
    rcases hs with (h1 | h1) | h1
    · exact absurd (by rw [h1]) hne
    · exact .inl ⟨e, h1, rfl⟩
    · rw [h1.2]; exact .inr rfl

/-- C50. The overrun needs `keyd bind reset` while a chord is being decided: when that never
happens, however bindings are changed otherwise, only the seven places remain. -/
theorem C50_stops_considerate (c : Config) (hb : Bound c) (k : Kbd) (h : Considerate c k) (evs : List KeyEvent) :
    ∃ depth, ∀ n, depth ≤ n →
      (∃ k' w, kbdProcessEvents n k evs = .ok (k', w)) ∨ (∃ e ∈ stopPoints, kbdProcessEvents n k evs = .error e) := by
  have hr := reach_history hb h.history
  have hc : TermCfg k.config := (C27_reachable k hr).termCfg
  obtain ⟨d, r, hne, hd⟩ := C24_terminates k hr evs
  refine ⟨d, fun n hn => ?_⟩
  have hs := loop_loose (processEvent_loose hc n) evs k 0 0 (loose_considerate hb h)
  have he : processEventsLoop (processEvent n) evs k 0 0 = kbdProcessEvents n k evs := rfl
  rw [he, hd n hn] at hs
  rw [hd n hn]
  cases r with
  | ok r => exact .inl ⟨r.1, r.2, rfl⟩
  | error e =>
    right
    rcases hs with (h1 | h1) | h1
    · exact absurd (by rw [h1]) hne
    · exact ⟨e, h1, rfl⟩
    · exact absurd trivial h1.1

/-! ### The overrun happens -/

/-- Feed events, change bindings, feed more events. -/
def rebindRun (text : Str) (before : List Str) (evs : List KeyEvent) (during : List Str) : Option (Config × Kbd) :=
  let binds (k : Kbd) (bs : List Str) : Option Kbd := bs.foldlM (fun k b => match kbdEval k b with
    | .ok (k, true) => some k
    | _ => none) k
  match textConfig text with
  | none => none
  | some c =>
    match binds (newKeyboard c) before with
    | none => none
    | some k =>
      match kbdProcessEvents 40 k evs with
      | .ok (k, _) => (binds k during).map fun k => (c, k)
      | .error _ => none

theorem binds_history {c : Config} : ∀ (bs : List Str) (k k' : Kbd), HistoryOf c k →
    bs.foldlM (fun k b => match kbdEval k b with
      | .ok (k, true) => some k
      | _ => none) k = some k' → HistoryOf c k'
  | [], k, k', h, e => by cases e; exact h
  | b :: bs, k, k', h, e => by
    rw [List.foldlM_cons] at e
    cases hk : kbdEval k b with
    | error x => rw [hk] at e; cases e
    | ok r =>
      obtain ⟨k1, ok⟩ := r
      rw [hk] at e
      cases ok with
      | false => cases e
      | true => exact binds_history bs k1 k' (.bind k b k1 true h hk) e

theorem rebindRun_history {text : Str} {before during : List Str} {evs : List KeyEvent} {c : Config} {k : Kbd}
    (h : rebindRun text before evs during = some (c, k)) : Bound c ∧ HistoryOf c k := by
  unfold rebindRun at h
  dsimp only at h
  cases hc : textConfig text with
  | none => rw [hc] at h; cases h
  | some c' =>
    rw [hc] at h
    dsimp only at h
    split at h
    · cases h
    · rename_i k1 h1
      split at h
      · rename_i k2 w run
        obtain ⟨k3, h3, e⟩ := Option.map_eq_some_iff.1 h
        cases e
        refine ⟨?_, binds_history _ _ _ (.events 40 k1 evs k2 w (binds_history _ _ _ .start h1) run) h3⟩
        unfold textConfig at hc
        split at hc
        · rename_i c'' hp
          cases hc
          exact .parsed text c hp
        · cases hc
      · cases h

def overrunText : Str := b!"[global]\nchord_hold_timeout = 100\n[main]\n"

/-- What the run after the rebinding ends in: an error, or these outputs. -/
def rebindEnd (during : List Str) : Option (Err ⊕ List Out) :=
  match rebindRun overrunText [b!"a+b = x"] [press 30 1000, press 48 1010] during with
  | some (_, k) => (match kbdProcessEvents 40 k [wakeup 1200] with
    | .error e => some (.inl e)
    | .ok (k, _) => some (.inr k.outputs))
  | none => none

/-- Finding 41. The chord `a+b`, bound at run time, is being held for its hold timeout. The bindings
are reset and a chord of three keys is bound, which takes the place of `a+b`: as the application
mapper does when the focus changes. When the timeout ends, the engine takes three events off a queue
of two, and hands the rest, 2^64 - 1 events, to itself. Had the bindings not been reset, the chord
would have been carried out. -/
theorem C50_fails_bind :
    (∃ c k, Bound c ∧ HistoryOf c k ∧ (∀ n, 40 ≤ n →
      kbdProcessEvents n k [wakeup 1200] = .error (.oob "chord.queue + queue_offset"))) ∧
    rebindEnd [b!"c+d+e = y"] = some (.inr [.key 45 true]) := by
  refine ⟨?_, by set_option maxRecDepth 100000 in decide +kernel⟩
  have h : rebindEnd [b!"reset", b!"c+d+e = y"] = some (.inl (.oob "chord.queue + queue_offset")) := by
    set_option maxRecDepth 100000 in decide +kernel
  unfold rebindEnd at h
  split at h
  · rename_i c k hk
    obtain ⟨hb, hh⟩ := rebindRun_history hk
    refine ⟨c, k, hb, hh, fun n hn => ?_⟩
    split at h
    · rename_i e run
      injection h with h
      injection h with h
      subst h
      rcases kbdProcessEvents_le hn k [wakeup 1200] with e | e
      · rw [run] at e; injection e with e; cases e
      · rw [e]; exact run
    · cases h
  · cases h

theorem binds_considerate {c : Config} : ∀ (bs : List Str) (k k' : Kbd), (∀ b ∈ bs, b ≠ b!"reset") → Considerate c k →
    bs.foldlM (fun k b => match kbdEval k b with
      | .ok (k, true) => some k
      | _ => none) k = some k' → Considerate c k'
  | [], k, k', _, h, e => by cases e; exact h
  | b :: bs, k, k', hn, h, e => by
    rw [List.foldlM_cons] at e
    cases hk : kbdEval k b with
    | error x => rw [hk] at e; cases e
    | ok r =>
      obtain ⟨k1, ok⟩ := r
      rw [hk] at e
      cases ok with
      | false => cases e
      | true =>
        exact binds_considerate bs k1 k' (fun b hb => hn b (List.mem_cons_of_mem _ hb))
          (.bind k b k1 true h hk (.inl (hn b List.mem_cons_self))) e

theorem rebindRun_considerate {text : Str} {before during : List Str} {evs : List KeyEvent} {c : Config} {k : Kbd}
    (h : rebindRun text before evs during = some (c, k)) (h1 : ∀ b ∈ before, b ≠ b!"reset")
    (h2 : ∀ b ∈ during, b ≠ b!"reset") : Considerate c k := by
  unfold rebindRun at h
  dsimp only at h
  cases hc : textConfig text with
  | none => rw [hc] at h; cases h
  | some c' =>
    rw [hc] at h
    dsimp only at h
    split at h
    · cases h
    · rename_i k1 g1
      split at h
      · rename_i k2 w run
        obtain ⟨k3, h3, e⟩ := Option.map_eq_some_iff.1 h
        cases e
        exact binds_considerate _ _ _ h2 (.events 40 k1 evs k2 w (binds_considerate _ _ _ h1 .start g1) run) h3
      · cases h

/-- `C50_stops_considerate`: a chord is being decided and another one is bound meanwhile. -/
example : ∃ c k, Bound c ∧ Considerate c k ∧ k.behindChord ≠ [] ∧
    (k.config.layer 0).chords.map (·.keys) = [[30, 48], [46, 32, 18]] ∧ (c.layer 0).chords = [] := by
  have h : (match rebindRun overrunText [b!"a+b = x"] [press 30 1000, press 48 1010] [b!"c+d+e = y"] with
      | some (c, k) => k.behindChord.length == 2 && ((k.config.layer 0).chords.map (·.keys) == [[30, 48], [46, 32, 18]]) && (c.layer 0).chords.isEmpty
      | none => false) = true := by
    set_option maxRecDepth 100000 in decide +kernel
  split at h
  · rename_i c k hk
    simp only [Bool.and_eq_true, beq_iff_eq, List.isEmpty_iff] at h
    refine ⟨c, k, (rebindRun_history hk).1, rebindRun_considerate hk (by decide) (by decide), ?_, h.1.2, h.2⟩
    intro e
    rw [e] at h
    exact absurd h.1.1 (by decide)
  · cases h

/-! ### Every place is reached -/

/-- 33 keys pressed while `overloadt` is undecided: -/
theorem C50_pending_queue : runErr b!"[main]\na = overloadt(shift, b, 300)\n"
    (press 30 1000 :: (List.range 33).map (fun i => ⟨UInt8.ofNat (i+50), true, 1002⟩)) =
      some (.assertFail "pending_key.queue_sz < ARRAY_SIZE(pending_key.queue)") := by
  set_option maxRecDepth 100000 in decide +kernel

def depthText : Str := b!"[main]
a = toggle(nav)
b = oneshot(nav)
e = oneshot(nav)
[nav]
d = toggle(nav)
c = swap(other)
[other]
"

def depthEvents : List KeyEvent :=
  [press 48 10, press 30 20, press 32 30, release 32 40, press 46 50, press 18 51, release 48 60, release 18 61] ++
    (List.range 254).flatMap (fun i => [press 18 (100 + i), release 18 (100 + i)])

/-- `swap` takes the layer from a one-shot key that is still down, and 255 taps follow: -/
theorem C50_oneshot_depth : runErr depthText depthEvents = some (.wrap "layer_state.oneshot_depth") := by
  set_option maxRecDepth 100000 in decide +kernel

/-- C50. The list is exact: each of the seven places is reached by key events alone, from a config that
keyd accepts. -/
theorem C50_all_reachable (e : Err) (he : e ∈ stopPoints) : ∃ text evs, runErr text evs = some e := by
  simp only [stopPoints, List.mem_cons, List.not_mem_nil, or_false] at he
  rcases he with rfl | rfl | rfl | rfl | rfl | rfl | rfl
  · exact ⟨_, _, C05_fails_for_swap⟩
  · exact ⟨_, _, C50_oneshot⟩
  · exact ⟨_, _, C50_oneshot_depth⟩
  · exact ⟨_, _, C50_deadlines⟩
  · exact ⟨_, _, C50_chord_queue⟩
  · exact ⟨_, _, C50_pending_queue⟩
  · exact ⟨_, _, C50_four_chords⟩

end Keyd
