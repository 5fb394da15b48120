import Verif.Proofs.Chosen
import Verif.Props.Performed

/-
  C58, in every state: `overloadi` chooses by the time since the last symbol, whatever keys are undecided or held, and the
  key is held and released with the action chosen.
-/

set_option autoImplicit false

namespace Keyd

attribute [local irreducible] configInit

theorem keeps_run {cfg : Config → Prop} {k k' : Kbd} (h : Reach cfg k) {n : Nat} {evs : List KeyEvent} {w : Int}
    (run : kbdProcessEvents n k evs = .ok (k', w)) : KeepsInv k k' := by
  refine (kbdProcessEvents_sat (keeps_engineInv k) n k evs ⟨memInv_reach h, .refl k, [], rfl, ?_, trivial⟩).of_ok run
  intro code _ d dl hch
  cases hch

/-- A keyboard that has just been started remembers nothing. -/
theorem memo_start (c : Config) : (newKeyboard c).memo = ⟨0, 0, 0⟩ ∧ (newKeyboard c).steps = [] := ⟨rfl, rfl⟩

theorem logPerforms_split {c : Config} {m0 : Memo} : ∀ {later earlier : List Step} {as : List Act} {m : Memo},
    LogPerforms c m0 (later ++ earlier) as m → ∃ as1 as2 m1, LogPerforms c m0 earlier as1 m1 ∧ LogPerforms c m1 later as2 m ∧ as = as1 ++ as2
  | [], _, _, _, h => ⟨_, [], _, h, .nil, (List.append_nil _).symm⟩
  | s :: later, earlier, as, m, h => by
    cases h with
    | step h hs =>
      obtain ⟨as1, as2, m1, h1, h2, rfl⟩ := logPerforms_split h
      exact ⟨as1, _, m1, h1, h2.step hs, List.append_assoc _ _ _⟩

/-- C58, the choice in every state. Events are handled, starting in any reachable state, whatever keys are held or undecided.
At some point a key is pressed as `overloadi(a, b, T)` at time `t`. The steps before it say when a symbol was last typed
(`m.symbol`), and the key performs `a` if that is less than `T` ms ago, and `b` otherwise: these are the actions performed
between those before it and those after it. -/
theorem C58_everywhere {k k' : Kbd} {n : Nat} {evs : List KeyEvent} {w : Int}
    (run : kbdProcessEvents n k evs = .ok (k', w)) {later earlier : List Step} {code : Code} {t : Int} {a b T dl : Nat}
    (hlog : k'.steps = later ++ .key code true t (some (.overloadIdle a b T, dl)) :: (earlier ++ k.steps)) :
    ∃ before m chosen m1 after, LogPerforms k.config k.memo earlier before m ∧
      Performs k.config code t m (k.config.desc (if t - m.symbol < T then a else b)) true chosen m1 ∧
      LogPerforms k.config m1 later after k'.memo ∧
      k'.commandsRun = k.commandsRun ++ (before ++ chosen ++ after).filterMap (commandOf k.config) ∧
      k'.scroll = (before ++ chosen ++ after).foldl scrollOf k.scroll := by
  obtain ⟨new, as, h1, h2, h3⟩ := (kbdProcessEvents_sat (since_engineInv k) n k evs (.refl k)).of_ok run
  have e : new = later ++ .key code true t (some (.overloadIdle a b T, dl)) :: earlier :=
    List.append_cancel_right (h1.symm.trans (hlog.trans (by simp)))
  subst e
  obtain ⟨as1, as2, m1, g1, g2, rfl⟩ := logPerforms_split h2
  cases g1 with
  | @step _ _ as bs m _ g1 gs =>
    have gs : Performs k.config code t m (.overloadIdle a b T) true bs m1 := gs
    cases gs with
    | itself h _ => exact absurd rfl (h _ _ _)
    | idle gs =>
      refine ⟨as, m, bs, m1, as2, g1, gs, g2, ?_, h3.scroll⟩
      unfold Kbd.commandsRun Kbd.outputs
      rw [List.filterMap_reverse, List.filterMap_reverse, h3.ran, List.reverse_append, List.reverse_reverse]

/-- C58, held. While the key is not released (and not decided anew) it is held with the action chosen, if this is one that
neither holds a layer nor waits for a decision. -/
theorem C58_held {cfg : Config → Prop} {k k' : Kbd} (h : Reach cfg k) {n : Nat} {evs : List KeyEvent} {w : Int}
    (run : kbdProcessEvents n k evs = .ok (k', w)) {new : List Step} (hlog : k'.steps = new ++ k.steps) {code : Code} (hc : code ≠ 0)
    {d : Desc} {dl : Nat} (hch : Chose k.config k.memo code new d dl) (hd : d.steady = true) :
    ∃ e, cacheGet k' code = some e ∧ e.d = d ∧ e.dl = dl := by
  obtain ⟨_, _, new', h1, h2, h3⟩ := keeps_run h run
  clear h3
  have e : new' = new := List.append_cancel_right (h1.symm.trans hlog)
  subst e
  have hu : ∃ a b T, lastUse code k'.steps = some (.pressed (.overloadIdle a b T) dl) := by
    rw [hlog]
    clear hlog h1 h2
    induction hch with
    | @press log as m t a b T dl h => exact ⟨a, b, T, by simp [lastUse]⟩
    | @later log d dl s h hs ih =>
      obtain ⟨a, b, T, ih⟩ := ih hd
      exact ⟨a, b, T, by rw [List.cons_append, ← ih]; exact lastUse_skip [s] _ (by simpa using hs)⟩
  obtain ⟨a, b, T, hu⟩ := hu
  obtain ⟨ce, g1, _⟩ := C02_still_held (.events _ _ _ _ _ h run) code hc _ _ hu
  have hmem : ce ∈ k'.cache := List.mem_of_find?_eq_some g1
  have hcc : ce.code = code := by simpa using List.find?_some g1
  have := h2 code hc d dl hch hd ce hmem hcc
  exact ⟨ce, g1, by rw [this], by rw [this]⟩

theorem ChoseLog.suffix {c : Config} {m0 : Memo} : ∀ {later rest : List Step}, ChoseLog c m0 (later ++ rest) → ChoseLog c m0 rest
  | [], _, h => h
  | s :: later, rest, h => by
    refine ChoseLog.suffix (later := later) ?_
    match s, h with
    | .key _ false _ (some (_, _)), h => exact h.2
    | .key _ true _ _, h => exact h
    | .key _ false _ none, h => exact h
    | .resolve _ _ _ _, h => exact h
    | .passed _, h => exact h
    | .swallowed _, h => exact h

/-- C58, released. When the key is released with a binding, it is with the action chosen at the press. -/
theorem C58_released {cfg : Config → Prop} {k k' : Kbd} (h : Reach cfg k) {n : Nat} {evs : List KeyEvent} {w : Int}
    (run : kbdProcessEvents n k evs = .ok (k', w)) {later rest : List Step} {code : Code} (hc : code ≠ 0) {t : Int}
    {d' d : Desc} {dl' dl : Nat}
    (hlog : k'.steps = later ++ .key code false t (some (d', dl')) :: (rest ++ k.steps))
    (hch : Chose k.config k.memo code rest d dl) (hd : d.steady = true) : d' = d ∧ dl' = dl := by
  obtain ⟨_, _, new, h1, _, h3⟩ := keeps_run h run
  have e : new = later ++ .key code false t (some (d', dl')) :: rest :=
    List.append_cancel_right (h1.symm.trans (hlog.trans (by simp)))
  subst e
  exact h3.suffix.1 hc d dl hch hd

/-! Concrete cases. -/

/-- `s` is a letter or a layer key, which is decided late; `a` is a letter or runs a command. -/
def waitingIdleText : Str :=
  b!"[main]\ns = overloadt2(nav, s, 200)\na = overloadi(a, command(ls), 150)\n[nav]\nx = y\n"

/-- `a` is pressed while `s` is undecided, 160 ms after the last symbol: it runs its command when `s` has been decided (here
by the release of `a`). -/
theorem C58_waiting_idle : runText waitingIdleText [press 48 1000, release 48 1010, press 31 1100, press 30 1170, release 30 1180]
    = some [.key 48 true, .key 48 false, .layer 6 true, .command b!"ls"] := by
  set_option maxRecDepth 100000 in decide +kernel

/-- `s` turns out to be a letter, so `a` is one as well. -/
theorem C58_waiting_typing : runText waitingIdleText [press 48 1000, release 48 1010, press 31 1100, press 30 1170, release 31 1180,
    release 30 1190] = some [.key 48 true, .key 48 false, .key 31 true, .key 30 true, .key 31 false, .key 30 false] := by
  set_option maxRecDepth 100000 in decide +kernel

/-- The log up to the press of `a` … -/
def waitingEarlier : List Step :=
  [.passed ⟨30, true, 1170⟩, .resolve 31 (.keyseq 31 0) 0 1180, .passed ⟨31, false, 1180⟩, .passed ⟨30, true, 1170⟩,
   .key 31 true 1100 (some (.overloadTimeoutTap 6 0 200, 0)), .passed ⟨31, true, 1100⟩, .key 48 false 1010 (some (.keyseq 48 0, 0)),
   .passed ⟨48, false, 1010⟩, .key 48 true 1000 (some (.keyseq 48 0, 0)), .passed ⟨48, true, 1000⟩]

/-- … and between the press and the release. -/
def waitingBetween : List Step := [.passed ⟨30, false, 1190⟩, .key 31 false 1180 (some (.keyseq 31 0, 0)), .passed ⟨31, false, 1180⟩]

theorem waitingIdleWitness : checkRun waitingIdleText [press 48 1000, release 48 1010, press 31 1100, press 30 1170, release 31 1180,
    release 30 1190] (fun _ => true) (fun k => decide (k.config.desc 2 = .keyseq 30 0) && decide (k.config.desc 1 = .command 0) &&
      decide (k.steps = .key 30 false 1190 (some (.keyseq 30 0, 0)) ::
        (waitingBetween ++ .key 30 true 1170 (some (.overloadIdle 2 1 150, 0)) :: waitingEarlier))) = true := by
  set_option maxRecDepth 100000 in decide +kernel

/-- The hypotheses of `C58_everywhere`, `C58_held` and `C58_released` are met: in this run, `a` is pressed as `overloadi` while
`s` is undecided, and then released. The log says that it performs its first action. -/
theorem C58_witness_waiting : ∃ c k, kbdProcessEvents 40 (newKeyboard c) [press 48 1000, release 48 1010, press 31 1100, press 30 1170,
      release 31 1180, release 30 1190] = .ok k ∧
    k.1.steps = [] ++ .key 30 false 1190 (some (.keyseq 30 0, 0)) ::
        ((waitingBetween ++ .key 30 true 1170 (some (.overloadIdle 2 1 150, 0)) :: waitingEarlier) ++ (newKeyboard c).steps) ∧
    Chose c (newKeyboard c).memo 30 (waitingBetween ++ .key 30 true 1170 (some (.overloadIdle 2 1 150, 0)) :: waitingEarlier)
      (.keyseq 30 0) 0 := by
  have h := waitingIdleWitness
  unfold checkRun at h
  split at h
  · rename_i c hc
    rw [Bool.and_eq_true] at h
    obtain ⟨_, h2⟩ := h
    split at h2
    · rename_i k hk
      unfold runConfig at hk
      split at hk
      · rename_i k' w run
        cases hk
        simp only [Bool.and_eq_true, decide_eq_true_eq] at h2
        obtain ⟨⟨a1, a2⟩, a3⟩ := h2
        have hs := (kbdProcessEvents_sat (since_engineInv (newKeyboard c)) _ _ _ (.refl _)).of_ok run
        have hcfg : k.config = c := hs.config
        rw [hcfg] at a1 a2
        refine ⟨c, (k, w), run, ?_, ?_⟩
        · show k.steps = _
          rw [a3]; rfl
        · have e : Desc.keyseq 30 0 = c.desc (if (1170 : Int) - 1180 < (150 : Nat) then 2 else 1) := by
            rw [if_pos (by decide), a1]
          rw [e]
          refine .later (.later (.later (.press (m := ⟨1180, 31, 0⟩) (as := [(.keyseq 48 0, true), (.keyseq 48 0, false),
            (.overloadTimeoutTap 6 0 200, true), (.keyseq 31 0, true)]) ?_) rfl) rfl) rfl
          have it : ∀ (m : Memo) (code : Code) (t : Int) (d : Desc) (p : Bool), (∀ a b T, d ≠ .overloadIdle a b T) →
              (∀ l a, d ≠ .overload l a) → Performs c code t m d p [(d, p)] (m.after code t d p) :=
            fun m code t d p h1 h2 => .itself (fun a b T e => h1 a b T (by cases e; rfl)) (fun l a e => h2 l a (by cases e; rfl))
          have s0 : LogPerforms c ⟨0, 0, 0⟩ [.passed ⟨48, true, 1000⟩] [] ⟨0, 0, 0⟩ := .step (bs := []) .nil ⟨rfl, rfl⟩
          have s1 := s0.step (s := .key 48 true 1000 (some (.keyseq 48 0, 0))) (it _ _ _ _ _ (by simp) (by simp))
          have s2 := s1.step (s := .passed ⟨48, false, 1010⟩) ⟨rfl, rfl⟩
          have s3 := s2.step (s := .key 48 false 1010 (some (.keyseq 48 0, 0))) (it _ _ _ _ _ (by simp) (by simp))
          have s4 := s3.step (s := .passed ⟨31, true, 1100⟩) ⟨rfl, rfl⟩
          have s5 := s4.step (s := .key 31 true 1100 (some (.overloadTimeoutTap 6 0 200, 0))) (it _ _ _ _ _ (by simp) (by simp))
          have s6 := s5.step (s := .passed ⟨30, true, 1170⟩) ⟨rfl, rfl⟩
          have s7 := s6.step (s := .passed ⟨31, false, 1180⟩) ⟨rfl, rfl⟩
          have s8 := s7.step (s := .resolve 31 (.keyseq 31 0) 0 1180) (it _ _ _ _ _ (by simp) (by simp))
          exact s8.step (s := .passed ⟨30, true, 1170⟩) ⟨rfl, rfl⟩
      · cases hk
    · cases h2
  · cases h

end Keyd
