import Verif.Props.Machines
import Verif.Props.Listeners

/-
  C104: what a listener knows when several keyboards are used. The daemon writes the layer changes of all keyboards to every listener, without saying whose they are.
-/

set_option autoImplicit false

namespace Keyd

attribute [local irreducible] configInit

/-! ### What the claims speak of -/

/-- The daemon runs on while `con` listens and can take what is written to it: events of all devices, deadlines, devices coming and going, and requests on
other, new connections, except `reload`. -/
inductive Listening (con : Nat) (d0 : Daemon) : Daemon → Prop
  | now : Listening con d0 d0
  | event (env : Env) {d : Daemon} (ev : LoopEvent) (t : Int) {d' : Daemon} {w : Int} (h : Listening con d0 d)
      (run : eventHandler env d ev t = .ok (d', w)) (fresh : ∀ dev, ev = .devAdd dev → dev.data = none) (hw : env.writable con = true)
      (other : ∀ c msg, ev = .client c msg → msg.type ≠ .reload ∧ c ∉ d.listeners) : Listening con d0 d'
  | remove {d : Daemon} (h : Listening con d0 d) (removed : List Nat) :
      Listening con d0 { d with devices := (d.devices.zipIdx.filter fun p => decide (p.2 ∉ removed)).map Prod.fst }

/-- What keyboard `a` has contributed to the lines. -/
def lineShare (a : Nat) (all : List (Nat × Str)) : List Str := (all.filter fun p => decide (p.1 = a)).map Prod.snd

theorem changeLines_shape {c c' : Config} (h : SameShape c c') (os : List Out) : changeLines c' os = changeLines c os := by
  unfold changeLines
  congr 1
  funext o
  cases o with
  | layer i b =>
    dsimp only
    have : changeLine (c'.layer i) b = changeLine (c.layer i) b := by
      unfold changeLine
      rw [h.type i]
      by_cases hi : i < c.layers.length
      · rw [shape_name h hi]
      · unfold Config.layer
        rw [List.getD_eq_getElem?_getD, List.getD_eq_getElem?_getD, List.getElem?_eq_none (l := c.layers) (by omega),
          List.getElem?_eq_none (l := c'.layers) (by rw [h.1]; omega)]
    rw [this]
  | _ => rfl

theorem changeLines_append (c : Config) (a b : List Out) : changeLines c (a ++ b) = changeLines c a ++ changeLines c b := List.filterMap_append

/-- Every keyboard in memory has the history of a configuration loaded. -/
def Lived (conf : Nat → Config) (d : Daemon) : Prop := ∀ a k, d.heap a = some k → HistoryOf (conf a) k ∧ Bound (conf a)

/-- What happens between `d` and `d'`, for a listener: the lines are a mixture of those of the keyboards. -/
def Told (conf : Nat → Config) (con : Nat) (d d' : Daemon) : Prop :=
  Lived conf d → con ∈ d.listeners → d.listeners.Nodup →
    con ∈ d'.listeners ∧ d'.listeners.Nodup ∧
    ∃ all : List (Nat × Str), d'.linesTo con = d.linesTo con ++ all.map Prod.snd ∧
      ∀ a, (d.heap a = none → d'.heap a = none ∧ lineShare a all = []) ∧
        ∀ k, d.heap a = some k → ∃ k', d'.heap a = some k' ∧ Later k k' ∧ lineShare a all = changeLines (conf a) (k.since k')

section
variable {conf : Nat → Config} {con : Nat} {d d' d'' : Daemon}

theorem since_self (k : Kbd) : k.since k = [] := by
  unfold Kbd.since
  exact List.drop_length

theorem lineShare_append (a : Nat) (x y : List (Nat × Str)) : lineShare a (x ++ y) = lineShare a x ++ lineShare a y := by
  unfold lineShare
  rw [List.filter_append, List.map_append]

theorem Told.lived (h : Told conf con d d') (hl : Lived conf d) (hm : con ∈ d.listeners) (hn : d.listeners.Nodup) : Lived conf d' := by
  obtain ⟨_, _, all, _, h4⟩ := h hl hm hn
  intro a k' hk'
  cases hk : d.heap a with
  | none => rw [((h4 a).1 hk).1] at hk'; cases hk'
  | some k =>
    obtain ⟨k2, e, hlt, _⟩ := (h4 a).2 k hk
    rw [hk'] at e
    cases e
    exact ⟨hlt.history (hl a k hk).1, (hl a k hk).2⟩

theorem Told.trans (h : Told conf con d d') (h' : Told conf con d' d'') : Told conf con d d'' := by
  intro hl hm hn
  have hl' := h.lived hl hm hn
  obtain ⟨m1, n1, a1, l1, k1⟩ := h hl hm hn
  obtain ⟨m2, n2, a2, l2, k2⟩ := h' hl' m1 n1
  refine ⟨m2, n2, a1 ++ a2, by rw [l2, l1, List.map_append, List.append_assoc], fun a => ⟨fun ha => ?_, fun k hk => ?_⟩⟩
  · obtain ⟨e1, e2⟩ := (k1 a).1 ha
    obtain ⟨e3, e4⟩ := (k2 a).1 e1
    exact ⟨e3, by rw [lineShare_append, e2, e4]; rfl⟩
  · obtain ⟨k', e1, l1, c1⟩ := (k1 a).2 k hk
    obtain ⟨k'', e2, l2, c2⟩ := (k2 a).2 k' e1
    exact ⟨k'', e2, l1.trans l2, by rw [lineShare_append, c1, c2, since_trans l1 l2, changeLines_append]⟩

/-- A step that leaves the keyboards as they are, or at most binds keys or scrolls, and writes nothing. -/
theorem Told.calm (hh : ∀ a, (d.heap a = none → d'.heap a = none) ∧ ∀ k, d.heap a = some k → ∃ k', d'.heap a = some k' ∧ Later k k' ∧ k.since k' = [])
    (hl : d.listeners.Nodup → con ∈ d.listeners → d'.listeners.Nodup ∧ con ∈ d'.listeners) (hs : con ∈ d.listeners → d'.linesTo con = d.linesTo con) : Told conf con d d' := by
  intro _ hm hn
  refine ⟨(hl hn hm).2, (hl hn hm).1, [], by rw [hs hm]; simp, fun a => ⟨fun ha => ⟨(hh a).1 ha, rfl⟩, fun k hk => ?_⟩⟩
  obtain ⟨k', e, l, s⟩ := (hh a).2 k hk
  exact ⟨k', e, l, by rw [s]; rfl⟩

theorem Told.same (h1 : d'.heap = d.heap) (h2 : d'.listeners = d.listeners) (h3 : d'.sent = d.sent) : Told conf con d d' :=
  .calm (fun a => ⟨fun h => by rw [h1]; exact h, fun k hk => ⟨k, by rw [h1]; exact hk, .now, since_self k⟩⟩)
    (fun hn hm => by rw [h2]; exact ⟨hn, hm⟩) (fun _ => by unfold Daemon.linesTo; rw [h3])

theorem told_run {env : Env} {a : Nat} {ev : KeyEvent} {w : Int} (hw : env.writable con = true) (run : kbdRun env d a [ev] = .ok (d', w)) : Told conf con d d' := by
  intro hl hm hn
  obtain ⟨k, k', hk, hf, hh, hlt, _⟩ := feeds_run run
  obtain ⟨k2, h1, h2, h3, h4⟩ := C39_lines_sent hk hm hn hw run
  have e : k2 = k' := by
    unfold feedEach at hf
    rw [h1] at hf
    exact Except.ok.inj hf
  subst e
  have hsh : SameShape (conf a) k.config := (announced_history (C27_wellformed _ (hl a k hk).2) (hl a k hk).1).shape
  rw [changeLines_shape hsh] at h4
  refine ⟨h2, h3, (changeLines (conf a) (k.since k2)).map fun l => (a, l), by rw [h4, List.map_map]; simp [Function.comp_def], fun b => ?_⟩
  rw [hh]
  by_cases hb : b = a
  · subst hb
    rw [upd_same]
    refine ⟨(fun h => by rw [hk] at h; cases h), fun k0 hk0 => ?_⟩
    rw [hk] at hk0
    cases hk0
    refine ⟨k2, rfl, hlt, ?_⟩
    unfold lineShare
    rw [List.filter_eq_self.2 (by simp), List.map_map]
    simp [Function.comp_def]
  · rw [upd_other _ _ hb]
    have : lineShare b ((changeLines (conf a) (k.since k2)).map fun l => (a, l)) = [] := by
      unfold lineShare
      rw [List.filter_eq_nil_iff.2]
      · rfl
      · intro p hp
        obtain ⟨l, _, rfl⟩ := List.mem_map.1 hp
        simpa using fun h : a = b => hb h.symm
    rw [this]
    exact ⟨fun h => ⟨h, rfl⟩, fun k0 hk0 => ⟨k0, hk0, .now, by rw [since_self]; rfl⟩⟩

theorem told_tap {env : Env} {a : Nat} {c : Code} {t w : Int} (hw : env.writable con = true) (run : processKeypress env d a c t = .ok (d', w)) : Told conf con d d' := by
  unfold processKeypress at run
  obtain ⟨⟨d1, w1⟩, h1, h2⟩ := dbind_eq_ok.1 run
  exact (told_run hw h1).trans (told_run hw h2)

theorem told_repeat {env : Env} {a : Nat} {c : Code} {t : Int} (hw : env.writable con = true) : ∀ (n : Nat) {d d' : Daemon},
    repeatKeypress env a c t n d = .ok d' → Told conf con d d'
  | 0, d, d', run => by cases run; exact .same rfl rfl rfl
  | n + 1, d, d', run => by
    unfold repeatKeypress at run
    obtain ⟨⟨d1, w1⟩, h1, h2⟩ := dbind_eq_ok.1 run
    exact ((told_tap hw h1).trans (d'' := { d1 with timeout := w1 }) (.same rfl rfl rfl)).trans (told_repeat hw n h2)

theorem told_macro : ∀ (l : List MacroOut) (d : Daemon), (execMacro d l).heap = d.heap ∧ (execMacro d l).listeners = d.listeners ∧ (execMacro d l).sent = d.sent
  | [], d => ⟨rfl, rfl, rfl⟩
  | .sleep u :: l, d => told_macro l d
  | .key c b :: l, d => by
    obtain ⟨h1, h2, h3⟩ := told_macro l (daemonSendKey d c b)
    obtain ⟨e1, e2⟩ := linesTo_send d c b
    refine ⟨h1.trans ?_, h2.trans e2, h3.trans e1⟩
    unfold daemonSendKey
    dsimp only
    repeat' split
    all_goals rfl

theorem told_char {sz cp : Nat} (run : inputChar d sz cp = some d') : d'.heap = d.heap ∧ d'.listeners = d.listeners ∧ d'.sent = d.sent := by
  have taps : ∀ (cs : List Code) (d : Daemon), (cs.foldl Daemon.vtap d).heap = d.heap ∧ (cs.foldl Daemon.vtap d).listeners = d.listeners ∧
      (cs.foldl Daemon.vtap d).sent = d.sent := by
    intro cs
    induction cs with
    | nil => exact fun d => ⟨rfl, rfl, rfl⟩
    | cons c cs ih =>
      intro d
      exact ih (d.vtap c)
  unfold inputChar at run
  dsimp only at run
  split at run
  · rename_i d1 h1
    cases run
    split at h1
    · split at h1
      · split at h1 <;> (cases h1; exact ⟨rfl, rfl, rfl⟩)
      · repeat' split at h1
        all_goals first | (cases h1; exact ⟨rfl, rfl, rfl⟩) | cases h1
    · cases h1
  · split at run
    · cases run
    · cases run
      exact taps _ _

theorem told_input : ∀ (n : Nat) (s : Str) (d d' : Daemon) (ok : Bool), inputLoop n s d = .ok (d', ok) →
    d'.heap = d.heap ∧ d'.listeners = d.listeners ∧ d'.sent = d.sent
  | 0, s, d, d', ok, run => by cases run; exact ⟨rfl, rfl, rfl⟩
  | n + 1, s, d, d', ok, run => by
    unfold inputLoop at run
    obtain ⟨⟨sz, cp⟩, _, run⟩ := dbind_eq_ok.1 run
    dsimp only at run
    split at run
    · cases run; exact ⟨rfl, rfl, rfl⟩
    · split at run
      · cases run; exact ⟨rfl, rfl, rfl⟩
      · rename_i d1 h1
        obtain ⟨a1, a2, a3⟩ := told_char h1
        obtain ⟨b1, b2, b3⟩ := told_input n _ _ _ _ run
        exact ⟨b1.trans a1, b2.trans a2, b3.trans a3⟩

theorem told_bind (exp : Str) : ∀ (es : List Ent) (d d' : Daemon) (ok : Bool), bindAll exp es d = .ok (d', ok) → Told conf con d d'
  | [], d, d', ok, run => by cases run; exact .same rfl rfl rfl
  | e :: es, d, d', ok, run => by
    unfold bindAll at run
    split at run
    · cases run
    · rename_i k hk
      obtain ⟨⟨k1, ok1⟩, h1, run⟩ := dbind_eq_ok.1 run
      obtain ⟨⟨d2, any⟩, h2, run⟩ := dbind_eq_ok.1 run
      cases run
      refine Told.trans ?_ (told_bind exp es _ _ _ h2)
      have hlt : Later k k1 := .bind _ _ _ _ .now (lift_ok.1 h1)
      refine .calm (fun a => ?_) (fun hn hm => ⟨hn, hm⟩) (fun _ => rfl)
      dsimp only
      by_cases ha : a = e.kbd
      · subst ha
        rw [upd_same]
        refine ⟨(fun h => by rw [hk] at h; cases h), fun k0 hk0 => ?_⟩
        rw [hk] at hk0
        cases hk0
        refine ⟨k1, rfl, hlt, ?_⟩
        unfold Kbd.since
        rw [eval_outputs (lift_ok.1 h1)]
        exact List.drop_length
      · rw [upd_other _ _ ha]
        exact ⟨id, fun k0 hk0 => ⟨k0, hk0, .now, since_self k0⟩⟩

theorem told_listener {env : Env} {c : Nat} (hc : c ∉ d.listeners) (run : addListener env d c = .ok d') : Told conf con d d' := by
  have add : ∀ {d' : Daemon}, d'.heap = d.heap → d'.listeners = d.listeners ++ [c] → (c ≠ con → d'.linesTo con = d.linesTo con) → Told conf con d d' := by
    intro d' h1 h2 h3
    refine .calm (fun a => ⟨fun h => by rw [h1]; exact h, fun k hk => ⟨k, by rw [h1]; exact hk, .now, since_self k⟩⟩) (fun hn hm => ?_) (fun hm => ?_)
    · rw [h2]
      refine ⟨List.nodup_append.2 ⟨hn, List.nodup_singleton c, ?_⟩, List.mem_append_left _ hm⟩
      intro x hx y hy e
      rw [List.mem_singleton] at hy
      subst hy
      subst e
      exact hc hx
    · exact h3 (fun e => hc (e ▸ hm))
  unfold addListener at run
  split at run
  · cases run; exact .same rfl rfl rfl
  · split at run
    · cases run; exact add rfl rfl (fun _ => rfl)
    · split at run
      · cases run
      · split at run
        · cases run
          refine add rfl rfl (fun hcc => ?_)
          unfold Daemon.linesTo
          dsimp only
          rw [List.reverse_append, List.filter_append, List.map_append]
          have : ((List.map (fun l => (c, l)) (snapshot ‹Kbd›).reverse).reverse.filter fun p => decide (p.1 = con)) = [] := by
            rw [List.filter_eq_nil_iff]
            intro p hp
            rw [List.mem_reverse] at hp
            obtain ⟨l, _, rfl⟩ := List.mem_map.1 hp
            simpa using hcc
          rw [this]
          simp
        · cases run; exact .same rfl rfl rfl

theorem told_client {env : Env} {c : Nat} {msg : Msg} (hr : msg.type ≠ .reload) (hc : c ∉ d.listeners) (run : handleClient env d c msg = .ok d') : Told conf con d d' := by
  have rep : ∀ {d' : Daemon} (r : Reply), (.ok (d.reply c r) : DRes Daemon) = .ok d' → Told conf con d d' := by
    intro d' r h
    have h := Except.ok.inj h
    subst h
    exact .same rfl rfl rfl
  unfold handleClient at run
  split at run
  · exact rep _ run
  split at run
  · exact rep _ run
  dsimp only at run
  split at run
  · obtain ⟨m, _, run⟩ := dbind_eq_ok.1 run
    split at run
    · exact rep _ run
    · have run := Except.ok.inj run
      subst run
      obtain ⟨h1, h2, h3⟩ := told_macro (macroExecute ‹_› msg.timeout) d
      exact .same h1 h2 h3
  · obtain ⟨⟨d1, ok⟩, h1, run⟩ := dbind_eq_ok.1 run
    have run := Except.ok.inj run
    subst run
    obtain ⟨h1, h2, h3⟩ := told_input _ _ _ _ _ h1
    exact .same h1 h2 h3
  · rename_i h; exact absurd h hr
  · exact told_listener hc run
  · obtain ⟨⟨d1, ok⟩, h1, run⟩ := dbind_eq_ok.1 run
    have run := Except.ok.inj run
    subst run
    exact (told_bind _ _ _ _ _ h1).trans (.same rfl rfl rfl)
  · exact rep _ run

theorem told_event {env : Env} {ev : LoopEvent} {t w : Int} (hw : env.writable con = true) (other : ∀ c msg, ev = .client c msg → msg.type ≠ .reload ∧ c ∉ d.listeners)
    (run : eventHandler env d ev t = .ok (d', w)) : Told conf con d d' := by
  unfold eventHandler at run
  dsimp only at run
  have start : ∀ {d' : Daemon}, Told conf con (tick d t) d' → Told conf con d d' := fun h => Told.trans (.same rfl rfl rfl) h
  cases ev with
  | devAdd dev => cases run; exact start (.same rfl rfl rfl)
  | devRemove => cases run; exact start (.same rfl rfl rfl)
  | client c msg =>
    obtain ⟨d1, h1, run⟩ := dbind_eq_ok.1 run
    cases run
    obtain ⟨o1, o2⟩ := other c msg rfl
    exact start (told_client o1 o2 h1)
  | timeout =>
    dsimp only at run
    split at run
    · cases run; exact start (.same rfl rfl rfl)
    · obtain ⟨⟨d1, w1⟩, h1, run⟩ := dbind_eq_ok.1 run
      cases run
      exact start ((told_run hw h1).trans (.same rfl rfl rfl))
  | dev i e =>
    dsimp only at run
    split at run
    · cases run; exact start (.same rfl rfl rfl)
    · rename_i dev _
      obtain ⟨d1, h1, run⟩ := dbind_eq_ok.1 run
      cases run
      refine start ?_
      unfold deviceEvent at h1
      split at h1
      · rename_i a _
        unfold managedEvent at h1
        dsimp only at h1
        refine Told.trans (d' := { tick d t with active := some a }) (.same rfl rfl rfl) ?_
        split at h1
        · obtain ⟨⟨d2, w1⟩, h2, h1⟩ := dbind_eq_ok.1 h1
          cases h1
          exact (told_run hw h2).trans (.same rfl rfl rfl)
        · split at h1
          · cases h1
          · rename_i k hk
            have h1 := Except.ok.inj h1
            subst h1
            split
            · unfold scrollMove
              split
              · exact .same rfl rfl rfl
              · refine .calm (fun b => ?_) (fun hn hm => ⟨hn, hm⟩) (fun _ => rfl)
                dsimp only [Daemon.vscroll]
                by_cases hb : b = a
                · subst hb
                  rw [upd_same]
                  refine ⟨(fun h => by rw [hk] at h; cases h), fun k0 hk0 => ?_⟩
                  rw [hk] at hk0
                  cases hk0
                  exact ⟨_, rfl, .scroll _ _ .now, since_self k⟩
                · rw [upd_other _ _ hb]
                  exact ⟨id, fun k0 hk0 => ⟨k0, hk0, .now, since_self k0⟩⟩
            · exact .same rfl rfl rfl
        · cases h1; exact .same rfl rfl rfl
        · obtain ⟨d2, h2, h1⟩ := dbind_eq_ok.1 h1
          obtain ⟨d3, h3, h1⟩ := dbind_eq_ok.1 h1
          obtain ⟨d4, h4, h1⟩ := dbind_eq_ok.1 h1
          exact ((told_repeat hw _ h2).trans (told_repeat hw _ h3)).trans ((told_repeat hw _ h4).trans (told_repeat hw _ h1))
        · cases h1; exact .same rfl rfl rfl
      · split at h1
        · split at h1
          · split at h1
            · obtain ⟨⟨d2, w1⟩, h2, h1⟩ := dbind_eq_ok.1 h1
              cases h1
              exact (told_tap hw h2).trans (.same rfl rfl rfl)
            · cases h1; exact .same rfl rfl rfl
          · cases h1; exact .same rfl rfl rfl
        · split at h1
          · cases h1; exact .same rfl rfl rfl
          · cases h1; exact .same rfl rfl rfl

theorem told_listening {d0 : Daemon} (h : Listening con d0 d) : Told conf con d0 d := by
  induction h with
  | now => exact .same rfl rfl rfl
  | event env ev t _ run fresh hw other ih => exact ih.trans (told_event hw other run)
  | remove _ removed ih => exact ih.trans (.same rfl rfl rfl)

end

/-! ### Beliefs from mixed lines -/

/-- What the line says of the layer. -/
def saysOf (n : Str) : Str → Option Bool
  | [] => none
  | ch :: rest => if rest.dropLast = n then (if ch = 43 then some true else if ch = 45 then some false else none) else none

/-- What the line says of the layout. -/
def saysLayout : Str → Option Str
  | [] => none
  | ch :: rest => if ch = 47 then some rest.dropLast else none

theorem hear_says (n : Str) (b : Belief) (l : Str) : n ∈ (b.hear l).layers ↔ (saysOf n l).elim (n ∈ b.layers) (· = true) := by
  cases l with
  | nil => exact Iff.rfl
  | cons ch rest =>
    unfold Belief.hear saysOf
    dsimp only
    by_cases h1 : ch = 47
    · subst h1
      simp
    · rw [if_neg h1]
      by_cases h2 : ch = 43
      · subst h2
        rw [if_pos rfl]
        by_cases h3 : rest.dropLast = n
        · simp [h3]
        · simp [h3, Ne.symm h3]
      · rw [if_neg h2]
        by_cases h4 : ch = 45
        · subst h4
          rw [if_pos rfl]
          by_cases h3 : rest.dropLast = n
          · simp [h3]
          · simp [h3, Ne.symm h3]
        · simp [h2, h4]

theorem hear_saysLayout (b : Belief) (l : Str) : (b.hear l).layout = (saysLayout l).getD b.layout := by
  cases l with
  | nil => rfl
  | cons ch rest =>
    unfold Belief.hear saysLayout
    dsimp only
    repeat' split
    all_goals rfl

theorem heard_layers (n : Str) (b : Belief) (ls : List Str) : n ∈ (ls.foldl Belief.hear b).layers ↔ ((ls.filterMap (saysOf n)).getLast?).elim (n ∈ b.layers) (· = true) := by
  induction ls using List.reverseRecOn with
  | nil => exact Iff.rfl
  | append_singleton ls l ih =>
    rw [List.foldl_append, List.foldl_cons, List.foldl_nil, hear_says, List.filterMap_append]
    cases h : saysOf n l with
    | none => simpa [h] using ih
    | some v => simp [h]

theorem heard_layout (b : Belief) (ls : List Str) : (ls.foldl Belief.hear b).layout = ((ls.filterMap saysLayout).getLast?).getD b.layout := by
  induction ls using List.reverseRecOn with
  | nil => rfl
  | append_singleton ls l ih =>
    rw [List.foldl_append, List.foldl_cons, List.foldl_nil, hear_saysLayout, List.filterMap_append]
    cases h : saysLayout l with
    | none => simpa [h] using ih
    | some v => simp [h]

theorem lineShare_one (a b : Nat) (l : Str) : lineShare a [(b, l)] = if b = a then [l] else [] := by
  unfold lineShare
  by_cases h : b = a <;> simp [h]

/-- The last word on something is the last word of some keyboard. -/
theorem last_share {β : Type} (f : Str → Option β) {v : β} (all : List (Nat × Str)) (h : ((all.map Prod.snd).filterMap f).getLast? = some v) :
    ∃ a, ((lineShare a all).filterMap f).getLast? = some v := by
  induction all using List.reverseRecOn with
  | nil => cases h
  | append_singleton all p ih =>
    obtain ⟨b, l⟩ := p
    rw [List.map_append, List.filterMap_append] at h
    cases hf : f l with
    | none =>
      obtain ⟨a, ha⟩ := ih (by simpa [hf] using h)
      refine ⟨a, ?_⟩
      rw [lineShare_append, List.filterMap_append, lineShare_one]
      by_cases hb : b = a
      · simpa [hb, hf] using ha
      · simpa [hb] using ha
    | some u =>
      refine ⟨b, ?_⟩
      rw [lineShare_append, List.filterMap_append, lineShare_one]
      simpa [hf] using h

/-- If only one keyboard speaks of something, its words are what is said. -/
theorem only_share {β : Type} (f : Str → Option β) (a : Nat) (all : List (Nat × Str)) (h : ∀ b, b ≠ a → (lineShare b all).filterMap f = []) :
    (all.map Prod.snd).filterMap f = (lineShare a all).filterMap f := by
  induction all with
  | nil => rfl
  | cons p all ih =>
    obtain ⟨b, l⟩ := p
    have e : ∀ c, lineShare c ((b, l) :: all) = (if b = c then [l] else []) ++ lineShare c all := by
      intro c
      rw [← lineShare_one, ← lineShare_append]
      rfl
    have ih := ih (fun c hc => by
      have := h c hc
      rw [e, List.filterMap_append] at this
      exact (List.append_eq_nil_iff.1 this).2)
    rw [e a, List.map_cons, List.filterMap_append]
    by_cases hb : b = a
    · rw [if_pos hb]
      rw [show l :: all.map Prod.snd = [l] ++ all.map Prod.snd from rfl, List.filterMap_append, ih]
    · have := h b hb
      rw [e, List.filterMap_append, if_pos rfl] at this
      have hl := (List.append_eq_nil_iff.1 this).1
      rw [if_neg hb, show l :: all.map Prod.snd = [l] ++ all.map Prod.snd from rfl, List.filterMap_append, hl, ih]
      rfl

/-! ### The claims -/

/-- A new connection asks to listen, and is accepted. -/
def Connects (con : Nat) (d0 d1 : Daemon) : Prop :=
  con ∉ d0.listeners ∧ d0.linesTo con = [] ∧ con ∈ d1.listeners ∧
    ∃ (env : Env) (msg : Msg) (t w : Int), msg.type = .layerListen ∧ eventHandler env d0 (.client con msg) t = .ok (d1, w)

/-- What it is told at once: the state of the keyboard used last. -/
theorem connects {con : Nat} {d0 d1 : Daemon} (h : Connects con d0 d1) : d1.heap = d0.heap ∧ d1.configs = d0.configs ∧ d1.listeners = d0.listeners ++ [con] ∧
    (d0.active = none ∧ d1.linesTo con = [] ∨ ∃ a k, d0.active = some a ∧ d0.heap a = some k ∧ d1.linesTo con = snapshot k) := by
  obtain ⟨h1, h2, h3, env, msg, t, w, hty, run⟩ := h
  unfold eventHandler at run
  dsimp only at run
  obtain ⟨d2, h4, run⟩ := dbind_eq_ok.1 run
  cases run
  unfold handleClient at h4
  have rep : ∀ r, ((tick d0 t).reply con r).listeners = d0.listeners := fun _ => rfl
  split at h4
  · cases h4; exact absurd h3 h1
  split at h4
  · cases h4; exact absurd h3 h1
  rw [hty] at h4
  dsimp only at h4
  unfold addListener at h4
  split at h4
  · cases h4; exact absurd h3 h1
  split at h4
  · rename_i ha
    cases h4
    exact ⟨rfl, rfl, rfl, .inl ⟨ha, h2⟩⟩
  · rename_i a ha
    split at h4
    · cases h4
    · rename_i k hk
      split at h4
      · cases h4
        refine ⟨rfl, rfl, rfl, .inr ⟨a, k, ha, hk, ?_⟩⟩
        unfold Daemon.linesTo
        dsimp only
        rw [List.reverse_append, List.filter_append, List.map_append]
        have e : ((tick d0 t).sent.reverse.filter fun p => decide (p.1 = con)).map Prod.snd = [] := h2
        rw [e, List.nil_append, ← List.map_reverse, List.reverse_reverse, List.filter_eq_self.2 (by simp), List.map_map]
        simp [Function.comp_def]
      · cases h4; exact absurd h3 h1

/-- The configuration file of keyboard `a`. -/
def confAt (d : Daemon) (a : Nat) : Config := ((d.configs.find? fun e => decide (e.kbd = a)).map Ent.config).getD default

theorem lived_history {d : Daemon} (h : DHistory d) : Lived (confAt d) d ∧ ∀ a k, d.heap a = some k → ∃ e ∈ d.configs, e.config = confAt d a ∧ e.kbd = a := by
  have hi := dinv_history h
  have key : ∀ a k, d.heap a = some k → ∃ e ∈ d.configs, e.config = confAt d a ∧ e.kbd = a := by
    intro a k hk
    obtain ⟨e, he, hea⟩ := hi.owned a (by rw [hk]; exact Option.some_ne_none _)
    have hf : (d.configs.find? fun e => decide (e.kbd = a)).isSome := List.find?_isSome.2 ⟨e, he, by simpa using hea⟩
    obtain ⟨e', he'⟩ := Option.isSome_iff_exists.1 hf
    refine ⟨e', List.mem_of_find?_eq_some he', ?_, by simpa using List.find?_some he'⟩
    unfold confAt
    rw [he']
    rfl
  refine ⟨fun a k hk => ?_, key⟩
  obtain ⟨e, he, hc, hka⟩ := key a k hk
  obtain ⟨k2, hk2, hh⟩ := hi.live e he
  rw [hka, hk] at hk2
  cases hk2
  rw [← hc]
  exact ⟨hh, hi.bound e he⟩

theorem share_nil {β : Type} (f : Str → Option β) (all : List (Nat × Str)) (h : (all.map Prod.snd).filterMap f = []) (a : Nat) : (lineShare a all).filterMap f = [] := by
  rw [List.filterMap_eq_nil_iff] at h ⊢
  intro l hl
  unfold lineShare at hl
  obtain ⟨p, hp, rfl⟩ := List.mem_map.1 hl
  exact h _ (List.mem_map.2 ⟨p, (List.mem_filter.1 hp).1, rfl⟩)

theorem listen_append (x y : List Str) : Belief.listen (x ++ y) = y.foldl Belief.hear (Belief.listen x) := List.foldl_append ..

/-- What a listener has been told, keyboard by keyboard. -/
theorem listener_told {con : Nat} {d0 d1 d : Daemon} (h0 : DHistory d0) (hn : d0.listeners.Nodup) (hc : Connects con d0 d1) (h : Listening con d1 d) :
    ∃ (start : List Str) (all : List (Nat × Str)), d.linesTo con = start ++ all.map Prod.snd ∧
      (d0.active = none ∧ start = [] ∨ ∃ a k, d0.active = some a ∧ d0.heap a = some k ∧ start = snapshot k) ∧
      (∀ a, (d0.heap a = none → d.heap a = none ∧ lineShare a all = []) ∧
        ∀ k, d0.heap a = some k → Bound (confAt d0 a) ∧ HistoryOf (confAt d0 a) k ∧
          ∃ k', d.heap a = some k' ∧ Later k k' ∧ lineShare a all = changeLines (confAt d0 a) (k.since k')) := by
  obtain ⟨e1, e2, e3, e4⟩ := connects hc
  have hl := (lived_history h0).1
  have hl1 : Lived (confAt d0) d1 := fun a k hk => hl a k (by rw [← e1]; exact hk)
  have hn1 : d1.listeners.Nodup := by
    rw [e3]
    refine List.nodup_append.2 ⟨hn, List.nodup_singleton con, ?_⟩
    intro x hx y hy e
    rw [List.mem_singleton] at hy
    subst hy
    subst e
    exact hc.1 hx
  obtain ⟨_, _, all, h1, h2⟩ := told_listening h hl1 hc.2.2.1 hn1
  rw [e1] at h2
  refine ⟨d1.linesTo con, all, h1, e4, fun a => ⟨(h2 a).1, fun k hk => ⟨(hl a k hk).2, (hl a k hk).1, (h2 a).2 k hk⟩⟩⟩

section
variable {con : Nat} {d0 d1 d : Daemon}

theorem short_at (h0 : DHistory d0) (hs : ∀ e ∈ d0.configs, ShortNames e.config) {a : Nat} {k : Kbd} (hk : d0.heap a = some k) : ShortNames (confAt d0 a) := by
  obtain ⟨e, he, hc, _⟩ := (lived_history h0).2 a k hk
  rw [← hc]
  exact hs e he

/-- C104, one direction. However many keyboards are used: whatever layer a listener believes to be active, is active on some keyboard. -/
theorem C104_believed_partial (h0 : DHistory d0) (hs : ∀ e ∈ d0.configs, ShortNames e.config) (hn : d0.listeners.Nodup) (hc : Connects con d0 d1) (h : Listening con d1 d)
    {name : Str} (hb : name ∈ (Belief.listen (d.linesTo con)).layers) : ∃ a k, d.heap a = some k ∧ ActiveLayer k name := by
  obtain ⟨start, all, h1, h2, h3⟩ := listener_told h0 hn hc h
  rw [h1, listen_append, heard_layers] at hb
  cases hlast : ((all.map Prod.snd).filterMap (saysOf name)).getLast? with
  | some v =>
    rw [hlast] at hb
    have hv : v = true := hb
    subst hv
    obtain ⟨a, ha⟩ := last_share _ all hlast
    cases hk : d0.heap a with
    | none => rw [((h3 a).1 hk).2] at ha; cases ha
    | some k =>
      obtain ⟨hbd, hh, k', hk', hlt, hsh⟩ := (h3 a).2 k hk
      refine ⟨a, k', hk', C39_believed_is_active hbd (short_at h0 hs hk) hh hlt ?_⟩
      rw [listen_append, heard_layers, ← hsh, ha]
      rfl
  | none =>
    rw [hlast] at hb
    have hb : name ∈ (Belief.listen start).layers := hb
    rcases h2 with ⟨_, rfl⟩ | ⟨a, k, _, hk, rfl⟩
    · cases hb
    · obtain ⟨hbd, hh, k', hk', hlt, hsh⟩ := (h3 a).2 k hk
      refine ⟨a, k', hk', C39_believed_is_active hbd (short_at h0 hs hk) hh hlt ?_⟩
      rw [listen_append, heard_layers, ← hsh, share_nil _ all (List.getLast?_eq_none_iff.1 hlast) a]
      exact hb

theorem saysOf_change {l : Layer} (hl : l.name.length ≤ 63) {n : Str} (hn : l.name ≠ n) (b : Bool) : saysOf n (changeLine l b) = none := by
  rw [changeLine_short hl]
  unfold saysOf
  split
  · rfl
  · rename_i ch rest e
    have e := List.cons.inj e
    rw [← e.2, List.dropLast_concat, if_neg hn]

theorem saysOf_changes {c : Config} (hs : ShortNames c) {n : Str} (hn : ∀ l ∈ c.layers, l.name ≠ n) {os : List Out} (hr : Real c os) :
    (changeLines c os).filterMap (saysOf n) = [] := by
  rw [List.filterMap_eq_nil_iff]
  intro l hl
  unfold changeLines at hl
  obtain ⟨o, ho, e⟩ := List.mem_filterMap.1 hl
  cases o with
  | layer i b =>
    have e := Option.some.inj e
    subst e
    have hm := layer_mem (hr i b ho).1
    exact saysOf_change (hs _ hm) (hn _ hm) b
  | _ => cases e

/-- C104. A layer that belongs to one keyboard only. If its keyboard was the one used last when the listener connected, or the layer was not active then, and if the keyboard
does not activate a layer again while it is active, then the listener knows exactly when the layer is active, whatever happens on the other keyboards. -/
theorem C104_exact_partial (h0 : DHistory d0) (hs : ∀ e ∈ d0.configs, ShortNames e.config) (hn : d0.listeners.Nodup) (hc : Connects con d0 d1) (h : Listening con d1 d)
    {a : Nat} {k0 k : Kbd} (hk0 : d0.heap a = some k0) (hk : d.heap a = some k) {name : Str}
    (hown : ∀ e ∈ d0.configs, e.kbd ≠ a → ∀ l ∈ e.config.layers, l.name ≠ name) (hsnap : d0.active = some a ∨ ¬ ActiveLayer k0 name)
    (hu : Unnested k0 (k0.since k)) : name ∈ (Belief.listen (d.linesTo con)).layers ↔ ActiveLayer k name := by
  obtain ⟨start, all, h1, h2, h3⟩ := listener_told h0 hn hc h
  obtain ⟨hbd, hh, k', hk', hlt, hsh⟩ := (h3 a).2 k0 hk0
  rw [hk] at hk'
  cases hk'
  have hx := C39_exact_partial hbd (short_at h0 hs hk0) hh hlt hu name
  rw [← hx, h1, listen_append, listen_append, heard_layers, heard_layers, ← hsh]
  have honly : (all.map Prod.snd).filterMap (saysOf name) = (lineShare a all).filterMap (saysOf name) := by
    refine only_share _ a all fun b hb => ?_
    cases hkb : d0.heap b with
    | none => rw [((h3 b).1 hkb).2]; rfl
    | some kb =>
      obtain ⟨hbd, hh, k', hk', hlt, hsh⟩ := (h3 b).2 kb hkb
      obtain ⟨e, he, hce, hke⟩ := (lived_history h0).2 b kb hkb
      rw [hsh]
      obtain ⟨tr, t1, t2, t3, t4⟩ := listener_facts (C27_wellformed _ hbd) (short_at h0 hs hkb) hh hlt
      refine saysOf_changes (short_at h0 hs hkb) ?_ ?_
      · rw [← hce]
        exact hown e he (by rw [hke]; exact hb)
      · intro i b hm
        rw [t1, List.mem_reverse] at hm
        exact t3 i b hm
  rw [honly]
  have hstart : name ∈ (Belief.listen start).layers ↔ name ∈ (Belief.listen (snapshot k0)).layers := by
    have key : ∀ b kb, d0.heap b = some kb → b ≠ a → name ∉ (Belief.listen (snapshot kb)).layers := by
      intro b kb hkb hb hm
      obtain ⟨i, i1, _, _, _, i5⟩ := ((snapshot_belief kb).2 name).1 hm
      obtain ⟨hbd, hh, _⟩ := (h3 b).2 kb hkb
      obtain ⟨e, he, hce, hke⟩ := (lived_history h0).2 b kb hkb
      have hshape := (announced_history (C27_wellformed _ hbd) hh).shape
      rw [hshape.1] at i1
      rw [shape_name hshape i1] at i5
      refine hown e he (by rw [hke]; exact hb) _ ?_ i5
      rw [hce]
      exact layer_mem i1
    have act : name ∈ (Belief.listen (snapshot k0)).layers → ActiveLayer k0 name := by
      intro hm
      obtain ⟨i, i1, _, i3, i4, i5⟩ := ((snapshot_belief k0).2 name).1 hm
      exact ⟨i, _, List.getElem?_eq_getElem i1, by rw [← config_layer_some (List.getElem?_eq_getElem i1)]; exact i5,
        by rw [← config_layer_some (List.getElem?_eq_getElem i1)]; exact i4, i3⟩
    rcases h2 with ⟨hno, rfl⟩ | ⟨b, kb, hact, hkb, rfl⟩
    · rcases hsnap with h | h
      · rw [hno] at h; cases h
      · exact ⟨fun hm => (by cases hm), fun hm => absurd (act hm) h⟩
    · by_cases hb : b = a
      · subst hb
        rw [hkb] at hk0
        cases hk0
        exact Iff.rfl
      · rcases hsnap with h | h
        · rw [hact] at h; exact absurd (Option.some.inj h) hb
        · exact ⟨fun hm => absurd hm (key b kb hkb hb), fun hm => absurd (act hm) h⟩
  cases ((lineShare a all).filterMap (saysOf name)).getLast? with
  | some v => exact Iff.rfl
  | none => exact hstart

/-- C104, the layout. Once a key has been used, the layout a listener believes in is the current layout of some keyboard. -/
theorem C104_layout_partial (h0 : DHistory d0) (hs : ∀ e ∈ d0.configs, ShortNames e.config) (hn : d0.listeners.Nodup) (hc : Connects con d0 d1) (h : Listening con d1 d)
    (ha : d0.active ≠ none) : ∃ a k, d.heap a = some k ∧ CurrentLayout k (Belief.listen (d.linesTo con)).layout := by
  obtain ⟨start, all, h1, h2, h3⟩ := listener_told h0 hn hc h
  rw [h1, listen_append, heard_layout]
  cases hlast : ((all.map Prod.snd).filterMap saysLayout).getLast? with
  | some v =>
    obtain ⟨a, ha⟩ := last_share _ all hlast
    cases hk : d0.heap a with
    | none => rw [((h3 a).1 hk).2] at ha; cases ha
    | some k =>
      obtain ⟨hbd, hh, k', hk', hlt, hsh⟩ := (h3 a).2 k hk
      refine ⟨a, k', hk', ?_⟩
      have := C39_layout hbd (short_at h0 hs hk) hh hlt
      rw [listen_append, heard_layout, ← hsh, ha] at this
      exact this
  | none =>
    rcases h2 with ⟨hno, _⟩ | ⟨a, k, _, hk, rfl⟩
    · exact absurd hno ha
    · obtain ⟨hbd, hh, k', hk', hlt, hsh⟩ := (h3 a).2 k hk
      refine ⟨a, k', hk', ?_⟩
      have := C39_layout hbd (short_at h0 hs hk) hh hlt
      rw [listen_append, heard_layout, ← hsh, share_nil _ all (List.getLast?_eq_none_iff.1 hlast) a] at this
      exact this

end

/-- With one configuration file, all that is true of a listener (C39) is true of what the daemon writes to it. -/
theorem C104_single_partial {con : Nat} {d0 d1 d : Daemon} (h0 : DHistory d0) (hs : ∀ e ∈ d0.configs, ShortNames e.config) (hn : d0.listeners.Nodup) (hc : Connects con d0 d1)
    (h : Listening con d1 d) (hone : d0.configs.length = 1) {a : Nat} (ha : d0.active = some a) {k0 k : Kbd} (hk0 : d0.heap a = some k0) (hk : d.heap a = some k) :
    CurrentLayout k (Belief.listen (d.linesTo con)).layout ∧ (∀ name, name ∈ (Belief.listen (d.linesTo con)).layers → ActiveLayer k name) ∧
      (Unnested k0 (k0.since k) → ∀ name, ActiveLayer k name → name ∈ (Belief.listen (d.linesTo con)).layers) := by
  obtain ⟨e, he⟩ := List.length_eq_one_iff.1 hone
  have uniq : ∀ b kb, d.heap b = some kb → b = a := by
    intro b kb hkb
    have key : ∀ b, d0.heap b ≠ none → b = e.kbd := by
      intro b hb
      obtain ⟨e', he', hke⟩ := (dinv_history h0).owned b hb
      rw [he, List.mem_singleton] at he'
      rw [← hke, he']
    rw [key a (by rw [hk0]; exact Option.some_ne_none _)]
    refine key b fun hno => ?_
    obtain ⟨_, _, _, _, h3⟩ := listener_told h0 hn hc h
    rw [((h3 b).1 hno).1] at hkb
    cases hkb
  refine ⟨?_, fun name hm => ?_, fun hu name hact => ?_⟩
  · obtain ⟨b, kb, hkb, hcl⟩ := C104_layout_partial h0 hs hn hc h (by rw [ha]; exact Option.some_ne_none _)
    have := uniq b kb hkb
    subst this
    rw [hk] at hkb
    cases hkb
    exact hcl
  · obtain ⟨b, kb, hkb, hcl⟩ := C104_believed_partial h0 hs hn hc h hm
    have := uniq b kb hkb
    subst this
    rw [hk] at hkb
    cases hkb
    exact hcl
  · refine (C104_exact_partial h0 hs hn hc h hk0 hk (fun e' he' hne => absurd ?_ hne) (.inl ha) hu).2 hact
    obtain ⟨e'', he'', hke⟩ := (dinv_history h0).owned a (by rw [hk0]; exact Option.some_ne_none _)
    rw [he, List.mem_singleton] at he' he''
    rw [he', ← he'', hke]

/-! ### Examples -/

/-- Two keyboards, each with its own file. Both have a layer `nav`, the second also a layer `sym`. -/
def watchEnv : Env := { confs := [b!"[ids]
0001:0001
[main]
a = layer(nav)
[nav]
x = y
", b!"[ids]
0002:0002
[main]
b = layer(nav)
c = layer(sym)
[nav]
x = z
[sym]
"] }

/-- The daemon starts, `before` happens, connection 5 listens, and `after` happens. -/
def watchOf (env : Env) (before after : List (LoopEvent × Int)) (p : Daemon → Daemon → Daemon → Bool) : Bool :=
  match reload env {} with
  | .error _ => false
  | .ok d => match daemonRun env before d with
    | .error _ => false
    | .ok d0 => match eventHandler env d0 (.client 5 { type := .layerListen, data := [], sz := 0 }) 50 with
      | .error _ => false
      | .ok (d1, _) => match daemonRun env after d1 with
        | .error _ => false
        | .ok d => p d0 d1 d

theorem daemonRun_listening {env : Env} {con : Nat} (hw : env.writable con = true) {d1 : Daemon} : ∀ (es : List (LoopEvent × Int)) {d d' : Daemon}, Listening con d1 d →
    es.all (fun p => p.1.plainB) = true → daemonRun env es d = .ok d' → Listening con d1 d'
  | [], d, d', h, _, run => by cases run; exact h
  | (ev, t) :: es, d, d', h, hp, run => by
    unfold daemonRun at run
    obtain ⟨⟨d2, w⟩, h1, run⟩ := dbind_eq_ok.1 run
    rw [List.all_cons, Bool.and_eq_true] at hp
    refine daemonRun_listening hw es (.event env ev t h h1 ?_ hw ?_) hp.2 run
    · rintro dev rfl
      simpa [LoopEvent.plainB] using hp.1
    · rintro c msg rfl
      cases hp.1

theorem watch_sound {env : Env} (hw : env.writable 5 = true) {before after : List (LoopEvent × Int)} {p : Daemon → Daemon → Bool} (hb : before.all (fun p => p.1.plainB) = true)
    (ha : after.all (fun p => p.1.plainB) = true)
    (h : watchOf env before after (fun d0 d1 d => p d0 d && decide (d0.listeners = [] ∧ d0.linesTo 5 = [] ∧ 5 ∈ d1.listeners)) = true) :
    ∃ d0 d1 d, DHistory d0 ∧ d0.listeners.Nodup ∧ Connects 5 d0 d1 ∧ Listening 5 d1 d ∧ p d0 d = true := by
  unfold watchOf at h
  split at h
  · cases h
  · rename_i d00 h0
    split at h
    · cases h
    · rename_i d0 h1
      split at h
      · cases h
      · rename_i d1 w h2
        split at h
        · cases h
        · rename_i d h3
          rw [Bool.and_eq_true, decide_eq_true_eq] at h
          obtain ⟨hp, e1, e2, e3⟩ := h
          have hlis := daemonRun_listening hw after (Listening.now (con := 5) (d0 := d1)) ha h3
          exact ⟨d0, d1, d, daemonRun_history before (.start _ _ h0) (fun p hp dev he => by
              have := List.all_eq_true.1 hb p hp
              rw [he] at this
              simpa [LoopEvent.plainB] using this) h1, by rw [e1]; exact List.nodup_nil, ⟨by rw [e1]; exact List.not_mem_nil, e2, e3, _, _, _, _, rfl, h2⟩, hlis, hp⟩

/-- Whether the layer is active on the keyboard, by inspection. -/
def activeB (k : Kbd) (n : Str) : Bool :=
  (List.range k.config.layers.length).any fun i => decide ((k.config.layer i).name = n ∧ (k.config.layer i).type ≠ .layout ∧ (k.layerState i).active ≠ 0)

theorem activeB_iff (k : Kbd) (n : Str) : activeB k n = true ↔ ActiveLayer k n := by
  unfold activeB ActiveLayer
  simp only [List.any_eq_true, List.mem_range, decide_eq_true_eq]
  constructor
  · rintro ⟨i, h1, h2, h3, h4⟩
    have e := List.getElem?_eq_getElem h1
    rw [config_layer_some e] at h2 h3
    exact ⟨i, _, e, h2, h3, h4⟩
  · rintro ⟨i, l, h1, h2, h3, h4⟩
    have hi : i < k.config.layers.length := by
      by_contra hge
      rw [List.getElem?_eq_none (by omega)] at h1
      cases h1
    exact ⟨i, hi, by rw [config_layer_some h1]; exact h2, by rw [config_layer_some h1]; exact h3, h4⟩

/-- No layer is activated again while it is active, by inspection. -/
def unnestedB (k : Kbd) (outs : List Out) : Bool :=
  (List.range k.config.layers.length).all (fun i => outs.inits.all fun pre =>
    decide ((k.config.layer i).type = .layout ∨ (k.layerState i).active + pre.count (.layer i true) ≤ 1 + pre.count (.layer i false)))

theorem nest_absent {i : Nat} : ∀ {tr : List Out}, (∀ b, .layer i b ∉ tr) → nest i tr = 0
  | [], _ => rfl
  | o :: tr, h => by
    have ih := nest_absent (tr := tr) fun b hm => h b (List.mem_cons_of_mem _ hm)
    cases o with
    | layer j b =>
      unfold nest
      rw [if_neg]
      · exact ih
      · rintro rfl
        exact h b (List.mem_cons_self ..)
    | _ => exact ih

theorem unnested_sound {c : Config} (hb : Bound c) (hs : ShortNames c) {k k' : Kbd} (hk : HistoryOf c k) (hl : Later k k') (h : unnestedB k (k.since k') = true) : Unnested k (k.since k') := by
  have hw := C27_wellformed c hb
  have ha := announced_history hw hk
  obtain ⟨tr, t1, _, t3, _⟩ := listener_facts hw hs hk hl
  intro i pre hord hpre
  by_cases hi : i < k.config.layers.length
  · have := List.all_eq_true.1 (List.all_eq_true.1 h i (List.mem_range.2 hi)) pre ((List.mem_inits ..).2 hpre)
    rw [decide_eq_true_eq] at this
    rcases this with h1 | h1
    · exact absurd (by rw [← config_layer_some (List.getElem?_eq_getElem hi)]; exact h1) (hord _ (List.getElem?_eq_getElem hi))
    · exact h1
  · have hi' : ¬ i < c.layers.length := by rw [← ha.shape.1]; exact hi
    have h1 : (k.layerState i).active = 0 := by
      rw [ha.counts i (by
        cases hlay : isLayout c i with
        | true => exact absurd (lt_of_isLayout hlay) hi'
        | false => rfl)]
      refine nest_absent fun b hm => ?_
      rcases ha.real i b hm with ⟨h1, _⟩ | h1
      · exact hi' (lt_of_isLayout h1)
      · exact hi' (lt_of_ordinary (ordinary_of_target h1))
    have h2 : pre.count (.layer i true) = 0 := by
      rw [List.count_eq_zero]
      intro hm
      have := hpre.subset hm
      rw [t1, List.mem_reverse] at this
      exact hi' (t3 i true this).1
    omega

/-- The second keyboard holds `sym` after the first has released `nav`: the listener, who connected when the first keyboard held `nav`, knows exactly that. -/
def watchCheck (d0 d : Daemon) : Bool :=
  decide (d0.configs.length = 2 ∧ d0.active = some 0 ∧ d.linesTo 5 = [b!"/main\n", b!"+nav\n", b!"+sym\n", b!"-nav\n"]) &&
  d0.configs.all (fun e => decide (∀ l ∈ e.config.layers, l.name.length ≤ 63)) &&
  d0.configs.all (fun e => decide (e.kbd = 1) || decide (∀ l ∈ e.config.layers, l.name ≠ b!"sym")) &&
  (d0.heap 1).any (fun k0 => !activeB k0 b!"sym" && (d.heap 1).any fun k => activeB k b!"sym" && unnestedB k0 (k0.since k))

def watchBefore : List (LoopEvent × Int) := routingDevices ++ [(routingKey 0 30 1, 10)]
def watchAfter : List (LoopEvent × Int) := [(routingKey 1 46 1, 60), (routingKey 0 30 0, 61)]

theorem watch_check : watchOf watchEnv watchBefore watchAfter (fun d0 d1 d => watchCheck d0 d && decide (d0.listeners = [] ∧ d0.linesTo 5 = [] ∧ 5 ∈ d1.listeners)) = true := by
  set_option maxRecDepth 100000 in decide +kernel

/-- The hypotheses of `C104_exact_partial` (and so of the other claims) are met. -/
theorem C104_example : ∃ d0 d1 d k0 k, DHistory d0 ∧ (∀ e ∈ d0.configs, ShortNames e.config) ∧ d0.listeners.Nodup ∧ Connects 5 d0 d1 ∧ Listening 5 d1 d ∧
    d0.configs.length = 2 ∧ d0.active = some 0 ∧ d0.heap 1 = some k0 ∧ d.heap 1 = some k ∧ (∀ e ∈ d0.configs, e.kbd ≠ 1 → ∀ l ∈ e.config.layers, l.name ≠ b!"sym") ∧
    ¬ ActiveLayer k0 b!"sym" ∧ Unnested k0 (k0.since k) ∧ ActiveLayer k b!"sym" ∧ d.linesTo 5 = [b!"/main\n", b!"+nav\n", b!"+sym\n", b!"-nav\n"] := by
  obtain ⟨d0, d1, d, h1, h2, h3, h4, h5⟩ := watch_sound (env := watchEnv) rfl (by decide) (by decide) watch_check
  unfold watchCheck at h5
  simp only [Bool.and_eq_true, decide_eq_true_eq, List.all_eq_true, Bool.or_eq_true, Option.any_eq_true, Bool.not_eq_true'] at h5
  obtain ⟨⟨⟨⟨a1, a2, a3⟩, a4⟩, a5⟩, k0, b1, b2, k, b3, b4, b5⟩ := h5
  refine ⟨d0, d1, d, k0, k, h1, a4, h2, h3, h4, a1, a2, b1, b3, fun e he hne => ?_, ?_, ?_, (activeB_iff ..).1 b4, a3⟩
  · rcases a5 e he with h | h
    · exact absurd h hne
    · exact h
  · intro h
    rw [(activeB_iff ..).2 h] at b2
    cases b2
  · obtain ⟨_, _, _, _, h6⟩ := listener_told h1 h2 h3 h4
    obtain ⟨c1, c2, k', c3, c4, _⟩ := (h6 1).2 k0 b1
    rw [b3] at c3
    cases c3
    exact unnested_sound c1 (short_at h1 a4 b1) c2 c4 b5

/-- A layer name of two keyboards: both hold their `nav`, and when the second releases it, the listener believes that `nav` is not active, although the first keyboard
still holds it. No keyboard has activated a layer twice. -/
theorem C104_fails_shared : watchOf watchEnv watchBefore [(routingKey 1 48 1, 60), (routingKey 1 48 0, 61)] (fun _ _ d =>
    decide (b!"nav" ∉ (Belief.listen (d.linesTo 5)).layers) && (d.heap 0).any (fun k => activeB k b!"nav")) = true := by
  set_option maxRecDepth 100000 in decide +kernel

/-- A listener that connects while the first keyboard holds `nav`, but the second was used last, is not told of it. -/
theorem C104_fails_unseen : watchOf watchEnv (watchBefore ++ [(routingKey 1 45 1, 11)]) [] (fun _ _ d =>
    decide ((Belief.listen (d.linesTo 5)).layers = []) && (d.heap 0).any (fun k => activeB k b!"nav")) = true := by
  set_option maxRecDepth 100000 in decide +kernel

/-- After a reload all layers are inactive, and the listeners are not told. -/
theorem C104_fails_reload : watchOf watchEnv watchBefore [(.client 6 { type := .reload, data := [], sz := 0 }, 60)] (fun _ _ d =>
    decide (b!"nav" ∈ (Belief.listen (d.linesTo 5)).layers) && d.configs.all (fun e => (d.heap e.kbd).all fun k => !activeB k b!"nav")) = true := by
  set_option maxRecDepth 100000 in decide +kernel

end Keyd
