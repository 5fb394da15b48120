import Verif.Props.LiveStops
import Verif.Props.Parsing
import Verif.Props.Reload

/-
  C88: the places where the daemon can stop.
-/

set_option autoImplicit false

namespace Keyd

attribute [local irreducible] configInit

/-! ### Specification -/

/-- Text that is not UTF-8. -/
def badText : Err := .assertFail "utf8_read_char"

/-- Where handling an event can stop the daemon (besides a stale pointer, see `ActiveLive`). Key, pointer
and timer events: the seven places of `C50_stops`, and the queue overrun of finding 41. Client requests:
`macro` and `input` stop at text that is not UTF-8, `bind` also at a call with six arguments, `reload` at
the nine places of `C57_parse`. All other requests, and plugging and unplugging devices, never stop it. -/
def stopsOf : LoopEvent → List Err
  | .timeout => stopPoints ++ [.oob "chord.queue + queue_offset"]
  | .dev _ _ => stopPoints ++ [.oob "chord.queue + queue_offset"]
  | .devAdd _ => []
  | .devRemove => []
  | .client _ msg => match msg.type with
    | .macro => [badText]
    | .input => [badText]
    | .reload => parseStops
    | .bind => [badText, .assertFail "parse_fn: *nargs < 5"]
    | _ => []

/-! ### Outcomes that do not depend on the recursion bound -/

/-- From some depth on, the outcome is the same; it satisfies `Q`, or is an error satisfying `E`. -/
def Ends {α : Type} (f : Nat → DRes α) (Q : α → Prop) (E : DErr → Prop) : Prop :=
  ∃ depth r, (∀ n, depth ≤ n → f n = r) ∧ DSat r Q E

theorem Ends.const {α : Type} {r : DRes α} {Q : α → Prop} {E : DErr → Prop} (h : DSat r Q E) : Ends (fun _ => r) Q E :=
  ⟨0, r, fun _ _ => rfl, h⟩

theorem Ends.done {α : Type} {a : α} {E : DErr → Prop} : Ends (fun _ => .ok a) (fun _ => True) E := Ends.const (r := .ok a) trivial

theorem Ends.okay {α : Type} {a : α} {Q : α → Prop} {E : DErr → Prop} (h : Q a) : Ends (fun _ => .ok a) Q E := Ends.const (r := .ok a) h

theorem Ends.congr {α : Type} {f g : Nat → DRes α} {Q : α → Prop} {E : DErr → Prop} (h : Ends f Q E)
    (e : ∀ n, g n = f n) : Ends g Q E := by
  obtain ⟨d, r, h1, h2⟩ := h
  exact ⟨d, r, fun n hn => (e n).trans (h1 n hn), h2⟩

theorem Ends.bind {α β : Type} {f : Nat → DRes α} {g : Nat → α → DRes β} {Q : α → Prop} {R : β → Prop} {E : DErr → Prop}
    (h : Ends f Q E) (hg : ∀ a, Q a → Ends (fun n => g n a) R E) : Ends (fun n => f n >>= g n) R E := by
  obtain ⟨d, r, h1, h2⟩ := h
  cases r with
  | error e =>
    refine ⟨d, .error e, fun n hn => ?_, h2⟩
    dsimp only
    rw [h1 n hn]
    rfl
  | ok a =>
    obtain ⟨d', r', h1', h2'⟩ := hg a h2
    refine ⟨max d d', r', fun n hn => ?_, h2'⟩
    dsimp only
    rw [h1 n (by omega)]
    exact h1' n (by omega)

theorem Ends.imp {α : Type} {f : Nat → DRes α} {Q Q' : α → Prop} {E E' : DErr → Prop} (h : Ends f Q E)
    (hq : ∀ a, Q a → Q' a) (he : ∀ e, E e → E' e) : Ends f Q' E' := by
  obtain ⟨d, r, h1, h2⟩ := h
  refine ⟨d, r, h1, ?_⟩
  cases r with
  | ok a => exact hq a h2
  | error e => exact he e h2

/-- What is known at every depth is known of the outcome. -/
theorem Ends.and {α : Type} {f : Nat → DRes α} {Q Q' : α → Prop} {E E' : DErr → Prop} (h : Ends f Q E)
    (h' : ∀ n, DSat (f n) Q' E') : Ends f (fun a => Q a ∧ Q' a) (fun e => E e ∧ E' e) := by
  obtain ⟨d, r, h1, h2⟩ := h
  refine ⟨d, r, h1, ?_⟩
  have h3 := h' d
  rw [h1 d (Nat.le_refl _)] at h3
  cases r with
  | ok a => exact ⟨h2, h3⟩
  | error e => exact ⟨h2, h3⟩

/-- An error at one of the places `l`, or a stale pointer. -/
def StopsAt (l : List Err) (e : DErr) : Prop := (∃ x ∈ l, e = .inner x) ∨ ∃ w, e = .freed w

theorem StopsAt.mono {l l' : List Err} (h : ∀ x ∈ l, x ∈ l') {e : DErr} (he : StopsAt l e) : StopsAt l' e := by
  rcases he with ⟨x, hx, e⟩ | he
  · exact .inl ⟨x, h x hx, e⟩
  · exact .inr he

theorem dsat_stops {α : Type} {r : Res α} {l : List Err} (h : Sat r (fun _ => True) (· ∈ l)) :
    DSat (lift r) (fun _ => True) (StopsAt l) := by
  cases r with
  | ok a => trivial
  | error e => exact .inl ⟨e, h, rfl⟩

/-! ### Keyboards -/

def engineStops : List Err := stopPoints ++ [.oob "chord.queue + queue_offset"]

theorem applyOuts_fuel (env : Env) (n a : Nat) (c : Config) : ∀ (os : List Out) (d : Daemon) (m : Nat → Nat),
    applyOuts { env with fuel := n } a c d m os = applyOuts env a c d m os
  | [], _, _ => rfl
  | .key code down :: os, d, m => by unfold applyOuts; exact applyOuts_fuel env n a c os _ m
  | .layer i b :: os, d, m => by unfold applyOuts; exact applyOuts_fuel env n a c os _ _
  | .command _ :: os, d, m => by unfold applyOuts; exact applyOuts_fuel env n a c os d m
  | .sleep _ :: os, d, m => by unfold applyOuts; exact applyOuts_fuel env n a c os d m

theorem kbdRun_ends (env : Env) {d : Daemon} (h : DInv d) (a : Nat) (evs : List KeyEvent) :
    Ends (fun n => kbdRun { env with fuel := n } d a evs) (fun r => DInv r.1) (StopsAt engineStops) := by
  refine Ends.imp (Q := fun r => True ∧ (DInv r.1 ∧ Ran d r.1)) (E := fun e => StopsAt engineStops e ∧ _)
    (Ends.and ?_ (fun n => kbdRun_sat h)) (fun r hr => hr.2.1) (fun e he => he.1)
  cases hk : d.heap a with
  | none =>
    refine Ends.congr (Ends.const (r := .error (.freed "kbd_process_events")) (.inr ⟨_, rfl⟩)) (fun n => ?_)
    unfold kbdRun
    rw [hk]
  | some k =>
    obtain ⟨e, he, hea⟩ := h.owned a (by rw [hk]; simp)
    obtain ⟨k', hk', hist⟩ := h.live e he
    rw [hea, hk] at hk'
    cases hk'
    have hb := h.bound e he
    obtain ⟨d0, r, hne, hd0⟩ := C24_terminates k (reach_history hb hist) evs
    obtain ⟨d1, hd1⟩ := C50_stops_bind e.config hb k hist evs
    have hc := hd1 (max d0 d1) (by omega)
    rw [hd0 (max d0 d1) (by omega)] at hc
    cases r with
    | error x =>
      refine ⟨d0, .error (.inner x), fun n hn => ?_, ?_⟩
      · dsimp only
        unfold kbdRun
        rw [hk]
        dsimp only
        rw [hd0 n hn]
        rfl
      · refine .inl ⟨x, ?_, rfl⟩
        rcases hc with ⟨_, _, hc⟩ | ⟨y, hy, hc⟩ | hc
        · cases hc
        · cases hc
          exact List.mem_append_left _ hy
        · cases hc
          exact List.mem_append_right _ (List.mem_singleton.2 rfl)
    | ok r =>
      obtain ⟨k', w⟩ := r
      refine ⟨d0, .ok (applyOuts env a k.config { d with heap := upd d.heap a (some k') }
        (fun i => (k.layerState i).active) (k'.trace.take (k'.trace.length - k.trace.length)).reverse, w), fun n hn => ?_, trivial⟩
      dsimp only
      unfold kbdRun
      rw [hk]
      dsimp only
      rw [hd0 n hn]
      show (Except.ok (applyOuts { env with fuel := n } _ _ _ _ _, w) : DRes (Daemon × Int)) = _
      rw [applyOuts_fuel]

theorem processKeypress_ends (env : Env) {d : Daemon} (h : DInv d) (a : Nat) (c : Code) (t : Int) :
    Ends (fun n => processKeypress { env with fuel := n } d a c t) (fun r => DInv r.1) (StopsAt engineStops) :=
  Ends.bind (kbdRun_ends env h a _) (fun r hr => kbdRun_ends env hr a _)

theorem repeatKeypress_ends (env : Env) (a : Nat) (c : Code) (t : Int) : ∀ (m : Nat) {d : Daemon}, DInv d →
    Ends (fun n => repeatKeypress { env with fuel := n } a c t m d) DInv (StopsAt engineStops)
  | 0, d, h => Ends.const (r := .ok d) h
  | m+1, d, h => Ends.bind (processKeypress_ends env h a c t) (fun r hr => repeatKeypress_ends env a c t m (DInv.setTimeout hr r.2))

theorem managedEvent_ends (env : Env) {d : Daemon} (h : DInv d) (a : Nat) (e : DevEvent) (t : Int) :
    Ends (fun n => managedEvent { env with fuel := n } d a e t) (fun _ => True) (StopsAt engineStops) := by
  have h0 : DInv { d with active := some a } := h.setActive _
  unfold managedEvent
  dsimp only
  cases e.type with
  | key => exact Ends.bind (kbdRun_ends env h0 a _) (fun r hr => Ends.done)
  | mouseScroll =>
    exact Ends.bind (repeatKeypress_ends env a _ t _ h0) (fun d1 h1 =>
      Ends.bind (repeatKeypress_ends env a _ t _ h1) (fun d2 h2 =>
      Ends.bind (repeatKeypress_ends env a _ t _ h2) (fun d3 h3 =>
      (repeatKeypress_ends env a _ t _ h3).imp (fun _ _ => trivial) (fun _ he => he))))
  | mouseMove =>
    refine Ends.const ?_
    cases d.heap a with
    | none => exact .inr ⟨_, rfl⟩
    | some k => trivial
  | _ => exact Ends.const trivial

theorem deviceEvent_ends (env : Env) {d : Daemon} (h : DInv d) (dev : Device) (e : DevEvent) (t : Int) :
    Ends (fun n => deviceEvent { env with fuel := n } d dev e t) (fun _ => True) (StopsAt engineStops) := by
  unfold deviceEvent
  cases dev.data with
  | some a => exact managedEvent_ends env h a e t
  | none =>
    dsimp only
    split
    · cases d.active with
      | none => exact Ends.const trivial
      | some a =>
        dsimp only
        split
        · exact Ends.bind (processKeypress_ends env h a _ t) (fun r _ => Ends.done)
        · exact Ends.const trivial
    · split
      · exact Ends.const trivial
      · exact Ends.const trivial

/-! ### Clients -/

theorem utf8ReadChar_text (s : Str) : Sat (utf8ReadChar s) (fun _ => True) (· ∈ [badText]) := by
  unfold utf8ReadChar
  repeat' split
  all_goals first | trivial | simp [badText]

theorem macroChars_text : ∀ (n : Nat) (tok : Str) (m : Macro), Sat (macroChars n tok m) (fun _ => True) (· ∈ [badText])
  | 0, _, _ => trivial
  | n+1, tok, m => by
    unfold macroChars
    refine Sat.bind (utf8ReadChar_text tok) ?_
    rintro ⟨sz, cp⟩ _
    dsimp only
    repeat' split
    all_goals first | trivial | exact macroChars_text n _ _

theorem macroToken_text (tok : Str) (m : Macro) : Sat (macroToken tok m) (fun _ => True) (· ∈ [badText]) := by
  unfold macroToken
  repeat' split
  all_goals first | trivial | exact macroChars_text _ _ _

theorem macroTokens_text : ∀ (toks : List Str) (m : Macro), Sat (macroTokens toks m) (fun _ => True) (· ∈ [badText])
  | [], _ => trivial
  | tok :: rest, m => by
    unfold macroTokens
    refine Sat.bind (macroToken_text tok m) ?_
    intro r _
    cases r with
    | none => trivial
    | some m => exact macroTokens_text rest m

theorem inputLoop_text : ∀ (n : Nat) (s : Str) (d : Daemon), DSat (inputLoop n s d) (fun _ => True) (StopsAt [badText])
  | 0, _, _ => trivial
  | n+1, s, d => by
    unfold inputLoop
    refine DSat.bind (dsat_stops (utf8ReadChar_text s)) ?_
    rintro ⟨sz, cp⟩ - -
    dsimp only
    split
    · trivial
    · split
      · trivial
      · exact inputLoop_text n _ _

theorem loadConfigs_stops : ∀ (ts : List Str) (d : Daemon), DSat (loadConfigs ts d) (fun _ => True) (StopsAt parseStops)
  | [], d => trivial
  | t :: ts, d => by
    unfold loadConfigs
    refine DSat.bind (Q := fun _ => True) ?_ (fun d1 _ _ => loadConfigs_stops ts d1)
    unfold loadConfig
    refine DSat.bind (dsat_stops ((configParse_sat t).imp (fun _ _ => trivial))) (fun o _ _ => ?_)
    cases o <;> trivial

theorem reload_stops (env : Env) (d : Daemon) : DSat (reload env d) (fun _ => True) (StopsAt parseStops) := by
  unfold reload
  exact DSat.bind (loadConfigs_stops _ _) (fun _ _ _ => trivial)

theorem bindAll_stops (exp : Str) : ∀ (es : List Ent) (d : Daemon), DInv d → (∀ e ∈ es, e ∈ d.configs) →
    DSat (bindAll exp es d) (fun _ => True) (StopsAt [badText, .assertFail "parse_fn: *nargs < 5"])
  | [], d, h, _ => trivial
  | e :: es, d, h, hm => by
    unfold bindAll
    obtain ⟨k, hk, hh⟩ := h.live e (hm e List.mem_cons_self)
    rw [hk]
    dsimp only
    cases hrun : kbdEval k exp with
    | error x =>
      refine .inl ⟨x, ?_, rfl⟩
      unfold kbdEval at hrun
      split at hrun
      · cases hrun
      · rcases C57_bind k.config (bound_history (h.bound e (hm e List.mem_cons_self)) hh) exp with ⟨r, hr⟩ | ⟨y, hy, hr⟩
        · rw [hr] at hrun; cases hrun
        · rw [hr] at hrun
          cases hrun
          exact hy
    | ok r =>
      obtain ⟨k', ok⟩ := r
      have h1 : DInv { d with heap := upd d.heap e.kbd (some k') } :=
        h.setKbd hk (fun c hc => HistoryOf.bind k exp k' ok hc hrun)
      show DSat (bindAll exp es { d with heap := upd d.heap e.kbd (some k') } >>= fun r => .ok (r.1, ok || r.2)) _ _
      exact DSat.bind (Q := fun _ => True) (bindAll_stops exp es _ h1 (fun x hx => hm x (List.mem_cons_of_mem _ hx)))
        (fun _ _ _ => trivial)

theorem handleClient_stops (env : Env) {d : Daemon} (h : DInv d) (con : Nat) (msg : Msg) :
    DSat (handleClient env d con msg) (fun _ => True) (StopsAt (stopsOf (.client con msg))) := by
  unfold handleClient
  split
  · trivial
  split
  · trivial
  unfold stopsOf
  dsimp only
  cases msg.type with
  | «macro» =>
    refine DSat.bind (dsat_stops (macroTokens_text _ _)) (fun o _ _ => ?_)
    cases o <;> trivial
  | input => exact DSat.bind (inputLoop_text _ _ d) (fun _ _ _ => trivial)
  | reload => exact DSat.bind (reload_stops env d) (fun _ _ _ => trivial)
  | layerListen =>
    dsimp only
    unfold addListener
    split
    · trivial
    · cases d.active with
      | none => trivial
      | some a =>
        dsimp only
        cases d.heap a with
        | none => exact .inr ⟨_, rfl⟩
        | some k =>
          dsimp only
          split <;> trivial
  | bind => exact DSat.bind (bindAll_stops _ _ d h (fun _ he => he)) (fun _ _ _ => trivial)
  | _ => trivial

/-! ### The daemon -/

theorem eventHandler_ends (env : Env) {d : Daemon} (h : DInv d) (ev : LoopEvent) (t : Int) :
    Ends (fun n => eventHandler { env with fuel := n } d ev t) (fun _ => True) (StopsAt (stopsOf ev)) := by
  have ht := h.tick t
  unfold eventHandler
  dsimp only
  cases ev with
  | timeout =>
    dsimp only
    cases (tick d t).active with
    | none => exact Ends.const trivial
    | some a => exact Ends.bind (kbdRun_ends env ht a _) (fun r _ => Ends.done)
  | dev i e =>
    dsimp only
    cases (tick d t).devices[i]? with
    | none => exact Ends.const trivial
    | some dev => exact Ends.bind (deviceEvent_ends env ht dev e t) (fun d1 _ => Ends.done)
  | devAdd dev => exact Ends.done (a := ({ tick d t with devices := (tick d t).devices ++ [manageDevice env (tick d t).configs dev] }, (tick d t).timeout))
  | devRemove => exact Ends.const trivial
  | client con msg =>
    dsimp only
    refine Ends.bind (Q := fun _ => True) ?_ (fun d1 _ => Ends.done)
    exact ⟨0, handleClient env (tick d t) con msg, fun _ _ => rfl, handleClient_stops env ht con msg⟩

/-- C88. In every state the daemon can be in, handling any event comes to an end, with an outcome that
does not depend on the recursion depth allowed: it succeeds, or the daemon stops at one of the places
listed for that kind of event in `stopsOf`, or it follows the pointer to the keyboard used last after
that keyboard was freed. -/
theorem C88_stops (d : Daemon) (h : DHistory d) (env : Env) (ev : LoopEvent) (t : Int)
    (fresh : ∀ dev, ev = .devAdd dev → dev.data = none) :
    ∃ depth r, (∀ n, depth ≤ n → eventHandler { env with fuel := n } d ev t = r) ∧
      ((∃ d' w, r = .ok (d', w)) ∨ (∃ e ∈ stopsOf ev, r = .error (.inner e)) ∨
       (¬ ActiveLive d ∧ ∃ w, r = .error (.freed w))) := by
  obtain ⟨depth, r, h1, h2⟩ := (eventHandler_ends env (dinv_history h) ev t).and
    (fun n => eventHandler_sat (env := { env with fuel := n }) (t := t) (dinv_history h) fresh)
  refine ⟨depth, r, h1, ?_⟩
  cases r with
  | ok r => exact .inl ⟨r.1, r.2, rfl⟩
  | error e =>
    right
    rcases h2.1 with ⟨x, hx, hxe⟩ | ⟨w, hw⟩
    · exact .inl ⟨x, hx, by rw [hxe]⟩
    · exact .inr ⟨h2.2 w hw, w, by rw [hw]⟩

/-- C88. Starting the daemon ends, too: with its keyboards, or at one of the places where reading a
config file stops. -/
theorem C88_start (env : Env) :
    (∃ d, reload env {} = .ok d) ∨ ∃ e ∈ parseStops, reload env {} = .error (.inner e) := by
  have h1 := reload_stops env {}
  have h2 := reload_sat (env := env) dinv_init
  cases hr : reload env {} with
  | ok d => exact .inl ⟨d, rfl⟩
  | error e =>
    rw [hr] at h1 h2
    rcases h1 with ⟨x, hx, hxe⟩ | ⟨w, hw⟩
    · exact .inr ⟨x, hx, by rw [hxe]⟩
    · exact absurd hw (h2 w)

/-! ### Whole runs -/

/-- One return of `poll`: what the world looks like, when it was entered and when it returned, and what
was found. -/
structure Wake where
  env : Env
  start : Int
  now : Int
  events : List LoopEvent
  removed : List Nat

/-- The main loop, with this recursion depth, through a sequence of returns of `poll`. `none`: the panic
sequence was typed. -/
def wakes (n : Nat) : List Wake → Loop → DRes (Option Loop)
  | [], l => .ok (some l)
  | w :: ws, l => do
    match ← iteration { w.env with fuel := n } l w.start w.now w.events w.removed with
    | none => .ok none
    | some l => wakes n ws l

/-- New devices have not been assigned to a keyboard yet. -/
def Wake.fresh (w : Wake) : Prop := ∀ ev ∈ w.events, ∀ dev, ev = .devAdd dev → dev.data = none

/-- Everywhere the daemon can stop. -/
def daemonStops : List Err := stopPoints ++ [.oob "chord.queue + queue_offset"] ++ parseStops

/-- The daemon's state, and that `active_kbd` is sound as long as no config was reloaded (`q`). -/
def Sound (q : Prop) (d : Daemon) : Prop := DInv d ∧ (q → ActiveLive d)

/-- An error that needs a reload, if it is a stale pointer. -/
def SoundStop (q : Prop) (e : DErr) : Prop := (∃ x ∈ daemonStops, e = .inner x) ∨ (¬ q ∧ ∃ w, e = .freed w)

theorem stopsOf_daemon (ev : LoopEvent) : ∀ x ∈ stopsOf ev, x ∈ daemonStops := by
  intro x hx
  unfold stopsOf at hx
  unfold daemonStops
  rw [List.mem_append]
  split at hx
  · exact .inl hx
  · exact .inl hx
  · cases hx
  · cases hx
  · right
    split at hx
    · rw [List.mem_singleton] at hx; subst hx; decide
    · rw [List.mem_singleton] at hx; subst hx; decide
    · exact hx
    · rcases List.mem_cons.1 hx with rfl | hx
      · decide
      · rw [List.mem_singleton] at hx; subst hx; decide
    · cases hx

theorem eventHandler_sound (q : Prop) (env : Env) {d : Daemon} (h : Sound q d) (ev : LoopEvent) (t : Int)
    (fresh : ∀ dev, ev = .devAdd dev → dev.data = none) (nr : q → isReload ev = false) :
    Ends (fun n => eventHandler { env with fuel := n } d ev t) (fun r => Sound q r.1) (SoundStop q) := by
  have h0 := eventHandler_ends env h.1 ev t
  refine Ends.imp (h0.and (Q' := fun r => DInv r.1 ∧ (q → ActiveLive r.1)) (E' := OnlyIf (¬ ActiveLive d)) (fun n => ?_))
    (fun r hr => ⟨hr.2.1, hr.2.2⟩) (fun e he => ?_)
  · have h1 := eventHandler_sat (env := { env with fuel := n }) (t := t) h.1 fresh
    cases hr : eventHandler { env with fuel := n } d ev t with
    | error e => rw [hr] at h1; exact h1
    | ok r =>
      rw [hr] at h1
      exact ⟨h1, fun hq => (eventHandler_live h.1 hr).1 (nr hq) (h.2 hq)⟩
  · rcases he.1 with ⟨x, hx, e1⟩ | ⟨w, hw⟩
    · exact .inl ⟨x, stopsOf_daemon ev x hx, e1⟩
    · exact .inr ⟨fun hq => he.2 w hw (h.2 hq), w, hw⟩

/-- The panic variables after an event, and whether the process dies. -/
def panicOf (l : Loop) : LoopEvent → Panic × Bool
  | .dev _ e => panicCheck l.panic e.code e.pressed
  | _ => (l.panic, false)

theorem loopEvent_eq (env : Env) (l : Loop) (ev : LoopEvent) (now : Int) :
    loopEvent env l ev now = if (panicOf l ev).2 then .ok none else
      (eventHandler env l.d ev now >>= fun r => .ok (some { d := r.1, timeout := r.2, panic := (panicOf l ev).1 })) := by
  cases ev <;> rfl

theorem loopEvents_sound (q : Prop) (env : Env) (now : Int) : ∀ (evs : List LoopEvent) {l : Loop}, Sound q l.d →
    (∀ ev ∈ evs, ∀ dev, ev = .devAdd dev → dev.data = none) → (q → ∀ ev ∈ evs, isReload ev = false) →
    Ends (fun n => loopEvents { env with fuel := n } now evs l) (fun o => ∀ l', o = some l' → Sound q l'.d) (SoundStop q)
  | [], l, h, _, _ => Ends.okay (a := some l) (fun l' e => by cases e; exact h)
  | ev :: evs, l, h, hf, nr => by
    unfold loopEvents
    refine Ends.bind (Q := fun o => ∀ l', o = some l' → Sound q l'.d) ?_ (fun o ho => ?_)
    · refine Ends.congr ?_ (fun n => loopEvent_eq { env with fuel := n } l ev now)
      split
      · refine Ends.okay ?_
        intro l' e
        cases e
      · refine Ends.bind (eventHandler_sound q env h ev now (hf ev List.mem_cons_self) (fun hq => nr hq ev List.mem_cons_self)) (fun r hr => ?_)
        refine Ends.okay ?_
        intro l' e
        cases e
        exact hr
    · cases o with
      | none => exact Ends.okay (a := none) (fun l' e => by cases e)
      | some l1 =>
        exact loopEvents_sound q env now evs (ho l1 rfl) (fun e he => hf e (List.mem_cons_of_mem _ he))
          (fun hq e he => nr hq e (List.mem_cons_of_mem _ he))

theorem iteration_sound (q : Prop) (w : Wake) (hf : w.fresh) (nr : q → ∀ ev ∈ w.events, isReload ev = false) {l : Loop} (h : Sound q l.d) :
    Ends (fun n => iteration { w.env with fuel := n } l w.start w.now w.events w.removed)
      (fun o => ∀ l', o = some l' → Sound q l'.d) (SoundStop q) := by
  unfold iteration
  refine Ends.bind (Q := fun l : Loop => Sound q l.d) ?_ (fun l1 h1 => Ends.bind (loopEvents_sound q w.env w.now w.events h1 hf nr) (fun o ho => ?_))
  · unfold afterPoll
    split
    · refine Ends.bind (eventHandler_sound q w.env h .timeout w.now (fun _ e => by cases e) (fun _ => rfl)) (fun r hr => ?_)
      refine Ends.okay ?_
      exact hr
    · refine Ends.okay ?_
      exact h
  · refine Ends.okay (fun l' e => ?_)
    cases o with
    | none => cases e
    | some l2 =>
      cases e
      have h2 := ho l2 rfl
      have := h2.1
      refine ⟨?_, h2.2⟩
      refine ⟨⟨this.tracked, this.fresh, this.nodup, this.live, this.bound, this.owned⟩, ?_, ?_, ?_⟩
      · intro dev hd
        obtain ⟨p, hp, e⟩ := List.mem_map.1 hd
        subst e
        exact this.devs _ (List.fst_mem_of_mem_zipIdx (List.mem_filter.1 hp).1)
      · intro dev hd
        obtain ⟨p, hp, e⟩ := List.mem_map.1 hd
        subst e
        exact this.virt _ (List.fst_mem_of_mem_zipIdx (List.mem_filter.1 hp).1)
      · intro dev hd
        obtain ⟨p, hp, e⟩ := List.mem_map.1 hd
        subst e
        exact this.managed _ (List.fst_mem_of_mem_zipIdx (List.mem_filter.1 hp).1)

theorem wakes_sound (q : Prop) : ∀ (ws : List Wake) {l : Loop}, Sound q l.d → (∀ w ∈ ws, w.fresh) →
    (q → ∀ w ∈ ws, ∀ ev ∈ w.events, isReload ev = false) →
    Ends (fun n => wakes n ws l) (fun _ => True) (SoundStop q)
  | [], l, _, _, _ => Ends.done
  | w :: ws, l, h, hf, nr => by
    unfold wakes
    refine Ends.bind (iteration_sound q w (hf w List.mem_cons_self) (fun hq => nr hq w List.mem_cons_self) h) (fun o ho => ?_)
    cases o with
    | none => exact Ends.done
    | some l1 =>
      exact wakes_sound q ws (ho l1 rfl) (fun x hx => hf x (List.mem_cons_of_mem _ hx)) (fun hq x hx => nr hq x (List.mem_cons_of_mem _ hx))

/-- C88. From the start of the daemon, through any finite sequence of events of any kind, in any
batches and at any times: the outcome does not depend on the recursion depth allowed, and it is that
the daemon still runs, that the panic sequence was typed, that it stopped at one of the seventeen places
of `daemonStops`, or that it used a freed keyboard, for which a reload is needed. -/
theorem C88_run (env : Env) (d : Daemon) (started : reload env {} = .ok d) (ws : List Wake) (fresh : ∀ w ∈ ws, w.fresh) :
    ∃ depth r, (∀ n, depth ≤ n → wakes n ws { d := d } = r) ∧
      ((∃ l, r = .ok (some l)) ∨ r = .ok none ∨ (∃ e ∈ daemonStops, r = .error (.inner e)) ∨
       ((∃ w ∈ ws, ∃ ev ∈ w.events, isReload ev = true) ∧ ∃ what, r = .error (.freed what))) := by
  have h0 : Sound (∀ w ∈ ws, ∀ ev ∈ w.events, isReload ev = false) ({ d := d } : Loop).d :=
    ⟨dinv_history (.start env d started), fun _ => C40_start_live started⟩
  obtain ⟨depth, r, h1, h2⟩ := wakes_sound _ ws h0 fresh (fun hq => hq)
  refine ⟨depth, r, h1, ?_⟩
  cases r with
  | ok o =>
    cases o with
    | none => exact .inr (.inl rfl)
    | some l => exact .inl ⟨l, rfl⟩
  | error e =>
    right; right
    rcases h2 with ⟨x, hx, e1⟩ | ⟨hq, w, e1⟩
    · exact .inl ⟨x, hx, by rw [e1]⟩
    · refine .inr ⟨?_, w, by rw [e1]⟩
      by_contra hn
      refine hq (fun w hw ev hev => ?_)
      cases hr : isReload ev with
      | false => rfl
      | true => exact absurd ⟨w, hw, ev, hev, hr⟩ hn

/-! ### The theorems are not vacuous -/

/-- The keyboard of a config, then batches of events 10 ms apart. -/
def stopWakes (conf : Str) (evs : List LoopEvent) : List Wake :=
  ([demoKbd] :: evs.map fun e => [e]).zipIdx.map fun p =>
    { env := { confs := [conf] }, start := 1000 + 10 * (p.2 : Int), now := 1010 + 10 * (p.2 : Int), events := p.1, removed := [] }

/-- How the daemon, started with the config `conf`, ends: `inl` with an error, `inr` with the keys typed. -/
def stopRun (conf conf' : Str) (evs : List LoopEvent) : Option (Err ⊕ List VOut) :=
  match reload { confs := [conf] } {} with
  | .error _ => none
  | .ok d => match wakes 40 (stopWakes conf' evs) { d := d } with
    | .error (.inner e) => some (.inl e)
    | .ok (some l) => some (.inr l.d.vout.reverse)
    | _ => none

def clientMsg (type : MsgType) (s : Str) : LoopEvent := .client 5 { type := type, data := s, sz := s.length }

def fourChords : Str := b!"[ids]\n*\n[main]\na+b = 1\nc+d = 2\ne+f = 3\ng+h = 4\n"

/-- C88: three chords are typed; the fourth stops the daemon. -/
theorem C88_key_stop :
    stopRun fourChords fourChords ([30, 48, 46, 32, 18, 33].map fun c => demoKey c 1) =
      some (.inr [.key 2 true, .key 3 true, .key 4 true]) ∧
    stopRun fourChords fourChords ([30, 48, 46, 32, 18, 33, 34, 35].map fun c => demoKey c 1) =
      some (.inl (.assertFail "resolve_chord: code")) := by
  refine ⟨?_, ?_⟩ <;> (set_option maxRecDepth 100000 in decide +kernel)

/-- C88: requests that stop the daemon. Malformed UTF-8 in a macro, in typed text and in a binding; a
call with six arguments; a config file edited to contain an empty heading. -/
theorem C88_client_stop :
    stopRun fourChords fourChords [clientMsg .macro [195]] = some (.inl (.assertFail "utf8_read_char")) ∧
    stopRun fourChords fourChords [clientMsg .input (b!"x" ++ [195])] = some (.inl (.assertFail "utf8_read_char")) ∧
    stopRun fourChords fourChords [clientMsg .bind (b!"a = " ++ [195])] = some (.inl (.assertFail "utf8_read_char")) ∧
    stopRun fourChords fourChords [clientMsg .bind b!"a = f(a,b,c,d,e,f)"] = some (.inl (.assertFail "parse_fn: *nargs < 5")) ∧
    stopRun fourChords b!"[]\n" [clientMsg .reload []] = some (.inl (.nullDeref "new_layer: strcpy(layer->name, NULL)")) := by
  refine ⟨?_, ?_, ?_, ?_, ?_⟩ <;> (set_option maxRecDepth 100000 in decide +kernel)

end Keyd
