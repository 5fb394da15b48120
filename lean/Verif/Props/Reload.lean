import Verif.Proofs.DaemonInv

/-
  C40: what a reload does to the keys that are down, and when a freed keyboard is used.
  C41: client requests.
  C44: scroll emulation.
-/

set_option autoImplicit false

namespace Keyd

attribute [local irreducible] configInit

/-! ### C40 -/

/-- C40. In whatever state the daemon is, after a reload no key is down on the virtual
keyboard. -/
theorem C40_released {env : Env} {d d' : Daemon} (h : DHistory d) (run : reload env d = .ok d') (c : Code) :
    DownAtVkbd c d'.vout = false :=
  ((reload_sat (dinv_history h)).of_ok run).2.1 c

theorem clearFold_vout : ∀ (l : List Code) (d : Daemon), ∃ new, (l.foldl clearStep d).vout = new ++ d.vout ∧
    ∀ o ∈ new, ∃ c, o = VOut.key c false ∧ d.keystate c = true
  | [], d => ⟨[], rfl, fun _ h => (by cases h)⟩
  | c :: l, d => by
    rw [List.foldl_cons]
    obtain ⟨new, e, hn⟩ := clearFold_vout l (clearStep d c)
    unfold clearStep at e hn ⊢
    split at e
    · rename_i hc
      rw [if_pos hc] at hn
      refine ⟨new ++ [.key c false], ?_, ?_⟩
      · rw [if_pos hc, e]; simp
      · intro o ho
        rcases List.mem_append.1 ho with ho | ho
        · obtain ⟨c', e', hk⟩ := hn o ho
          refine ⟨c', e', ?_⟩
          dsimp only at hk
          by_cases hcc : c' = c
          · rw [hcc]; exact hc
          · rwa [upd_other _ _ hcc] at hk
        · exact ⟨c, List.mem_singleton.1 ho, hc⟩
    · rename_i hc
      rw [if_neg hc] at hn ⊢
      exact ⟨new, e, hn⟩

/-- C40. The only thing a reload sends to the virtual keyboard is releases, of keys the
daemon had pressed. -/
theorem C40_only_releases {env : Env} {d d' : Daemon} (h : DHistory d) (run : reload env d = .ok d') :
    ∃ new, d'.vout = new ++ d.vout ∧ ∀ o ∈ new, ∃ c, o = VOut.key c false ∧ d.keystate c = true := by
  unfold reload at run
  obtain ⟨d1, h1, run⟩ := dbind_eq_ok.1 run
  injection run with run
  subst run
  obtain ⟨k1, e1, e2, e3, e4, e5, e6, e7, e8⟩ := kinv_loadAll env.confs (kinv_free (dinv_history h)) h1
  obtain ⟨new, e, hn⟩ := clearFold_vout codes256 { d1 with devices := d1.devices.map (manageDevice env d1.configs) }
  refine ⟨new, ?_, ?_⟩
  · show (List.foldl clearStep _ codes256).vout = _
    rw [e]
    show new ++ d1.vout = _
    rw [e3]; rfl
  · intro o ho
    obtain ⟨c, a, b⟩ := hn o ho
    refine ⟨c, a, ?_⟩
    dsimp only at b
    rw [e4] at b
    exact b

/-- The event is a reload request that will be carried out. -/
def isReload : LoopEvent → Bool
  | .client _ msg => msg.type = .reload ∧ msg.sz < 4096 ∧ msg.timeout ≤ 1000000
  | _ => false

/-- What handling an event does to the list of listeners, and that only a reload lets
`active_kbd` dangle. -/
theorem eventHandler_live {env : Env} {d d' : Daemon} {ev : LoopEvent} {t w : Int} (h : DInv d)
    (run : eventHandler env d ev t = .ok (d', w)) :
    (isReload ev = false → ActiveLive d → ActiveLive d') ∧
    (d.listeners.length ≤ 32 → d'.listeners.length ≤ 32) := by
  have ht := h.tick t
  have pack : ∀ {a : Daemon}, Ran (tick d t) a → (isReload ev = false → ActiveLive d → ActiveLive a) ∧
      (d.listeners.length ≤ 32 → a.listeners.length ≤ 32) :=
    fun r => ⟨fun _ hl => r.activeLive hl, fun hn => Nat.le_trans r.lst.length_le hn⟩
  unfold eventHandler at run
  dsimp only at run
  cases ev with
  | timeout =>
    dsimp only at run
    split at run
    · injection run with run; injection run with e1 e2; subst e1
      exact pack (Ran.refl _)
    · obtain ⟨⟨d1, w1⟩, h1, run⟩ := dbind_eq_ok.1 run
      injection run with run; injection run with e1 e2; subst e1
      exact pack (((kbdRun_sat ht).of_ok h1).2.setTimeout w1)
  | dev i e =>
    dsimp only at run
    split at run
    · injection run with run; injection run with e1 e2; subst e1
      exact pack (Ran.refl _)
    · rename_i dev hdev
      obtain ⟨d1, h1, run⟩ := dbind_eq_ok.1 run
      injection run with run; injection run with e1 e2; subst e1
      have := (deviceEvent_sat ht (List.mem_of_getElem? hdev)).of_ok h1
      exact ⟨fun _ hl => this.2.1 hl, fun hn => Nat.le_trans this.2.2.length_le hn⟩
  | devAdd dev =>
    injection run with run; injection run with e1 e2; subst e1
    exact ⟨fun _ hl => hl, id⟩
  | devRemove =>
    injection run with run; injection run with e1 e2; subst e1
    exact ⟨fun _ hl => hl, id⟩
  | client con msg =>
    dsimp only at run
    obtain ⟨d1, h1, run⟩ := dbind_eq_ok.1 run
    injection run with run; injection run with e1 e2; subst e1
    unfold handleClient at h1
    split at h1
    · injection h1 with h1; subst h1; exact pack (a := tick d t) (Ran.refl _)
    rename_i hsz
    split at h1
    · injection h1 with h1; subst h1; exact pack (a := tick d t) (Ran.refl _)
    rename_i hto
    dsimp only at h1
    split at h1
    · obtain ⟨o, -, h1⟩ := dbind_eq_ok.1 h1
      cases o with
      | none => injection h1 with h1; subst h1; exact pack (a := tick d t) (Ran.refl _)
      | some m =>
        injection h1 with h1; subst h1
        have a := (execMacro_keeps (macroExecute m msg.timeout) (tick d t)).1.ran
        exact pack (a := execMacro (tick d t) (macroExecute m msg.timeout)) a
    · obtain ⟨⟨d2, ok⟩, h2, h1⟩ := dbind_eq_ok.1 h1
      injection h1 with h1; subst h1
      have a := ((inputLoop_sat _ _ _ ht.tracked).of_ok h2).1.ran
      exact pack (a := d2) a
    · rename_i hre
      obtain ⟨d2, h2, h1⟩ := dbind_eq_ok.1 h1
      injection h1 with h1; subst h1
      have a := ((reload_sat ht).of_ok h2)
      refine ⟨?_, ?_⟩
      · intro hr
        exfalso
        unfold isReload at hr
        simp only [decide_eq_false_iff_not] at hr
        apply hr
        exact ⟨hre, by omega, by omega⟩
      · intro hn
        show d2.listeners.length ≤ 32
        rw [a.2.2.2.1]; exact hn
    · unfold addListener at h1
      split at h1
      · injection h1 with h1; subst h1; exact ⟨fun _ hl => hl, id⟩
      · rename_i hne
        have grow : d.listeners.length ≤ 32 → (d.listeners ++ [con]).length ≤ 32 := by
          intro hn
          have : (tick d t).listeners.length = d.listeners.length := rfl
          rw [List.length_append, List.length_singleton]
          omega
        split at h1
        · injection h1 with h1; subst h1; exact ⟨fun _ hl => hl, grow⟩
        · split at h1
          · cases h1
          · split at h1
            · injection h1 with h1; subst h1; exact ⟨fun _ hl => hl, grow⟩
            · injection h1 with h1; subst h1; exact ⟨fun _ hl => hl, id⟩
    · obtain ⟨⟨d2, ok⟩, h2, h1⟩ := dbind_eq_ok.1 h1
      injection h1 with h1; subst h1
      have a := ((bindAll_sat _ _ _ ht (fun e he => he)).of_ok h2).2.1
      exact pack (a := d2) a
    · injection h1 with h1; subst h1; exact pack (a := tick d t) (Ran.refl _)

/-- The states reached from `d0` by handling events none of which is a reload. -/
inductive DSince (d0 : Daemon) : Daemon → Prop
  | now : DSince d0 d0
  | event (env : Env) (d : Daemon) (ev : LoopEvent) (t : Int) (d' : Daemon) (w : Int)
      (h : DSince d0 d) (run : eventHandler env d ev t = .ok (d', w)) (fresh : ∀ dev, ev = .devAdd dev → dev.data = none)
      (noReload : isReload ev = false) : DSince d0 d'
  | remove (d : Daemon) (removed : List Nat) (h : DSince d0 d) :
      DSince d0 { d with devices := (d.devices.zipIdx.filter fun p => decide (p.2 ∉ removed)).map Prod.fst }

theorem DSince.history {d0 d : Daemon} (h0 : DHistory d0) (h : DSince d0 d) : DHistory d := by
  induction h with
  | now => exact h0
  | event env d ev t d' w _ run fresh _ ih => exact .event env d ev t d' w ih run fresh
  | remove d removed _ ih => exact .remove d removed ih

theorem DSince.activeLive {d0 d : Daemon} (h0 : DHistory d0) (hl : ActiveLive d0) (h : DSince d0 d) : ActiveLive d := by
  induction h with
  | now => exact hl
  | event env d ev t d' w hd run fresh nr ih => exact (eventHandler_live (dinv_history (hd.history h0)) run).1 nr ih
  | remove d removed _ ih => exact ih

/-- C40, the part of the second half that holds. From a state whose `active_kbd` is live
(at the start, where it is null: `C40_start_live`; or once a managed device has been
used: `C40_used_live`) no freed keyboard is used until the next reload, that reload
included, whatever else happens. Missing: between a reload and the next event of a managed
device `active_kbd` dangles and is used (`C40_fails_timeout`, `C40_fails_listen`). -/
theorem C40_no_freed_partial {d0 d : Daemon} (h0 : DHistory d0) (hl : ActiveLive d0) (h : DSince d0 d)
    (env : Env) (ev : LoopEvent) (t : Int) (fresh : ∀ dev, ev = .devAdd dev → dev.data = none) (what : String) :
    eventHandler env d ev t ≠ .error (.freed what) := by
  intro he
  have := (eventHandler_sat (env := env) (t := t) (dinv_history (h.history h0)) fresh).of_err he
  exact this what rfl (h.activeLive h0 hl)

/-- C40. When the daemon has started, `active_kbd` is null. -/
theorem C40_start_live {env : Env} {d : Daemon} (run : reload env {} = .ok d) : ActiveLive d := by
  intro a ha
  rw [((reload_sat dinv_init).of_ok run).2.2.1] at ha
  cases ha

/-- C40. Once an event of a managed device has been handled, `active_kbd` is live, whatever
happened before. -/
theorem C40_used_live {env : Env} {d d' : Daemon} {i : Nat} {e : DevEvent} {t w : Int} {dev : Device} {a : Nat}
    (h : DHistory d) (hd : d.devices[i]? = some dev) (ha : dev.data = some a)
    (run : eventHandler env d (.dev i e) t = .ok (d', w)) : ActiveLive d' ∧ d'.active = some a := by
  have ht := (dinv_history h).tick t
  unfold eventHandler at run
  dsimp only at run
  have hd' : (tick d t).devices[i]? = some dev := hd
  rw [hd'] at run
  dsimp only at run
  obtain ⟨d1, h1, run⟩ := dbind_eq_ok.1 run
  injection run with run; injection run with e1 e2; subst e1
  unfold deviceEvent at h1
  rw [ha] at h1
  have := (managedEvent_sat ht (ht.device_live (List.mem_of_getElem? hd') ha)).of_ok h1
  refine ⟨?_, this.2.1⟩
  intro b hb
  rw [this.2.1] at hb
  injection hb with hb
  rw [← hb]; exact this.2.2.1

/-- Starting the daemon and handling events. -/
def daemonRun (env : Env) : List (LoopEvent × Int) → Daemon → DRes Daemon
  | [], d => .ok d
  | (ev, t) :: es, d => do
    let (d, _) ← eventHandler env d ev t
    daemonRun env es d

theorem daemonRun_history {env : Env} : ∀ (es : List (LoopEvent × Int)) {d d' : Daemon}, DHistory d →
    (∀ p ∈ es, ∀ dev, p.1 = .devAdd dev → dev.data = none) → daemonRun env es d = .ok d' → DHistory d'
  | [], d, d', h, _, run => by
    unfold daemonRun at run
    injection run with run; subst run; exact h
  | (ev, t) :: es, d, d', h, hf, run => by
    unfold daemonRun at run
    obtain ⟨⟨d1, w⟩, h1, run⟩ := dbind_eq_ok.1 run
    exact daemonRun_history es (.event env d ev t d1 w h h1 (hf _ List.mem_cons_self))
      (fun p hp => hf p (List.mem_cons_of_mem _ hp)) run

/-- A config directory with one file, and a keyboard it applies to. -/
def demoEnv : Env := { confs := [b!"[ids]\n*\n[main]\na = overloadt(control, a, 200)\n"] }
def demoKbd : LoopEvent := .devAdd { id := b!"0001:0002", capabilities := CAP_KEYBOARD }
def demoKey (c : Code) (v : UInt8) : LoopEvent := .dev 0 { type := .key, code := c, pressed := v, x := 0, y := 0 }
def demoReload : LoopEvent := .client 7 { type := .reload, data := [], sz := 0 }
def demoListen : LoopEvent := .client 8 { type := .layerListen, data := [], sz := 0 }

/-- Iterations of the main loop: `poll` returned at the given time with the given events. -/
def demoLoop (env : Env) : List (Int × List LoopEvent) → Int → Loop → DRes Loop
  | [], _, l => .ok l
  | (now, evs) :: es, start, l => do
    match ← iteration env l start now evs [] with
    | none => .ok l
    | some l => demoLoop env es now l

/-- Start of the daemon, then the iterations. -/
def demoRun (es : List (Int × List LoopEvent)) : DRes Loop := do
  let d ← reload demoEnv {}
  demoLoop demoEnv es 0 { d := d }

/-- Checking the outcome of `demoRun`. -/
def demoCheck (r : DRes Loop) (p : Loop → Bool) : Bool :=
  match r with
  | .ok l => p l
  | .error _ => false

/-- The outcome of `demoRun` is the use of a freed keyboard. -/
def demoFreed (r : DRes Loop) : Bool :=
  match r with
  | .error (.freed _) => true
  | _ => false

/-- C40 fails: a key bound with a timeout is pressed, the user reloads, and the wakeup the
old keyboard had asked for is delivered to it after it was freed. -/
theorem C40_fails_timeout :
    demoFreed (demoRun [(1, [demoKbd]), (10, [demoKey 30 1]), (20, [demoReload]), (300, [])]) = true := by
  set_option maxRecDepth 100000 in decide +kernel

/-- C40 fails: so does a client that starts listening right after a reload. -/
theorem C40_fails_listen :
    demoFreed (demoRun [(1, [demoKbd]), (10, [demoKey 48 1]), (20, [demoReload]), (30, [demoListen])]) = true := by
  set_option maxRecDepth 100000 in decide +kernel

/-- The hypotheses of C40 are met: after a reload with a key held, the key has been
released, and using the keyboard again makes `active_kbd` live. -/
theorem C40_example :
    demoCheck (demoRun [(1, [demoKbd]), (10, [demoKey 48 1])]) (fun l => l.d.vout = [.key 48 true]) = true ∧
    demoCheck (demoRun [(1, [demoKbd]), (10, [demoKey 48 1]), (20, [demoReload])])
      (fun l => l.d.vout = [.key 48 false, .key 48 true] ∧ l.d.active = some 0 ∧ (l.d.heap 0).isNone) = true ∧
    demoCheck (demoRun [(1, [demoKbd]), (10, [demoKey 48 1]), (20, [demoReload]), (30, [demoKey 48 0]), (40, [demoListen]), (300, [])])
      (fun l => l.d.active = some 1 ∧ (l.d.heap 1).isSome ∧ l.d.listeners = [8]) = true := by
  set_option maxRecDepth 100000 in decide +kernel

/-! ### C41 -/

/-- C41. At no time are there more than 32 listeners. -/
theorem C41_listeners {d : Daemon} (h : DHistory d) : d.listeners.length ≤ 32 := by
  induction h with
  | start env d run => rw [((reload_sat dinv_init).of_ok run).2.2.2.1]; decide
  | event env d ev t d' w hd run fresh ih => exact (eventHandler_live (dinv_history hd) run).2 ih
  | remove d removed _ ih => exact ih

/-- The request is refused before it is looked at. -/
def Oversize (msg : Msg) : Prop := msg.sz ≥ 4096 ∨ msg.timeout > 1000000

/-- C41. A message that is too large or has a timeout of over a second gets a failure reply
and changes nothing else. -/
theorem C41_rejected (env : Env) (d : Daemon) (con : Nat) (msg : Msg) (h : Oversize msg) :
    handleClient env d con msg = .ok { d with replies := (con, .fail) :: d.replies } := by
  unfold handleClient Daemon.reply
  by_cases h1 : msg.sz ≥ 4096
  · rw [if_pos h1]
  · rw [if_neg h1, if_pos (h.resolve_left h1)]

/-- C41. Every request other than `layer-listen` that the daemon survives gets exactly one
reply, on its own connection. Missing: some requests abort the daemon (`C41_fails_crash`). -/
theorem C41_one_reply_partial {env : Env} {d d' : Daemon} {con : Nat} {msg : Msg} (hd : DHistory d)
    (hl : msg.type ≠ .layerListen) (run : handleClient env d con msg = .ok d') :
    ∃ r, (r = .success ∨ r = .fail) ∧ d'.replies = (con, r) :: d.replies := by
  have h := dinv_history hd
  unfold handleClient at run
  split at run
  · injection run with run; subst run; exact ⟨_, .inr rfl, rfl⟩
  split at run
  · injection run with run; subst run; exact ⟨_, .inr rfl, rfl⟩
  dsimp only at run
  split at run
  · obtain ⟨o, -, run⟩ := dbind_eq_ok.1 run
    cases o with
    | none => injection run with run; subst run; exact ⟨_, .inr rfl, rfl⟩
    | some m =>
      injection run with run; subst run
      have a := (execMacro_keeps (macroExecute m msg.timeout) d).1.replies
      exact ⟨_, .inl rfl, congrArg _ a⟩
  · obtain ⟨⟨d2, ok⟩, h2, run⟩ := dbind_eq_ok.1 run
    injection run with run; subst run
    have a := ((inputLoop_sat _ _ _ h.tracked).of_ok h2).1.replies
    refine ⟨_, ?_, congrArg _ a⟩
    cases ok <;> simp
  · obtain ⟨d2, h2, run⟩ := dbind_eq_ok.1 run
    injection run with run; subst run
    have a := ((reload_sat h).of_ok h2)
    exact ⟨_, .inl rfl, congrArg _ a.2.2.2.2.1⟩
  · rename_i he; exact absurd he hl
  · obtain ⟨⟨d2, ok⟩, h2, run⟩ := dbind_eq_ok.1 run
    injection run with run; subst run
    have a := ((bindAll_sat _ _ _ h (fun e he => he)).of_ok h2).2.1.replies
    refine ⟨_, ?_, congrArg _ a⟩
    cases ok <;> simp
  · injection run with run; subst run; exact ⟨_, .inr rfl, rfl⟩

/-- C41. A `layer-listen` request gets no reply when it succeeds: the connection becomes a
listener, unless its snapshot could not be delivered, in which case it is dropped; only when
there are already 32 listeners is there a message instead. -/
theorem C41_listen {env : Env} {d d' : Daemon} {con : Nat} {msg : Msg} (hl : msg.type = .layerListen)
    (hs : ¬ Oversize msg) (run : handleClient env d con msg = .ok d') :
    (d.listeners.length = 32 ∧ d' = { d with replies := (con, .tooManyListeners) :: d.replies }) ∨
    (d'.replies = d.replies ∧ (d'.listeners = d.listeners ++ [con] ∨ (env.writable con = false ∧ d' = d))) := by
  unfold Oversize at hs
  unfold handleClient at run
  rw [if_neg (by omega), if_neg (by omega)] at run
  dsimp only at run
  rw [hl] at run
  dsimp only at run
  unfold addListener at run
  split at run
  · rename_i h32
    injection run with run; exact .inl ⟨h32, run.symm⟩
  · right
    split at run
    · injection run with run; subst run; exact ⟨rfl, .inl rfl⟩
    · split at run
      · cases run
      · split at run
        · injection run with run; subst run; exact ⟨rfl, .inl rfl⟩
        · rename_i hw
          injection run with run; subst run
          exact ⟨rfl, .inr ⟨by simpa using hw, rfl⟩⟩

theorem bindAll_success (exp : Str) : ∀ (es : List Ent) (d d' : Daemon) (ok : Bool), (es.map Ent.kbd).Nodup →
    bindAll exp es d = .ok (d', ok) →
    (ok = true ↔ ∃ e ∈ es, ∃ k k', d.heap e.kbd = some k ∧ kbdEval k exp = .ok (k', true))
  | [], d, d', ok, _, run => by
    unfold bindAll at run
    injection run with run; injection run with e1 e2; subst e2
    simp
  | e :: es, d, d', ok, hn, run => by
    unfold bindAll at run
    split at run
    · cases run
    · rename_i k hk
      obtain ⟨⟨k', a⟩, h1, run⟩ := dbind_eq_ok.1 run
      obtain ⟨⟨d2, any⟩, h2, run⟩ := dbind_eq_ok.1 run
      injection run with run; injection run with e1 e2; subst e2
      rw [List.map_cons, List.nodup_cons] at hn
      have ih := bindAll_success exp es _ d2 any hn.2 h2
      have h1 := lift_ok.1 h1
      have other : ∀ x ∈ es, upd d.heap e.kbd (some k') x.kbd = d.heap x.kbd := by
        intro x hx
        refine upd_other _ _ ?_
        intro he
        exact hn.1 (he ▸ List.mem_map_of_mem hx)
      rw [Bool.or_eq_true, ih]
      constructor
      · rintro (ha | ⟨x, hx, q, q', hq, hq'⟩)
        · exact ⟨e, List.mem_cons_self, k, k', hk, by rw [h1, ha]⟩
        · dsimp only at hq
          rw [other x hx] at hq
          exact ⟨x, List.mem_cons_of_mem _ hx, q, q', hq, hq'⟩
      · rintro ⟨x, hx, q, q', hq, hq'⟩
        rcases List.mem_cons.1 hx with hx | hx
        · subst hx
          rw [hk] at hq
          injection hq with hq
          subst hq
          rw [h1] at hq'
          injection hq' with hq'
          injection hq' with _ ha
          exact .inl ha
        · exact .inr ⟨x, hx, q, q', by dsimp only; rw [other x hx]; exact hq, hq'⟩

/-- C41. A `bind` request succeeds iff the keyboard of some config accepts the expression. -/
theorem C41_bind {env : Env} {d d' : Daemon} {con : Nat} {msg : Msg} (hd : DHistory d) (hb : msg.type = .bind)
    (hs : ¬ Oversize msg) (run : handleClient env d con msg = .ok d') :
    d'.replies.head? = some (con, .success) ↔
      ∃ e ∈ d.configs, ∃ k k', d.heap e.kbd = some k ∧ kbdEval k (cstring (msg.data.take msg.sz)) = .ok (k', true) := by
  unfold Oversize at hs
  unfold handleClient at run
  rw [if_neg (by omega), if_neg (by omega)] at run
  dsimp only at run
  rw [hb] at run
  dsimp only at run
  obtain ⟨⟨d2, ok⟩, h2, run⟩ := dbind_eq_ok.1 run
  injection run with run; subst run
  rw [← bindAll_success _ _ _ _ _ (dinv_history hd).nodup h2]
  unfold Daemon.reply
  cases ok <;> simp

/-- A failure of the daemon that is not the use of a freed keyboard. -/
def isCrash {α : Type} : DRes α → Bool
  | .error (.inner _) => true
  | _ => false

/-- C41 fails for some requests: `keyd input` with a truncated UTF-8 sequence, `keyd macro`
with one, and `keyd bind` with six arguments abort the daemon (assertions in utf8_read_char
and parse_fn), and there is no reply. -/
theorem C41_fails_crash :
    isCrash (handleClient {} {} 1 { type := .input, data := [0xC3], sz := 1 }) = true ∧
    isCrash (handleClient {} {} 1 { type := .macro, data := [0xC3], sz := 1 }) = true ∧
    demoCheck (demoRun [(1, [demoKbd])]) (fun l => isCrash
      (handleClient demoEnv l.d 1 { type := .bind, data := b!"a = layer(1,2,3,4,5,6)", sz := 22 })) = true := by
  set_option maxRecDepth 100000 in decide +kernel

/-- C41, concretely: an accepted and a refused bind, a macro, and an unknown command. -/
theorem C41_example :
    demoCheck (demoRun [(1, [demoKbd]), (10, [.client 1 { type := .bind, data := b!"a = b", sz := 5 }]),
      (20, [.client 2 { type := .bind, data := b!"a = nokey", sz := 9 }]),
      (30, [.client 3 { type := .macro, data := b!"x", sz := 1 }]),
      (40, [.client 4 { type := .macro, data := b!"x", sz := 1, timeout := 1000001 }]),
      (50, [.client 5 { type := .other, data := [], sz := 0 }])])
      (fun l => l.d.replies = [(5, .fail), (4, .fail), (3, .success), (2, .fail), (1, .success)] ∧
        l.d.vout = [.key 45 false, .key 45 true]) = true := by
  set_option maxRecDepth 100000 in decide +kernel

/-! ### C44 -/

/-- A sequence of mouse movements from a device managed by the keyboard at `a`. -/
def moves (env : Env) (a : Nat) : List (Int × Int × Int) → Daemon → DRes Daemon
  | [], d => .ok d
  | (x, y, t) :: ms, d => do
    moves env a ms (← managedEvent env d a { type := .mouseMove, code := 0, pressed := 0, x := x, y := y } t)

def total (f : Int × Int × Int → Int) : List (Int × Int × Int) → Int
  | [] => 0
  | m :: ms => f m + total f ms

def sum : List Int → Int
  | [] => 0
  | x :: xs => x + sum xs

/-- The calls of `vkbd_mouse_scroll` for the given vertical and horizontal ticks, newest
first. -/
def scrollCalls : List (Int × Int) → List VOut → List VOut
  | [], v => v
  | (ty, tx) :: ts, v => scrollCalls ts (.scroll 0 tx :: .scroll 0 (-ty) :: v)

/-- C44. While scroll mode is on, a movement sequence emits one pair of ticks for each
movement; in both directions, ticks times sensitivity plus what is carried equals the total
movement plus what was carried before, and what is carried after a movement is smaller than
the sensitivity. -/
theorem C44_conserved (env : Env) (a : Nat) (s : Int) (hs : s ≠ 0) :
    ∀ (ms : List (Int × Int × Int)) (d d' : Daemon) (k : Kbd), d.heap a = some k → k.scroll.active = true →
      k.scroll.sensitivity = s → moves env a ms d = .ok d' →
      ∃ (k' : Kbd) (ticks : List (Int × Int)), d'.heap a = some k' ∧ k'.scroll.active = true ∧ k'.scroll.sensitivity = s ∧
        d'.vout = scrollCalls ticks d.vout ∧ ticks.length = ms.length ∧
        s * sum (ticks.map Prod.fst) + k'.scroll.y = k.scroll.y + total (fun m => m.2.1) ms ∧
        s * sum (ticks.map Prod.snd) + k'.scroll.x = k.scroll.x + total (fun m => m.1) ms ∧
        (ms ≠ [] → k'.scroll.y.natAbs < s.natAbs ∧ k'.scroll.x.natAbs < s.natAbs)
  | [], d, d', k, hk, ha, hsens, run => by
    unfold moves at run
    injection run with run; subst run
    exact ⟨k, [], hk, ha, hsens, rfl, rfl, by simp [sum, total], by simp [sum, total], fun h => absurd rfl h⟩
  | (x, y, t) :: ms, d, d', k, hk, ha, hsens, run => by
    unfold moves at run
    obtain ⟨d1, h1, run⟩ := dbind_eq_ok.1 run
    unfold managedEvent at h1
    dsimp only at h1
    rw [hk] at h1
    dsimp only at h1
    rw [if_pos ha] at h1
    injection h1 with h1
    unfold scrollMove at h1
    rw [if_neg (by rw [hsens]; exact hs), hsens] at h1
    dsimp only at h1
    subst h1
    have bound : ∀ z : Int, (z.tmod s).natAbs < s.natAbs := by
      intro z
      rw [Int.natAbs_tmod]
      exact Nat.mod_lt _ (by omega)
    obtain ⟨k', ticks, p1, p2, p3, p4, p5, p6, p7, p8⟩ := C44_conserved env a s hs ms _ d'
      { k with scroll := { k.scroll with x := (k.scroll.x + x).tmod s, y := (k.scroll.y + y).tmod s } }
      (upd_same _ _ _) ha hsens run
    refine ⟨k', ((k.scroll.y + y).tdiv s, (k.scroll.x + x).tdiv s) :: ticks, p1, p2, p3, ?_, ?_, ?_, ?_, ?_⟩
    · rw [p4]
      show scrollCalls ticks (.scroll 0 _ :: .scroll 0 _ :: d.vout) = _
      rw [scrollCalls]
      simp
    · simp [p5]
    · simp only [List.map_cons, sum, total]
      dsimp only at p6
      have := Int.mul_tdiv_add_tmod (k.scroll.y + y) s
      rw [Int.mul_add]
      omega
    · simp only [List.map_cons, sum, total]
      dsimp only at p7
      have := Int.mul_tdiv_add_tmod (k.scroll.x + x) s
      rw [Int.mul_add]
      omega
    · intro _
      by_cases hm : ms = []
      · subst hm
        unfold moves at run
        injection run with run; subst run
        have : some k' = some _ := p1.symm.trans (upd_same _ _ _)
        injection this with this
        subst this
        exact ⟨bound _, bound _⟩
      · exact p8 hm

/-- C44. With sensitivity 0 nothing is emitted and nothing is accumulated. -/
theorem C44_zero (env : Env) (a : Nat) (d d' : Daemon) (k : Kbd) (x y t : Int) (hk : d.heap a = some k)
    (ha : k.scroll.active = true) (hs : k.scroll.sensitivity = 0) (run : moves env a [(x, y, t)] d = .ok d') :
    d'.vout = d.vout ∧ d'.heap = d.heap := by
  unfold moves at run
  obtain ⟨d1, h1, run⟩ := dbind_eq_ok.1 run
  unfold moves at run
  injection run with run; subst run
  unfold managedEvent at h1
  dsimp only at h1
  rw [hk] at h1
  dsimp only at h1
  rw [if_pos ha] at h1
  injection h1 with h1
  unfold scrollMove at h1
  rw [if_pos hs] at h1
  subst h1
  exact ⟨rfl, rfl⟩

/-- With scroll mode off, movements pass through unchanged. -/
theorem C44_off (env : Env) (a : Nat) (d d' : Daemon) (k : Kbd) (x y t : Int) (hk : d.heap a = some k)
    (ha : k.scroll.active = false) (run : moves env a [(x, y, t)] d = .ok d') :
    d'.vout = .move x y :: d.vout ∧ d'.heap = d.heap := by
  unfold moves at run
  obtain ⟨d1, h1, run⟩ := dbind_eq_ok.1 run
  unfold moves at run
  injection run with run; subst run
  unfold managedEvent at h1
  dsimp only at h1
  rw [hk] at h1
  dsimp only at h1
  rw [if_neg (by simp [ha])] at h1
  injection h1 with h1
  subst h1
  exact ⟨rfl, rfl⟩

/-- A curiosity visible in `C44_conserved`: horizontal motion is reported as vertical
scrolling (both calls have 0 as the horizontal amount). -/
theorem C44_horizontal_is_vertical (ticks : List (Int × Int)) (v : List VOut) (x y : Int)
    (h : .scroll x y ∈ scrollCalls ticks v) : x = 0 ∨ .scroll x y ∈ v := by
  induction ticks generalizing v with
  | nil => exact .inr h
  | cons p ts ih =>
    obtain ⟨ty, tx⟩ := p
    rw [scrollCalls] at h
    rcases ih _ h with h | h
    · exact .inl h
    · simp only [List.mem_cons, VOut.scroll.injEq] at h
      rcases h with ⟨h, _⟩ | ⟨h, _⟩ | h
      · exact .inl h
      · exact .inl h
      · exact .inr h

/-- A config with a scroll key. -/
def scrollEnv : Env := { confs := [b!"[ids]\n*\n[main]\na = scroll(3)\n"] }

/-- C44, concretely: after pressing the scroll key, movements of 7 and -2 downwards at
sensitivity 3 emit two ticks, then none, and -1 is carried. -/
theorem C44_example :
    demoCheck (do
        let d ← reload scrollEnv {}
        demoLoop scrollEnv [(1, [demoKbd]), (10, [demoKey 30 1]),
          (20, [.dev 0 { type := .mouseMove, code := 0, pressed := 0, x := 0, y := 7 }]),
          (30, [.dev 0 { type := .mouseMove, code := 0, pressed := 0, x := -4, y := -2 }])] 0 { d := d })
      (fun l => l.d.vout = [.scroll 0 (-1), .scroll 0 0, .scroll 0 0, .scroll 0 (-2)] ∧
        (l.d.heap 0).map (fun k => (k.scroll.active, k.scroll.sensitivity, k.scroll.x, k.scroll.y)) = some (true, 3, -1, -1)) = true := by
  set_option maxRecDepth 100000 in decide +kernel

end Keyd
