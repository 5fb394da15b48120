import Verif.Props.Uptime
import Verif.Props.Reload

/-
  C82 for the daemon: the whole main loop, with any devices, clients, reloads and several keyboards, does not depend on the uptime.
-/

set_option autoImplicit false

namespace Keyd

attribute [local irreducible] configInit

/-! ### Specification -/

/-- One turn of the main loop: what the environment decides, when `poll` was entered and when it returned, the events found, and the devices found to be gone. -/
structure LoopTurn where
  env : Env
  start : Int
  now : Int
  evs : List LoopEvent
  removed : List Nat

/-- The same turn `δ` milliseconds later. -/
def LoopTurn.later (δ : Int) (t : LoopTurn) : LoopTurn := { t with start := t.start + δ, now := t.now + δ }

/-- The main loop; `none` is its end by the panic sequence. -/
def loopTurns : List LoopTurn → Loop → DRes (Option Loop)
  | [], l => .ok (some l)
  | t :: ts, l => do
    match ← iteration t.env l t.start t.now t.evs t.removed with
    | none => .ok none
    | some l => loopTurns ts l

/-- The devices found when the daemon starts, evloop.c:50-55. The time of these events is not set in C, so it is whatever is on the stack: `g`. -/
def addFound (env : Env) (g : Int) : List Device → Daemon → DRes Daemon
  | [], d => .ok d
  | dev :: ds, d => do
    let (d, _) ← eventHandler env d (.devAdd dev) g
    addFound env g ds d

/-- The daemon from its start: the configuration is read, the devices found are added, and the main loop runs. -/
def daemonFrom (env : Env) (g : Int) (found : List Device) (ts : List LoopTurn) : DRes (Option Loop) := do
  let d ← reload env {}
  let d ← addFound env g found d
  loopTurns ts { d := d }

/-- What there is to see of a daemon from outside: everything written to the virtual keyboard, to listeners and to clients, the devices with their LEDs, and how long it will wait. -/
structure Seen where
  vout : List VOut
  sent : List (Nat × Str)
  replies : List (Nat × Reply)
  devices : List Device
  timeout : Int
  panic : Panic

def Loop.seen (l : Loop) : Seen := ⟨l.d.vout, l.d.sent, l.d.replies, l.d.devices, l.timeout, l.panic⟩

/-- The result of a run as it is seen from outside: how it stopped, or what there is to see. -/
def seenOf : DRes (Option Loop) → DRes (Option Seen)
  | .ok o => .ok (o.map Loop.seen)
  | .error e => .error e

/-- All configuration files have sensible times. -/
def SaneFiles (env : Env) : Prop := ∀ text ∈ env.confs, ∀ c, configParse text = .ok (some c) → SaneTimes c

/-! ### Proofs -/

def TwinD {α β : Type} (Q : α → β → Prop) : DRes α → DRes β → Prop
  | .ok a, .ok b => Q a b
  | .error e, .error e' => e = e'
  | _, _ => False

theorem TwinD.bind {α β γ ε : Type} {Q : α → β → Prop} {S : γ → ε → Prop} {x : DRes α} {x' : DRes β} {f : α → DRes γ}
    {f' : β → DRes ε} (h : TwinD Q x x') (hf : ∀ a b, Q a b → TwinD S (f a) (f' b)) : TwinD S (x >>= f) (x' >>= f') := by
  cases x <;> cases x' <;> first | exact h.elim | exact h | exact hf _ _ h

theorem TwinD.imp {α β : Type} {Q S : α → β → Prop} {x : DRes α} {x' : DRes β} (h : TwinD Q x x') (hs : ∀ a b, Q a b → S a b) : TwinD S x x' := by
  cases x <;> cases x' <;> first | exact h.elim | exact h | exact hs _ _ h

theorem Twin.lift {α β : Type} {Q : α → β → Prop} {x : Res α} {x' : Res β} (h : Twin Q x x') : TwinD Q (Keyd.lift x) (Keyd.lift x') := by
  cases x <;> cases x' <;> first | exact h.elim | exact h | exact congrArg _ h

theorem TwinD.same {α : Type} {Q : α → α → Prop} (x : DRes α) (h : ∀ a, x = .ok a → Q a a) : TwinD Q x x := by
  cases x with
  | error e => exact rfl
  | ok a => exact h a rfl

def Kept (δ : Int) (k k' : Kbd) : Prop :=
  Behind δ k k' ∧ Bound k.config ∧ Bound k.originalConfig ∧ k.config.settings = k.originalConfig.settings

def HeapB (δ : Int) (h h' : Nat → Option Kbd) : Prop :=
  ∀ a, (h a = none ∧ h' a = none) ∨ ∃ k k', h a = some k ∧ h' a = some k' ∧ Kept δ k k'

theorem HeapB.upd {δ : Int} {h h' : Nat → Option Kbd} (hh : HeapB δ h h') (a : Nat) {k k' : Kbd} (hk : Kept δ k k') :
    HeapB δ (upd h a (some k)) (upd h' a (some k')) := by
  intro b
  by_cases e : b = a
  · subst e
    exact .inr ⟨k, k', upd_same _ _ _, upd_same _ _ _, hk⟩
  · rw [upd_other _ _ e, upd_other _ _ e]
    exact hh b

def Daemon.put (d : Daemon) (h : Nat → Option Kbd) (t : Int) : Daemon := { d with heap := h, lastTime := t }

def DB (δ : Int) (d d' : Daemon) : Prop := ∃ h', d' = d.put h' (d.lastTime + δ) ∧ HeapB δ d.heap h'

/-- A function that neither looks at nor changes the keyboards and the clock. -/
def QuietD (f : Daemon → Daemon) : Prop := ∀ d h t, f (d.put h t) = (f d).put h t

theorem QuietD.heap {f : Daemon → Daemon} (hf : QuietD f) (d : Daemon) : (f d).heap = d.heap := by
  have := hf d d.heap d.lastTime
  change f d = _ at this
  rw [this]
  rfl

theorem QuietD.last {f : Daemon → Daemon} (hf : QuietD f) (d : Daemon) : (f d).lastTime = d.lastTime := by
  have := hf d d.heap d.lastTime
  change f d = _ at this
  rw [this]
  rfl

theorem DB.quiet {δ : Int} {d d' : Daemon} {f : Daemon → Daemon} (h : DB δ d d') (hf : QuietD f) : DB δ (f d) (f d') := by
  obtain ⟨h', rfl, hh⟩ := h
  exact ⟨h', by rw [hf, hf.last], by rw [hf.heap]; exact hh⟩

theorem quiet_foldl {α : Type} {f : Daemon → α → Daemon} (hf : ∀ a, QuietD (fun d => f d a)) (l : List α) : QuietD (fun d => l.foldl f d) := by
  induction l with
  | nil => exact fun _ _ _ => rfl
  | cons a l ih =>
    intro d h t
    show l.foldl f (f (d.put h t) a) = (l.foldl f (f d a)).put h t
    rw [show f (d.put h t) a = (f d a).put h t from hf a d h t]
    exact ih _ h t

theorem quiet_sendKey (c : Code) (b : Bool) : QuietD (fun d => daemonSendKey d c b) := by
  intro d h t
  unfold daemonSendKey
  dsimp only
  repeat' split
  all_goals rfl

theorem quiet_onLayerChange (env : Env) (a : Nat) (c : Config) (n : Nat → Nat) (i : Nat) (s : Bool) : QuietD (fun d => onLayerChange env d a c n i s) := by
  intro d h t
  unfold onLayerChange
  dsimp only
  by_cases h1 : c.layerIndicator ≠ 0
  · rw [if_pos h1, if_pos h1]
    by_cases h2 : d.listeners = []
    · rw [if_pos (show (setLed (d.put h t) a 1 _).listeners = [] from h2), if_pos (show (setLed d a 1 _).listeners = [] from h2)]
      rfl
    · rw [if_neg (show ¬ (setLed (d.put h t) a 1 _).listeners = [] from h2), if_neg (show ¬ (setLed d a 1 _).listeners = [] from h2)]
      rfl
  · rw [if_neg h1, if_neg h1]
    by_cases h2 : d.listeners = []
    · rw [if_pos (show (d.put h t).listeners = [] from h2), if_pos h2]
    · rw [if_neg (show ¬ (d.put h t).listeners = [] from h2), if_neg h2]
      rfl

theorem quiet_applyOuts (env : Env) (a : Nat) (c : Config) : ∀ (os : List Out) (n : Nat → Nat), QuietD (fun d => applyOuts env a c d n os)
  | [], _ => fun _ _ _ => rfl
  | .key x b :: os, n => fun d h t => by
    show applyOuts env a c (daemonSendKey (d.put h t) x b) n os = (applyOuts env a c (daemonSendKey d x b) n os).put h t
    rw [show daemonSendKey (d.put h t) x b = _ from quiet_sendKey x b d h t]
    exact quiet_applyOuts env a c os n _ h t
  | .layer i b :: os, n => fun d h t => by
    unfold applyOuts
    dsimp only
    generalize (if (c.layer i).type = .layout then n else upd n i (if b then n i + 1 else n i - 1)) = n'
    rw [show onLayerChange env (d.put h t) a c n' i b = _ from quiet_onLayerChange env a c n' i b d h t]
    exact quiet_applyOuts env a c os n' _ h t
  | .command _ :: os, n => fun d h t => quiet_applyOuts env a c os n d h t
  | .sleep _ :: os, n => fun d h t => quiet_applyOuts env a c os n d h t

theorem twin_kbdRun {δ : Int} (hδ : 0 ≤ δ) (env : Env) {d d' : Daemon} (h : DB δ d d') (a : Nat) (code : Code) (b : Bool) (t : Int) (ht : 65536 ≤ t) :
    TwinD (fun r s => DB δ r.1 s.1 ∧ s.2 = r.2 ∧ r.1.lastTime = d.lastTime) (kbdRun env d a [⟨code, b, t⟩]) (kbdRun env d' a [⟨code, b, t + δ⟩]) := by
  obtain ⟨h', rfl, hh⟩ := h
  unfold kbdRun
  rcases hh a with ⟨e1, e2⟩ | ⟨k, k', e1, e2, hk⟩
  · rw [e1, show (d.put h' (d.lastTime + δ)).heap a = none from e2]
    exact rfl
  · rw [e1, show (d.put h' (d.lastTime + δ)).heap a = some k' from e2]
    dsimp only
    obtain ⟨hb, hc, ho, hs⟩ := hk
    have h1 := delayed_events (delayed_processEvent hδ env.fuel) [⟨code, b, t⟩] hb (fun e he => by rw [List.mem_singleton.1 he]; exact ht)
    change Twin _ (kbdProcessEvents env.fuel k [⟨code, b, t⟩]) (kbdProcessEvents env.fuel k' [⟨code, b, t + δ⟩]) at h1
    have hso := kbdProcessEvents_sat (original_outInv k.originalConfig).engineInv env.fuel k [⟨code, b, t⟩] rfl
    have hcf := kbdProcessEvents_sat (config_outInv k.config).engineInv env.fuel k [⟨code, b, t⟩] rfl
    cases hr : kbdProcessEvents env.fuel k [⟨code, b, t⟩] with
    | error e =>
      rw [hr] at h1
      cases hr' : kbdProcessEvents env.fuel k' [⟨code, b, t + δ⟩] with
      | error e' => rw [hr'] at h1; rw [show e' = e from h1.symm]; exact rfl
      | ok r' => rw [hr'] at h1; exact h1.elim
    | ok r =>
      rw [hr] at h1
      cases hr' : kbdProcessEvents env.fuel k' [⟨code, b, t + δ⟩] with
      | error e' => rw [hr'] at h1; exact h1.elim
      | ok r' =>
        rw [hr'] at h1
        obtain ⟨k1, w⟩ := r
        obtain ⟨k1', w'⟩ := r'
        obtain ⟨h2, hw⟩ := h1
        dsimp only at h2 hw
        subst hw
        have ec : k1.config = k.config := hcf.of_ok hr
        have eo : k1.originalConfig = k.originalConfig := hso.of_ok hr
        have tr : k1'.trace = k1.trace := by obtain ⟨_, j, rfl, _⟩ := h2; rfl
        have tr0 : k'.trace = k.trace := by obtain ⟨_, j, rfl, _⟩ := hb; rfl
        have ls0 : k'.layerState = k.layerState := by obtain ⟨_, j, rfl, _⟩ := hb; rfl
        have c0 : k'.config = k.config := hb.2.config
        show DB δ _ _ ∧ _ ∧ _
        refine ⟨?_, rfl, ?_⟩
        · dsimp only
          rw [tr, tr0, ls0, c0]
          refine DB.quiet (f := fun x => applyOuts env a k.config x (fun i => (k.layerState i).active) _) ?_ (quiet_applyOuts env a k.config _ _)
          exact ⟨upd h' a (some k1'), rfl, hh.upd a ⟨h2, by rw [ec]; exact hc, by rw [eo]; exact ho, by rw [ec, eo]; exact hs⟩⟩
        · exact QuietD.last (quiet_applyOuts env a k.config _ _) _

theorem DB.setTimeout {δ : Int} {d d' : Daemon} (h : DB δ d d') (w : Int) : DB δ { d with timeout := w } { d' with timeout := w } :=
  h.quiet (f := fun d => { d with timeout := w }) (fun _ _ _ => rfl)

theorem twin_processKeypress {δ : Int} (hδ : 0 ≤ δ) (env : Env) {d d' : Daemon} (h : DB δ d d') (a : Nat) (code : Code) (t : Int) (ht : 65536 ≤ t) :
    TwinD (fun r s => DB δ r.1 s.1 ∧ s.2 = r.2 ∧ r.1.lastTime = d.lastTime) (processKeypress env d a code t) (processKeypress env d' a code (t + δ)) := by
  unfold processKeypress
  refine (twin_kbdRun hδ env h a code true t ht).bind ?_
  rintro ⟨d1, w1⟩ ⟨d1', w1'⟩ ⟨h1, _, e1⟩
  dsimp only at h1 e1 ⊢
  rw [← e1]
  exact twin_kbdRun hδ env h1 a code false t ht

theorem twin_repeatKeypress {δ : Int} (hδ : 0 ≤ δ) (env : Env) (a : Nat) (code : Code) (t : Int) (ht : 65536 ≤ t) : ∀ (n : Nat) {d d' : Daemon}, DB δ d d' →
    TwinD (fun r s => DB δ r s ∧ r.lastTime = d.lastTime) (repeatKeypress env a code t n d) (repeatKeypress env a code (t + δ) n d')
  | 0, d, d', h => ⟨h, rfl⟩
  | n + 1, d, d', h => by
    unfold repeatKeypress
    refine (twin_processKeypress hδ env h a code t ht).bind ?_
    rintro ⟨d1, w1⟩ ⟨d1', w1'⟩ ⟨h1, e1, e2⟩
    dsimp only at h1 e1 e2 ⊢
    subst e1
    exact (twin_repeatKeypress hδ env a code t ht n (h1.setTimeout w1')).imp (fun _ _ h => ⟨h.1, h.2.trans e2⟩)

theorem DB.last {δ : Int} {d d' : Daemon} (h : DB δ d d') : d'.lastTime = d.lastTime + δ := by
  obtain ⟨_, rfl, _⟩ := h
  rfl

theorem kept_scroll {δ : Int} {k k' : Kbd} (h : Kept δ k k') (s : Scroll) : Kept δ { k with scroll := s } { k' with scroll := s } := by
  obtain ⟨hb, hc, ho, hs⟩ := h
  exact ⟨⟨hb.1.frame rfl rfl rfl rfl, Delayed.pure (fun k => { k with scroll := s }) hb.2 (fun _ _ => rfl)⟩, hc, ho, hs⟩

theorem kept_scroll_eq {δ : Int} {k k' : Kbd} (h : Kept δ k k') : k'.scroll = k.scroll := by
  obtain ⟨⟨_, j, rfl, _⟩, _⟩ := h
  rfl

theorem twin_managed {δ : Int} (hδ : 0 ≤ δ) (env : Env) {d d' : Daemon} (h : DB δ d d') (a : Nat) (e : DevEvent) (t : Int) (ht : 65536 ≤ t) :
    TwinD (fun r s => DB δ r s ∧ r.lastTime = d.lastTime) (managedEvent env d a e t) (managedEvent env d' a e (t + δ)) := by
  have h0 : DB δ { d with active := some a } { d' with active := some a } := h.quiet (f := fun d => { d with active := some a }) (fun _ _ _ => rfl)
  unfold managedEvent
  dsimp only
  cases e.type with
  | key =>
    dsimp only
    refine (twin_kbdRun hδ env h0 a e.code _ t ht).bind ?_
    rintro ⟨d1, w1⟩ ⟨d1', w1'⟩ ⟨h1, e1, e2⟩
    dsimp only at h1 e1 e2 ⊢
    subst e1
    exact ⟨h1.setTimeout w1', e2⟩
  | mouseMove =>
    dsimp only
    obtain ⟨h', rfl, hh⟩ := h
    rcases hh a with ⟨e1, e2⟩ | ⟨k, k', e1, e2, hk⟩
    · rw [e1, show (d.put h' (d.lastTime + δ)).heap a = none from e2]
      exact rfl
    · rw [e1, show (d.put h' (d.lastTime + δ)).heap a = some k' from e2]
      dsimp only
      rw [kept_scroll_eq hk]
      by_cases hs : k.scroll.active = true
      · rw [if_pos hs, if_pos hs]
        unfold scrollMove
        rw [kept_scroll_eq hk]
        by_cases h0 : k.scroll.sensitivity = 0
        · rw [if_pos h0, if_pos h0]
          exact ⟨⟨h', rfl, hh⟩, rfl⟩
        · rw [if_neg h0, if_neg h0]
          exact ⟨⟨_, rfl, hh.upd a (kept_scroll hk _)⟩, rfl⟩
      · rw [if_neg hs, if_neg hs]
        exact ⟨⟨h', rfl, hh⟩, rfl⟩
  | mouseMoveAbs => exact ⟨h0.quiet (f := fun d => { d with vout := .moveAbs e.x e.y :: d.vout }) (fun _ _ _ => rfl), rfl⟩
  | mouseScroll =>
    dsimp only
    refine (twin_repeatKeypress hδ env a _ t ht _ h0).bind ?_
    rintro d1 d1' ⟨h1, e1⟩
    refine (twin_repeatKeypress hδ env a _ t ht _ h1).bind ?_
    rintro d2 d2' ⟨h2, e2⟩
    refine (twin_repeatKeypress hδ env a _ t ht _ h2).bind ?_
    rintro d3 d3' ⟨h3, e3⟩
    have := twin_repeatKeypress hδ env a KEYD.SCROLL_DOWN t ht (-e.y).toNat h3
    rw [show d3.lastTime = d.lastTime from e3.trans (e2.trans e1)] at this
    exact this
  | _ => exact ⟨h0, rfl⟩

theorem DB.devices {δ : Int} {d d' : Daemon} (h : DB δ d d') : d'.devices = d.devices := by
  obtain ⟨_, rfl, _⟩ := h; rfl

theorem DB.active {δ : Int} {d d' : Daemon} (h : DB δ d d') : d'.active = d.active := by
  obtain ⟨_, rfl, _⟩ := h; rfl

theorem DB.timeout {δ : Int} {d d' : Daemon} (h : DB δ d d') : d'.timeout = d.timeout := by
  obtain ⟨_, rfl, _⟩ := h; rfl

theorem twin_device {δ : Int} (hδ : 0 ≤ δ) (env : Env) {d d' : Daemon} (h : DB δ d d') (dev : Device) (e : DevEvent) (t : Int) (ht : 65536 ≤ t) :
    TwinD (fun r s => DB δ r s ∧ r.lastTime = d.lastTime) (deviceEvent env d dev e t) (deviceEvent env d' dev e (t + δ)) := by
  unfold deviceEvent
  cases dev.data with
  | some a => exact twin_managed hδ env h a e t ht
  | none =>
    dsimp only
    by_cases h1 : dev.isVirtual = false ∧ dev.capabilities &&& CAP_MOUSE ≠ 0
    · rw [if_pos h1, if_pos h1, h.active]
      cases d.active with
      | none => exact ⟨h, rfl⟩
      | some a =>
        dsimp only
        by_cases h2 : e.type = .key ∨ e.type = .mouseScroll
        · rw [if_pos h2, if_pos h2]
          refine (twin_processKeypress hδ env h a _ t ht).bind ?_
          rintro ⟨d1, w1⟩ ⟨d1', w1'⟩ ⟨h3, e1, e2⟩
          dsimp only at h3 e1 e2 ⊢
          subst e1
          exact ⟨h3.setTimeout w1', e2⟩
        · rw [if_neg h2, if_neg h2]
          exact ⟨h, rfl⟩
    · rw [if_neg h1, if_neg h1]
      by_cases h2 : dev.isVirtual ∧ e.type = .led
      · rw [if_pos h2, if_pos h2]
        refine ⟨?_, rfl⟩
        exact h.quiet (f := fun d => { d with devices := d.devices.map fun dv => if dv.data.isSome then { dv with led := upd dv.led e.code (decide (e.pressed ≠ 0)) } else dv })
          (fun _ _ _ => rfl)
      · rw [if_neg h2, if_neg h2]
        exact ⟨h, rfl⟩

/-! Clients -/

theorem twin_kbdEval {δ : Int} {k k' : Kbd} (h : Kept δ k k') (exp : Str) : Twin (fun r s => Kept δ r.1 s.1 ∧ s.2 = r.2) (kbdEval k exp) (kbdEval k' exp) := by
  obtain ⟨hb, hc, ho, hs⟩ := h
  have e : k'.config = k.config := hb.2.config
  have eo : k'.originalConfig = k.originalConfig := by obtain ⟨_, j, rfl, _⟩ := hb; rfl
  unfold kbdEval
  by_cases hx : exp = b!"reset"
  · rw [if_pos hx, if_pos hx]
    have h2 := hb.rebound (c := k.originalConfig) (C27_wellformed _ ho) hs.symm
    have e2 : ({ k' with config := k'.originalConfig } : Kbd) = { k' with config := k.originalConfig } := by
      generalize k.originalConfig = o at eo; subst eo; rfl
    rw [e2]
    exact ⟨⟨h2, ho, ho, rfl⟩, rfl⟩
  · rw [if_neg hx, if_neg hx, e]
    cases hr : configAddEntry k.config exp with
    | error _ => exact rfl
    | ok r =>
      obtain ⟨c1, ok⟩ := r
      have hset := configAddEntry_settings (C27_wellformed _ hc) hr
      have hb1 : Bound c1 := .bind _ _ _ _ hc hr
      exact ⟨⟨hb.rebound (c := c1) (C27_wellformed _ hb1) hset, hb1, ho, hset.trans hs⟩, rfl⟩

theorem twin_bindAll {δ : Int} (exp : Str) : ∀ (es : List Ent) {d d' : Daemon}, DB δ d d' →
    TwinD (fun r s => DB δ r.1 s.1 ∧ s.2 = r.2 ∧ r.1.lastTime = d.lastTime) (bindAll exp es d) (bindAll exp es d')
  | [], d, d', h => ⟨h, rfl, rfl⟩
  | e :: es, d, d', h => by
    obtain ⟨h', rfl, hh⟩ := h
    unfold bindAll
    rcases hh e.kbd with ⟨e1, e2⟩ | ⟨k, k', e1, e2, hk⟩
    · rw [e1, show (d.put h' (d.lastTime + δ)).heap e.kbd = none from e2]
      exact rfl
    · rw [e1, show (d.put h' (d.lastTime + δ)).heap e.kbd = some k' from e2]
      dsimp only
      refine (twin_kbdEval hk exp).lift.bind ?_
      rintro ⟨k1, ok⟩ ⟨k1', ok'⟩ ⟨h1, eok⟩
      dsimp only at h1 eok ⊢
      subst eok
      have h2 : DB δ { d with heap := upd d.heap e.kbd (some k1) } { (d.put h' (d.lastTime + δ)) with heap := upd (d.put h' (d.lastTime + δ)).heap e.kbd (some k1') } :=
        ⟨_, rfl, hh.upd e.kbd h1⟩
      refine (twin_bindAll exp es h2).bind ?_
      rintro ⟨d1, any⟩ ⟨d1', any'⟩ ⟨h3, e3, e4⟩
      dsimp only at h3 e3 e4 ⊢
      subst e3
      exact ⟨h3, rfl, e4⟩

theorem quiet_clearVkbd : QuietD clearVkbd := by
  refine quiet_foldl (f := clearStep) (fun c => ?_) codes256
  intro d h t
  unfold clearStep
  dsimp only [Daemon.put]
  split <;> rfl

theorem twin_loadConfigs {δ : Int} : ∀ (ts : List Str) {d d' : Daemon}, (∀ text ∈ ts, ∀ c, configParse text = .ok (some c) → SaneTimes c) → DB δ d d' →
    TwinD (fun r s => DB δ r s ∧ r.lastTime = d.lastTime) (loadConfigs ts d) (loadConfigs ts d')
  | [], d, d', _, h => ⟨h, rfl⟩
  | text :: ts, d, d', hsane, h => by
    unfold loadConfigs
    have one : TwinD (fun r s => DB δ r s ∧ r.lastTime = d.lastTime) (loadConfig d text) (loadConfig d' text) := by
      unfold loadConfig
      cases hp : configParse text with
      | error e => exact rfl
      | ok o =>
        cases o with
        | none => exact ⟨h, rfl⟩
        | some c =>
          obtain ⟨h', rfl, hh⟩ := h
          have hb : Bound c := .parsed text c hp
          refine ⟨⟨_, rfl, hh.upd d.next ⟨behind_start (C27_wellformed _ hb) (hsane text List.mem_cons_self c hp) δ, hb, hb, rfl⟩⟩, rfl⟩
    refine one.bind ?_
    rintro d1 d1' ⟨h1, e1⟩
    have := twin_loadConfigs ts (fun x hx => hsane x (List.mem_cons_of_mem _ hx)) h1
    rw [e1] at this
    exact this

theorem twin_reload {δ : Int} (env : Env) (hsane : SaneFiles env) {d d' : Daemon} (h : DB δ d d') :
    TwinD (fun r s => DB δ r s ∧ r.lastTime = d.lastTime) (reload env d) (reload env d') := by
  unfold reload
  have h0 : DB δ (freeConfigs d) (freeConfigs d') := by
    obtain ⟨h', rfl, hh⟩ := h
    refine ⟨fun a => if d.configs.any (fun e => e.kbd = a) then none else h' a, rfl, ?_⟩
    intro a
    show ((if d.configs.any (fun e => e.kbd = a) then none else d.heap a) = none ∧ _) ∨ _
    unfold freeConfigs
    dsimp only
    cases d.configs.any (fun e => decide (e.kbd = a)) with
    | true => exact .inl ⟨rfl, rfl⟩
    | false => exact hh a
  refine (twin_loadConfigs env.confs hsane h0).bind ?_
  rintro d1 d1' ⟨h1, e1⟩
  refine ⟨?_, ?_⟩
  · refine DB.quiet ?_ quiet_clearVkbd
    obtain ⟨h', rfl, hh⟩ := h1
    exact ⟨h', rfl, hh⟩
  · exact (QuietD.last quiet_clearVkbd _).trans e1

theorem kept_snapshot {δ : Int} {k k' : Kbd} (h : Kept δ k k') : snapshot k' = snapshot k := by
  have e : k'.config = k.config := h.1.2.config
  have el : k'.layerState = k.layerState := by obtain ⟨⟨_, j, rfl, _⟩, _⟩ := h; rfl
  unfold snapshot shownLayout
  rw [e, el]

theorem twin_addListener {δ : Int} (env : Env) {d d' : Daemon} (h : DB δ d d') (con : Nat) :
    TwinD (fun r s => DB δ r s ∧ r.lastTime = d.lastTime) (addListener env d con) (addListener env d' con) := by
  obtain ⟨h', rfl, hh⟩ := h
  unfold addListener
  by_cases h1 : d.listeners.length = 32
  · rw [if_pos h1, if_pos (show (d.put h' (d.lastTime + δ)).listeners.length = 32 from h1)]
    exact ⟨⟨h', rfl, hh⟩, rfl⟩
  · rw [if_neg h1, if_neg (show ¬ (d.put h' (d.lastTime + δ)).listeners.length = 32 from h1)]
    rw [show (d.put h' (d.lastTime + δ)).active = d.active from rfl]
    cases d.active with
    | none => exact ⟨⟨h', rfl, hh⟩, rfl⟩
    | some a =>
      dsimp only
      rcases hh a with ⟨e1, e2⟩ | ⟨k, k', e1, e2, hk⟩
      · rw [e1, show (d.put h' (d.lastTime + δ)).heap a = none from e2]
        exact rfl
      · rw [e1, show (d.put h' (d.lastTime + δ)).heap a = some k' from e2]
        dsimp only
        rw [kept_snapshot hk]
        by_cases h2 : env.writable con = true
        · rw [if_pos h2, if_pos h2]
          exact ⟨⟨h', rfl, hh⟩, rfl⟩
        · rw [if_neg h2, if_neg h2]
          exact ⟨⟨h', rfl, hh⟩, rfl⟩

theorem quiet_execMacro (outs : List MacroOut) : QuietD (fun d => execMacro d outs) := by
  unfold execMacro
  refine quiet_foldl (fun o => ?_) outs
  cases o with
  | key c b => exact quiet_sendKey c b
  | sleep _ => exact fun _ _ _ => rfl

theorem inputChar_put (d : Daemon) (h : Nat → Option Kbd) (t : Int) (sz cp : Nat) : inputChar (d.put h t) sz cp = (inputChar d sz cp).map fun d => d.put h t := by
  unfold inputChar
  dsimp only
  have fold : ∀ l : List Code, l.foldl Daemon.vtap (d.put h t) = (l.foldl Daemon.vtap d).put h t :=
    fun l => quiet_foldl (f := Daemon.vtap) (fun _ _ _ _ => rfl) l d h t
  have last : (match unicodeLookupIndex cp with
      | none => none
      | some idx => some ((unicodeGetSequence idx).foldl Daemon.vtap (d.put h t))) =
      (match unicodeLookupIndex cp with
      | none => none
      | some idx => some ((unicodeGetSequence idx).foldl Daemon.vtap d)).map fun d : Daemon => d.put h t := by
    cases unicodeLookupIndex cp with
    | none => rfl
    | some idx => exact congrArg some (fold _)
  by_cases h1 : sz = 1
  · rw [if_pos h1, if_pos h1]
    cases parseKeySequence [UInt8.ofNat cp] with
    | some p =>
      dsimp only
      by_cases h2 : p.2 &&& MOD_SHIFT ≠ 0
      · rw [if_pos h2, if_pos h2]; rfl
      · rw [if_neg h2, if_neg h2]; rfl
    | none =>
      dsimp only
      by_cases h2 : UInt8.ofNat cp = 32
      · rw [if_pos h2, if_pos h2]; rfl
      · rw [if_neg h2, if_neg h2]
        by_cases h3 : UInt8.ofNat cp = 10
        · rw [if_pos h3, if_pos h3]; rfl
        · rw [if_neg h3, if_neg h3]
          by_cases h4 : UInt8.ofNat cp = 9
          · rw [if_pos h4, if_pos h4]; rfl
          · rw [if_neg h4, if_neg h4]; exact last
  · rw [if_neg h1, if_neg h1]
    exact last

theorem twin_inputLoop {δ : Int} : ∀ (n : Nat) (s : Str) {d d' : Daemon}, DB δ d d' →
    TwinD (fun r s => DB δ r.1 s.1 ∧ s.2 = r.2 ∧ r.1.lastTime = d.lastTime) (inputLoop n s d) (inputLoop n s d')
  | 0, _, d, d', h => ⟨h, rfl, rfl⟩
  | n + 1, s, d, d', h => by
    unfold inputLoop
    cases utf8ReadChar s with
    | error e => exact rfl
    | ok r =>
      obtain ⟨sz, cp⟩ := r
      show TwinD _ (if sz = 0 then _ else _) (if sz = 0 then _ else _)
      by_cases h0 : sz = 0
      · rw [if_pos h0, if_pos h0]
        exact ⟨h, rfl, rfl⟩
      · rw [if_neg h0, if_neg h0]
        obtain ⟨h', rfl, hh⟩ := h
        rw [inputChar_put]
        have keep : ∀ d1, inputChar d sz cp = some d1 → d1.heap = d.heap ∧ d1.lastTime = d.lastTime := by
          intro d1 h1
          have := inputChar_put d d.heap d.lastTime sz cp
          change inputChar d sz cp = _ at this
          rw [h1] at this
          have := Option.some.inj this
          rw [this]
          exact ⟨rfl, rfl⟩
        cases hi : inputChar d sz cp with
        | none => exact ⟨⟨h', rfl, hh⟩, rfl, rfl⟩
        | some d1 =>
          dsimp only [Option.map]
          obtain ⟨k1, k2⟩ := keep d1 hi
          have := twin_inputLoop n (s.drop sz) (d := d1) (d' := d1.put h' (d.lastTime + δ)) ⟨h', by rw [k2], by rw [k1]; exact hh⟩
          rw [k2] at this
          exact this

theorem DB.reply {δ : Int} {d d' : Daemon} (h : DB δ d d') (con : Nat) (r : Reply) : DB δ (d.reply con r) (d'.reply con r) :=
  h.quiet (f := fun d => d.reply con r) (fun _ _ _ => rfl)

theorem twin_client {δ : Int} (env : Env) (hsane : SaneFiles env) {d d' : Daemon} (h : DB δ d d') (con : Nat) (msg : Msg) :
    TwinD (fun r s => DB δ r s ∧ r.lastTime = d.lastTime) (handleClient env d con msg) (handleClient env d' con msg) := by
  unfold handleClient
  by_cases h1 : msg.sz ≥ 4096
  · rw [if_pos h1, if_pos h1]
    exact ⟨h.reply con _, rfl⟩
  rw [if_neg h1, if_neg h1]
  by_cases h2 : msg.timeout > 1000000
  · rw [if_pos h2, if_pos h2]
    exact ⟨h.reply con _, rfl⟩
  rw [if_neg h2, if_neg h2]
  dsimp only
  cases msg.type with
  | «macro» =>
    dsimp only
    cases macroParse (cstring (dropNewlines (msg.data.take msg.sz))) with
    | error e => exact rfl
    | ok o =>
      cases o with
      | none => exact ⟨h.reply con _, rfl⟩
      | some m => exact ⟨(h.quiet (quiet_execMacro (macroExecute m msg.timeout))).reply con _, QuietD.last (quiet_execMacro (macroExecute m msg.timeout)) d⟩
  | input =>
    dsimp only
    refine (twin_inputLoop _ _ h).bind ?_
    rintro ⟨d1, ok⟩ ⟨d1', ok'⟩ ⟨h3, e1, e2⟩
    dsimp only at h3 e1 e2 ⊢
    subst e1
    exact ⟨h3.reply con _, e2⟩
  | reload =>
    dsimp only
    refine (twin_reload env hsane h).bind ?_
    rintro d1 d1' ⟨h3, e1⟩
    exact ⟨h3.reply con _, e1⟩
  | layerListen => exact twin_addListener env h con
  | bind =>
    dsimp only
    rw [show d'.configs = d.configs by obtain ⟨_, rfl, _⟩ := h; rfl]
    refine (twin_bindAll _ _ h).bind ?_
    rintro ⟨d1, ok⟩ ⟨d1', ok'⟩ ⟨h3, e1, e2⟩
    dsimp only at h3 e1 e2 ⊢
    subst e1
    exact ⟨h3.reply con _, e2⟩
  | _ => exact ⟨h.reply con _, rfl⟩

/-! The main loop -/

/-- Between two events, the next of which is not before `T`: the clocks differ by `δ`, or no wakeup can be due. -/
def DBetween (δ T : Int) (d d' : Daemon) : Prop :=
  ∃ h' t' w', d' = { d.put h' t' with timeout := w' } ∧ HeapB δ d.heap h' ∧
    ((t' = d.lastTime + δ ∧ w' = d.timeout) ∨ (d.timeout + d.lastTime ≤ T ∧ w' + t' ≤ T + δ))

theorem DB.between {δ T : Int} {d d' : Daemon} (h : DB δ d d') : DBetween δ T d d' := by
  obtain ⟨h', e, hh⟩ := h
  exact ⟨h', _, _, e, hh, .inl ⟨rfl, rfl⟩⟩

theorem DBetween.mono {δ T T' : Int} {d d' : Daemon} (h : DBetween δ T d d') (ht : T ≤ T') : DBetween δ T' d d' := by
  obtain ⟨h', t', w', e, hh, hc⟩ := h
  refine ⟨h', t', w', e, hh, hc.imp id (fun ⟨a, b⟩ => ⟨?_, ?_⟩)⟩ <;> omega

theorem DBetween.tick {δ t : Int} {d d' : Daemon} (h : DBetween δ t d d') : DB δ (tick d t) (tick d' (t + δ)) := by
  obtain ⟨h', t', w', rfl, hh, hc⟩ := h
  have e : (if w' - (t + δ - t') < 0 then 0 else w' - (t + δ - t')) = (if d.timeout - (t - d.lastTime) < 0 then 0 else d.timeout - (t - d.lastTime)) := by
    rcases hc with ⟨e, e'⟩ | ⟨e1, e2⟩
    · rw [e, e', show t + δ - (d.lastTime + δ) = t - d.lastTime by omega]
    · split <;> split <;> omega
  refine ⟨h', ?_, hh⟩
  unfold Keyd.tick Daemon.put
  dsimp only
  rw [e]

theorem twin_event {δ : Int} (hδ : 0 ≤ δ) (env : Env) (hsane : SaneFiles env) {d d' : Daemon} {t : Int} (h : DBetween δ t d d') (ev : LoopEvent) (ht : 65536 ≤ t) :
    TwinD (fun r s => DB δ r.1 s.1 ∧ s.2 = r.2 ∧ r.1.lastTime = t) (eventHandler env d ev t) (eventHandler env d' ev (t + δ)) := by
  have h0 := h.tick
  have hl : (tick d t).lastTime = t := rfl
  unfold eventHandler
  dsimp only
  generalize tick d t = e at h0 hl
  generalize tick d' (t + δ) = e' at h0
  cases ev with
  | timeout =>
    dsimp only
    rw [h0.active]
    cases e.active with
    | none => exact ⟨h0, rfl, hl⟩
    | some a =>
      dsimp only
      refine (twin_kbdRun hδ env h0 a 0 false t ht).bind ?_
      rintro ⟨d1, w1⟩ ⟨d1', w1'⟩ ⟨h3, e1, e2⟩
      dsimp only at h3 e1 e2 ⊢
      subst e1
      exact ⟨h3.setTimeout w1', rfl, e2.trans hl⟩
  | dev i x =>
    dsimp only
    rw [h0.devices]
    cases e.devices[i]? with
    | none => exact ⟨h0, h0.timeout, hl⟩
    | some dev =>
      dsimp only
      refine (twin_device hδ env h0 dev x t ht).bind ?_
      rintro d1 d1' ⟨h3, e2⟩
      exact ⟨h3, h3.timeout, e2.trans hl⟩
  | devAdd dev =>
    dsimp only
    obtain ⟨h', rfl, hh⟩ := h0
    exact ⟨⟨h', rfl, hh⟩, rfl, hl⟩
  | devRemove => exact ⟨h0, h0.timeout, hl⟩
  | client con msg =>
    dsimp only
    refine (twin_client env hsane h0 con msg).bind ?_
    rintro d1 d1' ⟨h3, e2⟩
    exact ⟨h3, h3.timeout, e2.trans hl⟩

structure LoopB (δ T : Int) (l l' : Loop) : Prop where
  d : DBetween δ T l.d l'.d
  timeout : l'.timeout = l.timeout
  panic : l'.panic = l.panic

theorem twin_loopEvents {δ : Int} (hδ : 0 ≤ δ) (env : Env) (hsane : SaneFiles env) (now : Int) (hn : 65536 ≤ now) : ∀ (evs : List LoopEvent) {l l' : Loop}, LoopB δ now l l' →
    TwinD (fun r s => (r = none ∧ s = none) ∨ ∃ a b, r = some a ∧ s = some b ∧ LoopB δ now a b) (loopEvents env now evs l) (loopEvents env (now + δ) evs l')
  | [], l, l', h => .inr ⟨l, l', rfl, rfl, h⟩
  | ev :: evs, l, l', h => by
    unfold loopEvents
    have one : TwinD (fun r s => (r = none ∧ s = none) ∨ ∃ a b, r = some a ∧ s = some b ∧ LoopB δ now a b) (loopEvent env l ev now) (loopEvent env l' ev (now + δ)) := by
      unfold loopEvent
      rw [h.panic]
      suffices key : ∀ q : Panic × Bool, TwinD (fun r s => (r = none ∧ s = none) ∨ ∃ a b, r = some a ∧ s = some b ∧ LoopB δ now a b)
          (if q.2 then .ok none else do
            let (d, w) ← eventHandler env l.d ev now
            .ok (some { d := d, timeout := w, panic := q.1 }))
          (if q.2 then .ok none else do
            let (d, w) ← eventHandler env l'.d ev (now + δ)
            .ok (some { d := d, timeout := w, panic := q.1 })) from key _
      rintro ⟨p, dies⟩
      dsimp only
      cases dies with
      | true => exact .inl ⟨rfl, rfl⟩
      | false =>
        rw [if_neg (by simp), if_neg (by simp)]
        refine (twin_event hδ env hsane h.d ev hn).bind ?_
        rintro ⟨d1, w1⟩ ⟨d1', w1'⟩ ⟨h3, e1, e2⟩
        dsimp only at h3 e1 e2
        subst e1
        exact .inr ⟨_, _, rfl, rfl, ⟨h3.between, rfl, rfl⟩⟩
    refine one.bind ?_
    rintro r s (⟨rfl, rfl⟩ | ⟨a, b, rfl, rfl, hab⟩)
    · exact .inl ⟨rfl, rfl⟩
    · exact twin_loopEvents hδ env hsane now hn evs hab

theorem twin_iteration {δ : Int} (hδ : 0 ≤ δ) (env : Env) (hsane : SaneFiles env) (start now : Int) (hn : 65536 ≤ now) (evs : List LoopEvent) (removed : List Nat) {l l' : Loop}
    (h : LoopB δ now l l') :
    TwinD (fun r s => (r = none ∧ s = none) ∨ ∃ a b, r = some a ∧ s = some b ∧ LoopB δ now a b) (iteration env l start now evs removed)
      (iteration env l' (start + δ) (now + δ) evs removed) := by
  unfold iteration
  have one : TwinD (LoopB δ now) (afterPoll env l start now) (afterPoll env l' (start + δ) (now + δ)) := by
    unfold afterPoll
    rw [h.timeout, show now + δ - (start + δ) = now - start by omega]
    by_cases h1 : l.timeout > 0 ∧ now - start ≥ l.timeout
    · rw [if_pos h1, if_pos h1]
      refine (twin_event hδ env hsane h.d .timeout hn).bind ?_
      rintro ⟨d1, w1⟩ ⟨d1', w1'⟩ ⟨h3, e1, e2⟩
      dsimp only at h3 e1 e2
      subst e1
      exact ⟨h3.between, rfl, h.panic⟩
    · rw [if_neg h1, if_neg h1]
      exact ⟨h.d, rfl, h.panic⟩
  refine one.bind ?_
  intro l1 l1' h1
  refine (twin_loopEvents hδ env hsane now hn evs h1).bind ?_
  rintro r s (⟨rfl, rfl⟩ | ⟨a, b, rfl, rfl, hab⟩)
  · exact .inl ⟨rfl, rfl⟩
  · refine .inr ⟨_, _, rfl, rfl, ⟨?_, hab.timeout, hab.panic⟩⟩
    obtain ⟨h', t', w', e, hh, hc⟩ := hab.d
    refine ⟨h', t', w', ?_, hh, hc⟩
    unfold dropRemoved
    dsimp only
    rw [e]
    rfl

theorem LoopB.seen {δ T : Int} {l l' : Loop} (h : LoopB δ T l l') : l'.seen = l.seen := by
  obtain ⟨h', t', w', e, _⟩ := h.d
  unfold Loop.seen
  rw [h.timeout, h.panic, e]
  rfl

theorem LoopB.mono {δ T T' : Int} {l l' : Loop} (h : LoopB δ T l l') (ht : T ≤ T') : LoopB δ T' l l' :=
  ⟨h.d.mono ht, h.timeout, h.panic⟩

theorem turns_later {δ : Int} (hδ : 0 ≤ δ) : ∀ (ts : List LoopTurn) {T : Int} {l l' : Loop}, LoopB δ T l l' → (∀ t ∈ ts, 65536 ≤ t.now ∧ T ≤ t.now ∧ SaneFiles t.env) →
    (ts.map LoopTurn.now).Pairwise (· ≤ ·) → seenOf (loopTurns (ts.map (LoopTurn.later δ)) l') = seenOf (loopTurns ts l)
  | [], T, l, l', h, _, _ => by
    show (Except.ok (some l'.seen) : DRes (Option Seen)) = .ok (some l.seen)
    rw [h.seen]
  | t :: ts, T, l, l', h, ht, hp => by
    obtain ⟨h1, h2, h3⟩ := ht t List.mem_cons_self
    have it := twin_iteration hδ t.env h3 t.start t.now h1 t.evs t.removed (h.mono h2)
    have hp' := List.pairwise_cons.1 hp
    show seenOf (do match ← iteration t.env l' (t.start + δ) (t.now + δ) t.evs t.removed with
        | none => .ok none
        | some l => loopTurns (ts.map (LoopTurn.later δ)) l) = seenOf (do match ← iteration t.env l t.start t.now t.evs t.removed with
        | none => .ok none
        | some l => loopTurns ts l)
    cases hr : iteration t.env l t.start t.now t.evs t.removed with
    | error e =>
      cases hr' : iteration t.env l' (t.start + δ) (t.now + δ) t.evs t.removed with
      | error e' =>
        rw [hr, hr'] at it
        rw [show e = e' from it]
        rfl
      | ok r' => rw [hr, hr'] at it; exact it.elim
    | ok r =>
      cases hr' : iteration t.env l' (t.start + δ) (t.now + δ) t.evs t.removed with
      | error e' => rw [hr, hr'] at it; exact it.elim
      | ok r' =>
        rw [hr, hr'] at it
        rcases it with ⟨rfl, rfl⟩ | ⟨a, b, rfl, rfl, hab⟩
        · rfl
        · exact turns_later hδ ts hab (fun x hx => ⟨(ht x (List.mem_cons_of_mem _ hx)).1, hp'.1 _ (List.mem_map_of_mem hx), (ht x (List.mem_cons_of_mem _ hx)).2.2⟩) hp'.2

/-! The start -/

theorem self_loadConfigs {δ : Int} : ∀ (ts : List Str) {d d' : Daemon}, (∀ text ∈ ts, ∀ c, configParse text = .ok (some c) → SaneTimes c) → HeapB δ d.heap d.heap →
    loadConfigs ts d = .ok d' → HeapB δ d'.heap d'.heap
  | [], d, d', _, h, run => by have run := Except.ok.inj run; subst run; exact h
  | text :: ts, d, d', hsane, h, run => by
    unfold loadConfigs at run
    obtain ⟨d1, h1, run⟩ := dbind_eq_ok.1 run
    refine self_loadConfigs ts (fun x hx => hsane x (List.mem_cons_of_mem _ hx)) ?_ run
    unfold loadConfig at h1
    cases hp : configParse text with
    | error e => rw [hp] at h1; cases h1
    | ok o =>
      rw [hp] at h1
      cases o with
      | none => have h1 := Except.ok.inj h1; subst h1; exact h
      | some c =>
        have h1 := Except.ok.inj h1
        subst h1
        have hb : Bound c := .parsed text c hp
        exact h.upd d.next ⟨behind_start (C27_wellformed _ hb) (hsane text List.mem_cons_self c hp) δ, hb, hb, rfl⟩

theorem self_reload {δ : Int} {env : Env} (hsane : SaneFiles env) {d : Daemon} (run : reload env {} = .ok d) : HeapB δ d.heap d.heap := by
  unfold reload at run
  obtain ⟨d1, h1, run⟩ := dbind_eq_ok.1 run
  have run := Except.ok.inj run
  subst run
  rw [QuietD.heap quiet_clearVkbd]
  show HeapB δ d1.heap d1.heap
  exact self_loadConfigs env.confs hsane (fun _ => .inl ⟨rfl, rfl⟩) h1

/-- After the devices have been added with the times `g` and `g'`. -/
theorem addFound_twin {δ T : Int} (env : Env) (g g' : Int) (hg : g ≤ T) (hg' : g' ≤ T + δ) : ∀ (ds : List Device) {d d' : Daemon}, 0 ≤ d.timeout → 0 ≤ d'.timeout →
    DBetween δ T d d' → d.timeout + d.lastTime ≤ T → d'.timeout + d'.lastTime ≤ T + δ →
    TwinD (DBetween δ T) (addFound env g ds d) (addFound env g' ds d')
  | [], d, d', _, _, h, _, _ => h
  | dev :: ds, d, d', h0, h0', h, h1, h1' => by
    unfold addFound eventHandler
    dsimp only
    obtain ⟨h', t', w', rfl, hh, hc⟩ := h
    dsimp only [Daemon.put] at h1' h0'
    refine addFound_twin env g g' hg hg' ds ?_ ?_ ⟨h', g', _, rfl, hh, .inr ⟨?_, ?_⟩⟩ ?_ ?_ <;> (dsimp only [Keyd.tick, Daemon.put]; split <;> omega)

/-- C82 for the daemon. With any configuration files, any devices, clients and hotplugging, from its start through any number of turns of its main loop,
whatever was on the stack for the times of the first devices: what keyd sends, shows and waits for is the same `δ` milliseconds later. -/
theorem C82_daemon (env : Env) (sane : SaneFiles env) (found : List Device) (ts : List LoopTurn) (δ : Int) (hδ : 0 ≤ δ)
    (minute : ∀ t ∈ ts, 65536 ≤ t.now ∧ SaneFiles t.env) (clock : (ts.map LoopTurn.now).Pairwise (· ≤ ·))
    (g g' : Int) (hg : g ≤ 65536) (hg' : g' ≤ 65536 + δ) :
    seenOf (daemonFrom env g' found (ts.map (LoopTurn.later δ))) = seenOf (daemonFrom env g found ts) := by
  unfold daemonFrom
  cases hr : reload env {} with
  | error e => rfl
  | ok d =>
    have he := (reload_sat dinv_init).of_ok hr
    obtain ⟨_, _, _, _, _, he, hl⟩ := he
    change d.timeout = 0 at he
    change d.lastTime = 0 at hl
    have h0 : DBetween δ 65536 d d := ⟨d.heap, d.lastTime, d.timeout, rfl, self_reload sane hr, .inr ⟨by omega, by omega⟩⟩
    have h1 := addFound_twin env g g' hg hg' found (by omega) (by omega) h0 (by omega) (by omega)
    show seenOf (addFound env g' found d >>= fun d => loopTurns (ts.map (LoopTurn.later δ)) { d := d }) = seenOf (addFound env g found d >>= fun d => loopTurns ts { d := d })
    cases ha : addFound env g found d with
    | error e =>
      cases ha' : addFound env g' found d with
      | error e' => rw [ha, ha'] at h1; rw [show e = e' from h1]; rfl
      | ok r' => rw [ha, ha'] at h1; exact h1.elim
    | ok r =>
      cases ha' : addFound env g' found d with
      | error e' => rw [ha, ha'] at h1; exact h1.elim
      | ok r' =>
        rw [ha, ha'] at h1
        exact turns_later hδ ts (T := 65536) ⟨h1, rfl, rfl⟩ (fun t ht => ⟨(minute t ht).1, (minute t ht).1, (minute t ht).2⟩) clock

/-! ### Example -/

/-- A keyboard and a mouse are there at the start. `capslock` is held for longer than its tap time, so it becomes control and `a` is struck; a client binds `b`
to a macro, the mouse moves and its wheel turns, a device comes and goes, `b` is struck, and the configuration is read again. -/
def uptimeTurns : List LoopTurn :=
  let env : Env := { confs := [uptimeText], fuel := 40 }
  [⟨env, 70000, 70010, [.dev 0 { code := 58, pressed := 1 }], []⟩, ⟨env, 70010, 70210, [], []⟩, ⟨env, 70210, 70220, [.dev 0 { code := 31, pressed := 1 }], []⟩,
   ⟨env, 70220, 70221, [.dev 0 { code := 31 }, .dev 1 { type := .mouseMove, x := 3 }], []⟩, ⟨env, 70221, 70300, [.client 7 { type := .bind, data := b!"b = macro(x y)", sz := 14 }], []⟩,
   ⟨env, 70300, 70400, [.dev 1 { type := .mouseScroll, y := 1 }], []⟩, ⟨env, 70400, 70500, [.dev 0 { code := 58 }], []⟩,
   ⟨env, 70500, 70600, [.devAdd { id := b!"3:3", capabilities := CAP_KEYBOARD }], []⟩, ⟨env, 70600, 70700, [.devRemove], [2]⟩,
   ⟨env, 70700, 70800, [.dev 0 { code := 48, pressed := 1 }], []⟩, ⟨env, 70800, 70850, [.dev 0 { code := 48 }], []⟩,
   ⟨env, 70850, 70900, [.client 7 { type := .reload, data := [], sz := 0 }], []⟩]

def uptimeFound : List Device := [{ id := b!"1:1", capabilities := CAP_KEYBOARD }, { id := b!"2:2", capabilities := CAP_KEYBOARD ||| CAP_MOUSE }]

def seenOuts (r : DRes (Option Loop)) : Option (List VOut) :=
  match r with
  | .ok (some l) => some l.d.vout.reverse
  | _ => none

theorem uptimeText_sane : SaneFiles { confs := [uptimeText], fuel := 40 } := by
  intro text ht c hc
  rw [List.mem_singleton.1 ht] at hc
  have h : (match configParse uptimeText with
    | .ok (some c) => saneB c
    | _ => true) = true := by set_option maxRecDepth 100000 in decide +kernel
  rw [hc] at h
  exact sane_of_check h

theorem C82_daemon_example :
    SaneFiles { confs := [uptimeText], fuel := 40 } ∧ (∀ t ∈ uptimeTurns, 65536 ≤ t.now ∧ SaneFiles t.env) ∧ (uptimeTurns.map LoopTurn.now).Pairwise (· ≤ ·) ∧
    seenOuts (daemonFrom { confs := [uptimeText], fuel := 40 } (-5) uptimeFound uptimeTurns) = some [.key 29 true, .key 31 true, .key 31 false, .move 3 0, .scroll 0 1, .key 29 false,
      .key 45 true, .key 45 false, .key 21 true, .key 21 false] := by
  refine ⟨uptimeText_sane, ?_, by decide, ?_⟩
  · have hall : ∀ t ∈ uptimeTurns, 65536 ≤ t.now ∧ t.env = { confs := [uptimeText], fuel := 40 } := by
      unfold uptimeTurns
      simp
    intro t ht
    rw [(hall t ht).2]
    exact ⟨(hall t ht).1, uptimeText_sane⟩
  · set_option maxRecDepth 100000 in decide +kernel

end Keyd
