import Verif.Spec.MainLoop
import Verif.Proofs.DaemonInv
import Verif.Props.Reload

/-
  C48: deadlines survive the main loop.
-/

set_option autoImplicit false

namespace Keyd

/-- What the clock of the main loop depends on is unchanged. -/
structure Still (d d' : Daemon) : Prop where
  active : d'.active = d.active
  timeout : d'.timeout = d.timeout
  lastTime : d'.lastTime = d.lastTime
  data : d'.devices.map (·.data) = d.devices.map (·.data)

theorem Still.refl (d : Daemon) : Still d d := ⟨rfl, rfl, rfl, rfl⟩

theorem Still.trans {a b c : Daemon} (h : Still a b) (h' : Still b c) : Still a c :=
  ⟨h'.1.trans h.1, h'.2.trans h.2, h'.3.trans h.3, h'.4.trans h.4⟩

theorem still_vtap (d : Daemon) (c : Code) : Still d (d.vtap c) := ⟨rfl, rfl, rfl, rfl⟩

theorem still_taps : ∀ (cs : List Code) (d : Daemon), Still d (cs.foldl Daemon.vtap d)
  | [], d => .refl d
  | c :: cs, d => (still_vtap d c).trans (still_taps cs (d.vtap c))

theorem still_send (d : Daemon) (c : Code) (b : Bool) : Still d (daemonSendKey d c b) := by
  unfold daemonSendKey
  dsimp only
  repeat' split
  all_goals exact ⟨rfl, rfl, rfl, rfl⟩

theorem still_input {d d' : Daemon} {sz cp : Nat} (run : inputChar d sz cp = some d') : Still d d' := by
  unfold inputChar at run
  dsimp only at run
  split at run
  · rename_i d1 h
    injection run with run
    subst run
    split at h
    · split at h
      · split at h
        · injection h with h; subst h; exact ⟨rfl, rfl, rfl, rfl⟩
        · injection h with h; subst h; exact ⟨rfl, rfl, rfl, rfl⟩
      · repeat' split at h
        all_goals first
          | (injection h with h; subst h; exact ⟨rfl, rfl, rfl, rfl⟩)
          | cases h
    · cases h
  · split at run
    · cases run
    · injection run with run
      subst run
      exact still_taps _ d

theorem still_inputs : ∀ (n : Nat) (s : Str) (d d' : Daemon) (ok : Bool), inputLoop n s d = .ok (d', ok) → Still d d'
  | 0, s, d, d', ok, run => by
    injection run with run
    have := congrArg Prod.fst run
    dsimp only at this
    subst this
    exact .refl _
  | n+1, s, d, d', ok, run => by
    unfold inputLoop at run
    obtain ⟨⟨sz, cp⟩, h1, h2⟩ := dbind_eq_ok.1 run
    dsimp only at h2
    split at h2
    · injection h2 with h2
      have := congrArg Prod.fst h2
      dsimp only at this
      subst this
      exact .refl _
    · split at h2
      · injection h2 with h2
        have := congrArg Prod.fst h2
        dsimp only at this
        subst this
        exact .refl _
      · rename_i d1 hc
        exact (still_input hc).trans (still_inputs n _ d1 d' ok h2)

theorem still_macro : ∀ (os : List MacroOut) (d : Daemon), Still d (execMacro d os)
  | [], d => .refl d
  | .key c b :: os, d => (still_send d c b).trans (still_macro os (daemonSendKey d c b))
  | .sleep _ :: os, d => still_macro os d

theorem still_bind (exp : Str) : ∀ (es : List Ent) (d d' : Daemon) (ok : Bool), bindAll exp es d = .ok (d', ok) → Still d d'
  | [], d, d', ok, run => by
    injection run with run
    have := congrArg Prod.fst run
    dsimp only at this
    subst this
    exact .refl _
  | e :: es, d, d', ok, run => by
    unfold bindAll at run
    split at run
    · cases run
    · obtain ⟨⟨k', ok1⟩, h1, h2⟩ := dbind_eq_ok.1 run
      dsimp only at h2
      obtain ⟨⟨d1, any⟩, h3, h4⟩ := dbind_eq_ok.1 h2
      dsimp only at h4
      injection h4 with h4
      have := congrArg Prod.fst h4
      dsimp only at this
      subst this
      have h5 := still_bind exp es _ _ _ h3
      exact ⟨h5.1, h5.2, h5.3, h5.4⟩

theorem still_reply {d d' : Daemon} (h : Still d d') (con : Nat) (r : Reply) : Still d (d'.reply con r) := ⟨h.1, h.2, h.3, h.4⟩

theorem still_client {env : Env} {d d' : Daemon} {con : Nat} {msg : Msg} (hm : msg.type ≠ .reload)
    (run : handleClient env d con msg = .ok d') : Still d d' := by
  unfold handleClient at run
  split at run
  · injection run with run; subst run; exact still_reply (.refl d) _ _
  split at run
  · injection run with run; subst run; exact still_reply (.refl d) _ _
  dsimp only at run
  split at run
  · obtain ⟨o, h1, h2⟩ := dbind_eq_ok.1 run
    cases o with
    | none => injection h2 with h2; subst h2; exact still_reply (.refl d) _ _
    | some m => injection h2 with h2; subst h2; exact still_reply (still_macro _ d) _ _
  · obtain ⟨⟨d1, ok⟩, h1, h2⟩ := dbind_eq_ok.1 run
    dsimp only at h2
    injection h2 with h2; subst h2
    exact still_reply (still_inputs _ _ _ _ _ h1) _ _
  · rename_i hr
    exact absurd hr hm
  · unfold addListener at run
    split at run
    · injection run with run; subst run; exact ⟨rfl, rfl, rfl, rfl⟩
    · split at run
      · injection run with run; subst run; exact ⟨rfl, rfl, rfl, rfl⟩
      · split at run
        · cases run
        · split at run
          · injection run with run; subst run; exact ⟨rfl, rfl, rfl, rfl⟩
          · injection run with run; subst run; exact .refl _
  · obtain ⟨⟨d1, ok⟩, h1, h2⟩ := dbind_eq_ok.1 run
    dsimp only at h2
    injection h2 with h2; subst h2
    exact still_reply (still_bind _ _ _ _ _ h1) _ _
  · injection run with run; subst run; exact still_reply (.refl d) _ _

/-- The devices of the table `devs` are still there, with the same keyboards. -/
def SameData (devs : List Device) (d : Daemon) : Prop :=
  ∀ (i : Nat) (dev : Device), devs[i]? = some dev → ∃ dev', d.devices[i]? = some dev' ∧ dev'.data = dev.data

theorem SameData.still {devs : List Device} {d d' : Daemon} (h : SameData devs d) (hs : d'.devices.map (·.data) = d.devices.map (·.data)) :
    SameData devs d' := by
  intro i dev hi
  obtain ⟨dev', h1, h2⟩ := h i dev hi
  have h3 : (d'.devices.map (·.data))[i]? = some dev'.data := by
    rw [hs, List.getElem?_map, h1]; rfl
  rw [List.getElem?_map] at h3
  cases h4 : d'.devices[i]? with
  | none => rw [h4] at h3; cases h3
  | some dv =>
    rw [h4] at h3
    injection h3 with h3
    exact ⟨dv, rfl, h3.trans h2⟩

/-- An event that gives no keyboard anything to do moves the clock only. -/
theorem still_event {env : Env} {d d' : Daemon} {a : Nat} {devs : List Device} {ev : LoopEvent} {now w : Int} (ha : d.active = some a)
    (hd : SameData devs d) (hl : Leaves a devs ev) (run : eventHandler env d ev now = .ok (d', w)) :
    d'.active = some a ∧ w = d'.timeout ∧ d'.timeout = (tick d now).timeout ∧ d'.lastTime = now ∧ SameData devs d' := by
  unfold eventHandler at run
  dsimp only at run
  have hd0 : SameData devs (tick d now) := hd
  cases ev with
  | timeout => exact hl.elim
  | dev i e =>
    obtain ⟨h1, h2, dev, h3, h4⟩ := hl
    obtain ⟨dev', h5, h6⟩ := hd i dev h3
    dsimp only at run
    rw [show (tick d now).devices[i]? = some dev' from h5] at run
    dsimp only at run
    obtain ⟨d1, h7, h8⟩ := dbind_eq_ok.1 run
    injection h8 with h8
    have e1 := congrArg Prod.fst h8
    have e2 := congrArg Prod.snd h8
    dsimp only at e1 e2
    subst e1
    have hkey : Still (tick d now) d1 := by
      unfold deviceEvent at h7
      rw [h6] at h7
      rcases h4 with h4 | h4
      · rw [h4] at h7
        dsimp only at h7
        split at h7
        · split at h7
          · rw [if_neg (by rintro (h | h); exact h1 h; exact h2 h)] at h7
            injection h7 with h7; subst h7; exact .refl _
          · injection h7 with h7; subst h7; exact .refl _
        · split at h7
          · injection h7 with h7
            subst h7
            refine ⟨rfl, rfl, rfl, ?_⟩
            dsimp only
            rw [List.map_map]
            apply List.map_congr_left
            intro dv _
            dsimp only [Function.comp]
            split <;> rfl
          · injection h7 with h7; subst h7; exact .refl _
      · rw [h4] at h7
        dsimp only at h7
        unfold managedEvent at h7
        dsimp only at h7
        have ht : Still (tick d now) { tick d now with active := some a } := ⟨ha.symm, rfl, rfl, rfl⟩
        split at h7
        · rename_i he; exact absurd he h1
        · split at h7
          · cases h7
          · injection h7 with h7
            subst h7
            split
            · unfold scrollMove
              split
              · exact ht
              · exact ht.trans ⟨rfl, rfl, rfl, rfl⟩
            · exact ht.trans ⟨rfl, rfl, rfl, rfl⟩
        · injection h7 with h7; subst h7; exact ht.trans ⟨rfl, rfl, rfl, rfl⟩
        · rename_i he; exact absurd he h2
        · injection h7 with h7; subst h7; exact ht
    exact ⟨hkey.active.trans ha, e2.symm, hkey.timeout, hkey.lastTime, hd0.still hkey.data⟩
  | devAdd dev =>
    injection run with run
    have e1 := congrArg Prod.fst run
    have e2 := congrArg Prod.snd run
    dsimp only at e1 e2
    subst e1
    refine ⟨ha, e2.symm, rfl, rfl, ?_⟩
    intro i dv hi
    obtain ⟨dv', h1, h2⟩ := hd i dv hi
    refine ⟨dv', ?_, h2⟩
    have : i < d.devices.length := (List.getElem?_eq_some_iff.1 h1).1
    show (d.devices ++ _)[i]? = some dv'
    rw [List.getElem?_append_left this]
    exact h1
  | devRemove =>
    injection run with run
    have e1 := congrArg Prod.fst run
    have e2 := congrArg Prod.snd run
    dsimp only at e1 e2
    subst e1
    exact ⟨ha, e2.symm, rfl, rfl, hd⟩
  | client con msg =>
    obtain ⟨d1, h7, h8⟩ := dbind_eq_ok.1 run
    injection h8 with h8
    have e1 := congrArg Prod.fst h8
    have e2 := congrArg Prod.snd h8
    dsimp only at e1 e2
    subst e1
    have hkey := still_client hl h7
    exact ⟨hkey.active.trans ha, e2.symm, hkey.timeout, hkey.lastTime, hd0.still hkey.data⟩

theorem tick_before {d : Daemon} {D now : Int} (hd : d.lastTime + d.timeout = D) (h : now < D) :
    (tick d now).timeout = D - now := by
  unfold tick
  dsimp only
  rw [if_neg (by omega)]
  omega

theorem loopEvent_some {env : Env} {l l1 : Loop} {ev : LoopEvent} {now : Int} (h : loopEvent env l ev now = .ok (some l1)) :
    ∃ p, ∃ (dw : Daemon × Int), eventHandler env l.d ev now = .ok dw ∧ l1 = { d := dw.1, timeout := dw.2, panic := p } := by
  have key : ∀ pd : Panic × Bool, (if pd.2 = true then (.ok none : DRes (Option Loop)) else do
      let (d, w) ← eventHandler env l.d ev now
      .ok (some { d := d, timeout := w, panic := pd.1 })) = .ok (some l1) →
      ∃ p, ∃ (dw : Daemon × Int), eventHandler env l.d ev now = .ok dw ∧ l1 = { d := dw.1, timeout := dw.2, panic := p } := by
    intro pd h
    split at h
    · injection h with h; cases h
    · obtain ⟨dw, h8, h9⟩ := dbind_eq_ok.1 h
      injection h9 with h9
      injection h9 with h9
      exact ⟨_, dw, h8, h9.symm⟩
  cases ev with
  | timeout => exact key (l.panic, false) h
  | dev i e => exact key (panicCheck l.panic e.code e.pressed) h
  | devAdd d => exact key (l.panic, false) h
  | devRemove => exact key (l.panic, false) h
  | client c m => exact key (l.panic, false) h

/-- The events of one turn, all handled before the deadline. -/
theorem owed_events {env : Env} {a : Nat} {D now : Int} {devs : List Device} (hn : now < D) : ∀ (evs : List LoopEvent) (l l' : Loop),
    (∀ ev ∈ evs, Leaves a devs ev) → l.d.active = some a → l.d.lastTime + l.d.timeout = D → 0 < l.timeout → D ≤ now + l.timeout →
    SameData devs l.d → loopEvents env now evs l = .ok (some l') → Owed D a l' now ∧ (D = now + l.timeout → D = now + l'.timeout)
  | [], l, l', _, h1, h2, h3, h4, _, run => by
    injection run with run
    injection run with run
    subst run
    exact ⟨⟨h1, h2, h3, h4⟩, id⟩
  | ev :: evs, l, l', hl, h1, h2, h3, h4, h5, run => by
    unfold loopEvents at run
    obtain ⟨o, h6, h7⟩ := dbind_eq_ok.1 run
    cases o with
    | none => injection h7 with h7; cases h7
    | some l1 =>
      dsimp only at h7
      obtain ⟨p, ⟨d1, w⟩, h8, e⟩ := loopEvent_some h6
      subst e
      obtain ⟨g1, g2, g3, g4, g5⟩ := still_event h1 h5 (hl ev (List.mem_cons_self ..)) h8
      rw [tick_before h2 hn] at g3
      have ht : D = now + w := by omega
      suffices hs : Owed D a l' now ∧ (D = now + w → D = now + l'.timeout) from ⟨hs.1, fun _ => hs.2 ht⟩
      refine owed_events hn evs _ l' (fun e he => hl e (List.mem_cons_of_mem _ he)) g1 ?_ ?_ ?_ g5 h7
      · show d1.lastTime + d1.timeout = D
        omega
      · show 0 < w
        omega
      · show D ≤ now + w
        omega

theorem owed_turn {env : Env} {a : Nat} {D t : Int} {l l' : Loop} {x : Turn} (h : Owed D a l t) (h1 : t ≤ x.start)
    (early : x.now - x.start < l.timeout) (leaves : ∀ ev ∈ x.evs, Leaves a l.d.devices ev)
    (intime : x.evs = [] ∨ x.now < D) (run : iteration env l x.start x.now x.evs x.removed = .ok (some l')) :
    Owed D a l' x.now ∧ (D = x.start + l.timeout → D = x.now + l'.timeout) := by
  unfold iteration at run
  obtain ⟨l1, h2, h3⟩ := dbind_eq_ok.1 run
  obtain ⟨o, h4, h5⟩ := dbind_eq_ok.1 h3
  unfold afterPoll at h2
  rw [if_neg (by omega)] at h2
  injection h2 with h2
  injection h5 with h5
  cases o with
  | none => cases h5
  | some l2 =>
    injection h5 with h5
    have hl := h.late
    have key : Owed D a l2 x.now ∧ (D = x.start + l.timeout → D = x.now + l2.timeout) := by
      rcases intime with he | hn
      · rw [he] at h4
        injection h4 with h4
        injection h4 with h4
        subst h4
        subst h2
        refine ⟨⟨h.active, h.deadline, ?_, ?_⟩, ?_⟩
        · show 0 < l.timeout - (x.now - x.start)
          omega
        · show D ≤ x.now + (l.timeout - (x.now - x.start))
          omega
        · show _ → D = x.now + (l.timeout - (x.now - x.start))
          omega
      · subst h2
        suffices hs : Owed D a l2 x.now ∧ (D = x.now + (l.timeout - (x.now - x.start)) → D = x.now + l2.timeout) from
          ⟨hs.1, fun he => hs.2 (by omega)⟩
        refine owed_events hn x.evs { l with timeout := l.timeout - (x.now - x.start) } l2 leaves h.active h.deadline ?_ ?_ ?_ h4
        · show 0 < l.timeout - (x.now - x.start)
          omega
        · show D ≤ x.now + (l.timeout - (x.now - x.start))
          omega
        · exact fun i dev hi => ⟨dev, hi, rfl⟩
    subst h5
    exact ⟨⟨key.1.active, key.1.deadline, key.1.finite, key.1.late⟩, key.2⟩

/-- C48. A turn of the main loop in which the poll returns early keeps the promise. -/
theorem C48_turn_partial {env : Env} {a : Nat} {D t : Int} {l l' : Loop} {x : Turn} (h : Owed D a l t) (h1 : t ≤ x.start)
    (early : x.now - x.start < l.timeout) (leaves : ∀ ev ∈ x.evs, Leaves a l.d.devices ev)
    (intime : x.evs = [] ∨ x.now < D) (run : iteration env l x.start x.now x.evs x.removed = .ok (some l')) :
    Owed D a l' x.now := (owed_turn h h1 early leaves intime run).1

/-- C48. When the poll has waited as long as it may, it is past the deadline, and the first thing that happens is
the wakeup of the keyboard it was promised to. -/
theorem C48_wakes {env : Env} {a : Nat} {D t start now : Int} {l : Loop} (h : Owed D a l t) (h1 : t ≤ start)
    (waited : l.timeout ≤ now - start) : D ≤ now ∧
    afterPoll env l start now = (do
      let (d, w) ← kbdRun env (tick l.d now) a [⟨0, false, now⟩]
      .ok { l with d := { d with timeout := w }, timeout := w }) := by
  have h2 := h.late
  have h3 := h.finite
  refine ⟨by omega, ?_⟩
  unfold afterPoll
  rw [if_pos (by omega)]
  unfold eventHandler
  dsimp only
  rw [show (tick l.d now).active = some a from h.active]
  dsimp only
  cases kbdRun env (tick l.d now) a [⟨0, false, now⟩] with
  | ok r => rfl
  | error e => rfl

/-- C48. A key event of a keyboard that asks to be woken after `w` milliseconds. -/
theorem C48_asked {env : Env} {l l' : Loop} {i : Nat} {dev : Device} {a : Nat} {k : Kbd} {e : DevEvent} {now : Int}
    (hi : l.d.devices[i]? = some dev) (ha : dev.data = some a) (hk : l.d.heap a = some k) (he : e.type = .key)
    (run : loopEvent env l (.dev i e) now = .ok (some l')) :
    ∃ k' w, kbdProcessEvents env.fuel k [⟨e.code, decide (e.pressed ≠ 0), now⟩] = .ok (k', w) ∧ l'.timeout = w ∧
      (0 < w → Owed (now + w) a l' now) := by
  unfold loopEvent at run
  dsimp only at run
  split at run
  · injection run with run; cases run
  · obtain ⟨⟨d1, w1⟩, h1, h2⟩ := dbind_eq_ok.1 run
    injection h2 with h2
    injection h2 with h2
    subst h2
    unfold eventHandler at h1
    dsimp only at h1
    rw [show (tick l.d now).devices[i]? = some dev from hi] at h1
    dsimp only at h1
    obtain ⟨d2, h3, h4⟩ := dbind_eq_ok.1 h1
    injection h4 with h4
    have e1 := congrArg Prod.fst h4
    have e2 := congrArg Prod.snd h4
    dsimp only at e1 e2
    subst e1
    unfold deviceEvent at h3
    rw [ha] at h3
    dsimp only at h3
    unfold managedEvent at h3
    rw [he] at h3
    dsimp only at h3
    obtain ⟨⟨d3, w3⟩, h5, h6⟩ := dbind_eq_ok.1 h3
    dsimp only at h6
    injection h6 with h6
    subst h6
    unfold kbdRun at h5
    rw [show (tick l.d now).heap a = some k from hk] at h5
    dsimp only at h5
    obtain ⟨⟨k', w'⟩, h7, h8⟩ := dbind_eq_ok.1 h5
    have h7 := lift_ok.1 h7
    dsimp only at h8
    injection h8 with h8
    have e3 := congrArg Prod.fst h8
    have e4 : w' = w3 := congrArg Prod.snd h8
    dsimp only at e3
    subst e4
    dsimp only at e2
    refine ⟨k', w', h7, e2.symm, ?_⟩
    intro hw
    have hkeep := keeps_applyOuts env a k.config (k'.trace.take (k'.trace.length - k.trace.length)).reverse
      { tick l.d now with active := some a, heap := upd (tick l.d now).heap a (some k') } (fun i => (k.layerState i).active)
    rw [e3] at hkeep
    refine ⟨hkeep.1.active, ?_, ?_, ?_⟩
    · show d3.lastTime + w' = now + w'
      rw [hkeep.1.time.1]
      rfl
    · show 0 < w1
      omega
    · show now + w' ≤ now + w1
      omega

/-- C48. However many turns the main loop makes before the poll has waited as long as it may, the keyboard is
still owed its wakeup: the next poll has a finite limit, and when it is reached the wakeup is delivered to that
keyboard, not before the deadline. -/
theorem C48_delivered_partial {env : Env} {a : Nat} {D t : Int} {l : Loop} {xs : List Turn} {l' : Loop} {t' : Int} (h : Owed D a l t)
    (hx : Idles env a D l t xs l' t') : 0 < l'.timeout ∧ ∀ start now, t' ≤ start → l'.timeout ≤ now - start → D ≤ now ∧
      afterPoll env l' start now = (do
        let (d, w) ← kbdRun env (tick l'.d now) a [⟨0, false, now⟩]
        .ok { l' with d := { d with timeout := w }, timeout := w }) := by
  have key : Owed D a l' t' := by
    induction hx with
    | nil => exact h
    | turn l t x xs l1 l2 t2 h1 h2 early leaves intime run rest ih =>
      exact ih (C48_turn_partial h h1 early leaves intime run)
  exact ⟨key.finite, fun start now h1 h2 => C48_wakes key h1 h2⟩

/-- C48. A main loop that returns to `poll` without delay keeps its promise whatever happens (as long as no
keyboard has anything to do), and the wakeup comes on time: the poll is limited to the time left. -/
theorem C48_prompt_partial {env : Env} {a : Nat} {D t : Int} {l : Loop} {xs : List Turn} {l' : Loop} {t' : Int} (h : Owed D a l t)
    (exact' : D = t + l.timeout) (hx : Prompt env a l t xs l' t') : Owed D a l' t' ∧ D = t' + l'.timeout := by
  induction hx with
  | nil => exact ⟨h, exact'⟩
  | turn l t x xs l1 l2 t2 h1 h2 early leaves run rest ih =>
    have hn : x.now < D := by omega
    have h3 := owed_turn h (by omega) early leaves (.inr hn) run
    exact ih h3.1 (h3.2 (by omega))

/-! ### Examples and the missing part -/

/-- A mouse motion of device `i`. -/
def demoMotion (i : Nat) : LoopEvent := .dev i { type := .mouseMove, code := 0, pressed := 0, x := 1, y := 1 }

/-- A second device, a mouse; it is handled by no keyboard. -/
def demoMouse : LoopEvent := .devAdd { id := b!"0003:0004", capabilities := CAP_MOUSE }

/-- Turns of the main loop with the times at which `poll` is entered and left. -/
def turns (env : Env) : List Turn → Loop → DRes (Option Loop)
  | [], l => .ok (some l)
  | x :: xs, l => do
    match ← iteration env l x.start x.now x.evs x.removed with
    | none => .ok none
    | some l => turns env xs l

/-- The state after a start of the daemon and these turns. -/
def turnsCheck (confs : List Str) (xs : List Turn) (p : Loop → Bool) : Bool :=
  match (do let d ← reload { confs := confs } {}; turns { confs := confs } xs { d := d } : DRes (Option Loop)) with
  | .ok (some l) => p l
  | _ => false

def deadlineConf : Str := b!"[ids]\n0001:0002\n[main]\na = overloadt(control, a, 200)\n"
def otherConf : Str := b!"[ids]\n0003:0004\n[main]\na = b\n"

/-- The key is pressed at 10 and its keyboard is owed a wakeup at 210: so it is after a mouse motion at 50 and
after a poll that returns at 120 for no reason ... -/
theorem C48_example_owed : turnsCheck [deadlineConf] [⟨0, 1, [demoKbd, demoMouse], []⟩, ⟨1, 10, [demoKey 30 1], []⟩,
    ⟨10, 50, [demoMotion 1], []⟩, ⟨50, 120, [], []⟩]
    (fun l => l.d.active = some 0 ∧ l.d.lastTime + l.d.timeout = 210 ∧ l.timeout = 90 ∧ l.d.vout = []) = true := by
  set_option maxRecDepth 100000 in decide +kernel

/-- ... and the wakeup resolves the key at 210. -/
theorem C48_example_woken : turnsCheck [deadlineConf] [⟨0, 1, [demoKbd, demoMouse], []⟩, ⟨1, 10, [demoKey 30 1], []⟩,
    ⟨10, 50, [demoMotion 1], []⟩, ⟨50, 120, [], []⟩, ⟨120, 210, [], []⟩]
    (fun l => l.timeout ≤ 0 ∧ l.d.vout = [.key 29 true]) = true := by
  set_option maxRecDepth 100000 in decide +kernel

/-- C48 fails with delays: the poll after the key press is entered 2 ms late. A mouse motion between the
deadline and the end of that poll cancels the wakeup: the key stays undecided and the next poll waits
forever. -/
theorem C48_fails_delay : turnsCheck [deadlineConf] [⟨0, 1, [demoKbd, demoMouse], []⟩, ⟨1, 10, [demoKey 30 1], []⟩,
    ⟨12, 211, [demoMotion 1], []⟩]
    (fun l => l.timeout = 0 ∧ l.d.vout = [] ∧ ((l.d.heap 0).getD (newKeyboard {})).pending.code = 30) = true := by
  set_option maxRecDepth 100000 in decide +kernel

/-- C48 fails with several keyboards: when a device of another keyboard moves the pointer, the wakeup goes to
that keyboard, and the key of the first stays undecided. -/
theorem C48_fails_other : turnsCheck [deadlineConf, otherConf] [⟨0, 1, [demoKbd, demoMouse], []⟩, ⟨1, 10, [demoKey 30 1], []⟩,
    ⟨10, 50, [demoMotion 1], []⟩, ⟨50, 210, [], []⟩]
    (fun l => l.d.active = some 1 ∧ l.timeout ≤ 0 ∧ ((l.d.heap 0).getD (newKeyboard {})).pending.code = 30) = true := by
  set_option maxRecDepth 100000 in decide +kernel

end Keyd
