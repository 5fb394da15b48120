import Verif.Props.BoardDaemon
import Verif.Props.StuckModifiers
import Verif.Props.Released
import Verif.Props.Reload
import Verif.Props.Macros
import Verif.Props.LiveStops

/-
  C102: several keyboards on one virtual keyboard. Every keyboard has its own configuration and its own engine; what they send is mixed on one
  virtual keyboard, together with what clients type.
-/

set_option autoImplicit false

namespace Keyd

attribute [local irreducible] configInit

/-! ### What the claims speak of -/

/-- The key events that have come for each keyboard, after one more event of the main loop. -/
def arrivedAt (arr : Nat → List KeyEvent) (d : Daemon) (t : Int) (ev : LoopEvent) : Nat → List KeyEvent :=
  match routed d t ev with
  | some (a, evs) => upd arr a (arr a ++ evs)
  | none => arr

/-- A life of the daemon: any number of configurations and devices, events of all devices, deadlines, devices coming and going, and requests of
clients, reloads among them. `arr` collects the key events that have come for each keyboard. (A keyboard that is in memory has been there since
the last reload.) The keyboards have configurations as `cfg` says, also after `bind` requests; and only events as
`allowed` says happen. -/
inductive Life (cfg : Nat → Config → Prop) (allowed : LoopEvent → Prop) : Daemon → (Nat → List KeyEvent) → Prop
  | start (env : Env) (d : Daemon) (run : reload env {} = .ok d) (hc : ∀ a k, d.heap a = some k → cfg a k.config) : Life cfg allowed d (fun _ => [])
  | event (env : Env) (d : Daemon) (arr : Nat → List KeyEvent) (ev : LoopEvent) (t : Int) (d' : Daemon) (w : Int) (h : Life cfg allowed d arr)
      (run : eventHandler env d ev t = .ok (d', w)) (fresh : ∀ dev, ev = .devAdd dev → dev.data = none)
      (hc : ∀ a k, d'.heap a = some k → cfg a k.config)
      (ha : allowed ev) : Life cfg allowed d' (arrivedAt arr d t ev)
  | remove (d : Daemon) (arr : Nat → List KeyEvent) (removed : List Nat) (h : Life cfg allowed d arr) :
      Life cfg allowed { d with devices := (d.devices.zipIdx.filter fun p => decide (p.2 ∉ removed)).map Prod.fst } arr

/-- Anything may happen. -/
def Anything (_ : LoopEvent) : Prop := True

/-- No client types anything. -/
def NoTyping (ev : LoopEvent) : Prop := ∀ con msg, ev = .client con msg → msg.type ≠ .macro ∧ msg.type ≠ .input

/-! ### Nothing is down at the virtual keyboard but what some keyboard holds down -/

theorem Life.history {cfg : Nat → Config → Prop} {allowed : LoopEvent → Prop} {d : Daemon} {arr : Nat → List KeyEvent} (h : Life cfg allowed d arr) : DHistory d := by
  induction h with
  | start env d run _ => exact .start env d run
  | event env d arr ev t d' w _ run fresh _ _ ih => exact .event env d ev t d' w ih run fresh
  | remove d arr removed _ ih => exact .remove d removed ih

/-- Whatever is sent down the list, the last event for the key counts. -/
theorem down_outs {x : Code} (hx : scrollCode x = false) : ∀ (os : List Out) (v : List VOut),
    DownAtVkbd x ((os.filterMap hostOut).reverse ++ v) = (keyHistory x os).getLast?.getD (DownAtVkbd x v)
  | [], v => rfl
  | o :: os, v => by
    have ih := down_outs hx os
    cases ho : hostOut o with
    | none =>
      rw [List.filterMap_cons_none ho, ih]
      have : keyHistory x (o :: os) = keyHistory x os := by
        unfold keyHistory
        apply List.filterMap_cons_none
        cases o with
        | key c b =>
          dsimp only
          rw [if_neg]
          rintro rfl
          unfold hostOut at ho
          dsimp only at ho
          unfold scrollCode at hx
          simp only [decide_eq_false_iff_not, not_or] at hx
          obtain ⟨h1, h2, h3, h4⟩ := hx
          rw [if_neg h1, if_neg h2, if_neg h3, if_neg h4] at ho
          cases ho
        | _ => rfl
      rw [this]
    | some vo =>
      rw [List.filterMap_cons_some ho, List.reverse_cons, List.append_assoc, List.singleton_append, ih]
      cases o with
      | key c b =>
        by_cases hc : c = x
        · subst hc
          have hk : keyHistory c (.key c b :: os) = b :: keyHistory c os := by
            unfold keyHistory
            exact List.filterMap_cons_some (by simp)
          rw [hk, List.getLast?_cons]
          have hv : vo = .key c b := by
            unfold hostOut at ho
            dsimp only at ho
            unfold scrollCode at hx
            simp only [decide_eq_false_iff_not, not_or] at hx
            obtain ⟨h1, h2, h3, h4⟩ := hx
            rw [if_neg h1, if_neg h2, if_neg h3, if_neg h4] at ho
            exact (Option.some.inj ho).symm
          subst hv
          simp [DownAtVkbd]
        · have hk : keyHistory x (.key c b :: os) = keyHistory x os := by
            unfold keyHistory
            exact List.filterMap_cons_none (by simp [hc])
          rw [hk]
          congr 1
          unfold hostOut at ho
          dsimp only at ho
          repeat' split at ho
          all_goals first | cases ho; rfl | (cases ho; simp [DownAtVkbd, hc]) | cases ho
      | _ => cases ho

/-- If a key is down after an engine has sent something, then the engine holds it down now, or it was down before and the engine has not said anything of it. -/
theorem down_fed {x : Code} (hx : scrollCode x = false) {k k' : Kbd} {os : List Out} (ht : k'.trace = os ++ k.trace) {v : List VOut}
    (h : DownAtVkbd x (((k.since k').filterMap hostOut).reverse ++ v) = true) :
    DownAtHost x k'.outputs ∨ (DownAtVkbd x v = true ∧ (DownAtHost x k.outputs → DownAtHost x k'.outputs)) := by
  rw [down_outs hx, since_eq ht] at h
  have e : keyHistory x k'.outputs = keyHistory x k.outputs ++ keyHistory x os.reverse := by
    unfold Kbd.outputs keyHistory
    rw [ht, List.reverse_append, List.filterMap_append]
  unfold DownAtHost
  rw [e, List.getLast?_append]
  cases hl : (keyHistory x os.reverse).getLast? with
  | some b => rw [hl] at h; left; exact congrArg some h
  | none => rw [hl] at h; right; exact ⟨h, fun h => by simpa using h⟩

theorem down_macro {x : Code} (hx : scrollCode x = false) : ∀ (l : List MacroOut) (d : Daemon),
    DownAtVkbd x (execMacro d l).vout = (lastEvent x l).getD (DownAtVkbd x d.vout)
  | [], d => rfl
  | .sleep u :: l, d => down_macro hx l d
  | .key c b :: l, d => by
    have ih : DownAtVkbd x (execMacro d (.key c b :: l)).vout = _ := down_macro hx l (daemonSendKey d c b)
    have hl : lastEvent x (.key c b :: l) = match lastEvent x l with | some b' => some b' | none => if c = x then some b else none := rfl
    rw [ih, hl]
    cases lastEvent x l with
    | some b' => rfl
    | none =>
      dsimp only [Option.getD]
      unfold scrollCode at hx
      simp only [decide_eq_false_iff_not, not_or] at hx
      obtain ⟨h1, h2, h3, h4⟩ := hx
      by_cases hc : c = x
      · subst hc
        rw [if_pos rfl]
        dsimp only
        unfold daemonSendKey
        dsimp only
        rw [if_neg h1, if_neg h2, if_neg h3, if_neg h4]
        simp [Daemon.vkey, DownAtVkbd]
      · rw [if_neg hc]
        dsimp only
        unfold daemonSendKey
        dsimp only
        split
        · split <;> rfl
        · split
          · split <;> rfl
          · split
            · split <;> rfl
            · split
              · split <;> rfl
              · simp [Daemon.vkey, DownAtVkbd, hc]

/-- No new key is down. -/
def NoMoreDown (d d' : Daemon) : Prop := ∀ x, DownAtVkbd x d'.vout = true → DownAtVkbd x d.vout = true

theorem noMore_tap (d : Daemon) (c : Code) : NoMoreDown d (d.vtap c) := by
  intro x h
  unfold Daemon.vtap Daemon.vkey at h
  simp only [DownAtVkbd] at h
  split at h
  · cases h
  · exact h

theorem noMore_char {d d' : Daemon} {sz cp : Nat} (run : inputChar d sz cp = some d') : NoMoreDown d d' := by
  have fold : ∀ (l : List Code) (d : Daemon), NoMoreDown d (l.foldl Daemon.vtap d) := by
    intro l
    induction l with
    | nil => intro d x h; exact h
    | cons c l ih => intro d x h; exact noMore_tap d c x (ih (d.vtap c) x h)
  have shifted : ∀ s c : Code, NoMoreDown d ((((d.vkey s true).vkey c true).vkey c false).vkey s false) := by
    intro s c x h
    unfold Daemon.vkey at h
    simp only [DownAtVkbd] at h
    split at h
    · cases h
    · split at h
      · cases h
      · exact h
  have uni : ∀ r, (match unicodeLookupIndex cp with
      | none => none
      | some idx => some ((unicodeGetSequence idx).foldl Daemon.vtap d)) = some r → NoMoreDown d r := by
    intro r hr
    split at hr
    · cases hr
    · cases hr; exact fold _ d
  unfold inputChar at run
  dsimp only at run
  by_cases hsz : sz = 1
  · rw [if_pos hsz] at run
    cases hp : parseKeySequence [UInt8.ofNat cp] with
    | some cm =>
      obtain ⟨code, mods⟩ := cm
      rw [hp] at run
      dsimp only at run
      by_cases hm : mods &&& MOD_SHIFT ≠ 0
      · rw [if_pos hm] at run
        cases run
        exact shifted _ _
      · rw [if_neg hm] at run
        cases run
        exact noMore_tap d code
    | none =>
      rw [hp] at run
      dsimp only at run
      by_cases h1 : UInt8.ofNat cp = 32
      · rw [if_pos h1] at run
        cases run
        exact noMore_tap d _
      · rw [if_neg h1] at run
        by_cases h2 : UInt8.ofNat cp = 10
        · rw [if_pos h2] at run
          cases run
          exact noMore_tap d _
        · rw [if_neg h2] at run
          by_cases h3 : UInt8.ofNat cp = 9
          · rw [if_pos h3] at run
            cases run
            exact noMore_tap d _
          · rw [if_neg h3] at run
            exact uni d' run
  · rw [if_neg hsz] at run
    exact uni d' run

theorem noMore_input : ∀ (n : Nat) (s : Str) (d d' : Daemon) (ok : Bool), inputLoop n s d = .ok (d', ok) → NoMoreDown d d'
  | 0, _, d, d', ok, run => by cases run; intro x h; exact h
  | n+1, s, d, d', ok, run => by
    unfold inputLoop at run
    obtain ⟨⟨sz, cp⟩, _, run⟩ := dbind_eq_ok.1 run
    dsimp only at run
    split at run
    · cases run; intro x h; exact h
    · split at run
      · cases run; intro x h; exact h
      · rename_i d1 h1
        intro x h
        exact noMore_char h1 x (noMore_input n _ d1 d' ok run x h)

/-! ### Keyboards in memory -/

theorem next_kbdRun {env : Env} {d d' : Daemon} {a : Nat} {evs : List KeyEvent} {w : Int} (run : kbdRun env d a evs = .ok (d', w)) : d'.next = d.next := by
  unfold kbdRun at run
  split at run
  · cases run
  · obtain ⟨⟨k', w'⟩, _, run⟩ := dbind_eq_ok.1 run
    cases run
    exact (keeps_applyOuts ..).1.next

theorem next_tap {env : Env} {d d' : Daemon} {a : Nat} {c : Code} {t w : Int} (run : processKeypress env d a c t = .ok (d', w)) : d'.next = d.next := by
  unfold processKeypress at run
  obtain ⟨⟨d1, w1⟩, h1, run⟩ := dbind_eq_ok.1 run
  exact (next_kbdRun run).trans (next_kbdRun h1)

theorem next_repeat {env : Env} {a : Nat} {c : Code} {t : Int} : ∀ (n : Nat) {d d' : Daemon}, repeatKeypress env a c t n d = .ok d' → d'.next = d.next
  | 0, d, d', run => by cases run; rfl
  | n+1, d, d', run => by
    unfold repeatKeypress at run
    obtain ⟨⟨d1, w1⟩, h1, run⟩ := dbind_eq_ok.1 run
    have e : d1.next = d.next := next_tap h1
    exact (next_repeat n run).trans e

theorem next_event {env : Env} {d d' : Daemon} {ev : LoopEvent} {t w : Int} (run : eventHandler env d ev t = .ok (d', w))
    (nc : ∀ con msg, ev ≠ .client con msg) : d'.next = d.next := by
  unfold eventHandler at run
  dsimp only at run
  cases ev with
  | client c m => exact absurd rfl (nc c m)
  | devAdd dev => cases run; rfl
  | devRemove => cases run; rfl
  | timeout =>
    dsimp only at run
    split at run
    · cases run; rfl
    · obtain ⟨⟨d1, w1⟩, h1, run⟩ := dbind_eq_ok.1 run
      cases run
      exact (next_kbdRun h1 : d1.next = (tick d t).next)
  | dev i e =>
    dsimp only at run
    split at run
    · cases run; rfl
    · rename_i dev _
      obtain ⟨d1, h1, run⟩ := dbind_eq_ok.1 run
      cases run
      have e0 : (tick d t).next = d.next := rfl
      rw [← e0]
      generalize tick d t = d0 at h1 ⊢
      unfold deviceEvent at h1
      split at h1
      · rename_i a _
        unfold managedEvent at h1
        dsimp only at h1
        split at h1
        · obtain ⟨⟨d2, w2⟩, h2, h1⟩ := dbind_eq_ok.1 h1
          cases h1
          exact (next_kbdRun h2 : d2.next = _)
        · split at h1
          · cases h1
          · cases h1
            split
            · unfold scrollMove
              split <;> rfl
            · rfl
        · cases h1; rfl
        · obtain ⟨e1, h2, h1⟩ := dbind_eq_ok.1 h1
          obtain ⟨e2, h3, h1⟩ := dbind_eq_ok.1 h1
          obtain ⟨e3, h4, h1⟩ := dbind_eq_ok.1 h1
          have e2' := next_repeat _ h2
          dsimp only at e2'
          exact (next_repeat _ h1).trans ((next_repeat _ h4).trans ((next_repeat _ h3).trans e2'))
        · cases h1; rfl
      · split at h1
        · split at h1
          · split at h1
            · obtain ⟨⟨d2, w2⟩, h2, h1⟩ := dbind_eq_ok.1 h1
              cases h1
              exact (next_tap h2 : d2.next = _)
            · cases h1; rfl
          · cases h1; rfl
        · split at h1
          · cases h1; rfl
          · cases h1; rfl

theorem load_fresh : ∀ (ts : List Str) (d d' : Daemon), loadConfigs ts d = .ok d' → d.next ≤ d'.next ∧
    ∀ a k, d'.heap a = some k → d.heap a = some k ∨ (d.next ≤ a ∧ ∃ c, k = newKeyboard c)
  | [], d, d', run => by cases run; exact ⟨Nat.le_refl _, fun a k h => .inl h⟩
  | t :: ts, d, d', run => by
    unfold loadConfigs at run
    obtain ⟨d1, h1, run⟩ := dbind_eq_ok.1 run
    obtain ⟨n2, e2⟩ := load_fresh ts d1 d' run
    unfold loadConfig at h1
    obtain ⟨o, _, h1⟩ := dbind_eq_ok.1 h1
    cases o with
    | none => cases h1; exact ⟨n2, e2⟩
    | some c =>
      cases h1
      dsimp only at n2 e2
      refine ⟨by omega, fun a k h => ?_⟩
      rcases e2 a k h with h | ⟨h, h'⟩
      · by_cases ha : a = d.next
        · subst ha
          rw [upd_same] at h
          exact .inr ⟨Nat.le_refl _, c, (Option.some.inj h).symm⟩
        · rw [upd_other _ _ ha] at h
          exact .inl h
      · exact .inr ⟨by omega, h'⟩

theorem reload_fresh {env : Env} {d d' : Daemon} (hd : DInv d) (run : reload env d = .ok d') : d.next ≤ d'.next ∧
    ∀ a k, d'.heap a = some k → d.next ≤ a ∧ ∃ c, k = newKeyboard c := by
  unfold reload at run
  obtain ⟨d1, h1, run⟩ := dbind_eq_ok.1 run
  obtain ⟨k1, e1, e2, e3, e4, e5, e6, e7, e8⟩ := kinv_loadAll env.confs (kinv_free hd) h1
  have hf := load_fresh _ _ _ h1
  have hk := (clearVkbd_spec { d1 with devices := d1.devices.map (manageDevice env d1.configs) } k1.tracked).1
  have run := Except.ok.inj run
  subst run
  refine ⟨by rw [hk.next]; exact hf.1, fun a k h => ?_⟩
  rw [hk.heap] at h
  rcases hf.2 a k h with h | h
  · have hn : (freeConfigs d).heap a = none := by
      by_contra hne
      obtain ⟨e, he, _⟩ := (kinv_free hd).owned a hne
      cases he
    rw [hn] at h
    cases h
  · exact h

theorem bind_other (exp : Str) : ∀ (es : List Ent) (d d' : Daemon) (ok : Bool), bindAll exp es d = .ok (d', ok) → d'.next = d.next ∧ d'.vout = d.vout ∧
    ∀ a, (∀ e ∈ es, e.kbd ≠ a) → d'.heap a = d.heap a
  | [], d, d', ok, run => by cases run; exact ⟨rfl, rfl, fun _ _ => rfl⟩
  | e :: es, d, d', ok, run => by
    unfold bindAll at run
    split at run
    · cases run
    · obtain ⟨⟨k', ok1⟩, _, run⟩ := dbind_eq_ok.1 run
      obtain ⟨⟨d2, any⟩, h2, run⟩ := dbind_eq_ok.1 run
      cases run
      obtain ⟨n2, v2, o2⟩ := bind_other exp es _ _ _ h2
      refine ⟨n2, v2, fun a ha => ?_⟩
      rw [o2 a (fun e' he' => ha e' (List.mem_cons_of_mem _ he'))]
      exact upd_other _ _ (fun h => ha e (List.mem_cons_self ..) h.symm)

/-- After `bind` every keyboard is what it was, or it has evaluated the expression. -/
theorem bind_each (exp : Str) : ∀ (es : List Ent) (d d' : Daemon) (ok : Bool), (es.map Ent.kbd).Nodup → bindAll exp es d = .ok (d', ok) →
    ∀ a k', d'.heap a = some k' → d.heap a = some k' ∨ ∃ k b, d.heap a = some k ∧ kbdEval k exp = .ok (k', b)
  | [], d, d', ok, _, run => by cases run; exact fun _ _ h => .inl h
  | e :: es, d, d', ok, nd, run => by
    unfold bindAll at run
    split at run
    · cases run
    · rename_i k hk
      obtain ⟨⟨k1, ok1⟩, h1, run⟩ := dbind_eq_ok.1 run
      obtain ⟨⟨d2, any⟩, h2, run⟩ := dbind_eq_ok.1 run
      cases run
      rw [List.map_cons, List.nodup_cons] at nd
      intro a k' h
      by_cases ha : a = e.kbd
      · subst ha
        rw [(bind_other exp es _ _ _ h2).2.2 _ (fun e' he' heq => nd.1 (List.mem_map.2 ⟨e', he', heq⟩))] at h
        dsimp only at h
        rw [upd_same] at h
        cases h
        exact .inr ⟨k, ok1, hk, lift_ok.1 h1⟩
      · have := bind_each exp es _ _ _ nd.2 h2 a k' h
        dsimp only at this
        rw [upd_other _ _ ha] at this
        exact this

/-! ### The invariant -/

structure LifeInv (cfg : Nat → Config → Prop) (quiet : Prop) (d : Daemon) (arr : Nat → List KeyEvent) : Prop where
  fed : ∀ a k, d.heap a = some k → Fed (cfg a) (arr a) k
  fresh : ∀ a, d.next ≤ a → arr a = []
  owned : ∀ x, DownAtVkbd x d.vout = true → ∃ a k, d.heap a = some k ∧ DownAtHost x k.outputs
  exact : quiet → ∀ x, scrollCode x = false → ∀ a k, d.heap a = some k → (∀ b k', b ≠ a → d.heap b = some k' → keyHistory x k'.outputs = []) →
    (DownAtVkbd x d.vout = true ↔ DownAtHost x k.outputs)

theorem eval_outputs {k k' : Kbd} {exp : Str} {b : Bool} (run : kbdEval k exp = .ok (k', b)) : k'.outputs = k.outputs := by
  rw [kbdEval_frame run]
  rfl

section
variable {cfg : Nat → Config → Prop} {quiet : Prop} {d d' : Daemon} {arr : Nat → List KeyEvent}

theorem LifeInv.reloaded (fresh : ∀ a, d.next ≤ a → arr a = []) (hd : DInv d) {env : Env}
    (run : reload env d = .ok d') (hc : ∀ a k, d'.heap a = some k → cfg a k.config) : LifeInv cfg quiet d' arr := by
  have hf := reload_fresh hd run
  have hdn := ((reload_sat hd).of_ok run).2.1
  refine ⟨fun a k hk => ?_, fun a ha => fresh a (by omega), fun x hx => ?_, fun _ x _ a k hk _ => ?_⟩
  · obtain ⟨ha, c, rfl⟩ := hf.2 a k hk
    rw [fresh a ha]
    exact .init c (hc a _ hk)
  · rw [hdn x] at hx
    cases hx
  · obtain ⟨ha, c, rfl⟩ := hf.2 a k hk
    rw [hdn x]
    refine ⟨(fun h => by cases h), (fun h => by cases h)⟩

theorem LifeInv.same (h : LifeInv cfg quiet d arr) (h1 : d'.heap = d.heap) (h2 : d'.next = d.next)
    (h3 : NoMoreDown d d') (h4 : quiet → ∀ x, DownAtVkbd x d.vout = true → DownAtVkbd x d'.vout = true) : LifeInv cfg quiet d' arr where
  fed := fun a k hk => h.fed a k (by rw [← h1]; exact hk)
  fresh := fun a ha => h.fresh a (by rw [← h2]; exact ha)
  owned := fun x hx => by rw [h1]; exact h.owned x (h3 x hx)
  exact := fun q x hx a k hk ho => by
    rw [h1] at hk ho
    rw [← h.exact q x hx a k hk ho]
    exact ⟨h3 x, h4 q x⟩

theorem LifeInv.reply (h : LifeInv cfg quiet d arr) {con : Nat} {r : Reply} (run : (.ok (d.reply con r) : DRes Daemon) = .ok d') : LifeInv cfg quiet d' arr := by
  cases run
  exact h.same rfl rfl (fun x hx => hx) (fun _ x hx => hx)

theorem LifeInv.client (h : LifeInv cfg quiet d arr) (hd : DInv d) {env : Env} {con : Nat} {msg : Msg}
    (run : handleClient env d con msg = .ok d') (hc : ∀ a k, d'.heap a = some k → cfg a k.config)
    (hq : quiet → msg.type ≠ .macro ∧ msg.type ≠ .input) : LifeInv cfg quiet d' arr := by
  unfold handleClient at run
  split at run
  · exact h.reply run
  split at run
  · exact h.reply run
  dsimp only at run
  split at run
  · rename_i hty
    obtain ⟨o, ho, run⟩ := dbind_eq_ok.1 run
    cases o with
    | none => exact h.reply run
    | some m =>
      refine LifeInv.reply ?_ run
      have hk := (execMacro_keeps (macroExecute m msg.timeout) d).1
      refine h.same hk.heap hk.next (fun x hx => ?_) (fun q => absurd hty (hq q).1)
      by_cases hs : scrollCode x = false
      · have hx : DownAtVkbd x (execMacro d (macroExecute m msg.timeout)).vout = true := hx
        rw [down_macro hs] at hx
        have := C21_macro_leaves_keys_up _ m (lift_ok.1 ho) msg.timeout x
        cases hl : lastEvent x (macroExecute m msg.timeout) with
        | none => rw [hl] at hx; exact hx
        | some b =>
          rw [hl] at hx this
          exact absurd (congrArg some hx) this
      · exact absurd ((execMacro_keeps (macroExecute m msg.timeout) d).2 hd.tracked x hx).2 hs
  · rename_i hty
    obtain ⟨⟨d1, ok⟩, h1, run⟩ := dbind_eq_ok.1 run
    refine LifeInv.reply ?_ run
    have hk := ((inputLoop_sat _ _ d hd.tracked).of_ok h1).1
    exact h.same hk.heap hk.next (noMore_input _ _ _ _ _ h1) (fun q => absurd hty (hq q).2)
  · obtain ⟨d1, h1, run⟩ := dbind_eq_ok.1 run
    refine LifeInv.reply (LifeInv.reloaded h.fresh hd h1 ?_) run
    cases run
    exact hc
  · unfold addListener at run
    split at run
    · cases run; exact h.same rfl rfl (fun x hx => hx) (fun _ x hx => hx)
    · split at run
      · cases run; exact h.same rfl rfl (fun x hx => hx) (fun _ x hx => hx)
      · split at run
        · cases run
        · split at run <;> (cases run; exact h.same rfl rfl (fun x hx => hx) (fun _ x hx => hx))
  · obtain ⟨⟨d1, ok⟩, h1, run⟩ := dbind_eq_ok.1 run
    have hc : ∀ a k, d1.heap a = some k → cfg a k.config := by cases run; exact hc
    refine LifeInv.reply ?_ run
    have ho := bind_other _ _ _ _ _ h1
    have he := bind_each _ _ _ _ _ hd.nodup h1
    have hl := ((bindAll_sat _ _ d hd (fun e he => he)).of_ok h1).2.1.live
    have back : ∀ a k1, d1.heap a = some k1 → ∃ k, d.heap a = some k ∧ k1.outputs = k.outputs := by
      intro a k1 hk1
      rcases he a k1 hk1 with hk' | ⟨k0, b, hk', hev⟩
      · exact ⟨k1, hk', rfl⟩
      · exact ⟨k0, hk', eval_outputs hev⟩
    have forth : ∀ a k, d.heap a = some k → ∃ k1, d1.heap a = some k1 ∧ k1.outputs = k.outputs := by
      intro a k hk
      cases hk1 : d1.heap a with
      | none => exact absurd hk1 (hl a (by rw [hk]; simp))
      | some k1 =>
        obtain ⟨k0, h0, e⟩ := back a k1 hk1
        rw [hk] at h0
        cases h0
        exact ⟨k1, rfl, e⟩
    refine ⟨fun a k hk => ?_, fun a ha => h.fresh a (by rw [← ho.1]; exact ha), fun x hx => ?_, fun q x hx a k hk hoth => ?_⟩
    · rcases he a k hk with hk' | ⟨k0, b, hk', hev⟩
      · exact h.fed a k hk'
      · exact .bind k0 _ _ k b (h.fed a k0 hk') hev (hc a k hk)
    · rw [ho.2.1] at hx
      obtain ⟨a, k, hk, hdn⟩ := h.owned x hx
      obtain ⟨k1, hk1, e⟩ := forth a k hk
      exact ⟨a, k1, hk1, by rw [e]; exact hdn⟩
    · rw [ho.2.1]
      obtain ⟨k0, hk0, e⟩ := back a k hk
      rw [e]
      refine h.exact q x hx a k0 hk0 (fun b k' hb hk' => ?_)
      obtain ⟨k1, hk1, e1⟩ := forth b k' hk'
      rw [← e1]
      exact hoth b k1 hb hk1
  · exact h.reply run

theorem LifeInv.fedOne (h : LifeInv cfg quiet d arr) {a : Nat} {k k' : Kbd} {evs : List KeyEvent} {fuel : Nat} (hk : d.heap a = some k)
    (hf : feedEach fuel k evs = .ok k') (hn : d'.next = d.next) (hlt : a < d.next) (hh : d'.heap = upd d.heap a (some k'))
    (hv : d'.vout = ((k.since k').filterMap hostOut).reverse ++ d.vout) (ht : Tracked d') : LifeInv cfg quiet d' (upd arr a (arr a ++ evs)) := by
  obtain ⟨hfed, os, htr⟩ := feed_fed evs (h.fed a k hk) hf
  have hhist : ∀ x, keyHistory x k'.outputs = keyHistory x k.outputs ++ keyHistory x (k.since k') := by
    intro x
    rw [since_eq htr]
    unfold Kbd.outputs keyHistory
    rw [htr, List.reverse_append, List.filterMap_append]
  refine ⟨fun b kb hb => ?_, fun b hb => ?_, fun x hx => ?_, fun q x hx b kb hb hoth => ?_⟩
  · rw [hh] at hb
    by_cases hba : b = a
    · subst hba
      rw [upd_same] at hb ⊢
      cases hb
      exact hfed
    · rw [upd_other _ _ hba] at hb ⊢
      exact h.fed b kb hb
  · rw [upd_other _ _ (by omega)]
    exact h.fresh b (by omega)
  · have hs := (ht x hx).2
    rw [hv] at hx
    rcases down_fed hs htr hx with hx | ⟨hx, hk2⟩
    · exact ⟨a, k', by rw [hh, upd_same], hx⟩
    · obtain ⟨b, kb, hb, hdn⟩ := h.owned x hx
      by_cases hba : b = a
      · subst hba
        rw [hk] at hb
        cases hb
        exact ⟨b, k', by rw [hh, upd_same], hk2 hdn⟩
      · exact ⟨b, kb, by rw [hh, upd_other _ _ hba]; exact hb, hdn⟩
  · rw [hv, down_outs hx]
    by_cases hba : b = a
    · subst hba
      rw [hh, upd_same] at hb
      cases hb
      have := h.exact q x hx b k hk (fun c kc hc hkc => hoth c kc hc (by rw [hh, upd_other _ _ hc]; exact hkc))
      unfold DownAtHost at this ⊢
      rw [hhist, List.getLast?_append]
      cases (keyHistory x (k.since k')).getLast? with
      | some v => simp
      | none => simpa using this
    · rw [hh, upd_other _ _ hba] at hb
      have h0 := hoth a k' (Ne.symm hba) (by rw [hh, upd_same])
      rw [hhist, List.append_eq_nil_iff] at h0
      rw [h0.2]
      refine h.exact q x hx b kb hb (fun c kc hc hkc => ?_)
      by_cases hca : c = a
      · subst hca
        rw [hk] at hkc
        cases hkc
        exact h0.1
      · exact hoth c kc hc (by rw [hh, upd_other _ _ hca]; exact hkc)

theorem not_down_pointer (x : Code) (d : Daemon) (ev : LoopEvent) (v : List VOut) : DownAtVkbd x ((pointer d ev).reverse ++ v) = DownAtVkbd x v := by
  unfold pointer
  repeat' split
  all_goals rfl

/-- Pointer motion while a key of the keyboard emulates the wheel: only the remainder kept in the keyboard changes, and no key is sent. -/
theorem scrolled {env : Env} {ev : LoopEvent} {t w : Int} (run : eventHandler env d ev t = .ok (d', w)) (hs : scrolling d ev) :
    ∃ a k s, d.heap a = some k ∧ s.active = k.scroll.active ∧ d'.heap = upd d.heap a (some { k with scroll := s }) ∧ ∀ x, DownAtVkbd x d'.vout = DownAtVkbd x d.vout := by
  cases ev with
  | dev i e =>
    obtain ⟨hty, dev, a, k, hdev, hdat, hk, hact⟩ := hs
    unfold eventHandler at run
    dsimp only at run
    change (match d.devices[i]? with | none => _ | some dev => _) = _ at run
    rw [hdev] at run
    dsimp only at run
    obtain ⟨d1, h1, h2⟩ := dbind_eq_ok.1 run
    have e1 : d1 = d' := congrArg Prod.fst (Except.ok.inj h2)
    subst e1
    unfold deviceEvent at h1
    rw [hdat] at h1
    dsimp only at h1
    unfold managedEvent at h1
    dsimp only at h1
    rw [hty] at h1
    dsimp only at h1
    have hk' : (tick d t).heap a = some k := hk
    rw [hk'] at h1
    dsimp only at h1
    rw [if_pos hact] at h1
    have h1 := Except.ok.inj h1
    subst h1
    unfold scrollMove
    split
    · refine ⟨a, k, k.scroll, hk, rfl, ?_, fun x => rfl⟩
      show d.heap = _
      funext b
      by_cases hb : b = a
      · subst hb; rw [upd_same]; exact hk
      · rw [upd_other _ _ hb]
    · exact ⟨a, k, { k.scroll with x := (k.scroll.x + e.x).tmod k.scroll.sensitivity, y := (k.scroll.y + e.y).tmod k.scroll.sensitivity }, hk, rfl, rfl, fun x => rfl⟩
  | _ => exact hs.elim

end

theorem life_inv {cfg : Nat → Config → Prop} {allowed : LoopEvent → Prop} {d : Daemon} {arr : Nat → List KeyEvent} (h : Life cfg allowed d arr) :
    LifeInv cfg (∀ ev, allowed ev → NoTyping ev) d arr := by
  induction h with
  | start env d run hc => exact LifeInv.reloaded (fun _ _ => rfl) dinv_init run hc
  | remove d arr removed _ ih => exact ⟨ih.fed, ih.fresh, ih.owned, ih.exact⟩
  | event env d arr ev t d' w hl run fresh hc hq ih =>
    have hd := dinv_history hl.history
    have hd' := (eventHandler_sat hd fresh).of_ok run
    unfold arrivedAt
    cases hr : routed d t ev with
    | some p =>
      obtain ⟨a, evs⟩ := p
      obtain ⟨k, k', hk, hf, hh, hv⟩ := feeds_event hl.history run hr
      have nc : ∀ con msg, ev ≠ .client con msg := by rintro con msg rfl; cases hr
      refine ih.fedOne hk hf (next_event run nc) ?_ hh hv hd'.tracked
      by_contra hlt
      rw [hd.fresh a (by omega)] at hk
      cases hk
    | none =>
      dsimp only
      by_cases hcl : ∃ con msg, ev = .client con msg
      · obtain ⟨con, msg, rfl⟩ := hcl
        obtain ⟨d1, h1, h2⟩ := dbind_eq_ok.1 run
        have e : d1 = d' := congrArg Prod.fst (Except.ok.inj h2)
        subst e
        have ih' : LifeInv cfg (∀ ev, allowed ev → NoTyping ev) (tick d t) arr := ⟨ih.fed, ih.fresh, ih.owned, ih.exact⟩
        exact ih'.client (hd.tick t) h1 hc (fun q => q _ hq con msg rfl)
      · have nc : ∀ con msg, ev ≠ .client con msg := fun con msg e => hcl ⟨con, msg, e⟩
        have hn := next_event run nc
        by_cases hs : scrolling d ev
        · obtain ⟨a, k, s, hk, hsa, hh, hv⟩ := scrolled run hs
          have outs : ∀ b kb, d'.heap b = some kb → ∃ k0, d.heap b = some k0 ∧ kb.outputs = k0.outputs := by
            intro b kb hb
            rw [hh] at hb
            by_cases hba : b = a
            · subst hba
              rw [upd_same] at hb
              cases hb
              exact ⟨k, hk, rfl⟩
            · rw [upd_other _ _ hba] at hb
              exact ⟨kb, hb, rfl⟩
          have outs' : ∀ b k0, d.heap b = some k0 → ∃ kb, d'.heap b = some kb ∧ kb.outputs = k0.outputs := by
            intro b k0 hb
            rw [hh]
            by_cases hba : b = a
            · subst hba
              rw [upd_same]
              rw [hk] at hb
              cases hb
              exact ⟨_, rfl, rfl⟩
            · rw [upd_other _ _ hba]
              exact ⟨k0, hb, rfl⟩
          refine ⟨fun b kb hb => ?_, fun b hb => ih.fresh b (by rw [← hn]; exact hb), fun x hx => ?_, fun q x hx b kb hb ho => ?_⟩
          · rw [hh] at hb
            by_cases hba : b = a
            · subst hba
              rw [upd_same] at hb
              cases hb
              exact .scroll k _ s (ih.fed b k hk) hsa
            · rw [upd_other _ _ hba] at hb
              exact ih.fed b kb hb
          · rw [hv] at hx
            obtain ⟨b, k0, hb, hdn⟩ := ih.owned x hx
            obtain ⟨kb, hb', e⟩ := outs' b k0 hb
            exact ⟨b, kb, hb', by rw [e]; exact hdn⟩
          · rw [hv]
            obtain ⟨k0, hb', e⟩ := outs b kb hb
            rw [e]
            refine ih.exact q x hx b k0 hb' (fun c kc hc hkc => ?_)
            obtain ⟨kc', hkc', e'⟩ := outs' c kc hkc
            rw [← e']
            exact ho c kc' hc hkc'
        · obtain ⟨h1, h2⟩ := not_routed run hr nc hs
          refine ih.same h1 hn (fun x hx => ?_) (fun _ x hx => ?_)
          · rw [h2, not_down_pointer] at hx; exact hx
          · rw [h2, not_down_pointer]; exact hx

/-- All configurations of keyboards have been read from files and changed by `bind` requests only. -/
theorem Life.bound {cfg : Nat → Config → Prop} {allowed : LoopEvent → Prop} {d : Daemon} {arr : Nat → List KeyEvent} (h : Life cfg allowed d arr) :
    Life (fun a c => Bound c ∧ cfg a c) allowed d arr := by
  have key : ∀ {d : Daemon}, DHistory d → ∀ a k, d.heap a = some k → Bound k.config := by
    intro d hd a k hk
    have hi := dinv_history hd
    obtain ⟨e, he, rfl⟩ := hi.owned a (by rw [hk]; simp)
    obtain ⟨k', hk', hh⟩ := hi.live e he
    rw [hk] at hk'
    cases hk'
    exact bound_history (hi.bound e he) hh
  induction h with
  | start env d run hc => exact .start env d run (fun a k hk => ⟨key (.start env d run) a k hk, hc a k hk⟩)
  | event env d arr ev t d' w hl run fresh hc hq ih =>
    exact .event env d arr ev t d' w ih run fresh (fun a k hk => ⟨key (.event env d ev t d' w hl.history run fresh) a k hk, hc a k hk⟩) hq
  | remove d arr removed _ ih => exact .remove d arr removed ih

/-! ### The claims -/

/-- C102: whatever is down at the host is held down by some keyboard: the last thing that this keyboard has sent about the key was that it went down. -/
theorem C102_owner {d : Daemon} {arr : Nat → List KeyEvent} (h : Life (fun _ _ => True) Anything d arr) (x : Code)
    (hx : DownAtVkbd x d.vout = true) : ∃ a k, d.heap a = some k ∧ DownAtHost x k.outputs :=
  (life_inv h).owned x hx

/-- C102: as long as no client types, a key that only one keyboard has ever sent is down at the host exactly when this keyboard holds it down, whatever the others do. -/
theorem C102_exact {d : Daemon} {arr : Nat → List KeyEvent} (h : Life (fun _ _ => True) NoTyping d arr) (x : Code) (hw : isWheel x = false) (a : Nat) (k : Kbd)
    (hk : d.heap a = some k) (only : ∀ b k', b ≠ a → d.heap b = some k' → keyHistory x k'.outputs = []) :
    DownAtVkbd x d.vout = true ↔ DownAtHost x k.outputs :=
  (life_inv h).exact (fun _ h => h) x hw a k hk only

/-- C102: when on every keyboard every key that was pressed has been released, and no event waits for the decision of another key, then no key is down at
the host, whatever the keyboards and the clients have done before; except modifiers (below) and keys that macros of several steps have left down. -/
theorem C102_no_stuck_keys {tap alt : Nat → Nat → Prop} {x : Code} {d : Daemon} {arr : Nat → List KeyEvent}
    (h : Life (fun a c => NoChords c ∧ Orderly (tap a) (alt a) c ∧ NotInMacros x c) Anything d arr)
    (hup : ∀ a k, d.heap a = some k → k.behindKey = [] ∧ KeysUp (arr a)) (hx : Plain x) : DownAtVkbd x d.vout = false := by
  have hi := life_inv h.bound
  cases hdn : DownAtVkbd x d.vout with
  | false => rfl
  | true =>
    obtain ⟨a, k, hk, hd⟩ := hi.owned x hdn
    exact absurd hd (C03_history (hi.fed a k hk) (hup a k hk).1 (hup a k hk).2 hx)

/-- C102: and every modifier key that is down then is a modifier of a layer that some keyboard has toggled or is to use for one more key. -/
theorem C102_no_stuck_modifiers {tap alt quiet os : Nat → Nat → Prop} {tg : Nat → Prop} {mask : UInt8} {key : Code} {d : Daemon} {arr : Nat → List KeyEvent}
    (h : Life (fun a c => NoChords c ∧ Neat (tap a) (alt a) (quiet a) (os a) (tg a) c ∧ NotInMacros key c) Anything d arr)
    (hup : ∀ a k, d.heap a = some k → k.behindKey = [] ∧ KeysUp (arr a) ∧ k.activeMacro = none) (hm : (mask, key) ∈ modifierKeys)
    (hx : DownAtVkbd key d.vout = true) :
    ∃ (a : Nat) (k : Kbd) (i : Nat) (l : Layer), d.heap a = some k ∧ k.config.layers[i]? = some l ∧ l.mods &&& mask ≠ 0 ∧
      ((k.layerState i).toggled = true ∨ (k.layerState i).oneshotDepth ≠ 0) := by
  have hi := life_inv h.bound
  obtain ⟨a, k, hk, hd⟩ := hi.owned key hx
  obtain ⟨h1, h2, h3⟩ := hup a k hk
  obtain ⟨i, l, e⟩ := C81_history (hi.fed a k hk) h1 h2 h3 hm hd
  exact ⟨a, k, i, l, hk, e⟩

/-! ### Examples -/

/-- Only plain actions, layers, one-shot layers and macros of one step: nothing that the claims leave out. -/
def modestDesc : Desc → Bool
  | .overload _ _ | .overloadIdle _ _ _ | .swap _ | .swapm _ _ | .clearm _ | .toggle _ | .togglem _ _ => false
  | _ => true

def modestB (c : Config) : Bool :=
  c.descriptors.all modestDesc && c.layers.all (fun l => allCodes.all (fun x => modestDesc (l.keymap x)) && l.chords.isEmpty) && c.macros.isEmpty

theorem modest_sound {c : Config} (h : modestB c = true) : NoChords c ∧ Neat (fun _ => False) (fun _ => False) (fun _ => False) (fun _ => True) False c ∧
    ∀ x, NotInMacros x c := by
  unfold modestB at h
  simp only [Bool.and_eq_true, List.all_eq_true, List.isEmpty_iff] at h
  obtain ⟨⟨h1, h2⟩, h3⟩ := h
  have hs : ∀ d, modestDesc d = true → Sober (fun _ => False) (fun _ => False) d ∧ Tidying (fun _ => False) (fun _ => True) False d := by
    intro d hd
    cases d <;> first | exact ⟨trivial, trivial⟩ | cases hd
  have hc : ∀ l ∈ c.layers, l.chords = [] := fun l hl => (h2 l hl).2
  refine ⟨hc, ⟨⟨fun d hd => (hs d (h1 d hd)).1, fun l hl x => (hs _ ((h2 l hl).1 x (mem_allCodes x))).1, fun l hl ch hch => ?_, fun a h => h.elim, fun a h => h.elim⟩,
    fun d hd => (hs d (h1 d hd)).2, fun l hl x => (hs _ ((h2 l hl).1 x (mem_allCodes x))).2, fun l hl ch hch => ?_, fun a m h => h.elim, fun m e h => h.elim,
    fun h => h.elim⟩, fun x m hm => ?_⟩
  · rw [hc l hl] at hch; cases hch
  · rw [hc l hl] at hch; cases hch
  · rw [h3] at hm; cases hm

def LoopEvent.freshB : LoopEvent → Bool
  | .devAdd new => new.data.isNone
  | _ => true

/-- Running a list of events, with the checks that make it a life. -/
def lifeRun (env : Env) : List (LoopEvent × Int) → Daemon → (Nat → List KeyEvent) → Option (Daemon × (Nat → List KeyEvent))
  | [], d, arr => some (d, arr)
  | (ev, t) :: es, d, arr =>
    match eventHandler env d ev t with
    | .error _ => none
    | .ok (d', _) =>
      if d'.configs.all (fun e => (d'.heap e.kbd).all fun k => modestB k.config) && ev.freshB then
        lifeRun env es d' (arrivedAt arr d t ev)
      else none

def modest (_ : Nat) (c : Config) : Prop := NoChords c ∧ Neat (fun _ => False) (fun _ => False) (fun _ => False) (fun _ => True) False c ∧ ∀ x, NotInMacros x c

theorem modest_heap {d : Daemon} (hi : DInv d) (h : d.configs.all (fun e => (d.heap e.kbd).all fun k => modestB k.config) = true) (a : Nat) (k : Kbd)
    (hk : d.heap a = some k) : modest a k.config := by
  obtain ⟨e, he, rfl⟩ := hi.owned a (by rw [hk]; simp)
  have := List.all_eq_true.1 h e he
  rw [hk] at this
  exact modest_sound this

theorem lifeRun_sound {env : Env} : ∀ (es : List (LoopEvent × Int)) (d : Daemon) (arr : Nat → List KeyEvent) (r : Daemon × (Nat → List KeyEvent)),
    Life modest Anything d arr → lifeRun env es d arr = some r → Life modest Anything r.1 r.2
  | [], d, arr, r, h, run => by cases run; exact h
  | (ev, t) :: es, d, arr, r, h, run => by
    unfold lifeRun at run
    split at run
    · cases run
    · rename_i d' w he
      split at run
      · rename_i hc
        rw [Bool.and_eq_true] at hc
        have fresh : ∀ dev, ev = .devAdd dev → dev.data = none := by
          rintro dev rfl
          simpa [LoopEvent.freshB] using hc.2
        have hi := dinv_history (.event env d ev t d' w h.history he fresh)
        exact lifeRun_sound es _ _ r (.event env d arr ev t d' w h he fresh (modest_heap hi hc.1) trivial) run
      · cases run

def keyboardsLife (es : List (LoopEvent × Int)) : Option (Daemon × (Nat → List KeyEvent)) :=
  match reload routingEnv {} with
  | .error _ => none
  | .ok d => if d.configs.all (fun e => (d.heap e.kbd).all fun k => modestB k.config) then lifeRun routingEnv es d (fun _ => []) else none

theorem keyboardsLife_sound {es : List (LoopEvent × Int)} {r : Daemon × (Nat → List KeyEvent)} (h : keyboardsLife es = some r) : Life modest Anything r.1 r.2 := by
  unfold keyboardsLife at h
  split at h
  · cases h
  · rename_i d hd
    split at h
    · rename_i hc
      exact lifeRun_sound es d _ r (.start routingEnv d hd (modest_heap (dinv_history (.start routingEnv d hd)) hc)) h
    · cases h

/-- Two keyboards: on the first, the one-shot layer is used for `x`, `a` is held while the second types `x`; a client types `Hi`, the configurations are reloaded while
`b` is held, and both keyboards are used again. -/
def keyboardsDemo : List (LoopEvent × Int) := routingDevices ++
  [(routingKey 0 58 1, 10), (routingKey 0 58 0, 11), (routingKey 0 45 1, 12), (routingKey 1 45 1, 13), (routingKey 0 45 0, 14), (routingKey 1 45 0, 15),
   (routingKey 0 48 1, 16), (.client 7 { type := .input, data := b!"Hi", sz := 2 }, 17), (.client 7 { type := .reload, data := [], sz := 0 }, 18),
   (routingKey 0 48 0, 19), (routingKey 0 30 1, 20), (routingKey 1 42 1, 21), (routingKey 0 30 0, 22), (routingKey 1 42 0, 23)]

def allUpB (r : Daemon × (Nat → List KeyEvent)) : Bool :=
  r.1.configs.all fun e => (r.1.heap e.kbd).all fun k => decide (k.behindKey = []) && k.activeMacro.isNone && keysUpB (r.2 e.kbd)

theorem keyboards_check : (keyboardsLife keyboardsDemo).any (fun r => allUpB r && decide (r.1.configs.length = 2) && decide ((r.2 0).length + (r.2 1).length + (r.2 2).length + (r.2 3).length = 12) && decide (r.1.vout.length = 16)) = true := by
  set_option maxRecDepth 100000 in decide +kernel

theorem Life.imp {cfg cfg' : Nat → Config → Prop} {allowed : LoopEvent → Prop} {d : Daemon} {arr : Nat → List KeyEvent} (h : Life cfg allowed d arr)
    (hi : ∀ a c, cfg a c → cfg' a c) : Life cfg' allowed d arr := by
  induction h with
  | start env d run hc => exact .start env d run (fun a k hk => hi _ _ (hc a k hk))
  | event env d arr ev t d' w hl run fresh hc hq ih => exact .event env d arr ev t d' w ih run fresh (fun a k hk => hi _ _ (hc a k hk)) hq
  | remove d arr removed _ ih => exact .remove d arr removed ih

/-- The hypotheses of the claims are met at the end of this life. -/
theorem C102_example : ∃ d arr, Life modest Anything d arr ∧ (∀ a k, d.heap a = some k → k.behindKey = [] ∧ KeysUp (arr a) ∧ k.activeMacro = none) ∧
    d.configs.length = 2 ∧ (arr 0).length + (arr 1).length + (arr 2).length + (arr 3).length = 12 ∧ d.vout.length = 16 := by
  have h := keyboards_check
  cases hr : keyboardsLife keyboardsDemo with
  | none => rw [hr] at h; cases h
  | some r =>
    rw [hr] at h
    simp only [Option.any, Bool.and_eq_true, decide_eq_true_eq] at h
    have hl := keyboardsLife_sound hr
    refine ⟨r.1, r.2, hl, fun a k hk => ?_, h.1.1.2, h.1.2, h.2⟩
    obtain ⟨e, he, rfl⟩ := (dinv_history hl.history).owned a (by rw [hk]; simp)
    have := List.all_eq_true.1 h.1.1.1 e he
    rw [hk] at this
    simp only [Option.all, Bool.and_eq_true, decide_eq_true_eq, Option.isNone_iff_eq_none] at this
    exact ⟨this.1.1, keysUp_of_check _ this.2, this.1.2⟩

/-- So the claims apply to it: no key is down at the end, although eight have been pressed. -/
example : ∃ d arr, Life modest Anything d arr ∧ d.vout.length = 16 ∧ ∀ x, Plain x → DownAtVkbd x d.vout = false := by
  obtain ⟨d, arr, hl, hup, _, _, hv⟩ := C102_example
  refine ⟨d, arr, hl, hv, fun x hx => ?_⟩
  exact C102_no_stuck_keys (hl.imp (fun a c h => ⟨h.1, h.2.1.orderly, h.2.2 x⟩)) (fun a k hk => ⟨(hup a k hk).1, (hup a k hk).2.1⟩) hx

/-- Both keyboards hold `a`; when the second releases it, it is up at the host although it is still held on the first; so the condition of `C102_exact` is needed. -/
theorem C102_shared : (keyboardsLife (routingDevices ++ [(routingKey 0 30 1, 10), (routingKey 1 30 1, 11), (routingKey 1 30 0, 12)])).any
    (fun r => decide (r.1.vout.reverse = [.key 30 true, .key 30 true, .key 30 false]) && (r.1.configs.any fun e => (r.1.heap e.kbd).any fun k => k.keystate 30)) = true := by
  set_option maxRecDepth 100000 in decide +kernel

end Keyd
