import Verif.Props.Keyboards

/-
  C103: every keyboard plays its own machine; the virtual keyboard gets all they play, in the order in which it happens.
-/

set_option autoImplicit false

namespace Keyd

attribute [local irreducible] configInit

/-- No client sends a request. -/
def NoClient (ev : LoopEvent) : Prop := ∀ con msg, ev ≠ .client con msg

/-- `Together d0 d arr`: a daemon in state `d0` is used without clients: events of all devices and deadlines; devices come and go. `arr` are the key events that came for
each keyboard. -/
inductive Together (d0 : Daemon) : Daemon → (Nat → List KeyEvent) → Prop
  | start : Together d0 d0 (fun _ => [])
  | event (env : Env) {d : Daemon} {arr : Nat → List KeyEvent} (ev : LoopEvent) (t : Int) {d' : Daemon} {w : Int} (h : Together d0 d arr)
      (run : eventHandler env d ev t = .ok (d', w)) (fresh : ∀ dev, ev = .devAdd dev → dev.data = none) (nc : NoClient ev) : Together d0 d' (arrivedAt arr d t ev)
  | remove {d : Daemon} {arr : Nat → List KeyEvent} (h : Together d0 d arr) (removed : List Nat) :
      Together d0 { d with devices := (d.devices.zipIdx.filter fun p => decide (p.2 ∉ removed)).map Prod.fst } arr

/-- What keyboard `a` has contributed to what the keyboards have done together. -/
def partOf (a : Nat) (all : List (Nat × Out)) : List Out := (all.filter fun p => decide (p.1 = a)).map Prod.snd

theorem partOf_same (a : Nat) (all : List (Nat × Out)) (os : List Out) : partOf a (all ++ os.map fun o => (a, o)) = partOf a all ++ os := by
  unfold partOf
  rw [List.filter_append, List.map_append]
  congr 1
  rw [List.filter_eq_self.2 (by simp), List.map_map]
  exact List.map_id' os

theorem partOf_other {a b : Nat} (h : b ≠ a) (all : List (Nat × Out)) (os : List Out) : partOf b (all ++ os.map fun o => (a, o)) = partOf b all := by
  unfold partOf
  rw [List.filter_append, List.map_append]
  have : (os.map fun o => (a, o)).filter (fun p => decide (p.1 = b)) = [] := by
    rw [List.filter_eq_nil_iff]
    intro p hp
    obtain ⟨o, _, rfl⟩ := List.mem_map.1 hp
    simpa using Ne.symm h
  rw [this]
  simp

/-- Everything the keyboards have done, in one order, of which the virtual devices have been told. -/
structure Mixed (d : Daemon) (all : List (Nat × Out)) : Prop where
  told : d.vout.reverse.filter (fun v => !v.motion) = all.filterMap fun p => hostOut p.2
  parts : ∀ a k, d.heap a = some k → partOf a all = k.outputs

/-- The events that came for a keyboard are only ever added to. -/
theorem arrived_prefix (arr : Nat → List KeyEvent) (d : Daemon) (t : Int) (ev : LoopEvent) (a : Nat) : arr a <+: arrivedAt arr d t ev a := by
  unfold arrivedAt
  cases routed d t ev with
  | some p =>
    obtain ⟨b, evs⟩ := p
    dsimp only
    by_cases h : a = b
    · subst h
      rw [upd_same]
      exact List.prefix_append _ _
    · rw [upd_other _ _ h]
  | none => exact List.prefix_rfl

theorem mixed_life {conf : Nat → Config} {d : Daemon} {arr : Nat → List KeyEvent} (h : Life (fun a c => c = conf a ∧ Simple c) NoClient d arr)
    (hev : ∀ a, ∀ e ∈ arr a, e.code = 0 ∨ Physical e.code) : ∃ all, Mixed d all := by
  induction h with
  | start env d run hc =>
    have hf := reload_fresh dinv_init run
    refine ⟨[], ?_, fun a k hk => ?_⟩
    · unfold reload at run
      obtain ⟨d1, h1, run⟩ := dbind_eq_ok.1 run
      obtain ⟨k1, e1, e2, e3, e4, e5, e6, e7, e8⟩ := kinv_loadAll env.confs (kinv_free dinv_init) h1
      have run := Except.ok.inj run
      rw [clearVkbd_up (by exact e4)] at run
      subst run
      show d1.vout.reverse.filter _ = _
      rw [e3]
      rfl
    · obtain ⟨_, c, rfl⟩ := hf.2 a k hk
      rfl
  | remove d arr removed _ ih =>
    obtain ⟨all, h1, h2⟩ := ih hev
    exact ⟨all, h1, h2⟩
  | event env d arr ev t d' w hl run fresh hc nc ih =>
    obtain ⟨all, h1, h2⟩ := ih (fun a e he => hev a e ((arrived_prefix arr d t ev a).mem he))
    have hi := life_inv hl
    cases hr : routed d t ev with
    | some p =>
      obtain ⟨a, evs⟩ := p
      obtain ⟨k, k', hk, hf, hh, hv⟩ := feeds_event hl.history run hr
      obtain ⟨_, os, htr⟩ := feed_fed evs (hi.fed a k hk) hf
      refine ⟨all ++ (k.since k').map fun o => (a, o), ?_, fun b kb hb => ?_⟩
      · rw [hv, List.reverse_append, List.reverse_reverse, List.filter_append, h1, motion_host, List.filterMap_append, List.filterMap_map]
        rfl
      · rw [hh] at hb
        by_cases hba : b = a
        · subst hba
          rw [upd_same] at hb
          cases hb
          rw [partOf_same, h2 b k hk, since_eq htr]
          unfold Kbd.outputs
          rw [htr, List.reverse_append]
        · rw [upd_other _ _ hba] at hb
          rw [partOf_other hba]
          exact h2 b kb hb
    | none =>
      have hs : ¬ scrolling d ev := by
        intro hs
        cases ev with
        | dev i e =>
          obtain ⟨_, dev, b, k1, _, _, hk1, hact⟩ := hs
          have hfed := hi.fed b k1 hk1
          obtain ⟨_, _, _, hcf⟩ := hfed.reach.historyOf
          have hsim : Simple (conf b) := hcf.1 ▸ hcf.2
          rw [simple_noScrolling hsim _ _ (hfed.weaken (fun c hc => hc.1)) (fun e he => hev b e ((arrived_prefix arr d t _ b).mem he))] at hact
          cases hact
        | _ => exact hs
      obtain ⟨e1, e2⟩ := not_routed run hr nc hs
      refine ⟨all, ?_, fun a k hk => h2 a k (by rw [← e1]; exact hk)⟩
      rw [e2, List.reverse_append, List.reverse_reverse, List.filter_append, h1]
      have : (pointer d ev).filter (fun v => !v.motion) = [] := by
        unfold pointer
        repeat' split
        all_goals rfl
      rw [this, List.append_nil]

theorem machines_life {conf : Nat → Config} {d : Daemon} {arr : Nat → List KeyEvent} (h : Life (fun a c => c = conf a ∧ Simple c) NoClient d arr)
    (hev : ∀ a, ∀ e ∈ arr a, e.code = 0 ∨ Physical e.code) :
    ∃ all : List (Nat × Out), d.vout.reverse.filter (fun v => !v.motion) = (all.filterMap fun p => hostOut p.2) ∧
      ∀ a k, d.heap a = some k →
        hostEvents (fun _ => false) (partOf a all) = (Board.run (conf a) (arr a)).out ∧
        ranCommands (partOf a all) = (Board.run (conf a) (arr a)).ran ∧
        (∀ x, isModifierKey x = false → hostAfter (fun _ => false) (partOf a all) x = (Board.run (conf a) (arr a)).down x) ∧
        modKeys.filter (hostAfter (fun _ => false) (partOf a all)) = (Board.run (conf a) (arr a)).mods := by
  obtain ⟨all, h1, h2⟩ := mixed_life h hev
  refine ⟨all, h1, fun a k hk => ?_⟩
  rw [h2 a k hk]
  have hfed := (life_inv h).fed a k hk
  obtain ⟨_, _, _, hcf⟩ := hfed.reach.historyOf
  have hsim : Simple (conf a) := hcf.1 ▸ hcf.2
  exact C73_machine hsim (hfed.weaken (fun c hc => hc.1)) (hev a)

/-! ### The configurations stay as they were loaded -/

theorem feedEach_config {fuel : Nat} : ∀ (evs : List KeyEvent) {k k' : Kbd}, feedEach fuel k evs = .ok k' → k'.config = k.config
  | [], k, k', h => by cases h; rfl
  | e :: evs, k, k', h => by
    unfold feedEach at h
    obtain ⟨⟨k1, w⟩, h1, h2⟩ := bind_eq_ok.1 h
    exact (feedEach_config evs h2).trans ((kbdProcessEvents_sat (config_outInv k.config).engineInv fuel k [e] rfl).of_ok h1)

/-- As long as no client sends a request, the keyboards are those that were loaded, with their configurations. -/
theorem config_event {env : Env} {d d' : Daemon} {ev : LoopEvent} {t w : Int} (hd : DHistory d) (run : eventHandler env d ev t = .ok (d', w)) (nc : NoClient ev)
    (a : Nat) (k' : Kbd) (hk' : d'.heap a = some k') : ∃ k, d.heap a = some k ∧ k'.config = k.config := by
  cases hr : routed d t ev with
  | some p =>
    obtain ⟨b, evs⟩ := p
    obtain ⟨k1, k2, h1, hf, hh, _⟩ := feeds_event hd run hr
    rw [hh] at hk'
    by_cases hab : a = b
    · subst hab
      rw [upd_same] at hk'
      cases hk'
      exact ⟨k1, h1, feedEach_config evs hf⟩
    · rw [upd_other _ _ hab] at hk'
      exact ⟨k', hk', rfl⟩
  | none =>
    by_cases hs : scrolling d ev
    · obtain ⟨b, k1, s, h1, _, hh, _⟩ := scrolled run hs
      rw [hh] at hk'
      by_cases hab : a = b
      · subst hab
        rw [upd_same] at hk'
        cases hk'
        exact ⟨k1, h1, rfl⟩
      · rw [upd_other _ _ hab] at hk'
        exact ⟨k', hk', rfl⟩
    · obtain ⟨h1, _⟩ := not_routed run hr nc hs
      rw [h1] at hk'
      exact ⟨k', hk', rfl⟩

/-- The configurations loaded at the start. -/
def loadedAt (d : Daemon) (a : Nat) : Config :=
  match d.heap a with
  | some k => k.config
  | none => {}

theorem together_life {env : Env} {d0 : Daemon} (start : reload env {} = .ok d0) (hs : ∀ a k, d0.heap a = some k → Simple k.config) {d : Daemon}
    {arr : Nat → List KeyEvent} (h : Together d0 d arr) : Life (fun a c => c = loadedAt d0 a ∧ Simple c) NoClient d arr := by
  induction h with
  | start =>
    refine .start env d0 start (fun a k hk => ⟨?_, hs a k hk⟩)
    unfold loadedAt
    rw [hk]
  | remove h removed ih => exact .remove _ _ removed ih
  | event env' ev t h run fresh nc ih =>
    rename_i d arr d' w
    refine .event env' d arr ev t d' w ih run fresh (fun a k' hk' => ?_) nc
    obtain ⟨k, hk, e⟩ := config_event ih.history run nc a k' hk'
    have hfed := (life_inv ih).fed a k hk
    obtain ⟨_, _, _, hcf⟩ := hfed.reach.historyOf
    rw [e]
    exact hcf

/-- C103. Let the daemon run with any number of configuration files of the actions of the machine of C73, and let keyboards and mice come and go, keys be struck on any
of them, wheels be turned and pointers moved, and time pass, in any order (no client sends a request). Then what the virtual devices are told besides pointer motion is a
mixture of what the keyboards do, and what each keyboard does is what the machine of its configuration says for the events that came for this keyboard, whatever happens
on the others: every key that goes down and up, each with the modifiers this keyboard holds at that moment; the commands run; and the keys and modifiers held
afterwards. -/
theorem C103_machines {env : Env} {d0 d : Daemon} (start : reload env {} = .ok d0) (hs : ∀ a k, d0.heap a = some k → Simple k.config)
    {arr : Nat → List KeyEvent} (h : Together d0 d arr) (hev : ∀ a, ∀ e ∈ arr a, e.code = 0 ∨ Physical e.code) :
    ∃ all : List (Nat × Out), d.vout.reverse.filter (fun v => !v.motion) = (all.filterMap fun p => hostOut p.2) ∧
      ∀ a k0, d0.heap a = some k0 →
        hostEvents (fun _ => false) (partOf a all) = (Board.run k0.config (arr a)).out ∧
        ranCommands (partOf a all) = (Board.run k0.config (arr a)).ran ∧
        (∀ x, isModifierKey x = false → hostAfter (fun _ => false) (partOf a all) x = (Board.run k0.config (arr a)).down x) ∧
        modKeys.filter (hostAfter (fun _ => false) (partOf a all)) = (Board.run k0.config (arr a)).mods := by
  obtain ⟨all, h1, h2⟩ := machines_life (together_life start hs h) hev
  refine ⟨all, h1, fun a k0 hk0 => ?_⟩
  have hlive : ∃ k, d.heap a = some k := by
    clear h1 h2 hev
    induction h with
    | start => exact ⟨k0, hk0⟩
    | remove h removed ih => exact ih
    | event env' ev t h run fresh nc ih =>
      rename_i d arr d' w
      obtain ⟨k, hk⟩ := ih
      have hh := (together_life start hs h).history
      cases hr : routed d t ev with
      | some p =>
        obtain ⟨b, evs⟩ := p
        obtain ⟨k1, k2, _, _, e, _⟩ := feeds_event hh run hr
        rw [e]
        by_cases hab : a = b
        · subst hab; exact ⟨k2, upd_same _ _ _⟩
        · exact ⟨k, by rw [upd_other _ _ hab]; exact hk⟩
      | none =>
        by_cases hsc : scrolling d ev
        · obtain ⟨b, k1, s, _, _, e, _⟩ := scrolled run hsc
          rw [e]
          by_cases hab : a = b
          · subst hab; exact ⟨_, upd_same _ _ _⟩
          · exact ⟨k, by rw [upd_other _ _ hab]; exact hk⟩
        · obtain ⟨e, _⟩ := not_routed run hr nc hsc
          exact ⟨k, by rw [e]; exact hk⟩
  obtain ⟨k, hk⟩ := hlive
  have := h2 a k hk
  unfold loadedAt at this
  rw [hk0] at this
  exact this

/-! ### Example -/

/-- The code is none of those keyd uses internally. -/
def physicalB (e : KeyEvent) : Bool := decide (e.code = 0 ∨ (e.code ≠ 0 ∧ ¬ (KEYD.CHORD_1 ≤ e.code ∧ e.code ≤ KEYD.CHORD_MAX)))

/-- Running a list of events without clients. -/
def togetherRun (env : Env) : List (LoopEvent × Int) → Daemon → (Nat → List KeyEvent) → Option (Daemon × (Nat → List KeyEvent))
  | [], d, arr => some (d, arr)
  | (ev, t) :: es, d, arr =>
    match eventHandler env d ev t with
    | .error _ => none
    | .ok (d', _) =>
      if ev.plainB && (routed d t ev).all (fun p => p.2.all physicalB) then togetherRun env es d' (arrivedAt arr d t ev) else none

theorem togetherRun_sound {env : Env} {d0 : Daemon} : ∀ (es : List (LoopEvent × Int)) (d : Daemon) (arr : Nat → List KeyEvent) (r : Daemon × (Nat → List KeyEvent)),
    Together d0 d arr → (∀ a, ∀ e ∈ arr a, e.code = 0 ∨ Physical e.code) → togetherRun env es d arr = some r →
      Together d0 r.1 r.2 ∧ ∀ a, ∀ e ∈ r.2 a, e.code = 0 ∨ Physical e.code
  | [], d, arr, r, h, hp, run => by cases run; exact ⟨h, hp⟩
  | (ev, t) :: es, d, arr, r, h, hph, run => by
    unfold togetherRun at run
    split at run
    · cases run
    · rename_i d' w he
      split at run
      · rename_i hp
        simp only [Bool.and_eq_true] at hp
        refine togetherRun_sound es _ _ r (.event env ev t h he ?_ ?_) ?_ run
        · rintro dev rfl
          simpa [LoopEvent.plainB] using hp.1
        · rintro con msg rfl
          cases hp.1
        · intro a e hm
          unfold arrivedAt at hm
          cases hr : routed d t ev with
          | none => rw [hr] at hm; exact hph a e hm
          | some p =>
            obtain ⟨b, evs⟩ := p
            rw [hr] at hm hp
            dsimp only at hm
            by_cases hab : a = b
            · subst hab
              rw [upd_same] at hm
              rcases List.mem_append.1 hm with hm | hm
              · exact hph a e hm
              · have := List.all_eq_true.1 hp.2 e hm
                unfold physicalB at this
                rw [decide_eq_true_eq] at this
                exact this
            · rw [upd_other _ _ hab] at hm
              exact hph a e hm
      · cases run

def machinesDemo : List (LoopEvent × Int) := routingDevices ++
  [(routingKey 0 58 1, 10), (routingKey 0 58 0, 11), (routingKey 1 42 1, 12), (routingKey 0 45 1, 13), (routingKey 1 45 1, 14), (routingKey 0 45 0, 15),
   (routingKey 1 45 0, 16), (.dev 0 { type := .mouseScroll, x := 0, y := -1 }, 17), (.dev 0 { type := .mouseMove, x := 3, y := 4 }, 18), (routingKey 1 42 0, 19)]

def machinesCheck : Bool :=
  match reload routingEnv {} with
  | .error _ => false
  | .ok d0 =>
    d0.configs.all (fun e => (d0.heap e.kbd).all fun k => simpleB k.config) &&
    (togetherRun routingEnv machinesDemo d0 (fun _ => [])).any fun r =>
      decide (r.1.vout.reverse = [.key 42 true, .key 44 true, .key 21 true, .key 44 false, .key 21 false, .key 48 true, .key 48 false, .move 3 4, .key 42 false]) &&
      decide ((r.2 0).length = 6) && decide ((r.2 1).length = 4)

/-- Two keyboards, each with its own file. One-shot `nav` of the first, shift held on the second: `x` on the first is `z` of `nav`, `x` on the second is its `y`, the wheel
of the first is its `b` (this keyboard holds no shift), and the pointer moves. Six events came for the first keyboard and four for the second. -/
theorem C103_check : machinesCheck = true := by
  set_option maxRecDepth 100000 in decide +kernel

/-- The hypotheses of `C103_machines` are met by this run. -/
theorem C103_example : ∃ (d0 d : Daemon) (arr : Nat → List KeyEvent), reload routingEnv {} = .ok d0 ∧ (∀ a k, d0.heap a = some k → Simple k.config) ∧
    Together d0 d arr ∧ (∀ a, ∀ e ∈ arr a, e.code = 0 ∨ Physical e.code) ∧ (arr 0).length = 6 ∧ (arr 1).length = 4 ∧
    d.vout.reverse = [.key 42 true, .key 44 true, .key 21 true, .key 44 false, .key 21 false, .key 48 true, .key 48 false, .move 3 4, .key 42 false] := by
  have h := C103_check
  unfold machinesCheck at h
  cases hr : reload routingEnv {} with
  | error e => rw [hr] at h; cases h
  | ok d0 =>
    rw [hr] at h
    simp only [Bool.and_eq_true] at h
    obtain ⟨h1, h2⟩ := h
    cases ht : togetherRun routingEnv machinesDemo d0 (fun _ => []) with
    | none => rw [ht] at h2; cases h2
    | some r =>
      rw [ht] at h2
      simp only [Option.any_some, Bool.and_eq_true, decide_eq_true_eq] at h2
      obtain ⟨⟨hv, l0⟩, l1⟩ := h2
      obtain ⟨ht, hp⟩ := togetherRun_sound _ _ _ _ .start (fun _ _ h => by cases h) ht
      refine ⟨d0, r.1, r.2, rfl, ?_, ht, hp, l0, l1, hv⟩
      intro a k hk
      obtain ⟨e, he, rfl⟩ := (dinv_history (.start _ _ hr)).owned a (by rw [hk]; exact Option.some_ne_none _)
      have := List.all_eq_true.1 h1 e he
      rw [hk] at this
      exact simple_of_check this

end Keyd
