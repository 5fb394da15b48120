import Verif.Props.Timers

/-
  C14 (expiry of one-shot layers) and C22 (macro repetition), and the concrete
  cases for the theorems of Props/Timers.
-/

set_option autoImplicit false

namespace Keyd

attribute [local irreducible] configInit

/-! ### C14 -/

/-- The layer states with all one-shot activations taken back. -/
def withoutOneshots (k : Kbd) (i : Nat) : LayerSt :=
  if i < k.config.layers.length then
    { k.layerState i with
      active := (k.layerState i).active - (k.layerState i).oneshotDepth, oneshotDepth := 0 }
  else k.layerState i

/-- The first half of the timer stage. -/
theorem stepTimers_expired {k k' : Kbd} {code : Code} {time : Int} (h0 : k.oneshotTimeout ≠ 0)
    (ht : k.oneshotTimeout ≤ time) (h : stepTimers k code time = .ok k') :
    k'.layerState = withoutOneshots k ∧ k'.oneshotLatch = false ∧ k'.oneshotTimeout = 0 ∧
    k'.config = k.config ∧ k'.cache = k.cache ∧ k'.activeChords = k.activeChords := by
  have hch := ((Calm.stepTimers k code time).of_ok h).activeChords
  suffices k'.layerState = withoutOneshots k ∧ k'.oneshotLatch = false ∧ k'.oneshotTimeout = 0 ∧
    k'.config = k.config ∧ k'.cache = k.cache from ⟨this.1, this.2.1, this.2.2.1, this.2.2.2.1, this.2.2.2.2, hch⟩
  unfold stepTimers at h
  rw [bind_eq_ok] at h
  obtain ⟨k1, h1, h2⟩ := h
  rw [if_pos ⟨h0, ht⟩, bind_eq_ok] at h1
  obtain ⟨k2, h3, h4⟩ := h1
  injection h4 with h4
  obtain ⟨ls, os, rfl, _, _, g⟩ := clearOneshot_spec h3
  have hf := KeyFrame.updateMods { k with layerState := ls, trace := os ++ k.trace, oneshotLatch := false, oneshotTimeout := 0 } none 0
  have hls : ls = withoutOneshots k := by funext i; rw [g i]; rfl
  have e1 : k1.layerState = withoutOneshots k ∧ k1.oneshotLatch = false ∧ k1.oneshotTimeout = 0 ∧
      k1.config = k.config ∧ k1.cache = k.cache := by
    subst h4
    exact ⟨hf.layerState.trans hls, hf.oneshotLatch, hf.oneshotTimeout, hf.config, hf.cache⟩
  split at h2
  · injection h2 with h2; subst h2; exact e1
  · rename_i m _
    split at h2
    · injection h2 with h2
      subst h2
      have hf2 := KeyFrame.updateMods { k1 with activeMacro := none } none 0
      obtain ⟨a, b, c, d, e⟩ := e1
      exact ⟨hf2.layerState.trans a, hf2.oneshotLatch.trans b, hf2.oneshotTimeout.trans c, hf2.config.trans d, hf2.cache.trans e⟩
    · split at h2
      · dsimp only at h2
        have h5 := scheduleTimeout_ok h2
        have hf2 := KeyFrame.executeMacro k1 k1.activeMacroLayer (k1.config.mac m)
        obtain ⟨a, b, c, d, e⟩ := e1
        rw [h5]
        exact ⟨hf2.layerState.trans a, hf2.oneshotLatch.trans b, hf2.oneshotTimeout.trans c, hf2.config.trans d, hf2.cache.trans e⟩
      · injection h2 with h2; subst h2; exact e1

/-- C14 (partial). Full statement: without `hd`, i.e. also while a chord or an undecided key is waiting.
Missing: those states, in which the claim is false of the code: `C14_fails_pending` below.
A wakeup at or after the one-shot deadline takes back exactly the outstanding
one-shot activations, and leaves no deadline. -/
theorem C14_wakeup_expires_partial {n : Nat} {k k' : Kbd} {t w : Int} (hd : Direct k 0) (h0 : k.oneshotTimeout ≠ 0)
    (ht : k.oneshotTimeout ≤ t) (h : kbdProcessEvents (n+1) k [⟨0, false, t⟩] = .ok (k', w)) :
    k'.layerState = withoutOneshots k ∧ k'.oneshotTimeout = 0 ∧ k'.oneshotLatch = false ∧ k'.cache = k.cache := by
  rw [kbdProcessEvents_single] at h
  simp only at h
  rw [processEvent_direct hd, bind_eq_ok] at h
  obtain ⟨k1, h1, h2⟩ := h
  rw [bind_eq_ok] at h2
  obtain ⟨k2, h2, h3⟩ := h2
  unfold stepKey at h2
  rw [if_pos rfl] at h2
  injection h2 with h2
  injection h3 with h3
  have e : k' = (calculateMainLoopTimeout k2 t).1 := by rw [h3]
  have := stepTimers_expired (k := directEntry k 0 false t) h0 ht h1
  rw [e, ← h2]
  exact ⟨this.1, this.2.2.1, this.2.1, this.2.2.2.2.1⟩

/-- C14 (partial, as above). An event of a key at or after the one-shot deadline finds the one-shot
activations taken back: the key is processed in a state without them. -/
theorem C14_key_expires_partial {n : Nat} {k k' : Kbd} {ev : KeyEvent} {w : Int} (hd : Direct k ev.code)
    (h0 : k.oneshotTimeout ≠ 0) (ht : k.oneshotTimeout ≤ ev.ts)
    (h : kbdProcessEvents (n+1) k [ev] = .ok (k', w)) :
    ∃ k1 k2, k1.layerState = withoutOneshots k ∧ k1.oneshotTimeout = 0 ∧ k1.oneshotLatch = false ∧
      k1.cache = k.cache ∧ k1.config = k.config ∧ k1.activeChords = k.activeChords ∧
      stepKey k1 ev.code ev.pressed ev.ts = .ok k2 ∧ (k', w) = calculateMainLoopTimeout k2 ev.ts := by
  rw [kbdProcessEvents_single, processEvent_direct hd, bind_eq_ok] at h
  obtain ⟨k1, h1, h2⟩ := h
  rw [bind_eq_ok] at h2
  obtain ⟨k2, h2, h3⟩ := h2
  injection h3 with h3
  have := stepTimers_expired (k := directEntry k ev.code ev.pressed ev.ts) h0 ht h1
  exact ⟨k1, k2, this.1, this.2.2.1, this.2.1, this.2.2.2.2.1, this.2.2.2.1, this.2.2.2.2.2, h2, h3.symm⟩

theorem lookupDescriptor_congr {k k' : Kbd} (h1 : k'.layerState = k.layerState) (h2 : k'.config = k.config)
    (h3 : k'.activeChords = k.activeChords) (code : Code) :
    lookupDescriptor k' code = lookupDescriptor k code := by
  have ha : k'.isActive = k.isActive := by funext i; unfold Kbd.isActive; rw [h1]
  unfold lookupDescriptor lookupActive lookupComposite
  simp only [h1, h2, h3, ha]

/-- C14 (partial, as above). In particular the binding of a key pressed after the deadline is looked up
without the one-shot layers. -/
theorem C14_late_press_lookup_partial {n : Nat} {k k' : Kbd} {code : Code} {t w : Int} (hc : code ≠ 0) (hd : Direct k code)
    (hf : Fresh k code) (h0 : k.oneshotTimeout ≠ 0) (ht : k.oneshotTimeout ≤ t)
    (h : kbdProcessEvents (n+1) k [⟨code, true, t⟩] = .ok (k', w)) :
    ∃ k1 k2 : Kbd, k1.layerState = withoutOneshots k ∧ k1.config = k.config ∧
      processDescriptor (descBudget k) k1 code (lookupDescriptor { k with layerState := withoutOneshots k } code).1
        (lookupDescriptor { k with layerState := withoutOneshots k } code).2 true t = .ok k2 ∧
      (k', w) = calculateMainLoopTimeout k2 t := by
  obtain ⟨k1, k2, a, _, _, b, c, hch, d, e⟩ := C14_key_expires_partial (ev := ⟨code, true, t⟩) hd h0 ht h
  have hl : lookupDescriptor k1 code = lookupDescriptor { k with layerState := withoutOneshots k } code :=
    lookupDescriptor_congr (k := { k with layerState := withoutOneshots k }) a c hch code
  unfold stepKey at d
  simp only [hc, if_false, if_true] at d
  have hg : cacheGet k1 code = none := by unfold cacheGet; rw [b]; exact hf.1
  rw [hg] at d
  simp only [Option.isSome_none, Bool.false_eq_true, if_false] at d
  obtain ⟨s, hs⟩ := cacheSlot_some (code := code) k.cache 0 none hf.2
  have hset : ∀ ent, ∃ c', cacheSet k1 code (some ent) = some { k1 with cache := c' } := by
    intro ent
    unfold cacheSet
    rw [b, hs]
    exact ⟨_, rfl⟩
  obtain ⟨c', hset⟩ := hset { d := (lookupDescriptor k1 code).1, dl := (lookupDescriptor k1 code).2, layer := 0 }
  rw [hset, hl] at d
  simp only at d
  have hbud : descBudget (({ k1 with cache := c' } : Kbd).log (.key code true t
      (some ((lookupDescriptor { k with layerState := withoutOneshots k } code).1, (lookupDescriptor { k with layerState := withoutOneshots k } code).2)))) = descBudget k := by
    unfold descBudget
    show k1.config.descriptors.length + 2 = _
    rw [c]
  rw [hbud] at d
  exact ⟨({ k1 with cache := c' } : Kbd).log _, k2, a, c, d, e⟩

/-! ### C22 -/

/-- The same state with other chord bookkeeping and history. -/
def reseat (c : ChordSt) (st : List Step) (k : Kbd) : Kbd := { k with chord := c, steps := st }

theorem reseat_sendKey (c : ChordSt) (st : List Step) (k : Kbd) (code : Code) (b : Bool) :
    sendKey (reseat c st k) code b = reseat c st (sendKey k code b) := by
  unfold sendKey
  by_cases h : code = KEYD.NOOP ∨ code = KEYD.EXTERNAL_MOUSE_BUTTON
  · rw [if_pos h, if_pos h]
  · rw [if_neg h, if_neg h]
    cases b <;> simp only [Bool.false_eq_true, if_false, if_true]
    · by_cases h2 : k.keystate code ≠ false
      · rw [if_pos h2, if_pos (by exact h2)]; rfl
      · rw [if_neg h2, if_neg (by exact h2)]
    · by_cases h2 : k.keystate code ≠ true
      · rw [if_pos (by exact h2), if_pos (by exact h2)]; rfl
      · rw [if_neg (by exact h2), if_neg (by exact h2)]; rfl

theorem reseat_clearMod (c : ChordSt) (st : List Step) (k : Kbd) (code : Code) :
    clearMod (reseat c st k) code = reseat c st (clearMod k code) := by
  unfold clearMod
  simp only [reseat_sendKey]
  rw [show guardApplies (reseat c st k) code = guardApplies k code from rfl]
  rw [show (reseat c st k).keystate = k.keystate from rfl]
  split <;> rfl

theorem reseat_setMod (c : ChordSt) (st : List Step) (mods : UInt8) (k : Kbd) (m : UInt8 × Code) :
    setMod mods (reseat c st k) m = reseat c st (setMod mods k m) := by
  unfold setMod
  simp only [reseat_sendKey, reseat_clearMod]
  rw [show (reseat c st k).keystate = k.keystate from rfl]
  split <;> split <;> rfl

theorem reseat_updateMods (c : ChordSt) (st : List Step) (k : Kbd) (ex : Option Nat) (mods : UInt8) :
    updateMods (reseat c st k) ex mods = reseat c st (updateMods k ex mods) := by
  unfold updateMods setMods
  rw [show layerMods (reseat c st k) ex mods = layerMods k ex mods from rfl]
  generalize layerMods k ex mods = mm
  generalize modifiers = l
  induction l generalizing k with
  | nil => rfl
  | cons a l ih => rw [List.foldl_cons, List.foldl_cons, reseat_setMod, ih]

theorem reseat_emitMacro (c : ChordSt) (st : List Step) : ∀ (l : List MacroOut) (k : Kbd),
    emitMacro (reseat c st k) l = reseat c st (emitMacro k l)
  | [], _ => rfl
  | .key x d :: rest, k => reseat_emitMacro c st rest (k.emit (.key x d))
  | .sleep us :: rest, k => reseat_emitMacro c st rest (k.emit (.sleep us))

theorem reseat_executeMacro (c : ChordSt) (st : List Step) (k : Kbd) (dl : Nat) (m : Macro) :
    executeMacro (reseat c st k) dl m = reseat c st (executeMacro k dl m) := by
  unfold executeMacro
  dsimp only
  rw [show (reseat c st k).config = k.config from rfl]
  simp only [reseat_updateMods, reseat_sendKey, reseat_emitMacro]
  split
  · split <;> rfl
  · rfl

/-- C22. A wakeup at or after the repetition deadline sends the macro once more and
sets the next deadline one interval later. -/
theorem C22_repeats {n : Nat} {k k' : Kbd} {t w : Int} {m : Nat} (hd : Direct k 0)
    (hos : k.oneshotTimeout = 0 ∨ t < k.oneshotTimeout) (hm : k.activeMacro = some m) (ht : k.macroTimeout ≤ t)
    (h : kbdProcessEvents (n+1) k [⟨0, false, t⟩] = .ok (k', w)) :
    k'.outputs = (executeMacro k k.activeMacroLayer (k.config.mac m)).outputs ∧
    k'.activeMacro = some m ∧ k'.activeMacroLayer = k.activeMacroLayer ∧
    k'.macroRepeatInterval = k.macroRepeatInterval ∧
    k'.macroTimeout = t + k.macroRepeatInterval ∧
    k'.layerState = k.layerState ∧ k'.cache = k.cache ∧
    (∀ d, d ∈ k'.timeouts ↔ t < d ∧ (d ∈ k.timeouts ∨ d = t + k.macroRepeatInterval)) := by
  rw [kbdProcessEvents_single] at h
  simp only at h
  rw [processEvent_direct hd, bind_eq_ok] at h
  obtain ⟨k1, h1, h2⟩ := h
  rw [bind_eq_ok] at h2
  obtain ⟨k2, h2, h3⟩ := h2
  unfold stepKey at h2
  rw [if_pos rfl] at h2
  injection h2 with h2
  injection h3 with h3
  have e : k' = (calculateMainLoopTimeout k2 t).1 := by rw [h3]
  unfold stepTimers at h1
  rw [if_neg (by rintro ⟨ha, hb⟩; exact hos.elim ha (fun h' => absurd hb (show ¬ t ≥ k.oneshotTimeout by omega))), bind_ok] at h1
  rw [show (directEntry k 0 false t).activeMacro = some m from hm] at h1
  simp only [ne_eq, not_true_eq_false, if_false] at h1
  rw [show (directEntry k 0 false t).macroTimeout = k.macroTimeout from rfl, if_pos ht] at h1
  have h5 := scheduleTimeout_ok h1
  have g1 : (executeMacro (directEntry k 0 false t) k.activeMacroLayer (k.config.mac m)).outputs =
      (executeMacro k k.activeMacroLayer (k.config.mac m)).outputs := by
    rw [show directEntry k 0 false t = reseat (directEntry k 0 false t).chord (directEntry k 0 false t).steps k from rfl,
      reseat_executeMacro]
    rfl
  have g2 := KeyFrame.executeMacro (directEntry k 0 false t) k.activeMacroLayer (k.config.mac m)
  rw [e, ← h2, h5]
  refine ⟨g1, g2.activeMacro.trans hm, g2.activeMacroLayer, g2.macroRepeatInterval, ?_, g2.layerState, g2.cache, ?_⟩
  · show t + _ = _
    rw [show (executeMacro (directEntry k 0 false t) (directEntry k 0 false t).activeMacroLayer
      ((directEntry k 0 false t).config.mac m)).macroRepeatInterval = k.macroRepeatInterval from g2.macroRepeatInterval]
  · intro d
    unfold calculateMainLoopTimeout
    dsimp only
    rw [List.mem_filter, List.mem_append, List.mem_singleton]
    rw [show (executeMacro (directEntry k 0 false t) (directEntry k 0 false t).activeMacroLayer
      ((directEntry k 0 false t).config.mac m)).macroRepeatInterval = k.macroRepeatInterval from g2.macroRepeatInterval]
    rw [show (executeMacro (directEntry k 0 false t) (directEntry k 0 false t).activeMacroLayer
      ((directEntry k 0 false t).config.mac m)).timeouts = k.timeouts from g2.timeouts]
    simp [and_comm]

/-- C22. Before the deadline a wakeup does not send the macro. -/
theorem C22_not_early {n : Nat} {k k' : Kbd} {t w : Int} {m : Nat} (hd : Direct k 0)
    (hos : k.oneshotTimeout = 0 ∨ t < k.oneshotTimeout) (hm : k.activeMacro = some m) (ht : t < k.macroTimeout)
    (h : kbdProcessEvents (n+1) k [⟨0, false, t⟩] = .ok (k', w)) :
    k'.outputs = k.outputs ∧ k'.activeMacro = some m ∧ k'.macroTimeout = k.macroTimeout ∧
    k'.macroRepeatInterval = k.macroRepeatInterval ∧
    (∀ d, d ∈ k'.timeouts ↔ t < d ∧ d ∈ k.timeouts) := by
  rw [kbdProcessEvents_single] at h
  simp only at h
  rw [processEvent_direct hd, bind_eq_ok] at h
  obtain ⟨k1, h1, h2⟩ := h
  rw [bind_eq_ok] at h2
  obtain ⟨k2, h2, h3⟩ := h2
  unfold stepKey at h2
  rw [if_pos rfl] at h2
  injection h2 with h2
  injection h3 with h3
  have e : k' = (calculateMainLoopTimeout k2 t).1 := by rw [h3]
  unfold stepTimers at h1
  rw [if_neg (by rintro ⟨ha, hb⟩; exact hos.elim ha (fun h' => absurd hb (show ¬ t ≥ k.oneshotTimeout by omega))), bind_ok] at h1
  rw [show (directEntry k 0 false t).activeMacro = some m from hm] at h1
  simp only [ne_eq, not_true_eq_false, if_false] at h1
  rw [show (directEntry k 0 false t).macroTimeout = k.macroTimeout from rfl, if_neg (by omega)] at h1
  injection h1 with h1
  rw [e, ← h2, ← h1]
  refine ⟨rfl, hm, rfl, rfl, ?_⟩
  intro d
  unfold calculateMainLoopTimeout
  dsimp only
  rw [List.mem_filter]
  simp [directEntry, and_comm]

/-- C22. A repetition interval of zero asks for no further wakeup. -/
theorem C22_zero_interval {n : Nat} {k k' : Kbd} {t w : Int} {m : Nat} (hd : Direct k 0)
    (hos : k.oneshotTimeout = 0 ∨ t < k.oneshotTimeout) (hm : k.activeMacro = some m) (ht : k.macroTimeout ≤ t)
    (hz : k.macroRepeatInterval = 0) (h : kbdProcessEvents (n+1) k [⟨0, false, t⟩] = .ok (k', w)) :
    ∀ d, d ∈ k'.timeouts ↔ t < d ∧ d ∈ k.timeouts := by
  intro d
  rw [(C22_repeats hd hos hm ht h).2.2.2.2.2.2.2 d, hz]
  constructor
  · rintro ⟨a, b | b⟩
    · exact ⟨a, b⟩
    · omega
  · rintro ⟨a, b⟩; exact ⟨a, Or.inl b⟩

/-- C22. A positive interval: the engine asks to be woken in time for the next repetition. -/
theorem C22_asks_for_wakeup {n : Nat} {k k' : Kbd} {t w : Int} {m : Nat} (hd : Direct k 0)
    (hos : k.oneshotTimeout = 0 ∨ t < k.oneshotTimeout) (hm : k.activeMacro = some m) (ht : k.macroTimeout ≤ t)
    (h0 : 0 ≤ t) (hz : 0 < k.macroRepeatInterval) (h : kbdProcessEvents (n+1) k [⟨0, false, t⟩] = .ok (k', w)) :
    0 < w ∧ w ≤ k.macroRepeatInterval := by
  have hx := C15_wait_exact (ev := ⟨0, false, t⟩) h0 h
  have hmem := ((C22_repeats hd hos hm ht h).2.2.2.2.2.2.2 (t + k.macroRepeatInterval)).2 ⟨by omega, Or.inr rfl⟩
  have hw : w ≠ 0 := by
    intro h
    rw [hx.2.1] at h
    rw [h] at hmem; cases hmem
  obtain ⟨g1, g2⟩ := hx.2.2 hw
  have := hx.1 _ g1
  have := g2 _ hmem
  simp only at *
  omega

/-- C22. The press of a macro key sends the macro and starts the repetition. -/
theorem pdMacro_starts {k k' : Kbd} {m : Nat} {tm iv : Int} {dl : Nat} {t : Int} (h : pdMacro k m tm iv dl t = .ok k') :
    k'.activeMacro = some m ∧ k'.activeMacroLayer = dl ∧ k'.macroTimeout = t + tm ∧ k'.macroRepeatInterval = iv ∧
    t + tm ∈ k'.timeouts := by
  unfold pdMacro at h
  dsimp only at h
  rw [bind_eq_ok] at h
  obtain ⟨k2, h2, h3⟩ := h
  obtain ⟨ls, os, e, _⟩ := clearOneshot_spec h2
  have hf := KeyFrame.executeMacro k2 dl (k2.config.mac m)
  rw [scheduleTimeout_ok h3]
  refine ⟨rfl, rfl, rfl, ?_, ?_⟩
  · show (executeMacro k2 dl (k2.config.mac m)).macroRepeatInterval = iv
    rw [hf.macroRepeatInterval, e]
  · simp

/-- The repetition timing of a macro binding: initial delay and interval. -/
def Desc.repetition (c : Config) : Desc → Option (Nat × Int × Int)
  | .macro m => some (m, c.macroTimeout, c.macroRepeatTimeout)
  | .macro2 t r m => some (m, t, r)
  | _ => Option.none

theorem C22_press_starts {n : Nat} {k k' : Kbd} {code : Code} {t w : Int} {m : Nat} {delay interval : Int}
    (hq : Undisturbed k code t) (hf : Fresh k code)
    (hd : (lookupDescriptor k code).1.repetition k.config = some (m, delay, interval))
    (h : kbdProcessEvents (n+1) k [⟨code, true, t⟩] = .ok (k', w)) :
    k'.activeMacro = some m ∧ k'.macroTimeout = t + delay ∧ k'.macroRepeatInterval = interval ∧
    (0 < delay → t + delay ∈ k'.timeouts) := by
  rw [kbdProcessEvents_single] at h
  simp only at h
  rw [processEvent_press hq hf, bind_eq_ok] at h
  obtain ⟨k1, h1, h2⟩ := h
  injection h2 with h2
  have e : k' = (calculateMainLoopTimeout k1 t).1 := by rw [h2]
  rw [show descBudget k = (k.config.descriptors.length + 1) + 1 from rfl] at h1
  unfold processDescriptor at h1
  simp only [if_true] at h1
  rw [bind_eq_ok] at h1
  obtain ⟨k2, h3, h4⟩ := h1
  injection h4 with h4
  have key : k2.activeMacro = some m ∧ k2.macroTimeout = t + delay ∧ k2.macroRepeatInterval = interval ∧
      t + delay ∈ k2.timeouts := by
    generalize (lookupDescriptor k code).1 = d at hd h3
    cases d with
    | «macro» m' =>
      simp only [Desc.repetition, Option.some.injEq, Prod.mk.injEq] at hd
      obtain ⟨rfl, rfl, rfl⟩ := hd
      have := pdMacro_starts (show pdMacro _ _ _ _ _ t = .ok k2 from h3)
      exact ⟨this.1, this.2.2.1, this.2.2.2.1, this.2.2.2.2⟩
    | macro2 a b m' =>
      simp only [Desc.repetition, Option.some.injEq, Prod.mk.injEq] at hd
      obtain ⟨rfl, rfl, rfl⟩ := hd
      have := pdMacro_starts (show pdMacro _ _ _ _ _ t = .ok k2 from h3)
      exact ⟨this.1, this.2.2.1, this.2.2.2.1, this.2.2.2.2⟩
    | _ => cases hd
  obtain ⟨a, b, c, d⟩ := key
  rw [e, ← h4]
  refine ⟨a, b, c, fun hpos => ?_⟩
  unfold calculateMainLoopTimeout
  dsimp only
  rw [List.mem_filter]
  exact ⟨d, by simp; omega⟩

/-- The stage that handles the key itself starts with no macro repeating. -/
theorem stepTimers_stops {k k' : Kbd} {code : Code} {t : Int} (hc : code ≠ 0) (h : stepTimers k code t = .ok k') :
    k'.activeMacro = none := by
  unfold stepTimers at h
  rw [bind_eq_ok] at h
  obtain ⟨k1, h1, h2⟩ := h
  split at h2
  · rename_i h3; injection h2 with h2; rw [← h2]; exact h3
  · rw [if_pos hc] at h2
    injection h2 with h2
    rw [← h2]
    exact (KeyFrame.updateMods { k1 with activeMacro := none } none 0).activeMacro

/-- The layers once one-shots have been given their chance to expire at `t`. -/
def afterExpiry (k : Kbd) (t : Int) : Nat → LayerSt :=
  if k.oneshotTimeout ≠ 0 ∧ k.oneshotTimeout ≤ t then withoutOneshots k else k.layerState

theorem stepTimers_layers {k k' : Kbd} {code : Code} {t : Int} (h : stepTimers k code t = .ok k') :
    k'.layerState = afterExpiry k t := by
  unfold afterExpiry
  split
  · rename_i hc; exact (stepTimers_expired hc.1 hc.2 h).1
  · rename_i hc
    unfold stepTimers at h
    rw [if_neg hc, bind_ok] at h
    split at h
    · injection h with h; rw [h]
    · split at h
      · injection h with h
        rw [← h]
        exact (KeyFrame.updateMods { k with activeMacro := none } none 0).layerState
      · split at h
        · rw [scheduleTimeout_ok h]
          exact (KeyFrame.executeMacro k _ _).layerState
        · injection h with h; rw [h]

/-! Actions other than macros do not start one. -/

/-- No macro started. -/
def NoMac (k k' : Kbd) : Prop := k.activeMacro = none → k'.activeMacro = none

namespace NoMac

theorem refl (k : Kbd) : NoMac k k := id
theorem trans {a b c : Kbd} (h : NoMac a b) (h' : NoMac b c) : NoMac a c := h' ∘ h
theorem of_frame {k k' : Kbd} (h : KeyFrame k k') : NoMac k k' := fun e => h.activeMacro.trans e
theorem bind {k : Kbd} {r : Res Kbd} {f : Kbd → Res Kbd} (h : Sat r (NoMac k) AnyErr)
    (hf : ∀ k', Sat (f k') (NoMac k') AnyErr) : Sat (r >>= f) (NoMac k) AnyErr :=
  Sat.bind h (fun k' h' => (hf k').imp (fun _ h'' => h'.trans h''))

theorem deactivate (k : Kbd) (i : Nat) : Sat (deactivateLayer k i) (NoMac k) AnyErr := by
  unfold deactivateLayer
  exact Sat.ite (fun _ => trivial) (fun _ => Sat.ok (fun h => h))

theorem activate (k : Kbd) (c : Code) (i : Nat) : Sat (activateLayer k c i) (NoMac k) AnyErr := by
  refine Sat.intro fun k' h => ?_
  obtain ⟨c', rfl⟩ := activateLayer_ok h
  exact fun h => h

theorem oneshots (k : Kbd) : Sat (clearOneshot k) (NoMac k) AnyErr := by
  refine Sat.intro fun k' h => ?_
  obtain ⟨ls, os, rfl, _⟩ := clearOneshot_spec h
  exact fun h => h

theorem schedule (k : Kbd) (t : Int) : Sat (scheduleTimeout k t) (NoMac k) AnyErr := by
  refine Sat.intro fun k' h => ?_
  rw [scheduleTimeout_ok h]
  exact fun h => h

theorem cleared (k : Kbd) : Sat (clear k) (NoMac k) AnyErr := by
  refine Sat.intro fun k' h => ?_
  obtain ⟨⟨_, _, _, _, e⟩, _⟩ := clear_exact h
  rw [e]
  exact fun _ => rfl

theorem layoutSet (k : Kbd) (i : Nat) : Sat (setlayout k i) (NoMac k) AnyErr := by
  unfold setlayout
  refine bind (cleared k) (fun k1 => ?_)
  have key : ∀ (l : List Nat) (k1 : Kbd), (l.foldl (fun k i =>
      if (k.config.layer i).type = .layout then k.modLayer i fun s => { s with active := 0 } else k) k1).activeMacro =
      k1.activeMacro := by
    intro l
    induction l with
    | nil => intro _; rfl
    | cons a l ih =>
      intro k1
      rw [List.foldl_cons, ih]
      split <;> rfl
  have h2 := key (nonMainLayers k1) k1
  revert h2
  dsimp only
  generalize (nonMainLayers k1).foldl _ k1 = k2
  intro h2
  split
  · exact fun h => h2.trans h
  · exact fun h => h2.trans h

theorem keyseq (k : Kbd) (c : Code) (m : UInt8) (dl : Nat) (p : Bool) (t : Int) :
    Sat (pdKeyseq k c m dl p t) (NoMac k) AnyErr := by
  unfold pdKeyseq
  refine bind ?_ (fun k1 => ?_)
  · refine Sat.ite (fun _ => ?_) (fun _ => ?_)
    · dsimp only
      refine (oneshots _).imp (fun k' h => trans (of_frame ?_) h)
      refine KeyFrame.trans (KeyFrame.trans ?_ (KeyFrame.updateMods _ _ _)) (KeyFrame.send _ _ _)
      split
      · exact KeyFrame.send _ _ _
      · exact KeyFrame.refl _
    · exact Sat.ok (of_frame ((KeyFrame.send _ _ _).trans (KeyFrame.updateMods _ _ _)))
  · split
    · exact fun h => h
    · exact fun h => h

theorem layers (k : Kbd) (c : Code) (l : Nat) (p : Bool) : Sat (pdLayer k c l p) (NoMac k) AnyErr := by
  unfold pdLayer
  refine bind ?_ (fun k1 => ?_)
  · exact Sat.ite (fun _ => activate k c l) (fun _ => deactivate k l)
  · refine Sat.ite (fun _ => ?_) (fun _ => ?_)
    · have := (KeyFrame.updateMods { k1 with inhibitModifierGuard := true } none 0).activeMacro
      exact Sat.ok (fun h => this.trans h)
    · exact Sat.ok (of_frame (KeyFrame.updateMods _ _ _))

theorem oneshot (k : Kbd) (c : Code) (l dl : Nat) (p : Bool) (t : Int) : Sat (pdOneshot k c l dl p t) (NoMac k) AnyErr := by
  unfold pdOneshot
  refine Sat.ite (fun _ => ?_) (fun _ => Sat.ite (fun _ => ?_) (fun _ => ?_))
  · refine bind (activate k c l) (fun k1 => ?_)
    exact Sat.ok (fun h => (KeyFrame.updateMods k1 (some dl) 0).activeMacro.trans h)
  · dsimp only
    refine Sat.ite (fun _ => trivial) (fun _ => Sat.ite (fun _ => ?_) (fun _ => ?_))
    · exact (schedule _ _).imp (fun k' h h' => h h')
    · exact Sat.ok (fun h => h)
  · refine bind (deactivate k l) (fun k1 => ?_)
    exact Sat.ok (of_frame (KeyFrame.updateMods _ _ _))

theorem toggle (k : Kbd) (c : Code) (l : Nat) : Sat (pdToggle k c l) (NoMac k) AnyErr := by
  unfold pdToggle
  dsimp only
  refine bind ?_ (fun k1 => ?_)
  · refine Sat.ite (fun _ => ?_) (fun _ => ?_)
    · exact (activate _ _ _).imp (fun k' h h' => h h')
    · exact (deactivate _ _).imp (fun k' h h' => h h')
  · exact (oneshots _).imp (fun k' h => trans (of_frame (KeyFrame.updateMods _ _ _)) h)

theorem command (k : Kbd) (c : Nat) : Sat (pdCommand k c) (NoMac k) AnyErr := by
  unfold pdCommand
  refine bind ((oneshots _).imp (fun k' h h' => h h')) (fun k1 => ?_)
  exact Sat.ok (of_frame (KeyFrame.updateMods _ _ _))

theorem overloadPress (k : Kbd) (c : Code) (l : Nat) (t : Int) : Sat (pdOverloadPress k c l t) (NoMac k) AnyErr := by
  unfold pdOverloadPress
  refine bind ((activate _ c l).imp (fun k' h h' => h h')) (fun k1 => ?_)
  exact Sat.ok (of_frame (KeyFrame.updateMods _ _ _))

theorem swapLayer (k : Kbd) (l dl : Nat) : Sat (pdSwapLayer k l dl) (NoMac k) AnyErr := by
  unfold pdSwapLayer
  refine Sat.ite (fun _ => ?_) (fun _ => Sat.ite (fun _ => ?_) (fun _ => ?_))
  · refine bind (deactivate _ _) (fun k1 => ?_)
    refine bind ((activate _ _ _).imp (fun k' h h' => h h')) (fun k1 => ?_)
    exact Sat.ok (fun h => (KeyFrame.updateMods _ none 0).activeMacro.trans h)
  · refine bind (deactivate _ _) (fun k1 => ?_)
    refine bind ((activate _ _ _).imp (fun k' h h' => h h')) (fun k1 => ?_)
    exact Sat.ok (fun h => (KeyFrame.updateMods _ none 0).activeMacro.trans h)
  · split
    · exact Sat.ok (fun h => h)
    · dsimp only
      refine bind ((deactivate _ _).imp (fun k' h h' => h h')) (fun k1 => ?_)
      refine bind (activate _ _ _) (fun k1 => ?_)
      exact Sat.ok (of_frame (KeyFrame.updateMods _ _ _))

theorem swap (k : Kbd) (l : Nat) (m : Option Macro) (dl : Nat) (p : Bool) : Sat (pdSwap k l m dl p) (NoMac k) AnyErr := by
  unfold pdSwap
  refine Sat.ite (fun _ => ?_) (fun _ => ?_)
  · refine bind (swapLayer k l dl) (fun k1 => Sat.ok ?_)
    split
    · exact of_frame (KeyFrame.executeMacro _ _ _)
    · exact refl _
  · refine Sat.ok ?_
    split
    · split
      · exact of_frame ((KeyFrame.send _ _ _).trans (KeyFrame.updateMods _ _ _))
      · exact refl _
    · exact refl _

end NoMac

/-- Whether performing this action can start a macro repetition: macros when pressed,
overload actions when released (the tap action), and idle overloads when pressed. -/
def Desc.mayRepeat : Desc → Bool → Bool
  | .macro _, true => true
  | .macro2 _ _ _, true => true
  | .overloadIdle _ _ _, true => true
  | .overload _ _, false => true
  | _, _ => false

theorem noMac_descriptor {n : Nat} {k k' : Kbd} {code : Code} {d : Desc} {dl : Nat} {p : Bool} {t : Int}
    (hd : d.mayRepeat p = false) (h : processDescriptor n k code d dl p t = .ok k') : NoMac k k' := by
  cases n with
  | zero => cases h
  | succ n =>
    unfold processDescriptor at h
    dsimp only at h
    rw [bind_eq_ok] at h
    obtain ⟨k1, h1, h2⟩ := h
    injection h2 with h2
    refine NoMac.trans (NoMac.of_frame (Calm.pdMacroPrefix k d dl p)) (NoMac.trans (b := k1) ?_ ?_)
    · generalize pdMacroPrefix k d dl p = k0 at h1
      refine Sat.of_ok (Q := NoMac k0) (E := AnyErr) ?_ h1
      unfold pdSwitch
      cases d <;> cases p <;> simp only [if_true, Bool.false_eq_true, if_false] <;>
        first
        | exact absurd hd Bool.noConfusion
        | exact NoMac.keyseq ..
        | exact NoMac.layoutSet ..
        | exact NoMac.layers ..
        | exact NoMac.cleared ..
        | exact NoMac.oneshot ..
        | exact NoMac.toggle ..
        | exact NoMac.command ..
        | exact NoMac.overloadPress ..
        | exact NoMac.swap ..
        | exact NoMac.bind (NoMac.cleared _) (fun k1 => Sat.ok (NoMac.of_frame (KeyFrame.executeMacro _ _ _)))
        | exact (NoMac.schedule _ _).imp (fun k' h h' => h h')
        | exact Sat.ok (fun h => h)
    · subst h2
      split
      · exact fun h => h
      · exact NoMac.refl _

/-- C22 (partial). Full statement: any key event ends the repetition. Missing: the events that a possible chord
or an undecided key holds back, for which the claim is false of the code (`C22_fails_chord` below), and
those that start another macro.
An event of a key whose binding cannot itself start a macro ends the
repetition, whatever macro was repeating and whether or not the event is used. -/
theorem C22_key_stops_partial {n : Nat} {k k' : Kbd} {ev : KeyEvent} {w : Int} (hc : ev.code ≠ 0) (hd : Direct k ev.code)
    (hpress : ev.pressed = true →
      (lookupDescriptor { k with layerState := afterExpiry k ev.ts } ev.code).1.mayRepeat true = false)
    (hrel : ∀ ce, ev.pressed = false → cacheGet k ev.code = some ce → ce.d.mayRepeat false = false)
    (h : kbdProcessEvents (n+1) k [ev] = .ok (k', w)) : k'.activeMacro = none := by
  rw [kbdProcessEvents_single, processEvent_direct hd, bind_eq_ok] at h
  obtain ⟨k1, h1, h2⟩ := h
  rw [bind_eq_ok] at h2
  obtain ⟨k2, h2, h3⟩ := h2
  injection h3 with h3
  have e : k' = (calculateMainLoopTimeout k2 ev.ts).1 := by rw [h3]
  have hstop := stepTimers_stops hc h1
  have hcalm := (Calm.stepTimers _ _ _).of_ok h1
  rw [e]
  show k2.activeMacro = none
  unfold stepKey at h2
  rw [if_neg hc] at h2
  split at h2
  · rename_i hp
    split at h2
    · injection h2 with h2; subst h2; exact hstop
    · dsimp only at h2
      split at h2
      · injection h2 with h2; subst h2; exact hstop
      · rename_i k3 hset
        refine noMac_descriptor (d := (lookupDescriptor k1 ev.code).1) ?_ h2 ?_
        · rw [lookupDescriptor_congr (k := { k with layerState := afterExpiry k ev.ts }) ?_ hcalm.config hcalm.activeChords]
          · exact hpress hp
          · exact stepTimers_layers (k := directEntry k ev.code ev.pressed ev.ts) h1
        unfold cacheSet at hset
        split at hset
        · cases hset
        · injection hset with hset; subst hset; exact hstop
  · rename_i hp
    split at h2
    · injection h2 with h2; subst h2; exact hstop
    · rename_i ce hce
      dsimp only at h2
      refine noMac_descriptor (d := ce.d) ?_ h2 ?_
      · obtain ⟨ce', g1, g2, _⟩ := cacheGet_strip (k := k1) (k' := k) (code := ev.code) (ce := ce)
          hcalm.cache.symm hce
        rw [← g2]
        exact hrel ce' (by simpa using hp) g1
      · unfold cacheSet
        split
        · exact hstop
        · exact hstop

/-! ### The hypotheses are met -/

/-- A one-shot layer (key `o`, 24) with a timeout of 500: after tapping it, the layer is
active, and a wakeup at 505 or a press of `z` (44) at 600 comes after the deadline. -/
theorem C14_example : checkRun b!"[ids]\n*\n[global]\noneshot_timeout = 500\n[main]\no = oneshot(nav)\n[nav]\nz = a\n"
    [press 24 0, release 24 5] (fun _ => true)
    (fun k => directCheck k 0 && directCheck k 44 && freshCheck k 44 && decide (k.oneshotTimeout = 505) &&
      decide ((k.layerState 6).active = 1) && decide ((withoutOneshots k 6).active = 0) &&
      decide (lookupDescriptor k 44 = (.keyseq 30 0, 6)) &&
      decide (lookupDescriptor { k with layerState := withoutOneshots k } 44 = (.keyseq 44 0, 0)) &&
      (match kbdProcessEvents 1 k [wakeup 505], kbdProcessEvents 1 k [press 44 600] with
        | .ok (k1, _), .ok (k2, _) => decide ((k1.layerState 6).active = 0) && k2.keystate 44
        | _, _ => false)) = true := by
  set_option maxRecDepth 100000 in decide +kernel

/-- A one-shot layer is tapped (`o`) and then used by `z`, which is bound in it. -/
theorem C13_example : checkRun b!"[ids]\n*\n[main]\no = oneshot(nav)\n[nav]\nz = a\n"
    [press 24 0, release 24 5] (fun _ => true)
    (fun k => quietCheck k 44 20 && freshCheck k 44 && (lookupDescriptor k 44).1.emits &&
      decide ((k.layerState 6).active = 1) && decide ((k.layerState 6).oneshotDepth = 1) &&
      (match kbdProcessEvents 1 k [press 44 20] with
        | .ok (k1, _) => decide ((k1.layerState 6).active = 0) && k1.keystate 30
        | _ => false)) = true := by
  set_option maxRecDepth 100000 in decide +kernel

/-- The tap itself: the hypotheses of `C13_tap` with a timeout. -/
theorem C13_tap_example : checkRun b!"[ids]\n*\n[global]\noneshot_timeout = 500\n[main]\no = oneshot(nav)\n[nav]\nz = a\n"
    [] (fun _ => true)
    (fun k => quietCheck k 24 0 && freshCheck k 24 && decide (lookupDescriptor k 24 = (.oneshot 6, 0)) &&
      (match kbdProcessEvents 1 k [press 24 0] with
        | .ok (k1, _) => quietCheck k1 24 5 &&
          (match kbdProcessEvents 1 k1 [release 24 5] with
            | .ok (_, w) => decide (w = 500)
            | _ => false)
        | _ => false)) = true := by
  set_option maxRecDepth 100000 in decide +kernel

/-- One-shots survive the press and the release of a layer key (`l`, 38), and the second
press of `a` while it is down is ignored, as is the release of `b`, which is up. -/
theorem C13_C06_example : checkRun b!"[ids]\n*\n[main]\no = oneshot(nav)\nl = layer(other)\n[nav]\nz = a\n[other]\nz = b\n"
    [press 30 0, press 24 0, release 24 5, press 38 10] (fun _ => true)
    (fun k => quietCheck k 38 20 && (cacheGet k 38).isSome && quietCheck k 30 20 && (cacheGet k 30).isSome &&
      quietCheck k 48 20 && (cacheGet k 48).isNone && decide ((k.layerState 6).oneshotDepth = 1) &&
      (match kbdProcessEvents 1 k [release 38 20] with
        | .ok (k1, _) => decide ((k1.layerState 6).active = 1) && decide ((k1.layerState 7).active = 0)
        | _ => false)) = true := by
  set_option maxRecDepth 100000 in decide +kernel

/-- A macro (key `m`, 50) repeating every 50 after 600; `x` stops it. -/
theorem C22_example : checkRun b!"[ids]\n*\n[main]\nm = macro(a b)\n"
    [press 50 1000] (fun _ => true)
    (fun k => directCheck k 0 && directCheck k 45 && decide (k.oneshotTimeout = 0) && k.activeMacro.isSome &&
      decide (k.macroTimeout = 1600) && decide (k.macroRepeatInterval = 50) &&
      decide ((lookupDescriptor { k with layerState := afterExpiry k 1610 } 45).1.mayRepeat true = false) &&
      (match kbdProcessEvents 1 k [wakeup 1599], kbdProcessEvents 1 k [wakeup 1600], kbdProcessEvents 1 k [press 45 1610] with
        | .ok (k1, w1), .ok (k2, w2), .ok (k3, _) => decide (k1.outputs = k.outputs) && decide (w1 = 1) &&
          decide (k2.outputs.length = k.outputs.length + 4) && decide (w2 = 50) && k3.activeMacro.isNone
        | _, _, _ => false)) = true := by
  set_option maxRecDepth 100000 in decide +kernel

/-- A repetition interval of zero: the macro is sent once more and then nothing is due. -/
theorem C22_zero_example : checkRun b!"[ids]\n*\n[main]\nm = macro2(100, 0, macro(a b))\n"
    [press 50 1000] (fun _ => true)
    (fun k => directCheck k 0 && k.activeMacro.isSome && decide (k.macroRepeatInterval = 0) &&
      (match kbdProcessEvents 1 k [wakeup 1100] with
        | .ok (k1, w) => decide (w = 0) && decide (k1.timeouts = [])
        | _ => false)) = true := by
  set_option maxRecDepth 100000 in decide +kernel

/-- The press of a macro key starts the repetition. -/
theorem C22_press_example : checkRun b!"[ids]\n*\n[main]\nm = macro(a b)\n"
    [] (fun _ => true)
    (fun k => quietCheck k 50 7 && freshCheck k 50 &&
      decide ((lookupDescriptor k 50).1.repetition k.config = some (0, 600, 50))) = true := by
  set_option maxRecDepth 100000 in decide +kernel

/-- C14 fails while a key is undecided: the one-shot of `o` (deadline 505) is left unused; the wakeups at 505
and 700 leave the layer active, and after them the engine asks for no further wakeup: the layer stays active until
the next key. -/
theorem C14_fails_pending : ∃ k k1 k2, Reach (fun _ => True) k ∧ k.oneshotTimeout = 505 ∧ (k.layerState 6).active = 1 ∧
    kbdProcessEvents 9 k [wakeup 505] = .ok (k1, 195) ∧ (k1.layerState 6).active = 1 ∧
    kbdProcessEvents 9 k1 [wakeup 700] = .ok (k2, 0) ∧ (k2.layerState 6).active = 1 := by
  have h : checkRun b!"[ids]\n*\n[global]\noneshot_timeout = 500\n[main]\no = oneshot(nav)\nc = overloadt(control, x, 300)\n[nav]\nz = a\n"
    [press 24 0, release 24 5, press 46 400] (fun _ => true)
    (fun k => decide (k.oneshotTimeout = 505) && decide ((k.layerState 6).active = 1) &&
      (match kbdProcessEvents 9 k [wakeup 505] with
      | .error _ => false
      | .ok (k1, w1) => decide ((k1.layerState 6).active = 1) && decide (w1 = 195) &&
        (match kbdProcessEvents 9 k1 [wakeup 700] with
        | .error _ => false
        | .ok (k2, w2) => decide ((k2.layerState 6).active = 1) && decide (w2 = 0)))) = true := by
    set_option maxRecDepth 100000 in decide +kernel
  obtain ⟨k, hk, hp⟩ := checkRun_reach (cfg := fun _ => True) h (fun _ _ => trivial)
  simp only [Bool.and_eq_true, decide_eq_true_eq] at hp
  obtain ⟨⟨h1, h2⟩, hp⟩ := hp
  split at hp
  · cases hp
  · rename_i k1 w1 e1
    simp only [Bool.and_eq_true, decide_eq_true_eq] at hp
    obtain ⟨⟨h3, h4⟩, hp⟩ := hp
    split at hp
    · cases hp
    · rename_i k2 w2 e2
      simp only [Bool.and_eq_true, decide_eq_true_eq] at hp
      exact ⟨k, k1, k2, hk, h1, h2, h4 ▸ e1, h3, hp.2 ▸ e2, hp.1⟩

/-- C22 fails while a chord is possible: `m` is held and its macro repeats from 1600; `j` is pressed at 1590, and the
wakeup at 1600 sends the macro all the same. -/
theorem C22_fails_chord : ∃ k k1 k2 w1 w2, Reach (fun _ => True) k ∧ k.activeMacro = some 0 ∧ k.macroTimeout = 1600 ∧
    kbdProcessEvents 9 k [press 36 1590] = .ok (k1, w1) ∧ k1.outputs = k.outputs ∧
    kbdProcessEvents 9 k1 [wakeup 1600] = .ok (k2, w2) ∧
    k2.outputs = k.outputs ++ [.key 30 true, .key 30 false, .key 48 true, .key 48 false] := by
  have h : checkRun b!"[ids]\n*\n[main]\nm = macro(a b)\nj+k = x\n" [press 50 1000] (fun _ => true)
    (fun k => decide (k.activeMacro = some 0) && decide (k.macroTimeout = 1600) &&
      (match kbdProcessEvents 9 k [press 36 1590] with
      | .error _ => false
      | .ok (k1, _) => decide (k1.outputs = k.outputs) &&
        (match kbdProcessEvents 9 k1 [wakeup 1600] with
        | .error _ => false
        | .ok (k2, _) => decide (k2.outputs = k.outputs ++ [.key 30 true, .key 30 false, .key 48 true, .key 48 false])))) = true := by
    set_option maxRecDepth 100000 in decide +kernel
  obtain ⟨k, hk, hp⟩ := checkRun_reach (cfg := fun _ => True) h (fun _ _ => trivial)
  simp only [Bool.and_eq_true, decide_eq_true_eq] at hp
  obtain ⟨⟨h1, h2⟩, hp⟩ := hp
  split at hp
  · cases hp
  · rename_i k1 w1 e1
    simp only [Bool.and_eq_true, decide_eq_true_eq] at hp
    obtain ⟨h3, hp⟩ := hp
    split at hp
    · cases hp
    · rename_i k2 w2 e2
      simp only [decide_eq_true_eq] at hp
      exact ⟨k, k1, k2, w1, w2, hk, h1, h2, e1, h3, e2, hp⟩

end Keyd
