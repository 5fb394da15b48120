import Verif.Proofs.Stored

/-
  The engine and the clock (C82). The fields of a keyboard that hold times are
  separated from the others (`Clocks`); the functions of the engine that do not
  deal with time neither read nor change them.
-/

set_option autoImplicit false

namespace Keyd

/-- The fields holding times, the waiting events, the deadlines, and the time settings of the configuration. -/
structure Clocks where
  timeouts : List Int
  one : Int
  macroAt : Int
  interval : Int
  overloadAt : Int
  simpleAt : Int
  pending : PendingKey
  chord : ChordSt
  steps : List Step
  cMacro : Int
  cRepeat : Int
  cOne : Int
  cTap : Int
  cChord : Int
  cHold : Int

/-- The times of a keyboard. -/
def Kbd.clocks (k : Kbd) : Clocks :=
  { timeouts := k.timeouts, one := k.oneshotTimeout, macroAt := k.macroTimeout, interval := k.macroRepeatInterval,
    overloadAt := k.overloadStartTime, simpleAt := k.lastSimpleKeyTime, pending := k.pending, chord := k.chord,
    steps := k.steps, cMacro := k.config.macroTimeout, cRepeat := k.config.macroRepeatTimeout,
    cOne := k.config.oneshotTimeout, cTap := k.config.overloadTapTimeout, cChord := k.config.chordInterkeyTimeout,
    cHold := k.config.chordHoldTimeout }

/-- The same keyboard with other times. -/
def Kbd.timed (j : Clocks) (k : Kbd) : Kbd :=
  { k with
    timeouts := j.timeouts
    oneshotTimeout := j.one
    macroTimeout := j.macroAt
    macroRepeatInterval := j.interval
    overloadStartTime := j.overloadAt
    lastSimpleKeyTime := j.simpleAt
    pending := j.pending
    chord := j.chord
    steps := j.steps
    config := { k.config with
      macroTimeout := j.cMacro
      macroRepeatTimeout := j.cRepeat
      oneshotTimeout := j.cOne
      overloadTapTimeout := j.cTap
      chordInterkeyTimeout := j.cChord
      chordHoldTimeout := j.cHold } }

theorem timed_self (k : Kbd) : k.timed k.clocks = k := rfl
theorem clocks_timed (j : Clocks) (k : Kbd) : (k.timed j).clocks = j := rfl
theorem timed_timed (i j : Clocks) (k : Kbd) : (k.timed i).timed j = k.timed j := rfl

variable {j : Clocks} {k : Kbd}

theorem map_bind {α β : Type} {g : α → α} {h : β → β} {x : Res α} {f f' : α → Res β}
    (e : ∀ a, f' (g a) = (f a).map h) : ((x.map g) >>= f') = (x >>= f).map h := by
  cases x with
  | error _ => rfl
  | ok a => exact e a

theorem map_bind' {α β : Type} {g : α → α} {h : β → β} {x x' : Res α} {f f' : α → Res β} (hx : x' = x.map g)
    (e : ∀ a, f' (g a) = (f a).map h) : (x' >>= f') = (x >>= f).map h := by
  rw [hx]; exact map_bind e

theorem timed_layer (i : Nat) : (k.timed j).config.layer i = k.config.layer i := rfl

theorem timed_sendKey (c : Code) (p : Bool) : sendKey (k.timed j) c p = (sendKey k c p).timed j := by
  unfold sendKey
  by_cases h : c = KEYD.NOOP ∨ c = KEYD.EXTERNAL_MOUSE_BUTTON
  · rw [if_pos h, if_pos h]
  · rw [if_neg h, if_neg h]
    cases p
    · show (if k.keystate c ≠ false then _ else _) = Kbd.timed j (if k.keystate c ≠ false then _ else _)
      split <;> rfl
    · show (if k.keystate c ≠ true then _ else _) = Kbd.timed j (if k.keystate c ≠ true then _ else _)
      split <;> rfl

theorem timed_clearMod (c : Code) : clearMod (k.timed j) c = (clearMod k c).timed j := by
  unfold clearMod
  have hg : guardApplies (k.timed j) c = guardApplies k c := rfl
  have hk : (k.timed j).keystate = k.keystate := rfl
  rw [hg, hk]
  split <;> simp only [timed_sendKey]

theorem timed_setMod (mods : UInt8) (m : UInt8 × Code) : setMod mods (k.timed j) m = (setMod mods k m).timed j := by
  unfold setMod
  have hk : (k.timed j).keystate = k.keystate := rfl
  rw [hk]
  split <;> split <;> first | rfl | exact timed_sendKey _ _ | exact timed_clearMod _

theorem timed_foldl {α : Type} {f : Kbd → α → Kbd} (h : ∀ k a, f (k.timed j) a = (f k a).timed j) :
    ∀ (l : List α) (k : Kbd), l.foldl f (k.timed j) = (l.foldl f k).timed j
  | [], _ => rfl
  | a :: l, k => by
    rw [List.foldl_cons, List.foldl_cons, h]
    exact timed_foldl h l _

theorem timed_setMods (mods : UInt8) : setMods (k.timed j) mods = (setMods k mods).timed j :=
  timed_foldl (fun _ _ => timed_setMod _ _) _ _

theorem timed_updateMods (ex : Option Nat) (mods : UInt8) : updateMods (k.timed j) ex mods = (updateMods k ex mods).timed j := by
  unfold updateMods
  have : layerMods (k.timed j) ex mods = layerMods k ex mods := rfl
  rw [this]
  exact timed_setMods _

theorem timed_resetKeystate : resetKeystate (k.timed j) = (resetKeystate k).timed j := by
  unfold resetKeystate
  refine timed_foldl (fun k c => ?_) _ _
  dsimp only
  have hk : (k.timed j).keystate = k.keystate := rfl
  rw [hk]
  split <;> rfl

theorem timed_emitMacro : ∀ (l : List MacroOut) (k : Kbd), emitMacro (k.timed j) l = (emitMacro k l).timed j
  | [], _ => rfl
  | .key c d :: l, k => timed_emitMacro l (k.emit (.key c d))
  | .sleep us :: l, k => timed_emitMacro l (k.emit (.sleep us))

theorem timed_executeMacro (dl : Nat) (m : Macro) : executeMacro (k.timed j) dl m = (executeMacro k dl m).timed j := by
  have slow : ∀ n, emitMacro (updateMods (k.timed j) (some dl) 0) (macroExecute m n) =
      (emitMacro (updateMods k (some dl) 0) (macroExecute m n)).timed j := fun n => by
    rw [timed_updateMods]; exact timed_emitMacro _ _
  unfold executeMacro
  dsimp only
  split
  · split
    · rw [timed_updateMods, timed_sendKey, timed_sendKey]
    · exact slow _
  · exact slow _

theorem timed_deactivateLayer (i : Nat) : deactivateLayer (k.timed j) i = (deactivateLayer k i).map (Kbd.timed j) := by
  unfold deactivateLayer
  have hk : (k.timed j).layerState = k.layerState := rfl
  rw [hk]
  dsimp only
  split <;> rfl

theorem timed_activateLayer (c : Code) (i : Nat) : activateLayer (k.timed j) c i = (activateLayer k c i).map (Kbd.timed j) := by
  unfold activateLayer
  have hk : (k.timed j).layerState = k.layerState := rfl
  rw [hk]
  dsimp only
  split <;> rfl

theorem timed_clearOneshotLayer (i : Nat) : ∀ (n : Nat) (k : Kbd),
    clearOneshotLayer i n (k.timed j) = (clearOneshotLayer i n k).map (Kbd.timed j)
  | 0, _ => rfl
  | n+1, k => map_bind' (timed_deactivateLayer i) (fun a =>
      timed_clearOneshotLayer i n (a.modLayer i fun s => { s with oneshotDepth := s.oneshotDepth - 1 }))

theorem timed_clearOneshotLayers : ∀ (l : List Nat) (k : Kbd),
    clearOneshotLayers l (k.timed j) = (clearOneshotLayers l k).map (Kbd.timed j)
  | [], _ => rfl
  | i :: l, k => map_bind' (timed_clearOneshotLayer i _ k) (fun a => timed_clearOneshotLayers l a)

/-- The times once the one-shot layers have been cleared. -/
def Clocks.spent (j : Clocks) : Clocks := { j with one := 0 }

theorem timed_clearOneshot : clearOneshot (k.timed j) = (clearOneshot k).map (Kbd.timed j.spent) :=
  by
  unfold clearOneshot
  show (clearOneshotLayers (List.range k.config.layers.length) (k.timed j) >>= _) = _
  rw [timed_clearOneshotLayers]
  cases clearOneshotLayers (List.range k.config.layers.length) k <;> rfl

theorem timed_clearToggled : ∀ (l : List Nat) (k : Kbd),
    clearToggled l (k.timed j) = (clearToggled l k).map (Kbd.timed j)
  | [], _ => rfl
  | i :: l, k => by
    unfold clearToggled
    have h1 : (k.timed j).config.layer = k.config.layer := rfl
    have h2 : (k.timed j).layerState = k.layerState := rfl
    rw [h1, h2]
    split
    · exact map_bind' (timed_deactivateLayer (k := k.modLayer i fun s => { s with toggled := false }) i)
        (fun a => timed_clearToggled l a)
    · exact timed_clearToggled l k

theorem timed_clear : clear (k.timed j) = (clear k).map (Kbd.timed j.spent) := by
  unfold clear
  rw [timed_clearOneshot]
  refine map_bind (fun a => ?_)
  show (clearToggled (nonMainLayers a) (a.timed j.spent) >>= _) = _
  rw [timed_clearToggled]
  refine map_bind (fun b => ?_)
  show Except.ok (resetKeystate (({ b with activeMacro := none } : Kbd).timed j.spent)) = _
  rw [timed_resetKeystate]
  rfl

theorem timed_setlayout (i : Nat) : setlayout (k.timed j) i = (setlayout k i).map (Kbd.timed j.spent) := by
  unfold setlayout
  rw [timed_clear]
  refine map_bind (fun a => ?_)
  dsimp only
  have h : ∀ l : List Nat, l.foldl (fun (k : Kbd) i => if (k.config.layer i).type = .layout then
        k.modLayer i fun s => { s with active := 0 } else k) (a.timed j.spent) =
      (l.foldl (fun (k : Kbd) i => if (k.config.layer i).type = .layout then
        k.modLayer i fun s => { s with active := 0 } else k) a).timed j.spent := fun l => by
    refine timed_foldl (fun k c => ?_) l a
    rw [timed_layer]
    split <;> rfl
  have h2 : nonMainLayers (a.timed j.spent) = nonMainLayers a := rfl
  rw [h2, h]
  split <;> rfl

theorem timed_cacheSet (c : Code) (e : Option CacheEntry) : cacheSet (k.timed j) c e = (cacheSet k c e).map (Kbd.timed j) := by
  unfold cacheSet
  have h2 : (k.timed j).cache = k.cache := rfl
  rw [h2]
  split
  · rfl
  · split <;> rfl

theorem timed_lookup (c : Code) : lookupDescriptor (k.timed j) c = lookupDescriptor k c := rfl

theorem timed_pdLayer (c : Code) (i : Nat) (p : Bool) : pdLayer (k.timed j) c i p = (pdLayer k c i p).map (Kbd.timed j) := by
  unfold pdLayer
  refine map_bind' (by split <;> first | exact timed_activateLayer _ _ | exact timed_deactivateLayer _) (fun a => ?_)
  have h2 : (a.timed j).lastPressedCode = a.lastPressedCode := rfl
  rw [h2]
  split
  · have h3 := timed_updateMods (j := j) (k := ({ a with inhibitModifierGuard := true } : Kbd)) none 0
    show Except.ok ({ updateMods (({ a with inhibitModifierGuard := true } : Kbd).timed j) none 0 with inhibitModifierGuard := false } : Kbd) = _
    rw [h3]
    rfl
  · rw [timed_updateMods]; rfl

theorem timed_pdToggle (c : Code) (i : Nat) : pdToggle (k.timed j) c i = (pdToggle k c i).map (Kbd.timed j.spent) := by
  unfold pdToggle
  dsimp only
  generalize hm : k.modLayer i (fun s => { s with toggled := !s.toggled }) = k1
  have hm' : (k.timed j).modLayer i (fun s => { s with toggled := !s.toggled }) = k1.timed j := by rw [← hm]; rfl
  rw [hm']
  have h2 : (k1.timed j).layerState = k1.layerState := rfl
  rw [h2]
  refine map_bind' (g := Kbd.timed j) (by split <;> first | exact timed_activateLayer _ _ | exact timed_deactivateLayer _) (fun a => ?_)
  rw [timed_updateMods]
  exact timed_clearOneshot

theorem timed_pdCommand (c : Nat) : pdCommand (k.timed j) c = (pdCommand k c).map (Kbd.timed j.spent) := by
  unfold pdCommand
  dsimp only
  refine map_bind' (timed_clearOneshot (k := k.emit (.command (k.config.commands.getD c [])))) (fun a => ?_)
  rw [timed_updateMods]; rfl

theorem timed_pdSwapLayer (i dl : Nat) : pdSwapLayer (k.timed j) i dl = (pdSwapLayer k i dl).map (Kbd.timed j) := by
  unfold pdSwapLayer
  have h2 : (k.timed j).layerState = k.layerState := rfl
  have h3 : (k.timed j).cache = k.cache := rfl
  have h4 : swapHolder (k.timed j) dl = swapHolder k dl := rfl
  rw [h2, h3, h4]
  split
  · refine map_bind' (timed_deactivateLayer dl) (fun a => ?_)
    refine map_bind' (timed_activateLayer (k := a.modLayer dl fun s => { s with toggled := false }) 0 i) (fun b => ?_)
    dsimp only
    have : (b.timed j).modLayer i (fun s => { s with toggled := true }) =
      (b.modLayer i (fun s => { s with toggled := true })).timed j := rfl
    rw [this, timed_updateMods]; rfl
  · split
    · refine map_bind' (timed_deactivateLayer dl) (fun a => ?_)
      refine map_bind' (timed_activateLayer (k := a.modLayer dl fun s => { s with oneshotDepth := s.oneshotDepth - 1 }) 0 i) (fun b => ?_)
      dsimp only
      have : (b.timed j).modLayer i (fun s => { s with oneshotDepth := s.oneshotDepth + 1 }) =
        (b.modLayer i (fun s => { s with oneshotDepth := s.oneshotDepth + 1 })).timed j := rfl
      rw [this, timed_updateMods]; rfl
    · split
      · rfl
      · dsimp only
        refine map_bind' (timed_deactivateLayer (k := { k with cache := modifyFirst (swapHolder k dl) (fun e => { e with d := .layer i }) k.cache }) dl) (fun a => ?_)
        refine map_bind' (timed_activateLayer _ i) (fun b => ?_)
        rw [timed_updateMods]; rfl

theorem timed_pdSwap (i : Nat) (m : Option Macro) (dl : Nat) (p : Bool) :
    pdSwap (k.timed j) i m dl p = (pdSwap k i m dl p).map (Kbd.timed j) := by
  unfold pdSwap
  split
  · refine map_bind' (timed_pdSwapLayer i dl) (fun a => ?_)
    cases m with
    | none => rfl
    | some m => dsimp only; rw [timed_executeMacro]; rfl
  · split
    · split
      · rw [timed_sendKey, timed_updateMods]; rfl
      · rfl
    · rfl

theorem timed_pdMacroPrefix (d : Desc) (dl : Nat) (p : Bool) :
    pdMacroPrefix (k.timed j) d dl p = (pdMacroPrefix k d dl p).timed j := by
  unfold pdMacroPrefix
  split
  · cases d <;> first | rfl | exact timed_executeMacro _ _
  · rfl

/-! ### Two runs, one later than the other -/

/-- Both computations fail alike, or both succeed with related results. -/
def Twin {α β : Type} (Q : α → β → Prop) : Res α → Res β → Prop
  | .ok a, .ok b => Q a b
  | .error e, .error e' => e = e'
  | _, _ => False

theorem Twin.bind {α β γ δ : Type} {Q : α → β → Prop} {S : γ → δ → Prop} {x : Res α} {x' : Res β} {f : α → Res γ}
    {f' : β → Res δ} (h : Twin Q x x') (hf : ∀ a b, Q a b → Twin S (f a) (f' b)) : Twin S (x >>= f) (x' >>= f') := by
  cases x <;> cases x' <;> first | exact h.elim | exact h | exact hf _ _ h

theorem Twin.bindSat {α β γ δ : Type} {P : α → Prop} {Q : α → β → Prop} {S : γ → δ → Prop} {x : Res α} {x' : Res β}
    {f : α → Res γ} {f' : β → Res δ} (hs : Sat x P AnyErr) (h : Twin Q x x')
    (hf : ∀ a b, P a → Q a b → Twin S (f a) (f' b)) : Twin S (x >>= f) (x' >>= f') := by
  cases x <;> cases x' <;> first | exact h.elim | exact h | exact hf _ _ hs h

theorem Twin.imp {α β : Type} {Q S : α → β → Prop} {x : Res α} {x' : Res β} (h : Twin Q x x')
    (hf : ∀ a b, Q a b → S a b) : Twin S x x' := by
  cases x <;> cases x' <;> first | exact h.elim | exact h | exact hf _ _ h

theorem Twin.andSat {α β : Type} {P : α → Prop} {Q : α → β → Prop} {x : Res α} {x' : Res β}
    (hs : Sat x P AnyErr) (h : Twin Q x x') : Twin (fun a b => P a ∧ Q a b) x x' := by
  cases x <;> cases x' <;> first | exact h.elim | exact h | exact ⟨hs, h⟩

/-- A moment in one run and in the other, or never in both. -/
def Moment (d a b : Int) : Prop := (a = 0 ∧ b = 0) ∨ (0 < a ∧ b = a + d)

/-- The same event `d` milliseconds later. -/
def KeyEvent.late (d : Int) (e : KeyEvent) : KeyEvent := { e with ts := e.ts + d }

/-- Bindings whose idle time is within the 16 bits of the parser. -/
def Idles16 : Desc → Prop
  | .overloadIdle _ _ t => t ≤ 65536
  | _ => True

theorem idles16_closed : TClosed Idles16 where
  none := trivial
  keyseq := fun _ _ => trivial
  ot := fun _ _ _ _ => trivial
  ott := fun _ _ _ _ => trivial
  swap := fun _ _ => trivial
  swapm := fun _ _ _ => trivial

/-- The times `j` are those of `i`, `d` milliseconds later. -/
structure Fits (d : Int) (i j : Clocks) : Prop where
  timeouts : j.timeouts = i.timeouts.map (· + d)
  due : ∀ t ∈ i.timeouts, 0 < t
  one : Moment d i.one j.one
  macroAt : Moment d i.macroAt j.macroAt
  interval : j.interval = i.interval
  intervalPos : 0 ≤ i.interval
  overloadAt : Moment d i.overloadAt j.overloadAt
  simpleAt : Moment d i.simpleAt j.simpleAt
  pending : j.pending = { i.pending with expire := j.pending.expire, queue := i.pending.queue.map (KeyEvent.late d) }
  expire : Moment d i.pending.expire j.pending.expire
  tap : i.pending.tapExpiry = 0
  pq : ∀ e ∈ i.pending.queue, 65536 ≤ e.ts
  chord : j.chord = { i.chord with lastCodeTime := j.chord.lastCodeTime, queue := i.chord.queue.map (KeyEvent.late d) }
  chordAt : i.chord.state ≠ .inactive → 65536 ≤ i.chord.lastCodeTime ∧ j.chord.lastCodeTime = i.chord.lastCodeTime + d
  cq : ∀ e ∈ i.chord.queue, 65536 ≤ e.ts
  cMacro : j.cMacro = i.cMacro
  cRepeat : j.cRepeat = i.cRepeat
  cOne : j.cOne = i.cOne
  cTap : j.cTap = i.cTap
  cChord : j.cChord = i.cChord
  cHold : j.cHold = i.cHold
  pMacro : 0 ≤ i.cMacro
  pRepeat : 0 ≤ i.cRepeat
  pOne : 0 ≤ i.cOne
  pTap : i.cTap ≤ 65536
  pChord : 0 ≤ i.cChord
  pHold : 0 ≤ i.cHold

theorem Fits.spent {d : Int} {i j : Clocks} (h : Fits d i j) : Fits d i.spent j.spent :=
  { h with one := Or.inl ⟨rfl, rfl⟩ }

/-- The second keyboard is in the state of the first, `d` milliseconds later. -/
def Delayed (d : Int) (k k' : Kbd) : Prop := ∃ j, k' = k.timed j ∧ Fits d k.clocks j

theorem Delayed.plain {d : Int} {k k' : Kbd} {f : Kbd → Res Kbd} (h : Delayed d k k')
    (hf : ∀ j k, f (k.timed j) = (f k).map (Kbd.timed j)) : Twin (Delayed d) (f k) (f k') := by
  obtain ⟨j, rfl, hj⟩ := h
  have h1 := hf k.clocks k
  rw [timed_self] at h1
  rw [hf]
  cases hk : f k with
  | error e => exact rfl
  | ok a =>
    rw [hk] at h1
    have h1 : a = a.timed k.clocks := Except.ok.inj h1
    refine ⟨j, rfl, ?_⟩
    have h2 : a.clocks = k.clocks := by rw [h1]; rfl
    rw [h2]; exact hj

theorem Delayed.spent {d : Int} {k k' : Kbd} {f : Kbd → Res Kbd} (h : Delayed d k k')
    (hf : ∀ j k, f (k.timed j) = (f k).map (Kbd.timed j.spent)) : Twin (Delayed d) (f k) (f k') := by
  obtain ⟨j, rfl, hj⟩ := h
  have h1 := hf k.clocks k
  rw [timed_self] at h1
  rw [hf]
  cases hk : f k with
  | error e => exact rfl
  | ok a =>
    rw [hk] at h1
    have h1 : a = a.timed k.clocks.spent := Except.ok.inj h1
    refine ⟨j.spent, rfl, ?_⟩
    have h2 : a.clocks = k.clocks.spent := by rw [h1]; rfl
    rw [h2]; exact hj.spent

/-- The same for functions that cannot fail. -/
theorem Delayed.pure {d : Int} {k k' : Kbd} (f : Kbd → Kbd) (h : Delayed d k k')
    (hf : ∀ j k, f (k.timed j) = (f k).timed j) : Delayed d (f k) (f k') :=
  Delayed.plain (f := fun k => .ok (f k)) h (fun j k => by
    show Except.ok (f (k.timed j)) = _
    rw [hf]; rfl)

variable {d : Int} {k k' : Kbd}

theorem Delayed.schedule (h : Delayed d k k') {t : Int} (ht : 0 < t) :
    Twin (Delayed d) (scheduleTimeout k t) (scheduleTimeout k' (t + d)) := by
  obtain ⟨j, rfl, hj⟩ := h
  unfold scheduleTimeout
  have e : (k.timed j).timeouts.length = k.timeouts.length := by
    show j.timeouts.length = _
    rw [hj.timeouts, List.length_map]; rfl
  rw [e]
  split
  · refine ⟨{ j with timeouts := j.timeouts ++ [t + d] }, rfl, { hj with timeouts := ?_, due := ?_ }⟩
    · show j.timeouts ++ [t + d] = (k.timeouts ++ [t]).map (· + d)
      rw [hj.timeouts, List.map_append]; rfl
    · intro x hx
      rcases List.mem_append.1 (show x ∈ k.timeouts ++ [t] from hx) with hx | hx
      · exact hj.due x hx
      · rw [List.mem_singleton.1 hx]; exact ht
  · exact rfl

theorem Moment.due {a b t x : Int} (h : Moment d a b) (ht : 65536 ≤ t) (hx : x ≤ 65536) (hd : 0 ≤ d) :
    (t + d - b ≥ x) ↔ (t - a ≥ x) := by
  rcases h with ⟨rfl, rfl⟩ | ⟨h, rfl⟩ <;> omega

/-! ### The actions -/

theorem delayed_keyseq (h : Delayed d k k') (code : Code) (mods : UInt8) (dl : Nat) (p : Bool) {t : Int}
    (ht : 65536 ≤ t) : Twin (Delayed d) (pdKeyseq k code mods dl p t) (pdKeyseq k' code mods dl p (t + d)) := by
  unfold pdKeyseq
  have h1 : Twin (Delayed d)
      (if p then clearOneshot (sendKey (updateMods (if k.keystate code then sendKey k code false else k) (some dl) mods) code true)
        else .ok (updateMods (sendKey k code false) none 0))
      (if p then clearOneshot (sendKey (updateMods (if k'.keystate code then sendKey k' code false else k') (some dl) mods) code true)
        else .ok (updateMods (sendKey k' code false) none 0)) := by
    cases p with
    | true =>
      refine Delayed.spent (f := fun k => clearOneshot (sendKey (updateMods (if k.keystate code then sendKey k code false else k) (some dl) mods) code true)) h (fun j k => ?_)
      have e : (if (k.timed j).keystate code then sendKey (k.timed j) code false else k.timed j) =
          (if k.keystate code then sendKey k code false else k).timed j := by
        show (if k.keystate code then sendKey (k.timed j) code false else k.timed j) = _
        split
        · exact timed_sendKey _ _
        · rfl
      rw [e, timed_updateMods, timed_sendKey, timed_clearOneshot]
    | false =>
      exact Delayed.plain (f := fun k => .ok (updateMods (sendKey k code false) none 0)) h (fun j k => by
        rw [timed_sendKey, timed_updateMods]; rfl)
  refine Twin.bind h1 ?_
  rintro a b ⟨j, rfl, hj⟩
  by_cases hm : mods = 0 ∨ mods = MOD_SHIFT
  · rw [if_pos hm, if_pos hm]
    exact ⟨{ j with simpleAt := t + d }, rfl, { hj with simpleAt := Or.inr ⟨by show 0 < t; omega, rfl⟩ }⟩
  · rw [if_neg hm, if_neg hm]
    exact ⟨j, rfl, hj⟩

theorem delayed_wait (h : Delayed d k k') (p : PendingKey) {t : Int} (ht : 65536 ≤ t) (x : Nat)
    (hx : p.expire = t + x) (hq : p.queue = k.pending.queue) (hz : p.tapExpiry = k.pending.tapExpiry) :
    Twin (Delayed d) (scheduleTimeout { k with pending := p } (t + x))
      (scheduleTimeout { k' with pending := { p with expire := t + d + x, queue := k'.pending.queue } } (t + d + x)) := by
  have e : t + d + (x : Int) = t + x + d := by omega
  rw [e]
  refine Delayed.schedule ?_ (by omega)
  obtain ⟨j, rfl, hj⟩ := h
  refine ⟨{ j with pending := { p with expire := t + x + d, queue := j.pending.queue } }, rfl,
    { hj with pending := ?_, expire := ?_, tap := ?_, pq := ?_ }⟩
  · have e2 : j.pending.queue = k.pending.queue.map (KeyEvent.late d) := by rw [hj.pending]; rfl
    show ({ p with expire := t + x + d, queue := j.pending.queue } : PendingKey) =
      { p with expire := t + x + d, queue := p.queue.map (KeyEvent.late d) }
    rw [hq, e2]
  · exact Or.inr ⟨by show 0 < p.expire; omega, by show t + x + d = p.expire + d; omega⟩
  · exact hz.trans hj.tap
  · intro e he
    exact hj.pq e (by rw [← show p.queue = k.clocks.pending.queue from hq]; exact he)

theorem Delayed.pendingEq (h : Delayed d k k') :
    k'.pending = { k.pending with expire := k'.pending.expire, queue := k'.pending.queue } := by
  obtain ⟨j, rfl, hj⟩ := h
  have hp := hj.pending
  have e2 : j.pending.queue = k.pending.queue.map (KeyEvent.late d) := by rw [hp]; rfl
  show j.pending = { k.pending with expire := j.pending.expire, queue := j.pending.queue }
  rw [e2]
  exact hp

theorem delayed_overloadTimeout (h : Delayed d k k') (code : Code) (tap : Bool) (l a x dl : Nat) {t : Int}
    (ht : 65536 ≤ t) :
    Twin (Delayed d) (pdOverloadTimeout k code tap l a x dl t) (pdOverloadTimeout k' code tap l a x dl (t + d)) := by
  have hp := h.pendingEq
  have := delayed_wait h { k.pending with
    code := code
    behaviour := if tap then .uninterruptibleTapAction2 else .uninterruptible
    dl := dl
    action1 := k.config.desc a
    action2 := .layer l
    expire := t + x } ht x rfl rfl rfl
  have hc : k'.config.desc a = k.config.desc a := by obtain ⟨j, rfl, _⟩ := h; rfl
  unfold pdOverloadTimeout
  dsimp only
  rw [hc, hp]
  exact this

theorem delayed_timeout (h : Delayed d k k') (code : Code) (a x b dl : Nat) {t : Int} (ht : 65536 ≤ t) :
    Twin (Delayed d) (pdTimeout k code a x b dl t) (pdTimeout k' code a x b dl (t + d)) := by
  have hp := h.pendingEq
  have := delayed_wait h { k.pending with
    action1 := k.config.desc a
    action2 := k.config.desc b
    code := code
    dl := dl
    expire := t + x
    behaviour := .interruptAction1 } ht x rfl rfl rfl
  have hc : k'.config.desc = k.config.desc := by obtain ⟨j, rfl, _⟩ := h; rfl
  unfold pdTimeout
  dsimp only
  rw [hc, hp]
  exact this

theorem delayed_oneshot (h : Delayed d k k') (code : Code) (l dl : Nat) (p : Bool) {t : Int} (ht : 65536 ≤ t) :
    Twin (Delayed d) (pdOneshot k code l dl p t) (pdOneshot k' code l dl p (t + d)) := by
  cases p with
  | true =>
    exact Delayed.plain (f := fun k => pdOneshot k code l dl true t) h (fun j k => by
      refine map_bind' (timed_activateLayer code l) (fun a => ?_)
      rw [timed_updateMods]; rfl)
  | false =>
    unfold pdOneshot
    have hl : k'.oneshotLatch = k.oneshotLatch := by obtain ⟨j, rfl, _⟩ := h; rfl
    have hs : k'.layerState = k.layerState := by obtain ⟨j, rfl, _⟩ := h; rfl
    rw [if_neg (show ¬ (false = true) by decide), if_neg (show ¬ (false = true) by decide), hl, hs]
    by_cases h1 : k.oneshotLatch = true
    · rw [if_pos h1, if_pos h1]
      dsimp only
      by_cases h2 : (k.layerState l).oneshotDepth ≥ 255
      · rw [if_pos h2, if_pos h2]; exact rfl
      · rw [if_neg h2, if_neg h2]
        have h3 : Delayed d (k.modLayer l fun s => { s with oneshotDepth := s.oneshotDepth + 1 })
            (k'.modLayer l fun s => { s with oneshotDepth := s.oneshotDepth + 1 }) :=
          Delayed.pure (fun k => k.modLayer l fun s => { s with oneshotDepth := s.oneshotDepth + 1 }) h (fun _ _ => rfl)
        revert h3
        generalize (k.modLayer l fun s => { s with oneshotDepth := s.oneshotDepth + 1 }) = k1
        generalize (k'.modLayer l fun s => { s with oneshotDepth := s.oneshotDepth + 1 }) = k1'
        intro h3
        have hc : k1'.config.oneshotTimeout = k1.config.oneshotTimeout := by
          obtain ⟨j, rfl, hj⟩ := h3; exact hj.cOne
        have hp : 0 ≤ k1.config.oneshotTimeout := by
          obtain ⟨j, rfl, hj⟩ := h3; exact hj.pOne
        rw [hc]
        by_cases h4 : k1.config.oneshotTimeout ≠ 0
        · rw [if_pos h4, if_pos h4]
          have e : t + d + k1.config.oneshotTimeout = t + k1.config.oneshotTimeout + d := by omega
          rw [e]
          refine Delayed.schedule ?_ (by show 0 < t + k1.config.oneshotTimeout; omega)
          obtain ⟨j, rfl, hj⟩ := h3
          exact ⟨{ j with one := t + k1.config.oneshotTimeout + d }, rfl,
            { hj with one := Or.inr ⟨by show 0 < t + k1.config.oneshotTimeout; omega, rfl⟩ }⟩
        · rw [if_neg h4, if_neg h4]; exact h3
    · rw [if_neg h1, if_neg h1]
      refine Delayed.plain (f := fun k => do
        let k ← deactivateLayer k l
        .ok (updateMods k none 0)) h (fun j k => ?_)
      refine map_bind' (timed_deactivateLayer l) (fun a => ?_)
      rw [timed_updateMods]; rfl

theorem delayed_macro (h : Delayed d k k') (m : Nat) (x iv : Int) (dl : Nat) {t : Int} (ht : 65536 ≤ t)
    (hx : 0 ≤ x) (hi : 0 ≤ iv) :
    Twin (Delayed d) (pdMacro k m x iv dl t) (pdMacro k' m x iv dl (t + d)) := by
  unfold pdMacro
  dsimp only
  have h1 : Delayed d { k with macroRepeatInterval := iv } { k' with macroRepeatInterval := iv } := by
    obtain ⟨j, rfl, hj⟩ := h
    exact ⟨{ j with interval := iv }, rfl, { hj with interval := rfl, intervalPos := hi }⟩
  refine Twin.bind (Delayed.spent (f := clearOneshot) h1 (fun _ _ => timed_clearOneshot)) (fun a b hab => ?_)
  have hm : b.config.mac m = a.config.mac m := by obtain ⟨j, rfl, _⟩ := hab; rfl
  rw [hm]
  have h2 : Delayed d (executeMacro a dl (a.config.mac m)) (executeMacro b dl (a.config.mac m)) :=
    Delayed.pure (fun k => executeMacro k dl (a.config.mac m)) hab (fun _ _ => timed_executeMacro _ _)
  have e : t + d + x = t + x + d := by omega
  rw [e]
  refine Delayed.schedule ?_ (by show 0 < t + x; omega)
  obtain ⟨j, hj1, hj⟩ := h2
  rw [hj1]
  exact ⟨{ j with macroAt := t + x + d }, rfl, { hj with macroAt := Or.inr ⟨by show 0 < t + x; omega, rfl⟩ }⟩

theorem delayed_tap (h : Delayed d k k') (hd : 0 ≤ d) (code : Code) {t : Int} (ht : 65536 ≤ t) :
    isTap k' code (t + d) = isTap k code t := by
  obtain ⟨j, rfl, hj⟩ := h
  unfold isTap
  have e1 : (k.timed j).lastPressedCode = k.lastPressedCode := rfl
  have e2 : (k.timed j).config.overloadTapTimeout = k.config.overloadTapTimeout := hj.cTap
  have e3 : (t + d - (k.timed j).overloadStartTime < k.config.overloadTapTimeout) ↔
      (t - k.overloadStartTime < k.config.overloadTapTimeout) := by
    have := Moment.due hj.overloadAt ht hj.pTap hd
    constructor
    · intro h; exact Int.not_le.1 (fun h2 => absurd (this.2 h2) (Int.not_le.2 h))
    · intro h; exact Int.not_le.1 (fun h2 => absurd (this.1 h2) (Int.not_le.2 h))
  rw [e1, e2]
  simp only [e3]

theorem delayed_idle (h : Delayed d k k') (hd : 0 ≤ d) (a b x : Nat) {t : Int} (ht : 65536 ≤ t) (hx : x ≤ 65536) :
    idleAction k' a b x (t + d) = idleAction k a b x t := by
  obtain ⟨j, rfl, hj⟩ := h
  unfold idleAction
  have e : (t + d - (k.timed j).lastSimpleKeyTime ≥ x) ↔ (t - k.lastSimpleKeyTime ≥ x) :=
    Moment.due hj.simpleAt ht (by omega) hd
  have e1 : (k.timed j).config.desc = k.config.desc := rfl
  rw [e1]
  simp only [e]

/-- `process_descriptor` does the same later. -/
theorem delayed_descriptor (hd : 0 ≤ d) : ∀ (n : Nat) (k k' : Kbd) (c : Code) (x : Desc) (dl : Nat) (p : Bool) (t : Int),
    65536 ≤ t → Idles16 x → Stored Idles16 k → Delayed d k k' →
    Twin (Delayed d) (processDescriptor n k c x dl p t) (processDescriptor n k' c x dl p (t + d))
  | 0, _, _, _, _, _, _, _, _, _, _, _ => rfl
  | n+1, k, k', c, x, dl, p, t, ht, hx, hs, h => by
    unfold processDescriptor
    have h0 : Delayed d (pdMacroPrefix k x dl p) (pdMacroPrefix k' x dl p) :=
      Delayed.pure (fun k => pdMacroPrefix k x dl p) h (fun _ _ => timed_pdMacroPrefix _ _ _)
    have hs0 : Stored Idles16 (pdMacroPrefix k x dl p) := hs.calm (Calm.of_frame (Calm.pdMacroPrefix k x dl p))
    dsimp only
    revert h0 hs0
    generalize pdMacroPrefix k x dl p = k1
    generalize pdMacroPrefix k' x dl p = k1'
    intro h0 hs0
    refine Twin.bind (Q := Delayed d) ?_ (fun a b hab => ?_)
    · have hmac : k1'.config.mac = k1.config.mac := by obtain ⟨j, rfl, _⟩ := h0; rfl
      have hdesc : k1'.config.desc = k1.config.desc := by obtain ⟨j, rfl, _⟩ := h0; rfl
      cases x with
      | none => exact h0
      | keyseq c m => exact delayed_keyseq h0 c m dl p ht
      | scroll s => exact Delayed.pure (fun k => { k with scroll := { k.scroll with sensitivity := s, active := p } }) h0 (fun _ _ => rfl)
      | scrollToggle s =>
        exact Delayed.pure (fun k => { k with scroll := { k.scroll with
          sensitivity := s, active := if p then !k.scroll.active else k.scroll.active } }) h0 (fun _ _ => rfl)
      | overloadIdle a b w =>
        cases p with
        | false => exact h0
        | true =>
          show Twin _ (pdOverloadIdle _ _ _ _ _ _ _ _) (pdOverloadIdle _ _ _ _ _ _ _ _)
          unfold pdOverloadIdle
          dsimp only
          rw [delayed_idle h0 hd a b w ht hx]
          have hi : Idles16 (idleAction k1 a b w t) := by
            unfold idleAction
            split <;> exact hs0.table.descs _
          refine Twin.bind (delayed_descriptor hd n k1 k1' c _ dl true t ht hi hs0 h0) (fun a b hab => ?_)
          exact Delayed.pure (fun k => cacheModify k c fun e => { e with d := _ }) hab (fun _ _ => rfl)
      | overloadTimeout l a w =>
        cases p with
        | false => exact h0
        | true => exact delayed_overloadTimeout h0 c false l a w dl ht
      | overloadTimeoutTap l a w =>
        cases p with
        | false => exact h0
        | true => exact delayed_overloadTimeout h0 c true l a w dl ht
      | layout l =>
        cases p with
        | false => exact h0
        | true => exact Delayed.spent (f := fun k => setlayout k l) h0 (fun _ _ => timed_setlayout _)
      | layer l => exact Delayed.plain (f := fun k => pdLayer k c l p) h0 (fun _ _ => timed_pdLayer _ _ _)
      | layerm l m => exact Delayed.plain (f := fun k => pdLayer k c l p) h0 (fun _ _ => timed_pdLayer _ _ _)
      | clear =>
        cases p with
        | false => exact h0
        | true => exact Delayed.spent (f := fun k => clear k) h0 (fun _ _ => timed_clear)
      | clearm m =>
        cases p with
        | false => exact h0
        | true =>
          refine Twin.bind (Delayed.spent (f := fun k => clear k) h0 (fun _ _ => timed_clear)) (fun a b hab => ?_)
          have hm : b.config.mac m = a.config.mac m := by obtain ⟨j, rfl, _⟩ := hab; rfl
          rw [hm]
          exact Delayed.pure (fun k => executeMacro k dl (a.config.mac m)) hab (fun _ _ => timed_executeMacro _ _)
      | overload l a =>
        cases p with
        | true =>
          show Twin _ (pdOverloadPress _ _ _ _) (pdOverloadPress _ _ _ _)
          unfold pdOverloadPress
          have h1 : Delayed d { k1 with overloadStartTime := t } { k1' with overloadStartTime := t + d } := by
            obtain ⟨j, rfl, hj⟩ := h0
            exact ⟨{ j with overloadAt := t + d }, rfl,
              { hj with overloadAt := Or.inr ⟨by show 0 < t; omega, rfl⟩ }⟩
          refine Twin.bind (Delayed.plain (f := fun k => activateLayer k c l) h1 (fun _ _ => timed_activateLayer _ _)) (fun a b hab => ?_)
          exact Delayed.pure (fun k => updateMods k none 0) hab (fun _ _ => timed_updateMods _ _)
        | false =>
          show Twin _ (pdOverloadRelease _ _ _ _ _ _ _) (pdOverloadRelease _ _ _ _ _ _ _)
          unfold pdOverloadRelease
          dsimp only
          rw [hdesc]
          have ha : Idles16 (k1.config.desc a) := hs0.table.descs a
          revert ha
          generalize k1.config.desc a = act
          intro ha
          refine Twin.bindSat (P := Stored Idles16) ((Calm.deactivate k1 l).imp (fun _ hc => hs0.calm hc))
            (Delayed.plain (f := fun k => deactivateLayer k l) h0 (fun _ _ => timed_deactivateLayer _)) (fun a b sa hab => ?_)
          have h2 : Delayed d (updateMods a none 0) (updateMods b none 0) :=
            Delayed.pure (fun k => updateMods k none 0) hab (fun _ _ => timed_updateMods _ _)
          have s2 : Stored Idles16 (updateMods a none 0) := sa.calm (Calm.of_frame (KeyFrame.updateMods a none 0))
          revert h2 s2
          generalize updateMods a none 0 = a2
          generalize updateMods b none 0 = b2
          intro h2 s2
          rw [delayed_tap h2 hd c ht]
          split
          · have hpd : Twin (Delayed d) (do
                let k ← processDescriptor n a2 c act dl true t
                processDescriptor n k c act dl false t) (do
                let k ← processDescriptor n b2 c act dl true (t + d)
                processDescriptor n k c act dl false (t + d)) :=
              Twin.bindSat (P := Stored Idles16) (Stored.processDescriptor idles16_closed n a2 c act dl true t ha s2)
                (delayed_descriptor hd n a2 b2 c act dl true t ht ha s2 h2)
                (fun a b sa hab => delayed_descriptor hd n a b c act dl false t ht ha sa hab)
            cases act with
            | «macro» m =>
              have hm : b2.config.mac m = a2.config.mac m := by obtain ⟨j, rfl, _⟩ := h2; rfl
              dsimp only
              rw [hm]
              exact Delayed.pure (fun k => executeMacro k dl (a2.config.mac m)) h2 (fun _ _ => timed_executeMacro _ _)
            | _ => exact hpd
          · exact h2
      | oneshot l => exact delayed_oneshot h0 c l dl p ht
      | oneshotm l m => exact delayed_oneshot h0 c l dl p ht
      | «macro» m =>
        cases p with
        | false => exact h0
        | true =>
          have e1 : k1'.config.macroTimeout = k1.config.macroTimeout := by obtain ⟨j, rfl, hj⟩ := h0; exact hj.cMacro
          have e2 : k1'.config.macroRepeatTimeout = k1.config.macroRepeatTimeout := by
            obtain ⟨j, rfl, hj⟩ := h0; exact hj.cRepeat
          show Twin _ (pdMacro _ _ _ _ _ _) (pdMacro _ _ _ _ _ _)
          rw [e1, e2]
          refine delayed_macro h0 m _ _ dl ht ?_ ?_
          · obtain ⟨j, rfl, hj⟩ := h0; exact hj.pMacro
          · obtain ⟨j, rfl, hj⟩ := h0; exact hj.pRepeat
      | macro2 w r m =>
        cases p with
        | false => exact h0
        | true => exact delayed_macro h0 m w r dl ht (by omega) (by omega)
      | toggle l =>
        cases p with
        | false => exact h0
        | true => exact Delayed.spent (f := fun k => pdToggle k c l) h0 (fun _ _ => timed_pdToggle _ _)
      | togglem l m =>
        cases p with
        | false => exact h0
        | true => exact Delayed.spent (f := fun k => pdToggle k c l) h0 (fun _ _ => timed_pdToggle _ _)
      | timeout a w b =>
        cases p with
        | false => exact h0
        | true => exact delayed_timeout h0 c a w b dl ht
      | command m =>
        cases p with
        | false => exact h0
        | true => exact Delayed.spent (f := fun k => pdCommand k m) h0 (fun _ _ => timed_pdCommand _)
      | swap l => exact Delayed.plain (f := fun k => pdSwap k l none dl p) h0 (fun _ _ => timed_pdSwap _ _ _ _)
      | swapm l m =>
        show Twin _ (pdSwap _ _ _ _ _) (pdSwap _ _ _ _ _)
        rw [hmac]
        exact Delayed.plain (f := fun k => pdSwap k l (some (k1.config.mac m)) dl p) h0 (fun _ _ => timed_pdSwap _ _ _ _)
    · cases p with
      | false => exact hab
      | true => exact Delayed.pure (fun k => { k with lastPressedCode := c }) hab (fun _ _ => rfl)

/-! ### Chords, undecided keys and the loop -/

theorem stored_inv : EngineInv (fun k => Stored Idles16 k ∧ True) AnyErr :=
  TInv.engineInv idles16_closed (P := fun _ => True) (E := AnyErr)
    { errs := fun _ _ => trivial
      chord := fun _ _ _ => trivial
      timeouts := fun _ _ _ => trivial
      passed := fun _ _ _ => trivial
      swallowed := fun _ _ _ => trivial
      activeChords := fun _ _ _ => trivial
      enqueue := fun _ _ _ => trivial
      resolve := fun k a t _ _ _ _ _ _ => by cases resolvePendingStep k a t <;> trivial
      timers := fun k c t _ _ => by cases stepTimers k c t <;> trivial
      key := fun k c p t _ _ _ => by cases stepKey k c p t <;> trivial }

/-- The second keyboard is behind the first by `d` milliseconds. -/
def Behind (d : Int) (k k' : Kbd) : Prop := Stored Idles16 k ∧ Delayed d k k'

/-- The recursive calls do the same later. -/
def PETwin (d : Int) (pe : PE) : Prop := ∀ k k' c p t, Behind d k k' → 65536 ≤ t →
  Twin (fun r s => Behind d r.1 s.1 ∧ s.2 = r.2) (pe k c p t) (pe k' c p (t + d))

theorem Behind.sat {x x' : Res Kbd} (hs : Sat x (Stored Idles16) AnyErr) (h : Twin (Delayed d) x x') :
    Twin (Behind d) x x' := Twin.andSat hs h

theorem Sat.fst {x : Res Kbd} {P : Kbd → Prop} (h : Sat x (fun k => P k ∧ True) AnyErr) : Sat x P AnyErr :=
  h.imp (fun _ h => h.1)

theorem Delayed.steps (h : Delayed d k k') (s s' : List Step) : Delayed d { k with steps := s } { k' with steps := s' } := by
  obtain ⟨j, rfl, hj⟩ := h
  exact ⟨{ j with steps := s' }, rfl, { hj with }⟩

theorem Behind.steps (h : Behind d k k') (s s' : List Step) : Behind d { k with steps := s } { k' with steps := s' } :=
  ⟨h.1.frame rfl rfl rfl rfl, h.2.steps s s'⟩

theorem Delayed.chordEq (h : Delayed d k k') : k'.chord = { k.chord with
    lastCodeTime := k'.chord.lastCodeTime, queue := k.chord.queue.map (KeyEvent.late d) } := by
  obtain ⟨j, rfl, hj⟩ := h; exact hj.chord

theorem Delayed.chordAt (h : Delayed d k k') (hs : k.chord.state ≠ .inactive) :
    65536 ≤ k.chord.lastCodeTime ∧ k'.chord.lastCodeTime = k.chord.lastCodeTime + d := by
  obtain ⟨j, rfl, hj⟩ := h; exact hj.chordAt hs

theorem Delayed.cq (h : Delayed d k k') : ∀ e ∈ k.chord.queue, 65536 ≤ e.ts := by
  obtain ⟨j, rfl, hj⟩ := h; exact hj.cq

theorem Delayed.setChord (h : Delayed d k k') {c c' : ChordSt}
    (e : c' = { c with lastCodeTime := c'.lastCodeTime, queue := c.queue.map (KeyEvent.late d) })
    (ha : c.state ≠ .inactive → 65536 ≤ c.lastCodeTime ∧ c'.lastCodeTime = c.lastCodeTime + d)
    (hq : ∀ e ∈ c.queue, 65536 ≤ e.ts) : Delayed d { k with chord := c } { k' with chord := c' } := by
  obtain ⟨j, rfl, hj⟩ := h
  exact ⟨{ j with chord := c' }, rfl, { hj with chord := e, chordAt := ha, cq := hq }⟩

theorem Behind.setChord (h : Behind d k k') {c c' : ChordSt}
    (e : c' = { c with lastCodeTime := c'.lastCodeTime, queue := c.queue.map (KeyEvent.late d) })
    (ha : c.state ≠ .inactive → 65536 ≤ c.lastCodeTime ∧ c'.lastCodeTime = c.lastCodeTime + d)
    (hq : ∀ e ∈ c.queue, 65536 ≤ e.ts) : Behind d { k with chord := c } { k' with chord := c' } :=
  ⟨h.1.frame rfl rfl rfl rfl, h.2.setChord e ha hq⟩

theorem Behind.schedule (h : Behind d k k') {t : Int} (ht : 0 < t) :
    Twin (Behind d) (scheduleTimeout k t) (scheduleTimeout k' (t + d)) :=
  Behind.sat ((Calm.schedule k t).imp (fun _ hc => h.1.calm hc)) (h.2.schedule ht)

theorem Delayed.config (h : Delayed d k k') : k'.config = k.config := by
  obtain ⟨j, rfl, hj⟩ := h
  have e1 := hj.cMacro
  have e2 := hj.cRepeat
  have e3 := hj.cOne
  have e4 := hj.cTap
  have e5 := hj.cChord
  have e6 := hj.cHold
  show ({ k.config with
      macroTimeout := j.cMacro
      macroRepeatTimeout := j.cRepeat
      oneshotTimeout := j.cOne
      overloadTapTimeout := j.cTap
      chordInterkeyTimeout := j.cChord
      chordHoldTimeout := j.cHold } : Config) = k.config
  rw [e1, e2, e3, e4, e5, e6]
  rfl

theorem Delayed.settings (h : Delayed d k k') : 0 ≤ k.config.chordInterkeyTimeout ∧ 0 ≤ k.config.chordHoldTimeout := by
  obtain ⟨j, rfl, hj⟩ := h; exact ⟨hj.pChord, hj.pHold⟩

theorem catchUp_idle (pe : PE) (n : Nat) (k : Kbd) {x : Int} (ts limit : Int) (h : x ≤ 0) :
    catchUp pe (n + 1) k x ts limit = .ok (k, x, ts) := by
  unfold catchUp
  rw [if_neg (by omega)]

theorem delayed_catchUp {pe : PE} (hpe : PETwin d pe) : ∀ (n : Nat) (k k' : Kbd) (x ts limit : Int), Behind d k k' →
    (0 < x → 65536 ≤ ts) →
    Twin (fun r s => Behind d r.1 s.1) (catchUp pe n k x ts limit) (catchUp pe n k' x (ts + d) (limit + d))
  | 0, _, _, _, _, _, _, _ => rfl
  | n+1, k, k', x, ts, limit, h, hx => by
    unfold catchUp
    by_cases hc : x > 0 ∧ ts ≤ limit
    · rw [if_pos hc, if_pos (by omega)]
      refine Twin.bind (hpe k k' 0 false ts h (hx hc.1)) ?_
      rintro ⟨a, w⟩ ⟨b, w'⟩ ⟨hab, hw⟩
      dsimp only at hw hab ⊢
      subst hw
      have e : ts + d + w' = ts + w' + d := by omega
      rw [e]
      have := hx hc.1
      exact delayed_catchUp hpe n a b w' (ts + w') limit hab (by omega)
    · rw [if_neg hc, if_neg (by omega)]
      exact h

theorem delayed_loop {pe : PE} (hpe : PETwin d pe) : ∀ (evs : List KeyEvent) (k k' : Kbd) (x ts ts' : Int), Behind d k k' →
    (∀ e ∈ evs, 65536 ≤ e.ts) → (x ≤ 0 ∨ (65536 ≤ ts ∧ ts' = ts + d)) →
    Twin (fun r s => Behind d r.1 s.1 ∧ s.2 = r.2) (processEventsLoop pe evs k x ts)
      (processEventsLoop pe (evs.map (KeyEvent.late d)) k' x ts')
  | [], _, _, _, _, _, h, _, _ => ⟨h, rfl⟩
  | ev :: rest, k, k', x, ts, ts', h, he, hx => by
    rw [List.map_cons]
    unfold processEventsLoop
    have h1 : Twin (fun r s => Behind d r.1 s.1) (catchUp pe ((ev.ts - ts).toNat + 2) k x ts ev.ts)
        (catchUp pe (((ev.late d).ts - ts').toNat + 2) k' x ts' (ev.late d).ts) := by
      rcases hx with hx | ⟨hx, rfl⟩
      · rw [catchUp_idle _ _ _ _ _ hx, catchUp_idle _ _ _ _ _ hx]; exact h
      · have e : ((ev.late d).ts - (ts + d)).toNat = (ev.ts - ts).toNat := by
          show (ev.ts + d - (ts + d)).toNat = _
          congr 1
          omega
        rw [e]
        exact delayed_catchUp hpe _ _ _ _ _ _ h (fun _ => hx)
    refine Twin.bind h1 ?_
    rintro ⟨a, a1, a2⟩ ⟨b, b1, b2⟩ hab
    dsimp only at hab ⊢
    have hev := he ev (List.mem_cons_self ..)
    refine Twin.bind (hpe a b ev.code ev.pressed ev.ts hab hev) ?_
    rintro ⟨a, w⟩ ⟨b, w'⟩ ⟨hab, hw⟩
    dsimp only at hw hab ⊢
    subst hw
    refine delayed_loop hpe rest a b w' _ _ hab (fun e he' => he e (List.mem_cons_of_mem _ he')) ?_
    by_cases hw : w' ≤ 0
    · exact Or.inl hw
    · refine Or.inr ⟨by omega, ?_⟩
      show ev.ts + d + w' = _
      omega

theorem delayed_events {pe : PE} (hpe : PETwin d pe) (evs : List KeyEvent) {k k' : Kbd} (h : Behind d k k')
    (he : ∀ e ∈ evs, 65536 ≤ e.ts) :
    Twin (fun r s => Behind d r.1 s.1 ∧ s.2 = r.2) (processEventsWith pe k evs)
      (processEventsWith pe k' (evs.map (KeyEvent.late d))) :=
  delayed_loop hpe evs k k' 0 0 0 h he (Or.inl (by omega))

/-- The time of the last chord key is known in both. -/
def ChordKnown (d : Int) (k k' : Kbd) : Prop :=
  65536 ≤ k.chord.lastCodeTime ∧ k'.chord.lastCodeTime = k.chord.lastCodeTime + d

theorem Behind.chordState (h : Behind d k k') (s : ChordState) (hk : ChordKnown d k k') :
    Behind d { k with chord := { k.chord with state := s } } { k' with chord := { k'.chord with state := s } } := by
  refine h.setChord ?_ (fun _ => hk) h.2.cq
  rw [h.2.chordEq]

theorem Behind.chordInactive (h : Behind d k k') :
    Behind d { k with chord := { k.chord with state := .inactive } } { k' with chord := { k'.chord with state := .inactive } } := by
  refine h.setChord ?_ (fun h => absurd rfl h) h.2.cq
  rw [h.2.chordEq]

/-- `resolveChord` after its first assignment. -/
def resolveFrom (pe : PE) (k : Kbd) : Res Kbd := do
  let (k, offset) ← (match k.chord.match with
    | none => .ok (k, 0)
    | some p => do
      let (k, code, sz) ← installChord k p
      let k := k.logSwallowed (k.chord.queue.take sz)
      let (k, _) ← pe k code true k.chord.lastCodeTime
      .ok (k, sz) : Res (Kbd × Nat))
  if k.chord.queue.length < offset then .error (.oob "chord.queue + queue_offset")
  else do
    let (k, _) ← processEventsWith pe k (k.chord.queue.drop offset)
    .ok { k with chord := { k.chord with state := .inactive } }

theorem resolveChord_from (pe : PE) (k : Kbd) :
    resolveChord pe k = resolveFrom pe { k with chord := { k.chord with state := .resolving } } := rfl

theorem delayed_resolveChord {pe : PE} (hpe : PETwin d pe) (h : Behind d k k') (hk : ChordKnown d k k') :
    Twin (Behind d) (resolveChord pe k) (resolveChord pe k') := by
  rw [resolveChord_from, resolveChord_from]
  have h0 := h.chordState .resolving hk
  have hk0 : ChordKnown d { k with chord := { k.chord with state := .resolving } } { k' with chord := { k'.chord with state := .resolving } } := hk
  revert h0 hk0
  generalize ({ k with chord := { k.chord with state := .resolving } } : Kbd) = k0
  generalize ({ k' with chord := { k'.chord with state := .resolving } } : Kbd) = k0'
  intro h0 hk0
  have hm : k0'.chord.match = k0.chord.match := by rw [h0.2.chordEq]
  unfold resolveFrom
  refine Twin.bind (Q := fun r s => Behind d r.1 s.1 ∧ s.2 = r.2) ?_ ?_
  · rw [hm]
    cases k0.chord.match with
    | none => exact ⟨h0, rfl⟩
    | some p =>
      dsimp only
      have hi : Twin (fun r s => (Behind d r.1 s.1 ∧ ChordKnown d r.1 s.1) ∧ s.2 = r.2) (installChord k0 p) (installChord k0' p) := by
        have hs := (stored_inv.install k0 p ⟨h0.1, trivial⟩)
        revert hs
        unfold installChord
        dsimp only
        have e1 : k0'.activeChords = k0.activeChords := by obtain ⟨j, rfl, _⟩ := h0.2; rfl
        have e2 : derefChord k0' p = derefChord k0 p := by unfold derefChord; rw [h0.2.config]
        have e3 : k0'.chord.matchLayer = k0.chord.matchLayer := by rw [h0.2.chordEq]
        rw [e1, e2, e3]
        cases freeChordSlot k0.activeChords 0 with
        | none => intro _; exact rfl
        | some i =>
          intro hs
          refine ⟨⟨⟨hs.1, ?_⟩, hk0⟩, rfl⟩
          exact Delayed.pure (fun k => { k with activeChords := k0.activeChords.set i ⟨true, derefChord k0 p, k0.chord.matchLayer⟩ }) h0.2 (fun _ _ => rfl)
      refine Twin.bind hi ?_
      rintro ⟨a, code, sz⟩ ⟨b, code', sz'⟩ ⟨⟨hab, hk1⟩, he⟩
      dsimp only at hab he hk1 ⊢
      have he1 : code' = code := congrArg Prod.fst he
      have he2 : sz' = sz := congrArg Prod.snd he
      subst he1 he2
      have h1 : Behind d (a.logSwallowed (a.chord.queue.take sz')) (b.logSwallowed (b.chord.queue.take sz')) := hab.steps _ _
      have e4 : (b.logSwallowed (b.chord.queue.take sz')).chord.lastCodeTime =
        (a.logSwallowed (a.chord.queue.take sz')).chord.lastCodeTime + d := hk1.2
      rw [e4]
      refine Twin.bind (hpe _ _ code' true _ h1 hk1.1) ?_
      rintro ⟨a, w⟩ ⟨b, w'⟩ ⟨hab, hw⟩
      exact ⟨hab, rfl⟩
  rintro ⟨a, sz⟩ ⟨b, sz'⟩ ⟨hab, he⟩
  dsimp only at hab he ⊢
  subst he
  have e5 : b.chord.queue = a.chord.queue.map (KeyEvent.late d) := by rw [hab.2.chordEq]
  rw [e5, List.length_map]
  split
  · exact rfl
  · rw [← List.map_drop]
    refine Twin.bind (delayed_events hpe _ hab (fun e he => hab.2.cq e (List.mem_of_mem_drop he))) ?_
    rintro ⟨a, w⟩ ⟨b, w'⟩ ⟨hab, hw⟩
    exact hab.chordInactive

theorem delayed_abortChord {pe : PE} (hpe : PETwin d pe) (h : Behind d k k') (hk : ChordKnown d k k') :
    Twin (Behind d) (abortChord pe k) (abortChord pe k') := by
  unfold abortChord
  refine delayed_resolveChord hpe ?_ hk
  refine h.setChord ?_ (fun _ => hk) h.2.cq
  rw [h.2.chordEq]

theorem late_match (d : Int) (ch : Chord) (q : List KeyEvent) :
    chordEventMatch ch (q.map (KeyEvent.late d)) = chordEventMatch ch q := by
  unfold chordEventMatch
  have e : (q.map (KeyEvent.late d)).filter (·.pressed) = (q.filter (·.pressed)).map (KeyEvent.late d) := by
    rw [List.filter_map]; rfl
  rw [e]
  dsimp only
  rw [List.length_map, List.any_map]
  rfl

theorem delayed_checkChord (h : Behind d k k') :
    (checkChordMatch k').1 = (checkChordMatch k).1 ∧
    ∃ c : ChordSt, (checkChordMatch k).2 = { k with chord := { k.chord with «match» := c.match, matchLayer := c.matchLayer } } ∧
      (checkChordMatch k').2 = { k' with chord := { k'.chord with «match» := c.match, matchLayer := c.matchLayer } } := by
  have hs : chordScan k' = chordScan k := by
    unfold chordScan
    have e1 : k'.isActive = k.isActive := by obtain ⟨j, rfl, _⟩ := h.2; rfl
    have e2 : k'.layerState = k.layerState := by obtain ⟨j, rfl, _⟩ := h.2; rfl
    have e3 : k'.chord.queue = k.chord.queue.map (KeyEvent.late d) := by rw [h.2.chordEq]
    have e4 : ∀ l t, chordScanStep (k.chord.queue.map (KeyEvent.late d)) l t = chordScanStep k.chord.queue l t := by
      intro l t
      funext acc ic
      unfold chordScanStep
      rw [late_match]
    rw [h.2.config, e1, e2, e3]
    simp only [e4]
  unfold checkChordMatch
  dsimp only
  have e1 : k'.chord.match = k.chord.match := by rw [h.2.chordEq]
  have e2 : k'.chord.matchLayer = k.chord.matchLayer := by rw [h.2.chordEq]
  rw [hs]
  cases hf : (chordScan k).full with
  | none => 
    refine ⟨rfl, k.chord, rfl, ?_⟩
    rw [← e1, ← e2]
  | some p => exact ⟨rfl, { k.chord with «match» := some (p.1, p.2), matchLayer := p.1 }, rfl, rfl⟩

theorem Behind.known (h : Behind d k k') (hs : k.chord.state ≠ .inactive) : ChordKnown d k k' := h.2.chordAt hs

theorem delayed_chordDecide {pe : PE} (hpe : PETwin d pe) (h : Behind d k k') {t : Int} (ht : 65536 ≤ t)
    {f f' : Kbd → Res (Kbd × Bool)}
    (hf : ∀ a b, Behind d a b → (ChordKnown d k k' → ChordKnown d a b) →
      Twin (fun r s => Behind d r.1 s.1 ∧ s.2 = r.2) (f a) (f' b)) :
    Twin (fun r s => Behind d r.1 s.1 ∧ s.2 = r.2) (chordDecide pe k t f) (chordDecide pe k' (t + d) f') := by
  have hc := delayed_checkChord h
  unfold chordDecide
  revert hc
  rcases checkChordMatch k with ⟨n, a⟩
  rcases checkChordMatch k' with ⟨n', b⟩
  rintro ⟨hn, c, ha, hb⟩
  dsimp only at hn ha hb
  subst hn
  have hab : Behind d a b := by
    rw [ha, hb]
    refine h.setChord ?_ (fun hs => h.2.chordAt hs) h.2.cq
    rw [h.2.chordEq]
  have hkk : ChordKnown d k k' → ChordKnown d a b := fun hk => by rw [ha, hb]; exact hk
  clear ha hb
  have hcfg := hab.2.config
  have hset := hab.2.settings
  have hlate : ∀ s, Behind d { a with chord := { a.chord with state := s, lastCodeTime := t } }
      { b with chord := { b.chord with state := s, lastCodeTime := t + d } } := fun s => by
    refine hab.setChord ?_ (fun _ => ⟨ht, rfl⟩) hab.2.cq
    rw [hab.2.chordEq]
  match n' with
  | 0 => exact hf a b hab hkk
  | 2 =>
    show Twin _ (if a.config.chordHoldTimeout ≠ 0 then _ else _) (if b.config.chordHoldTimeout ≠ 0 then _ else _)
    by_cases h2 : a.config.chordHoldTimeout ≠ 0
    · rw [if_pos h2, if_pos (by rw [hcfg]; exact h2)]
      have e : t + d + b.config.chordHoldTimeout = t + a.config.chordHoldTimeout + d := by rw [hcfg]; omega
      show Twin _ _ (scheduleTimeout _ (t + d + b.config.chordHoldTimeout) >>= _)
      rw [e]
      refine Twin.bind (Behind.schedule (t := t + a.config.chordHoldTimeout) (hlate .pendingHoldTimeout) (by omega)) ?_
      rintro x y hxy
      exact ⟨hxy, rfl⟩
    · rw [if_neg h2, if_neg (by rw [hcfg]; exact h2)]
      have h3 : Behind d { a with chord := { a.chord with lastCodeTime := t } }
          { b with chord := { b.chord with lastCodeTime := t + d } } := by
        refine hab.setChord ?_ (fun _ => ⟨ht, rfl⟩) hab.2.cq
        rw [hab.2.chordEq]
      refine Twin.bind (delayed_resolveChord hpe h3 ⟨ht, rfl⟩) ?_
      rintro x y hxy
      exact ⟨hxy, rfl⟩
  | 1 =>
    show Twin _ (scheduleTimeout _ (t + a.config.chordInterkeyTimeout) >>= _) (scheduleTimeout _ (t + d + b.config.chordInterkeyTimeout) >>= _)
    have e : t + d + b.config.chordInterkeyTimeout = t + a.config.chordInterkeyTimeout + d := by rw [hcfg]; omega
    rw [e]
    refine Twin.bind (Behind.schedule (t := t + a.config.chordInterkeyTimeout) (hlate .pendingDisambiguation) (by omega)) ?_
    rintro x y hxy
    exact ⟨hxy, rfl⟩
  | n + 3 =>
    show Twin _ (scheduleTimeout _ (t + a.config.chordInterkeyTimeout) >>= _) (scheduleTimeout _ (t + d + b.config.chordInterkeyTimeout) >>= _)
    have e : t + d + b.config.chordInterkeyTimeout = t + a.config.chordInterkeyTimeout + d := by rw [hcfg]; omega
    rw [e]
    refine Twin.bind (Behind.schedule (t := t + a.config.chordInterkeyTimeout) (hlate .pendingDisambiguation) (by omega)) ?_
    rintro x y hxy
    exact ⟨hxy, rfl⟩

theorem delayed_enqueueChord (h : Behind d k k') (c : Code) (p : Bool) {t : Int} (ht : 65536 ≤ t) :
    Twin (fun a b => Behind d a b ∧ (ChordKnown d k k' → ChordKnown d a b) ∧ a.chord.match = k.chord.match ∧
        a.config = k.config ∧ a.chord.state = k.chord.state)
      (enqueueChordEvent k c p t) (enqueueChordEvent k' c p (t + d)) := by
  unfold enqueueChordEvent
  have e3 : k'.chord.queue = k.chord.queue.map (KeyEvent.late d) := by rw [h.2.chordEq]
  split
  · exact ⟨h, id, rfl, rfl, rfl⟩
  · rw [e3, List.length_map]
    split
    · refine ⟨?_, fun hk => hk, rfl, rfl, rfl⟩
      refine h.setChord ?_ (fun hs => h.2.chordAt hs) ?_
      · rw [h.2.chordEq]
        dsimp only
        rw [List.map_append]
        rfl
      · intro e he
        rcases List.mem_append.1 he with he | he
        · exact h.2.cq e he
        · rw [List.mem_singleton.1 he]; exact ht
    · exact rfl

theorem Twin.handled {x x' : Res Kbd} (b : Bool) (h : Twin (Behind d) x x') :
    Twin (fun r s => Behind d r.1 s.1 ∧ s.2 = r.2) (x >>= fun k => (.ok (k, b) : Res (Kbd × Bool)))
      (x' >>= fun k => (.ok (k, b) : Res (Kbd × Bool))) :=
  h.bind (fun _ _ hab => ⟨hab, rfl⟩)

theorem delayed_chordMachine {pe : PE} (hpe : PETwin d pe) (h : Behind d k k') (c : Code) (p : Bool) {t : Int}
    (ht : 65536 ≤ t) :
    Twin (fun r s => Behind d r.1 s.1 ∧ s.2 = r.2) (chordMachine pe k c p t) (chordMachine pe k' c p (t + d)) := by
  unfold chordMachine
  have hst : k'.chord.state = k.chord.state := by rw [h.2.chordEq]
  have hcfg := h.2.config
  have hset := h.2.settings
  have hm : k'.chord.match = k.chord.match := by rw [h.2.chordEq]
  rw [hst]
  cases hs : k.chord.state with
  | resolving => exact ⟨h, rfl⟩
  | inactive =>
    dsimp only
    have h0 : Behind d { k with chord := { k.chord with queue := [], «match» := none, startCode := c } }
        { k' with chord := { k'.chord with queue := [], «match» := none, startCode := c } } := by
      refine h.setChord ?_ (fun hs' => absurd hs hs') (fun _ he => absurd he (List.not_mem_nil))
      rw [h.2.chordEq]
      rfl
    refine Twin.bind (delayed_enqueueChord h0 c p ht) ?_
    rintro a b ⟨hab, _⟩
    exact delayed_chordDecide hpe hab ht (fun a b hab _ => ⟨hab, rfl⟩)
  | pendingDisambiguation =>
    have hk : ChordKnown d k k' := h.known (by rw [hs]; decide)
    dsimp only
    by_cases hc : c = 0
    · rw [if_pos hc, if_pos hc, hcfg, hm]
      have e : t + d - k'.chord.lastCodeTime = t - k.chord.lastCodeTime := by rw [hk.2]; omega
      rw [e]
      split
      · split
        · split
          · have e2 : t + d + (k.config.chordHoldTimeout - k.config.chordInterkeyTimeout) =
              t + (k.config.chordHoldTimeout - k.config.chordInterkeyTimeout) + d := by omega
            rw [e2]
            refine Twin.bindSat (P := fun a => a.chord = k.chord)
              (Sat.intro (fun r hr => by
                unfold scheduleTimeout at hr
                split at hr
                · rw [← Except.ok.inj hr]
                · cases hr))
              (Twin.andSat (P := fun _ => True) (by cases scheduleTimeout k (t + (k.config.chordHoldTimeout - k.config.chordInterkeyTimeout)) <;> trivial)
                (h.schedule (t := t + (k.config.chordHoldTimeout - k.config.chordInterkeyTimeout)) (by omega))) ?_
            rintro a b hch ⟨_, hab⟩
            exact ⟨hab.chordState _ (hab.known (by rw [hch, hs]; decide)), rfl⟩
          · exact (delayed_resolveChord hpe h hk).handled true
        · exact (delayed_abortChord hpe h hk).handled true
      · exact ⟨h, rfl⟩
    · rw [if_neg hc, if_neg hc]
      refine Twin.bind (delayed_enqueueChord h c p ht) ?_
      rintro a b ⟨hab, hkk, _⟩
      split
      · exact (delayed_abortChord hpe hab (hkk hk)).handled true
      · exact delayed_chordDecide hpe hab ht (fun x y hxy hk2 => (delayed_abortChord hpe hxy (hk2 (hkk hk))).handled true)
  | pendingHoldTimeout =>
    have hk : ChordKnown d k k' := h.known (by rw [hs]; decide)
    dsimp only
    by_cases hc : c = 0
    · rw [if_pos hc, if_pos hc, hcfg]
      have e : t + d - k'.chord.lastCodeTime = t - k.chord.lastCodeTime := by rw [hk.2]; omega
      rw [e]
      split
      · exact (delayed_resolveChord hpe h hk).handled true
      · exact ⟨h, rfl⟩
    · rw [if_neg hc, if_neg hc]
      refine Twin.bind (delayed_enqueueChord h c p ht) ?_
      rintro a b ⟨hab, hkk, _⟩
      have hm2 : b.chord.match = a.chord.match := by rw [hab.2.chordEq]
      rw [hm2]
      split
      · cases a.chord.match with
        | none => exact rfl
        | some q =>
          dsimp only
          have e2 : derefChord b q = derefChord a q := by unfold derefChord; rw [hab.2.config]
          rw [e2]
          split
          · exact (delayed_abortChord hpe hab (hkk hk)).handled true
          · exact ⟨hab, rfl⟩
      · exact ⟨hab, rfl⟩

theorem delayed_handleChord {pe : PE} (hpe : PETwin d pe) (h : Behind d k k') (c : Code) (p : Bool) {t : Int}
    (ht : 65536 ≤ t) :
    Twin (fun r s => Behind d r.1 s.1 ∧ s.2 = r.2) (handleChord pe k c p t) (handleChord pe k' c p (t + d)) := by
  unfold handleChord
  have e1 : k'.activeChords = k.activeChords := by obtain ⟨j, rfl, _⟩ := h.2; rfl
  rw [e1]
  cases (if c ≠ 0 ∧ !p then findActiveChord c k.activeChords 0 else none) with
  | none => exact delayed_chordMachine hpe h c p ht
  | some i =>
    dsimp only
    refine Twin.handled true ?_
    unfold strikeChord
    dsimp only
    have e2 : (k.logSwallowed [⟨c, false, t⟩]).activeChords = k.activeChords := rfl
    have e3 : (k'.logSwallowed [⟨c, false, t + d⟩]).activeChords = k.activeChords := e1
    rw [e1]
    have h1 : Behind d (k.logSwallowed [⟨c, false, t⟩]) (k'.logSwallowed [⟨c, false, t + d⟩]) := h.steps _ _
    have hset : ∀ a : Bool, Behind d
        { k.logSwallowed [⟨c, false, t⟩] with activeChords := (k.logSwallowed [⟨c, false, t⟩]).activeChords.set i (⟨a, ⟨chordStrike c (k.activeChords.getD i {}).chord.keys, (k.activeChords.getD i {}).chord.d⟩, (k.activeChords.getD i {}).layer⟩ : ActiveChord) }
        { k'.logSwallowed [⟨c, false, t + d⟩] with activeChords := (k'.logSwallowed [⟨c, false, t + d⟩]).activeChords.set i (⟨a, ⟨chordStrike c (k.activeChords.getD i {}).chord.keys, (k.activeChords.getD i {}).chord.d⟩, (k.activeChords.getD i {}).layer⟩ : ActiveChord) } := fun a => by
      refine ⟨(stored_inv.strike _ i (chordStrike c (k.activeChords.getD i {}).chord.keys) a ⟨h1.1, trivial⟩).1, ?_⟩
      exact Delayed.pure (fun k0 => { k0 with activeChords := k0.activeChords.set i (⟨a, ⟨chordStrike c (k.activeChords.getD i {}).chord.keys, (k.activeChords.getD i {}).chord.d⟩, (k.activeChords.getD i {}).layer⟩ : ActiveChord) }) h1.2 (fun _ _ => rfl)
    split
    · refine Twin.bind (hpe _ _ _ false t (hset false) ht) ?_
      rintro ⟨a, w⟩ ⟨b, w'⟩ ⟨hab, _⟩
      exact hab
    · exact hset _

theorem Delayed.pq (h : Delayed d k k') : ∀ e ∈ k.pending.queue, 65536 ≤ e.ts := by
  obtain ⟨j, rfl, hj⟩ := h; exact hj.pq

theorem Delayed.pendingQueue (h : Delayed d k k') : k'.pending.queue = k.pending.queue.map (KeyEvent.late d) := by
  obtain ⟨j, rfl, hj⟩ := h
  show j.pending.queue = _
  rw [hj.pending]; rfl

theorem Delayed.expire (h : Delayed d k k') : Moment d k.pending.expire k'.pending.expire := by
  obtain ⟨j, rfl, hj⟩ := h; exact hj.expire

theorem Delayed.tap (h : Delayed d k k') : k.pending.tapExpiry = 0 := by
  obtain ⟨j, rfl, hj⟩ := h; exact hj.tap

theorem Delayed.setPending (h : Delayed d k k') {p p' : PendingKey}
    (e : p' = { p with expire := p'.expire, queue := p.queue.map (KeyEvent.late d) })
    (he : Moment d p.expire p'.expire) (ht : p.tapExpiry = 0) (hq : ∀ e ∈ p.queue, 65536 ≤ e.ts) :
    Delayed d { k with pending := p } { k' with pending := p' } := by
  obtain ⟨j, rfl, hj⟩ := h
  exact ⟨{ j with pending := p' }, rfl, { hj with pending := e, expire := he, tap := ht, pq := hq }⟩

theorem late_any (d : Int) (q : List KeyEvent) (c : Code) :
    ((q.map (KeyEvent.late d)).any fun e => e.code = c) = (q.any fun e => e.code = c) := by
  rw [List.any_map]; rfl

theorem delayed_pendingEnqueue (h : Behind d k k') (c : Code) (p : Bool) {t : Int} (ht : 65536 ≤ t) :
    Twin (fun o o' => match o, o' with
        | none, none => True
        | some a, some b => Behind d a b
        | _, _ => False)
      (pendingEnqueue k c p t) (pendingEnqueue k' c p (t + d)) := by
  unfold pendingEnqueue
  have e1 := h.2.pendingQueue
  have e2 : k'.pending.code = k.pending.code := by rw [h.2.pendingEq]
  rw [e1, e2, late_any, List.length_map]
  split
  · exact h
  · split
    · exact rfl
    · split
      · exact trivial
      · refine ⟨⟨h.1.cache, h.1.a1, h.1.a2, h.1.chords, h.1.table⟩, ?_⟩
        refine h.2.setPending ?_ h.2.expire h.2.tap ?_
        · rw [h.2.pendingEq]
          dsimp only
          rw [List.map_append, ← e1]
          rfl
        · intro e he
          rcases List.mem_append.1 he with he | he
          · exact h.2.pq e he
          · rw [List.mem_singleton.1 he]; exact ht

theorem delayed_decision (h : Behind d k k') (hd : 0 ≤ d) (c : Code) (p : Bool) {t : Int} (ht : 65536 ≤ t) :
    pendingDecision k'.pending c p (t + d) = pendingDecision k.pending c p t := by
  have e1 := h.2.pendingQueue
  have hx : (t + d ≥ k'.pending.expire) ↔ (t ≥ k.pending.expire) := by
    have := h.2.expire
    rcases this with ⟨e1, e2⟩ | ⟨_, e2⟩ <;> omega
  have e2 : k'.pending.code = k.pending.code := by rw [h.2.pendingEq]
  have e3 : k'.pending.tapExpiry = k.pending.tapExpiry := by rw [h.2.pendingEq]
  have e4 : k'.pending.action1 = k.pending.action1 := by rw [h.2.pendingEq]
  have e5 : k'.pending.action2 = k.pending.action2 := by rw [h.2.pendingEq]
  have e6 : k'.pending.behaviour = k.pending.behaviour := by rw [h.2.pendingEq]
  unfold pendingDecision
  rw [e1, e2, e3, e4, e5, e6, h.2.tap, late_any]
  simp only [hx, ne_eq, not_true_eq_false, false_and, if_false]

theorem Twin.pureOk {α β : Type} {Q : α → β → Prop} {a : α} {b : β} (h : Q a b) : Twin Q (.ok a) (.ok b) := h

theorem Delayed.budget (h : Delayed d k k') : descBudget k' = descBudget k := by
  unfold descBudget
  rw [h.config]

theorem delayed_cacheSet (h : Delayed d k k') (c : Code) (e : Option CacheEntry) :
    (cacheSet k c e = none ∧ cacheSet k' c e = none) ∨ ∃ a b, cacheSet k c e = some a ∧ cacheSet k' c e = some b ∧ Delayed d a b := by
  obtain ⟨j, rfl, hj⟩ := h
  rw [timed_cacheSet]
  cases hk : cacheSet k c e with
  | none => exact Or.inl ⟨rfl, rfl⟩
  | some a =>
    refine Or.inr ⟨a, _, rfl, rfl, j, rfl, ?_⟩
    have h1 := timed_cacheSet (j := k.clocks) (k := k) c e
    rw [timed_self, hk] at h1
    have h2 : a = a.timed k.clocks := Option.some.inj h1
    have h3 : a.clocks = k.clocks := by rw [h2]; rfl
    rw [h3]; exact hj

theorem delayed_cacheSetD (h : Delayed d k k') (c : Code) (e : Option CacheEntry) :
    Delayed d ((cacheSet k c e).getD k) ((cacheSet k' c e).getD k') := by
  rcases delayed_cacheSet h c e with ⟨h1, h2⟩ | ⟨a, b, h1, h2, h3⟩
  · rw [h1, h2]; exact h
  · rw [h1, h2]; exact h3

theorem delayed_cacheSetD' (h : Delayed d k k') (c c' : Code) (e e' : Option CacheEntry) (hc : c' = c) (he : e' = e) :
    Delayed d ((cacheSet k c e).getD k) ((cacheSet k' c' e').getD k') := by
  subst hc he; exact delayed_cacheSetD h _ _

theorem delayed_resolvePending (h : Behind d k k') (hd : 0 ≤ d) (a : Desc) (ha : Idles16 a) {t : Int} (ht : 65536 ≤ t) :
    Twin (fun r s => Behind d r.1 s.1 ∧ s.2 = r.2.map (KeyEvent.late d) ∧ ∀ e ∈ r.2, 65536 ≤ e.ts)
      (resolvePendingStep k a t) (resolvePendingStep k' a (t + d)) := by
  have hst := stored_resolve idles16_closed k a t h.1 ha
  have h0 : Delayed d { k with pending := { k.pending with code := 0, queue := [], tapExpiry := 0 } }
      { k' with pending := { k'.pending with code := 0, queue := [], tapExpiry := 0 } } := by
    refine h.2.setPending ?_ h.2.expire rfl (fun _ he => absurd he (List.not_mem_nil))
    rw [h.2.pendingEq]
    rfl
  have e1 := h.2.pendingQueue
  have e2 : k'.pending.code = k.pending.code := by rw [h.2.pendingEq]
  have e3 : k'.pending.dl = k.pending.dl := by rw [h.2.pendingEq]
  have hq := h.2.pq
  have hs0 : Stored Idles16 { k with pending := { k.pending with code := 0, queue := [], tapExpiry := 0 } } :=
    ⟨h.1.cache, h.1.a1, h.1.a2, h.1.chords, h.1.table⟩
  have hs1 := hs0.cacheSetD (c := k.pending.code) (e := some { d := a, dl := k.pending.dl, layer := 0 })
    (by rintro x ⟨⟩; exact ha)
  have h1 := delayed_cacheSetD' h0 k.pending.code k'.pending.code (some { d := a, dl := k.pending.dl, layer := 0 })
    (some { d := a, dl := k'.pending.dl, layer := 0 }) e2 (by rw [e3])
  revert hst
  unfold resolvePendingStep
  dsimp only
  revert hs1 h1
  generalize (cacheSet { k with pending := { k.pending with code := 0, queue := [], tapExpiry := 0 } } k.pending.code
    (some { d := a, dl := k.pending.dl, layer := 0 })).getD _ = k1
  generalize (cacheSet { k' with pending := { k'.pending with code := 0, queue := [], tapExpiry := 0 } } k'.pending.code
    (some { d := a, dl := k'.pending.dl, layer := 0 })).getD _ = k1'
  intro hs1 h1 hst
  rw [e1, e2, e3]
  have h2 : Delayed d (k1.log (.resolve k.pending.code a k.pending.dl t)) (k1'.log (.resolve k.pending.code a k.pending.dl (t + d))) :=
    h1.steps _ _
  have hs2 : Stored Idles16 (k1.log (.resolve k.pending.code a k.pending.dl t)) := hs1.frame rfl rfl rfl rfl
  rw [h2.budget]
  refine Twin.bindSat (Stored.processDescriptor idles16_closed (descBudget (k1.log (.resolve k.pending.code a k.pending.dl t))) _
      k.pending.code a k.pending.dl true t ha hs2)
    (delayed_descriptor hd _ _ _ k.pending.code a k.pending.dl true t ht ha hs2 h2) ?_
  intro x y sx hxy
  exact ⟨⟨sx, hxy⟩, rfl, hq⟩

theorem decision_idles (h : Stored Idles16 k) (c : Code) (p : Bool) (t : Int) : Idles16 (pendingDecision k.pending c p t) := by
  unfold pendingDecision
  repeat' split
  all_goals first | exact h.a1 | exact h.a2 | trivial

theorem delayed_handlePending {pe : PE} (hpe : PETwin d pe) (h : Behind d k k') (hd : 0 ≤ d) (c : Code) (p : Bool) {t : Int}
    (ht : 65536 ≤ t) :
    Twin (fun r s => Behind d r.1 s.1 ∧ s.2 = r.2) (handlePendingKey pe k c p t) (handlePendingKey pe k' c p (t + d)) := by
  unfold handlePendingKey
  have e2 : k'.pending.code = k.pending.code := by rw [h.2.pendingEq]
  rw [e2]
  split
  · exact ⟨h, rfl⟩
  · refine Twin.bind (delayed_pendingEnqueue h c p ht) ?_
    intro o o' ho
    cases o with
    | none =>
      cases o' with
      | none => exact ⟨h, rfl⟩
      | some _ => exact False.elim ho
    | some a =>
     cases o' with
     | none => exact False.elim ho
     | some b =>
      have ho : Behind d a b := ho
      dsimp only
      rw [delayed_decision ho hd c p ht]
      split
      · exact ⟨ho, rfl⟩
      · refine Twin.bind (delayed_resolvePending ho hd _ (decision_idles ho.1 c p t) ht) ?_
        rintro ⟨x, q⟩ ⟨y, q'⟩ ⟨hxy, hq, hts⟩
        dsimp only at hxy hq hts ⊢
        subst hq
        refine Twin.bind (delayed_events hpe q hxy hts) ?_
        rintro ⟨x, w⟩ ⟨y, w'⟩ ⟨hxy, _⟩
        exact ⟨hxy, rfl⟩

theorem delayed_timers (h : Behind d k k') (hd : 0 ≤ d) (c : Code) {t : Int} (ht : 65536 ≤ t) :
    Twin (Behind d) (stepTimers k c t) (stepTimers k' c (t + d)) := by
  refine Behind.sat ((stored_inv.timers k c t ⟨h.1, trivial⟩).fst) ?_
  have h := h.2
  unfold stepTimers
  have hone : (k'.oneshotTimeout ≠ 0 ∧ t + d ≥ k'.oneshotTimeout) ↔ (k.oneshotTimeout ≠ 0 ∧ t ≥ k.oneshotTimeout) := by
    obtain ⟨j, rfl, hj⟩ := h
    have : Moment d k.oneshotTimeout (k.timed j).oneshotTimeout := hj.one
    rcases this with ⟨e1, e2⟩ | ⟨_, e2⟩ <;> rw [e2] <;> omega
  have h1 : Twin (Delayed d) (if k.oneshotTimeout ≠ 0 ∧ t ≥ k.oneshotTimeout then do
      let k ← clearOneshot k
      .ok (updateMods k none 0)
    else .ok k : Res Kbd) (if k'.oneshotTimeout ≠ 0 ∧ t + d ≥ k'.oneshotTimeout then do
      let k ← clearOneshot k'
      .ok (updateMods k none 0)
    else .ok k' : Res Kbd) := by
    by_cases hc : k.oneshotTimeout ≠ 0 ∧ t ≥ k.oneshotTimeout
    · rw [if_pos hc, if_pos (hone.2 hc)]
      refine Twin.bind (Delayed.spent (f := clearOneshot) h (fun _ _ => timed_clearOneshot)) (fun a b hab => ?_)
      exact Delayed.pure (fun k => updateMods k none 0) hab (fun _ _ => timed_updateMods _ _)
    · rw [if_neg hc, if_neg (fun hc' => hc (hone.1 hc'))]
      exact h
  refine Twin.bind h1 (fun a b hab => ?_)
  have e1 : b.activeMacro = a.activeMacro := by obtain ⟨j, rfl, _⟩ := hab; rfl
  have e2 : b.activeMacroLayer = a.activeMacroLayer := by obtain ⟨j, rfl, _⟩ := hab; rfl
  rw [e1]
  cases a.activeMacro with
  | none => exact hab
  | some m =>
    dsimp only
    split
    · exact Twin.pureOk (Delayed.pure (fun k => updateMods { k with activeMacro := none } none 0) hab
        (fun j k => timed_updateMods (k := { k with activeMacro := none }) _ _))
    · have hmt : (t + d ≥ b.macroTimeout) ↔ (t ≥ a.macroTimeout) := by
        obtain ⟨j, rfl, hj⟩ := hab
        have : Moment d a.macroTimeout (a.timed j).macroTimeout := hj.macroAt
        rcases this with ⟨e1, e2⟩ | ⟨_, e2⟩ <;> rw [e2] <;> omega
      by_cases hc : t ≥ a.macroTimeout
      · rw [if_pos hc, if_pos (hmt.2 hc)]
        rw [e2, hab.config]
        have h2 : Delayed d (executeMacro a a.activeMacroLayer (a.config.mac m)) (executeMacro b a.activeMacroLayer (a.config.mac m)) :=
          Delayed.pure (fun k => executeMacro k a.activeMacroLayer (a.config.mac m)) hab (fun _ _ => timed_executeMacro _ _)
        revert h2
        generalize executeMacro a a.activeMacroLayer (a.config.mac m) = a2
        generalize executeMacro b a.activeMacroLayer (a.config.mac m) = b2
        intro h2
        have e3 : b2.macroRepeatInterval = a2.macroRepeatInterval := by obtain ⟨j, rfl, hj⟩ := h2; exact hj.interval
        have e4 : 0 ≤ a2.macroRepeatInterval := by obtain ⟨j, rfl, hj⟩ := h2; exact hj.intervalPos
        have e : t + d + b2.macroRepeatInterval = t + a2.macroRepeatInterval + d := by rw [e3]; omega
        rw [e]
        refine Delayed.schedule ?_ (by show 0 < t + a2.macroRepeatInterval; omega)
        obtain ⟨j, rfl, hj⟩ := h2
        exact ⟨{ j with macroAt := t + a2.macroRepeatInterval + d }, rfl,
          { hj with macroAt := Or.inr ⟨by show 0 < t + a2.macroRepeatInterval; omega, rfl⟩ }⟩
      · rw [if_neg hc, if_neg (fun hc' => hc (hmt.1 hc'))]
        exact hab

theorem delayed_key (h : Behind d k k') (hd : 0 ≤ d) (c : Code) (p : Bool) {t : Int} (ht : 65536 ≤ t) :
    Twin (Behind d) (stepKey k c p t) (stepKey k' c p (t + d)) := by
  refine Behind.sat (stored_key idles16_closed k c p t h.1) ?_
  have hs := h.1
  have h := h.2
  unfold stepKey
  have e1 : cacheGet k' c = cacheGet k c := by obtain ⟨j, rfl, _⟩ := h; rfl
  have e2 : lookupDescriptor k' c = lookupDescriptor k c := by obtain ⟨j, rfl, _⟩ := h; rfl
  rw [e1, e2]
  split
  · exact h
  · split
    · split
      · exact h.steps _ _
      · have hl := hs.lookup idles16_closed c
        revert hl
        generalize lookupDescriptor k c = r
        obtain ⟨x, dl⟩ := r
        intro hl
        dsimp only at hl ⊢
        rcases delayed_cacheSet h c (some { d := x, dl := dl, layer := 0 }) with ⟨h1, h2⟩ | ⟨a, b, h1, h2, h3⟩
        · rw [h1, h2]; exact h.steps _ _
        · rw [h1, h2]
          dsimp only
          have h4 : Delayed d (a.log (.key c true t (some (x, dl)))) (b.log (.key c true (t + d) (some (x, dl)))) := h3.steps _ _
          rw [h4.budget]
          exact delayed_descriptor hd _ _ _ c x dl true t ht hl
            (Stored.frame (hs.cacheSet (by rintro x ⟨⟩; exact hl) h1) rfl rfl rfl rfl) h4
    · cases hg : cacheGet k c with
      | none => exact h.steps _ _
      | some ce =>
        dsimp only
        have hm : ce ∈ k.cache := List.mem_of_find?_eq_some hg
        have h3 := delayed_cacheSetD h c none
        have hs3 : Stored Idles16 ((cacheSet k c none).getD k) := Stored.cacheSetD (c := c) (e := none) hs (by simp)
        revert h3 hs3
        generalize (cacheSet k c none).getD k = a
        generalize (cacheSet k' c none).getD k' = b
        intro h3 hs3
        have h4 : Delayed d (a.log (.key c false t (some (ce.d, ce.dl)))) (b.log (.key c false (t + d) (some (ce.d, ce.dl)))) :=
          h3.steps _ _
        rw [h4.budget]
        exact delayed_descriptor hd _ _ _ c ce.d ce.dl false t ht (hs.cache ce hm)
          (Stored.frame hs3 rfl rfl rfl rfl) h4

theorem late_earliest (hd : 0 ≤ d) : ∀ (l : List Int) (a b : Int), (∀ t ∈ l, 0 < t) → Moment d a b →
    Moment d (l.foldl (fun acc t => if acc = 0 ∨ t < acc then t else acc) a)
      ((l.map (· + d)).foldl (fun acc t => if acc = 0 ∨ t < acc then t else acc) b)
  | [], _, _, _, h => h
  | t :: l, a, b, hl, h => by
    rw [List.map_cons, List.foldl_cons, List.foldl_cons]
    refine late_earliest hd l _ _ (fun x hx => hl x (List.mem_cons_of_mem _ hx)) ?_
    have ht : 0 < t := hl t (List.mem_cons_self ..)
    rcases h with ⟨rfl, rfl⟩ | ⟨ha, rfl⟩
    · exact Or.inr ⟨ht, rfl⟩
    · by_cases hc : t < a
      · rw [if_pos (Or.inr hc), if_pos (Or.inr (by omega))]
        exact Or.inr ⟨ht, rfl⟩
      · rw [if_neg (by omega), if_neg (by omega)]
        exact Or.inr ⟨ha, rfl⟩

theorem delayed_wakeup (h : Behind d k k') (hd : 0 ≤ d) (t : Int) :
    Behind d (calculateMainLoopTimeout k t).1 (calculateMainLoopTimeout k' (t + d)).1 ∧
      (calculateMainLoopTimeout k' (t + d)).2 = (calculateMainLoopTimeout k t).2 := by
  obtain ⟨hs, j, rfl, hj⟩ := h
  have e : (k.timed j).timeouts.filter (fun x => x > t + d) = (k.timeouts.filter (fun x => x > t)).map (· + d) := by
    show j.timeouts.filter _ = _
    rw [hj.timeouts, List.filter_map]
    congr 1
    refine List.filter_congr (fun x _ => ?_)
    simp only [Function.comp]
    exact decide_eq_decide.2 (by omega)
  have hpos : ∀ x ∈ k.timeouts.filter (fun x => x > t), 0 < x := fun x hx => hj.due x (List.mem_filter.1 hx).1
  unfold calculateMainLoopTimeout
  dsimp only
  rw [e]
  have hm := late_earliest hd _ 0 0 hpos (Or.inl ⟨rfl, rfl⟩)
  refine ⟨⟨hs.frame rfl rfl rfl rfl, { j with timeouts := (k.timeouts.filter (fun x => x > t)).map (· + d) }, rfl,
    { hj with timeouts := rfl, due := hpos }⟩, ?_⟩
  rcases hm with ⟨e1, e2⟩ | ⟨h1, e2⟩
  · rw [e1, e2]; rfl
  · rw [e2, if_neg (by omega), if_neg (by omega)]; omega

theorem delayed_body {pe : PE} (hpe : PETwin d pe) (hd : 0 ≤ d) : PETwin d (processEventBody pe) := by
  intro k k' c p t h ht
  unfold processEventBody
  refine Twin.bind (delayed_handleChord hpe h c p ht) ?_
  rintro ⟨a, x⟩ ⟨b, x'⟩ ⟨hab, hx⟩
  dsimp only at hab hx ⊢
  subst hx
  refine Twin.bind (Q := Behind d) ?_ (fun a b hab => delayed_wakeup hab hd t)
  cases x' with
  | true => exact hab
  | false =>
    have h1 : Behind d (if c = 0 then a else a.log (.passed ⟨c, p, t⟩)) (if c = 0 then b else b.log (.passed ⟨c, p, t + d⟩)) := by
      split
      · exact hab
      · exact hab.steps _ _
    refine Twin.bind (delayed_handlePending hpe h1 hd c p ht) ?_
    rintro ⟨a, x⟩ ⟨b, x'⟩ ⟨hab, hx⟩
    dsimp only at hab hx ⊢
    subst hx
    cases x' with
    | true => exact hab
    | false => exact Twin.bind (delayed_timers hab hd c ht) (fun a b hab => delayed_key hab hd c p ht)

theorem delayed_processEvent (hd : 0 ≤ d) : ∀ n, PETwin d (processEvent n)
  | 0 => fun _ _ _ _ _ _ _ => rfl
  | n+1 => delayed_body (delayed_processEvent hd n) hd

end Keyd
