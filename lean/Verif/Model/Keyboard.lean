import Verif.Model.Config

/-
  Model of /repo/src/keyboard.c: the remapping engine.

  Conventions.
  * Functions that cannot fail are `Kbd → Kbd`; functions containing an assert
    or a possible memory error are `Kbd → Res Kbd`.
  * Calls of the output callbacks (`output.send_key`, `output.on_layer_change`),
    `usleep` and `execute_command` append to the ghost field `trace`, newest
    first. `Kbd.outputs` is the trace in order.
  * `long`/`int` times are unbounded integers.
-/

namespace Keyd

/-- Observable actions of the engine. -/
inductive Out where
  /-- `output.send_key(code, down)` (keyboard.h:34) -/
  | key (code : Code) (down : Bool)
  /-- `output.on_layer_change(kbd, layer, active)` (keyboard.h:35) -/
  | layer (idx : Nat) (active : Bool)
  /-- `execute_command` of the given command line -/
  | command (cmd : Str)
  /-- `usleep` (microseconds) -/
  | sleep (us : Nat)
deriving DecidableEq, Repr

/-- Ghost record of the key stage of `process_event` (keyboard.c:1149-1179), of
the resolution of pending keys (keyboard.c:1101-1106) and of what the chord stage
(keyboard.c:888-1027) does with each event. It does not influence
the behaviour; it exists so that properties can talk about which binding was
used for which event. -/
inductive Step where
  /-- A key event reached the key stage. `used` is the binding processed and the
  layer it came from, or `none` when the event was ignored. -/
  | key (code : Code) (pressed : Bool) (time : Int) (used : Option (Desc × Nat))
  /-- A pending key was resolved to an action. -/
  | resolve (code : Code) (d : Desc) (dl : Nat) (time : Int)
  /-- A key event left the chord stage (`handle_chord`) unconsumed. -/
  | passed (ev : KeyEvent)
  /-- A key event became part of a struck chord, or was the release of a key of
  an active chord. -/
  | swallowed (ev : KeyEvent)
deriving DecidableEq, Repr

/-- `struct cache_entry`, keyboard.h:20-25. A slot is empty iff `code = 0`. -/
structure CacheEntry where
  code : Code := 0
  d : Desc := .none
  dl : Nat := 0
  layer : Nat := 0
deriving DecidableEq, Repr, Inhabited

/-- `struct active_chord`, keyboard.h:72-76. -/
structure ActiveChord where
  active : Bool := false
  chord : Chord := ⟨[], .none⟩
  layer : Nat := 0
deriving DecidableEq, Repr, Inhabited

/-- `chord.state`, keyboard.h:88-93. -/
inductive ChordState where
  | resolving | inactive | pendingDisambiguation | pendingHoldTimeout
deriving DecidableEq, Repr, Inhabited

/-- The anonymous chord struct, keyboard.h:78-94. `match` is a pointer into
`config.layers[l].chords[i]`, modelled as the pair (l, i) and dereferenced
when used. -/
structure ChordSt where
  queue : List KeyEvent := []
  «match» : Option (Nat × Nat) := none
  matchLayer : Nat := 0
  startCode : Code := 0
  lastCodeTime : Int := 0
  state : ChordState := .inactive
deriving DecidableEq, Repr, Inhabited

/-- `pending_key.behaviour`, keyboard.h:102-107. -/
inductive Behaviour where
  | interruptAction1 | interruptAction2 | uninterruptible | uninterruptibleTapAction2
deriving DecidableEq, Repr, Inhabited

/-- The anonymous pending key struct, keyboard.h:96-114. -/
structure PendingKey where
  code : Code := 0
  dl : Nat := 0
  expire : Int := 0
  tapExpiry : Int := 0
  behaviour : Behaviour := .interruptAction1
  queue : List KeyEvent := []
  action1 : Desc := .none
  action2 : Desc := .none
deriving DecidableEq, Repr, Inhabited

/-- One element of `layer_state`, keyboard.h:116-122. The `uint8_t` counters
are naturals; reaching 256 is the outcome `Err.wrap`. -/
structure LayerSt where
  activationTime : Int := 0
  active : Nat := 0
  toggled : Bool := false
  oneshotDepth : Nat := 0
deriving DecidableEq, Repr, Inhabited

/-- The anonymous scroll struct, keyboard.h:126-132. -/
structure Scroll where
  x : Int := 0
  y : Int := 0
  sensitivity : Int := 0
  active : Bool := false
deriving DecidableEq, Repr, Inhabited

/-- `struct keyboard`, keyboard.h:39-133. `active_macro` is an index into
`config.macros` (a pointer in C). `clock` is the static variable of `get_time`
(keyboard.c:18). Simplification: in C it is one counter for the whole process, shared
by all keyboards and not reset by a reload; here each keyboard counts from 1. The values are only
compared with each other within a keyboard, and with the 0 and 1 that `new_keyboard` gives to main
and the default layout: the tie between the default layout and the first activation
(`C08_first_activation_ties_with_layout`) occurs in C for the first activation of the process only. `overload_last_layer_code` is never used in C and is omitted. -/
structure Kbd where
  originalConfig : Config
  config : Config
  cache : List CacheEntry := List.replicate 16 {}
  lastPressedOutputCode : Code := 0
  lastPressedCode : Code := 0
  oneshotLatch : Bool := false
  inhibitModifierGuard : Bool := false
  activeMacro : Option Nat := none
  activeMacroLayer : Nat := 0
  macroTimeout : Int := 0
  oneshotTimeout : Int := 0
  macroRepeatInterval : Int := 0
  overloadStartTime : Int := 0
  lastSimpleKeyTime : Int := 0
  timeouts : List Int := []
  activeChords : List ActiveChord := List.replicate 3 {}
  chord : ChordSt := {}
  pending : PendingKey := {}
  layerState : Nat → LayerSt := fun _ => {}
  keystate : Code → Bool := fun _ => false
  scroll : Scroll := {}
  clock : Int := 1
  trace : List Out := []
  steps : List Step := []

instance : Inhabited Kbd := ⟨{ originalConfig := {}, config := {} }⟩

/-- The observable actions in the order they happened. -/
def Kbd.outputs (k : Kbd) : List Out := k.trace.reverse

/-- Record a ghost step (newest first). -/
def Kbd.log (k : Kbd) (s : Step) : Kbd := { k with steps := s :: k.steps }

/-- Record that the chord stage consumed these events, in this order. -/
def Kbd.logSwallowed (k : Kbd) (evs : List KeyEvent) : Kbd :=
  { k with steps := (evs.map Step.swallowed).reverse ++ k.steps }

/-- Record an observable action. -/
def Kbd.emit (k : Kbd) (o : Out) : Kbd := { k with trace := o :: k.trace }

/-- `kbd->layer_state[i].active` as a truth value. -/
def Kbd.isActive (k : Kbd) (i : Nat) : Bool := (k.layerState i).active ≠ 0

/-- Assignment to fields of `kbd->layer_state[i]`. -/
def Kbd.modLayer (k : Kbd) (i : Nat) (f : LayerSt → LayerSt) : Kbd :=
  { k with layerState := upd k.layerState i (f (k.layerState i)) }

/-- Slot selection of `cache_set`, keyboard.c:27-33: the slot with this code,
else the last empty slot. -/
def cacheSlot (code : Code) : List CacheEntry → Nat → Option Nat → Option Nat
  | [], _, acc => acc
  | e :: es, i, acc =>
    if e.code = code then some i
    else cacheSlot code es (i+1) (if e.code = 0 then some i else acc)

/-- `cache_set`, keyboard.c:22-46. `none` is -1 (no slot). -/
def cacheSet (k : Kbd) (code : Code) (ent : Option CacheEntry) : Option Kbd :=
  match cacheSlot code k.cache 0 none with
  | none => none
  | some slot =>
    match ent with
    | none => some { k with cache := k.cache.modify slot fun e => { e with code := 0 } }
    | some ent => some { k with cache := k.cache.set slot { ent with code := code } }

/-- `cache_get`, keyboard.c:48-57 (the entry rather than a pointer to it). -/
def cacheGet (k : Kbd) (code : Code) : Option CacheEntry :=
  k.cache.find? fun e => e.code = code

/-- Update the first cache entry with the given code through the pointer
returned by `cache_get` (keyboard.c:266-267, 556-561). -/
def modifyFirst (p : CacheEntry → Bool) (f : CacheEntry → CacheEntry) :
    List CacheEntry → List CacheEntry
  | [] => []
  | e :: es => if p e then f e :: es else e :: modifyFirst p f es

def cacheModify (k : Kbd) (code : Code) (f : CacheEntry → CacheEntry) : Kbd :=
  { k with cache := modifyFirst (fun e => e.code = code) f k.cache }

/-- `reset_keystate`, keyboard.c:59-70. -/
def resetKeystate (k : Kbd) : Kbd :=
  allCodes.foldl (fun k c =>
    if k.keystate c then { k.emit (.key c false) with keystate := upd k.keystate c false } else k) k

/-- `send_key`, keyboard.c:72-84. -/
def sendKey (k : Kbd) (code : Code) (pressed : Bool) : Kbd :=
  if code = KEYD.NOOP ∨ code = KEYD.EXTERNAL_MOUSE_BUTTON then k
  else
    let k := if pressed then { k with lastPressedOutputCode := code } else k
    if k.keystate code ≠ pressed then
      { k.emit (.key code pressed) with keystate := upd k.keystate code pressed }
    else k

/-- The guard condition of `clear_mod`, keyboard.c:95-100. -/
def guardApplies (k : Kbd) (code : Code) : Bool :=
  (k.lastPressedOutputCode = code ∧
    (code = KEYD.LEFTMETA ∨ code = KEYD.LEFTALT ∨ code = KEYD.RIGHTALT)) ∧
  !k.inhibitModifierGuard ∧ k.config.disableModifierGuard = 0

/-- `clear_mod`, keyboard.c:86-109. -/
def clearMod (k : Kbd) (code : Code) : Kbd :=
  if guardApplies k code ∧ !k.keystate KEYD.LEFTCTRL then
    sendKey (sendKey (sendKey k KEYD.LEFTCTRL true) code false) KEYD.LEFTCTRL false
  else sendKey k code false

/-- One iteration of the loop of `set_mods`, keyboard.c:115-126. -/
def setMod (mods : UInt8) (k : Kbd) (m : UInt8 × Code) : Kbd :=
  if m.1 &&& mods ≠ 0 then
    if k.keystate m.2 then k else sendKey k m.2 true
  else
    if k.keystate m.2 then clearMod k m.2 else k

/-- `set_mods`, keyboard.c:111-127. -/
def setMods (k : Kbd) (mods : UInt8) : Kbd := modifiers.foldl (setMod mods) k

/-- Whether layer `i` is left out by `update_mods`, keyboard.c:143-151. -/
def modExcluded (c : Config) (ex : Option Nat) (i : Nat) : Bool :=
  match ex with
  | none => false
  | some e => i = e ∨ ((c.layer e).type = .composite ∧ i ∈ (c.layer e).constituents)

/-- The modifiers computed by `update_mods`, keyboard.c:136-155. -/
def layerMods (k : Kbd) (ex : Option Nat) (mods : UInt8) : UInt8 :=
  (List.range k.config.layers.length).foldl (fun m i =>
    if k.isActive i ∧ !modExcluded k.config ex i then m ||| (k.config.layer i).mods else m) mods

/-- `update_mods`, keyboard.c:129-158. The excluded layer -1 is `none`. -/
def updateMods (k : Kbd) (ex : Option Nat) (mods : UInt8) : Kbd :=
  setMods k (layerMods k ex mods)

/-- The output callbacks made by `macro_execute` (macro.c:85-166): they go to
the output directly and do not touch the engine's `keystate`. -/
def emitMacro (k : Kbd) : List MacroOut → Kbd
  | [] => k
  | .key c d :: rest => emitMacro (k.emit (.key c d)) rest
  | .sleep us :: rest => emitMacro (k.emit (.sleep us)) rest

/-- `execute_macro`, keyboard.c:160-174. The `long` sequence timeout is
converted to `size_t` as in C. -/
def executeMacro (k : Kbd) (dl : Nat) (m : Macro) : Kbd :=
  let slow (_ : Unit) : Kbd :=
    emitMacro (updateMods k (some dl) 0)
      (macroExecute m (k.config.macroSequenceTimeout % 18446744073709551616).toNat)
  match m with
  | [e] =>
    if e.type = .keysequence then
      let k := updateMods k (some dl) e.mods
      sendKey (sendKey k e.code true) e.code false
    else slow ()
  | _ => slow ()

/-- The scan over active layers of `lookup_descriptor`, keyboard.c:195-207:
the binding found so far with its layer, and `maxts`. -/
def lookupActive (k : Kbd) (code : Code) : Option (Desc × Nat) × Int :=
  (List.range k.config.layers.length).foldl (fun acc i =>
    let d := (k.config.layer i).keymap code
    let t := (k.layerState i).activationTime
    if k.isActive i ∧ d ≠ .none ∧ t ≥ acc.2 then (some (d, i), t) else acc) (none, 0)

/-- The scan over composite layers of `lookup_descriptor`, keyboard.c:209-233:
the best binding so far and `max`. -/
def lookupComposite (k : Kbd) (code : Code) (start : Option (Desc × Nat)) :
    Option (Desc × Nat) × Nat :=
  (List.range k.config.layers.length).foldl (fun acc i =>
    let l := k.config.layer i
    if l.type = .composite ∧ l.constituents.all k.isActive ∧ l.keymap code ≠ .none ∧
        l.constituents.length > acc.2 then
      (some (l.keymap code, i), l.constituents.length)
    else acc) (start, 0)

/-- `lookup_descriptor`, keyboard.c:176-241. -/
def lookupDescriptor (k : Kbd) (code : Code) : Desc × Nat :=
  if KEYD.CHORD_1 ≤ code ∧ code ≤ KEYD.CHORD_MAX then
    let ac := k.activeChords.getD (code.toNat - KEYD.CHORD_1.toNat) {}
    (ac.chord.d, ac.layer)
  else
    match (lookupComposite k code (lookupActive k code).1).1 with
    | some r => r
    | none => (.keyseq code 0, 0)

/-- `deactivate_layer`, keyboard.c:243-251. -/
def deactivateLayer (k : Kbd) (idx : Nat) : Res Kbd :=
  let s := k.layerState idx
  if s.active = 0 then .error (.assertFail "deactivate_layer: active > 0")
  else .ok ((k.modLayer idx fun s => { s with active := s.active - 1 }).emit (.layer idx false))

/-- `activate_layer`, keyboard.c:258-270. -/
def activateLayer (k : Kbd) (code : Code) (idx : Nat) : Res Kbd :=
  let s := k.layerState idx
  if s.active ≥ 255 then .error (.wrap "layer_state.active")
  else
    let t := k.clock
    let k := { k with clock := t + 1 }
    let k := k.modLayer idx fun s => { s with active := s.active + 1, activationTime := t }
    .ok ((cacheModify k code fun e => { e with layer := idx }).emit (.layer idx true))

/-- `chord_event_match`, keyboard.c:277-305. -/
inductive ChordMatch where
  | no | partialMatch | full
deriving DecidableEq, Repr

def chordEventMatch (ch : Chord) (events : List KeyEvent) : ChordMatch :=
  let pressed := events.filter (·.pressed)
  if pressed.any (fun e => !ch.keys.contains e.code) then .no
  else if pressed.length = 0 then .no
  else if pressed.length = ch.keys.length then .full
  else .partialMatch

/-- `enqueue_chord_event`, keyboard.c:307-319. -/
def enqueueChordEvent (k : Kbd) (code : Code) (pressed : Bool) (time : Int) : Res Kbd :=
  if code = 0 then .ok k
  else if k.chord.queue.length < 32 then
    .ok { k with chord := { k.chord with queue := k.chord.queue ++ [⟨code, pressed, time⟩] } }
  else .error (.assertFail "chord.queue_sz < ARRAY_SIZE(chord.queue)")

/-- Accumulator of `check_chord_match`. -/
structure ChordScan where
  full : Option (Nat × Nat) := none
  part : Bool := false
  maxts : Int := -1
deriving DecidableEq, Repr

/-- One chord of one layer in `check_chord_match`, keyboard.c:341-356. -/
def chordScanStep (queue : List KeyEvent) (layer : Nat) (time : Int)
    (acc : ChordScan) (ic : Nat × Chord) : ChordScan :=
  match chordEventMatch ic.2 queue with
  | .full => if acc.maxts ≤ time then { acc with full := some (layer, ic.1), maxts := time } else acc
  | .partialMatch => { acc with part := true }
  | .no => acc

/-- The loops of `check_chord_match`, keyboard.c:334-357. -/
def chordScan (k : Kbd) : ChordScan :=
  (List.range k.config.layers.length).foldl (fun acc i =>
    if k.isActive i then
      ((k.config.layer i).chords.zipIdx.map (fun p => (p.2, p.1))).foldl
        (chordScanStep k.chord.queue i (k.layerState i).activationTime) acc
    else acc) {}

/-- `check_chord_match`, keyboard.c:327-365: the return value (0 to 3) and the
state with `*chord`, `*chord_layer` updated when there is a full match. -/
def checkChordMatch (k : Kbd) : Nat × Kbd :=
  let r := chordScan k
  match r.full with
  | some (l, i) =>
    (if r.part then 3 else 2, { k with chord := { k.chord with «match» := some (l, i), matchLayer := l } })
  | none => (if r.part then 1 else 0, k)

/-- The inner `while` of `clear_oneshot`, keyboard.c:403-406, for one layer; the
first argument is the number of remaining iterations. -/
def clearOneshotLayer (i : Nat) : Nat → Kbd → Res Kbd
  | 0, k => .ok k
  | n+1, k => do
    let k ← deactivateLayer k i
    clearOneshotLayer i n (k.modLayer i fun s => { s with oneshotDepth := s.oneshotDepth - 1 })

/-- The `for` of `clear_oneshot`, keyboard.c:402-406, over the given layers. -/
def clearOneshotLayers : List Nat → Kbd → Res Kbd
  | [], k => .ok k
  | i :: is, k => do
    let k ← clearOneshotLayer i (k.layerState i).oneshotDepth k
    clearOneshotLayers is k

/-- `clear_oneshot`, keyboard.c:398-410. -/
def clearOneshot (k : Kbd) : Res Kbd := do
  let k ← clearOneshotLayers (List.range k.config.layers.length) k
  .ok { k with oneshotLatch := false, oneshotTimeout := 0 }

/-- The `for` of `clear`, keyboard.c:416-425, over the given layers. -/
def clearToggled : List Nat → Kbd → Res Kbd
  | [], k => .ok k
  | i :: is, k =>
    if (k.config.layer i).type ≠ .layout ∧ (k.layerState i).toggled then do
      let k ← deactivateLayer (k.modLayer i fun s => { s with toggled := false }) i
      clearToggled is k
    else clearToggled is k

/-- The layers 1 .. nr_layers-1 visited by `clear` and `setlayout`. -/
def nonMainLayers (k : Kbd) : List Nat := (List.range k.config.layers.length).drop 1

/-- `clear`, keyboard.c:412-430. -/
def clear (k : Kbd) : Res Kbd := do
  let k ← clearOneshot k
  let k ← clearToggled (nonMainLayers k) k
  .ok (resetKeystate { k with activeMacro := none })

/-- `setlayout`, keyboard.c:432-451. -/
def setlayout (k : Kbd) (idx : Nat) : Res Kbd := do
  let k ← clear k
  let k := (nonMainLayers k).foldl (fun k i =>
    if (k.config.layer i).type = .layout then
      k.modLayer i fun s => { s with active := 0 }
    else k) k
  let k := if idx ≠ 0 then
      k.modLayer idx fun s => { s with active := 1, activationTime := 1 }
    else k
  .ok (k.emit (.layer idx true))

/-- `schedule_timeout`, keyboard.c:454-458. -/
def scheduleTimeout (k : Kbd) (t : Int) : Res Kbd :=
  if k.timeouts.length < 64 then .ok { k with timeouts := k.timeouts ++ [t] }
  else .error (.assertFail "nr_timeouts < ARRAY_SIZE(timeouts)")

/-- `calculate_main_loop_timeout`, keyboard.c:460-476. -/
def calculateMainLoopTimeout (k : Kbd) (time : Int) : Kbd × Int :=
  let future := k.timeouts.filter (fun t => t > time)
  let timeout := future.foldl (fun acc t => if acc = 0 ∨ t < acc then t else acc) 0
  ({ k with timeouts := future }, if timeout = 0 then 0 else timeout - time)

/-- `OP_KEYSEQUENCE`, keyboard.c:507-532. -/
def pdKeyseq (k : Kbd) (code : Code) (mods : UInt8) (dl : Nat) (pressed : Bool) (time : Int) :
    Res Kbd := do
  let k ← (if pressed then
      let k := if k.keystate code then sendKey k code false else k
      let k := updateMods k (some dl) mods
      let k := sendKey k code true
      clearOneshot k
    else
      .ok (updateMods (sendKey k code false) none 0) : Res Kbd)
  .ok (if mods = 0 ∨ mods = MOD_SHIFT then { k with lastSimpleKeyTime := time } else k)

/-- `OP_OVERLOAD_TIMEOUT(_TAP)`, keyboard.c:564-585: enter the pending state.
`pending.queue` and `tap_expiry` are left alone, as in C. -/
def pdOverloadTimeout (k : Kbd) (code : Code) (tap : Bool) (layer desc timeout : Nat) (dl : Nat)
    (time : Int) : Res Kbd :=
  let k := { k with pending := { k.pending with
    code := code
    behaviour := if tap then .uninterruptibleTapAction2 else .uninterruptible
    dl := dl
    action1 := k.config.desc desc
    action2 := .layer layer
    expire := time + timeout } }
  scheduleTimeout k k.pending.expire

/-- `OP_TIMEOUT`, keyboard.c:716-729. -/
def pdTimeout (k : Kbd) (code : Code) (d1 timeout d2 : Nat) (dl : Nat) (time : Int) : Res Kbd :=
  let k := { k with pending := { k.pending with
    action1 := k.config.desc d1
    action2 := k.config.desc d2
    code := code
    dl := dl
    expire := time + timeout
    behaviour := .interruptAction1 } }
  scheduleTimeout k k.pending.expire

/-- `OP_LAYER` / `OP_LAYERM`, keyboard.c:591-609 (the macro part of LAYERM is in
`pdMacroPrefix`). -/
def pdLayer (k : Kbd) (code : Code) (idx : Nat) (pressed : Bool) : Res Kbd := do
  let k ← (if pressed then activateLayer k code idx else deactivateLayer k idx : Res Kbd)
  if k.lastPressedCode = code then
    let k := updateMods { k with inhibitModifierGuard := true } none 0
    .ok { k with inhibitModifierGuard := false }
  else .ok (updateMods k none 0)

/-- `OP_ONESHOT` / `OP_ONESHOTM`, keyboard.c:651-672. -/
def pdOneshot (k : Kbd) (code : Code) (idx : Nat) (dl : Nat) (pressed : Bool) (time : Int) :
    Res Kbd :=
  if pressed then do
    let k ← activateLayer k code idx
    let k := updateMods k (some dl) 0
    .ok { k with oneshotLatch := true }
  else if k.oneshotLatch then
    let s := k.layerState idx
    if s.oneshotDepth ≥ 255 then .error (.wrap "layer_state.oneshot_depth")
    else
      let k := k.modLayer idx fun s => { s with oneshotDepth := s.oneshotDepth + 1 }
      if k.config.oneshotTimeout ≠ 0 then
        let k := { k with oneshotTimeout := time + k.config.oneshotTimeout }
        scheduleTimeout k k.oneshotTimeout
      else .ok k
  else do
    let k ← deactivateLayer k idx
    .ok (updateMods k none 0)

/-- `OP_MACRO` / `OP_MACRO2`, keyboard.c:673-698 (press only). -/
def pdMacro (k : Kbd) (mac : Nat) (timeout interval : Int) (dl : Nat) (time : Int) : Res Kbd := do
  let k := { k with macroRepeatInterval := interval }
  let k ← clearOneshot k
  let k := executeMacro k dl (k.config.mac mac)
  let k := { k with activeMacro := some mac, activeMacroLayer := dl, macroTimeout := time + timeout }
  scheduleTimeout k k.macroTimeout

/-- `OP_TOGGLE` / `OP_TOGGLEM`, keyboard.c:699-715 (press only). -/
def pdToggle (k : Kbd) (code : Code) (idx : Nat) : Res Kbd := do
  let k := k.modLayer idx fun s => { s with toggled := !s.toggled }
  let k ← (if (k.layerState idx).toggled then activateLayer k code idx
    else deactivateLayer k idx : Res Kbd)
  let k := updateMods k none 0
  clearOneshot k

/-- `OP_COMMAND`, keyboard.c:730-736 (press only). The fork/exec of
`execute_command` (keyboard.c:367-396) is the observable `command`. -/
def pdCommand (k : Kbd) (cmd : Nat) : Res Kbd := do
  let k := k.emit (.command (k.config.commands.getD cmd []))
  let k ← clearOneshot k
  .ok (updateMods k none 0)

/-- The search for the key holding layer `dl`, keyboard.c:761-770. -/
def swapHolder (k : Kbd) (dl : Nat) (e : CacheEntry) : Bool :=
  e.code ≠ 0 ∧ e.layer = dl ∧ (k.config.layer e.layer).type = .normal ∧ e.layer ≠ 0

/-- The layer part of `OP_SWAP` / `OP_SWAPM` on press, keyboard.c:742-781. -/
def pdSwapLayer (k : Kbd) (idx : Nat) (dl : Nat) : Res Kbd :=
  if (k.layerState dl).toggled then do
    let k ← deactivateLayer k dl
    let k := k.modLayer dl fun s => { s with toggled := false }
    let k ← activateLayer k 0 idx
    let k := k.modLayer idx fun s => { s with toggled := true }
    .ok (updateMods k none 0)
  else if (k.layerState dl).oneshotDepth ≠ 0 then do
    let k ← deactivateLayer k dl
    let k := k.modLayer dl fun s => { s with oneshotDepth := s.oneshotDepth - 1 }
    let k ← activateLayer k 0 idx
    let k := k.modLayer idx fun s => { s with oneshotDepth := s.oneshotDepth + 1 }
    .ok (updateMods k none 0)
  else
    match k.cache.find? (swapHolder k dl) with
    | none => .ok k
    | some ce => do
      let k := { k with cache := modifyFirst (swapHolder k dl) (fun e => { e with d := .layer idx }) k.cache }
      let k ← deactivateLayer k dl
      let k ← activateLayer k ce.code idx
      .ok (updateMods k none 0)

/-- `OP_SWAP` / `OP_SWAPM`, keyboard.c:737-796. -/
def pdSwap (k : Kbd) (idx : Nat) (mac : Option Macro) (dl : Nat) (pressed : Bool) : Res Kbd :=
  if pressed then do
    let k ← pdSwapLayer k idx dl
    .ok (match mac with
      | some m => executeMacro k dl m
      | none => k)
  else
    .ok (match mac with
      | some [e] =>
        if e.type = .keysequence then updateMods (sendKey k e.code false) none 0 else k
      | _ => k)

/-- The macro executed first on press for LAYERM, ONESHOTM and TOGGLEM,
keyboard.c:485-498. -/
def pdMacroPrefix (k : Kbd) (d : Desc) (dl : Nat) (pressed : Bool) : Kbd :=
  if pressed then
    match d with
    | .layerm _ m => executeMacro k dl (k.config.mac m)
    | .oneshotm _ m => executeMacro k dl (k.config.mac m)
    | .togglem _ m => executeMacro k dl (k.config.mac m)
    | _ => k
  else k

/-- Whether releasing an overload key is a tap, keyboard.c:633-635. -/
def isTap (k : Kbd) (code : Code) (time : Int) : Bool :=
  k.lastPressedCode = code ∧
    (k.config.overloadTapTimeout = 0 ∨ time - k.overloadStartTime < k.config.overloadTapTimeout)

/-- The press half of `OP_OVERLOAD`, keyboard.c:625-628. -/
def pdOverloadPress (k : Kbd) (code : Code) (idx : Nat) (time : Int) : Res Kbd := do
  let k := { k with overloadStartTime := time }
  let k ← activateLayer k code idx
  .ok (updateMods k none 0)

/-- The release half of `OP_OVERLOAD`, keyboard.c:629-648; `pd` processes the
nested action. -/
def pdOverloadRelease (pd : Kbd → Code → Desc → Nat → Bool → Int → Res Kbd)
    (k : Kbd) (code : Code) (idx desc : Nat) (dl : Nat) (time : Int) : Res Kbd := do
  let action := k.config.desc desc
  let k ← deactivateLayer k idx
  let k := updateMods k none 0
  if isTap k code time then
    match action with
    | .macro m => .ok (executeMacro k dl (k.config.mac m))
    | _ => do
      let k ← pd k code action dl true time
      pd k code action dl false time
  else .ok k

/-- The action chosen by `OP_OVERLOAD_IDLE_TIMEOUT`, keyboard.c:548-553. -/
def idleAction (k : Kbd) (d1 d2 timeout : Nat) (time : Int) : Desc :=
  if time - k.lastSimpleKeyTime ≥ timeout then k.config.desc d2 else k.config.desc d1

/-- `OP_OVERLOAD_IDLE_TIMEOUT` on press, keyboard.c:546-562. -/
def pdOverloadIdle (pd : Kbd → Code → Desc → Nat → Bool → Int → Res Kbd)
    (k : Kbd) (code : Code) (d1 d2 timeout : Nat) (dl : Nat) (time : Int) : Res Kbd := do
  let action := idleAction k d1 d2 timeout time
  let k ← pd k code action dl true time
  .ok (cacheModify k code fun e => { e with d := action })

/-- The main `switch` of `process_descriptor`, keyboard.c:500-797. -/
def pdSwitch (pd : Kbd → Code → Desc → Nat → Bool → Int → Res Kbd)
    (k : Kbd) (code : Code) (d : Desc) (dl : Nat) (pressed : Bool) (time : Int) : Res Kbd :=
  match d with
  | .none => .ok k
  | .keyseq c m => pdKeyseq k c m dl pressed time
  | .scroll s => .ok { k with scroll := { k.scroll with sensitivity := s, active := pressed } }
  | .scrollToggle s =>
    .ok { k with scroll := { k.scroll with
      sensitivity := s, active := if pressed then !k.scroll.active else k.scroll.active } }
  | .overloadIdle d1 d2 t => if pressed then pdOverloadIdle pd k code d1 d2 t dl time else .ok k
  | .overloadTimeout l a t => if pressed then pdOverloadTimeout k code false l a t dl time else .ok k
  | .overloadTimeoutTap l a t => if pressed then pdOverloadTimeout k code true l a t dl time else .ok k
  | .layout l => if pressed then setlayout k l else .ok k
  | .layer l => pdLayer k code l pressed
  | .layerm l _ => pdLayer k code l pressed
  | .clear => if pressed then clear k else .ok k
  | .clearm m => if pressed then do
      let k ← clear k
      .ok (executeMacro k dl (k.config.mac m))
    else .ok k
  | .overload l a =>
    if pressed then pdOverloadPress k code l time else pdOverloadRelease pd k code l a dl time
  | .oneshot l => pdOneshot k code l dl pressed time
  | .oneshotm l _ => pdOneshot k code l dl pressed time
  | .macro m =>
    if pressed then pdMacro k m k.config.macroTimeout k.config.macroRepeatTimeout dl time else .ok k
  | .macro2 t r m => if pressed then pdMacro k m t r dl time else .ok k
  | .toggle l => if pressed then pdToggle k code l else .ok k
  | .togglem l _ => if pressed then pdToggle k code l else .ok k
  | .timeout d1 t d2 => if pressed then pdTimeout k code d1 t d2 dl time else .ok k
  | .command c => if pressed then pdCommand k c else .ok k
  | .swap l => pdSwap k l none dl pressed
  | .swapm l m => pdSwap k l (some (k.config.mac m)) dl pressed

/-- `process_descriptor`, keyboard.c:478-803 (its return value is unused by all
callers and is omitted). The first argument bounds the nesting of actions. -/
def processDescriptor : Nat → Kbd → Code → Desc → Nat → Bool → Int → Res Kbd
  | 0, _, _, _, _, _, _ => .error .fuel
  | n+1, k, code, d, dl, pressed, time => do
    let k := pdMacroPrefix k d dl pressed
    let k ← pdSwitch (processDescriptor n) k code d dl pressed time
    .ok (if pressed then { k with lastPressedCode := code } else k)

/-- Nesting budget: nested actions have smaller indices than the action that
contains them (proved in Props), so the table size plus two suffices. -/
def descBudget (k : Kbd) : Nat := k.config.descriptors.length + 2

/-- The search for the default layout in `new_keyboard`, keyboard.c:821-832. -/
def findLayout (name : Str) : List Layer → Nat → Option Nat
  | [], _ => none
  | l :: ls, i => if l.type = .layout ∧ l.name = name then some i else findLayout name ls (i+1)

/-- `new_keyboard`, keyboard.c:805-843. -/
def newKeyboard (c : Config) : Kbd :=
  let ls : Nat → LayerSt := upd (fun _ => {}) 0 { active := 1, activationTime := 0 }
  let ls := if c.defaultLayout ≠ [] then
      match findLayout c.defaultLayout c.layers 0 with
      | some i => upd ls i { ls i with active := 1, activationTime := 1 }
      | none => ls
    else ls
  { originalConfig := c, config := c, layerState := ls }

/-- The type of `process_event`: new state and the returned wait. -/
abbrev PE := Kbd → Code → Bool → Int → Res (Kbd × Int)

/-- Catching up with deadlines before the next event, keyboard.c:1196-1198.
The first argument bounds the number of iterations: each one advances
`timeout_ts` by at least one unit towards `limit`. -/
def catchUp (pe : PE) : Nat → Kbd → Int → Int → Int → Res (Kbd × Int × Int)
  | 0, _, _, _, _ => .error .fuel
  | n+1, k, timeout, ts, limit =>
    if timeout > 0 ∧ ts ≤ limit then do
      let (k, t) ← pe k 0 false ts
      catchUp pe n k t (ts + t) limit
    else .ok (k, timeout, ts)

/-- The loop of `kbd_process_events`, keyboard.c:1193-1204. -/
def processEventsLoop (pe : PE) : List KeyEvent → Kbd → Int → Int → Res (Kbd × Int)
  | [], k, timeout, _ => .ok (k, timeout)
  | ev :: rest, k, timeout, ts => do
    let (k, _, _) ← catchUp pe ((ev.ts - ts).toNat + 2) k timeout ts ev.ts
    let (k, t) ← pe k ev.code ev.pressed ev.ts
    processEventsLoop pe rest k t (ev.ts + t)

/-- `kbd_process_events`, keyboard.c:1187-1207. -/
def processEventsWith (pe : PE) (k : Kbd) (evs : List KeyEvent) : Res (Kbd × Int) :=
  processEventsLoop pe evs k 0 0

/-- Dereference `chord.match`. -/
def derefChord (k : Kbd) (p : Nat × Nat) : Chord :=
  (k.config.layer p.1).chords.getD p.2 ⟨[], .none⟩

/-- Index of the first inactive element of `active_chords`, keyboard.c:856-866. -/
def freeChordSlot : List ActiveChord → Nat → Option Nat
  | [], _ => none
  | a :: as, i => if a.active then freeChordSlot as (i+1) else some i

/-- Installing the matched chord, keyboard.c:852-868: the new state, the code of
the chord and its size. -/
def installChord (k : Kbd) (p : Nat × Nat) : Res (Kbd × Code × Nat) :=
  let chord := derefChord k p
  match freeChordSlot k.activeChords 0 with
  | none => .error (.assertFail "resolve_chord: code")
  | some i =>
    .ok ({ k with activeChords := k.activeChords.set i ⟨true, chord, k.chord.matchLayer⟩ },
         KEYD.CHORD_1 + UInt8.ofNat i, chord.keys.length)

/-- `resolve_chord`, keyboard.c:845-880. A chord longer than the queue would make
the unsigned subtraction on line 877 wrap: outcome `oob`. -/
def resolveChord (pe : PE) (k : Kbd) : Res Kbd := do
  let k := { k with chord := { k.chord with state := .resolving } }
  let (k, offset) ← (match k.chord.match with
    | none => .ok (k, 0)
    | some p => do
      let (k, code, sz) ← installChord k p
      let k := k.logSwallowed (k.chord.queue.take sz)
      let (k, _) ← pe k code true k.chord.lastCodeTime
      .ok (k, sz) : Res (Kbd × Nat))
  if k.chord.queue.length < offset then .error (.oob "chord.queue + queue_offset")
  else do
    let (k, _) ← processEventsWith pe k (k.chord.queue.drop offset)
    .ok { k with chord := { k.chord with state := .inactive } }

/-- `abort_chord`, keyboard.c:882-886. -/
def abortChord (pe : PE) (k : Kbd) : Res Kbd :=
  resolveChord pe { k with chord := { k.chord with «match» := none } }

/-- Clearing a released key in an active chord, keyboard.c:905-913. -/
def chordStrike (code : Code) (keys : List Code) : List Code :=
  keys.map fun c => if c = code then 0 else c

/-- The scan of the active chords on a key release, keyboard.c:896-924: the
index of the first active chord containing the key. -/
def findActiveChord (code : Code) : List ActiveChord → Nat → Option Nat
  | [], _ => none
  | a :: as, i =>
    if a.active ∧ code ∈ a.chord.keys then some i else findActiveChord code as (i+1)

/-- Releasing a key of active chord `i`, keyboard.c:905-922. -/
def strikeChord (pe : PE) (k : Kbd) (i : Nat) (code : Code) (time : Int) : Res Kbd :=
  let ac := k.activeChords.getD i {}
  let keys := chordStrike code ac.chord.keys
  let ac' := { ac with chord := { ac.chord with keys := keys } }
  let k := k.logSwallowed [⟨code, false, time⟩]
  if keys.all (· = 0) then do
    let k := { k with activeChords := k.activeChords.set i { ac' with active := false } }
    let (k, _) ← pe k (KEYD.CHORD_1 + UInt8.ofNat i) false time
    .ok k
  else .ok { k with activeChords := k.activeChords.set i ac' }

/-- What to do after `check_chord_match`, keyboard.c:936-956 and 983-1004:
`ifNone` is the result for return value 0. -/
def chordDecide (pe : PE) (k : Kbd) (time : Int) (ifNone : Kbd → Res (Kbd × Bool)) :
    Res (Kbd × Bool) :=
  match checkChordMatch k with
  | (0, k) => ifNone k
  | (2, k) =>
    let k := { k with chord := { k.chord with lastCodeTime := time } }
    if k.config.chordHoldTimeout ≠ 0 then do
      let k := { k with chord := { k.chord with state := .pendingHoldTimeout } }
      let k ← scheduleTimeout k (time + k.config.chordHoldTimeout)
      .ok (k, true)
    else do
      let k ← resolveChord pe k
      .ok (k, true)
  | (_, k) => do
    let k := { k with chord := { k.chord with state := .pendingDisambiguation, lastCodeTime := time } }
    let k ← scheduleTimeout k (time + k.config.chordInterkeyTimeout)
    .ok (k, true)

/-- The state machine of `handle_chord`, keyboard.c:927-1026. The flag is the
return value (true: the event has been consumed). -/
def chordMachine (pe : PE) (k : Kbd) (code : Code) (pressed : Bool) (time : Int) :
    Res (Kbd × Bool) :=
  match k.chord.state with
  | .resolving => .ok (k, false)
  | .inactive => do
    let k := { k with chord := { k.chord with queue := [], «match» := none, startCode := code } }
    let k ← enqueueChordEvent k code pressed time
    chordDecide pe k time (fun k => .ok (k, false))
  | .pendingDisambiguation =>
    if code = 0 then
      if time - k.chord.lastCodeTime ≥ k.config.chordInterkeyTimeout then
        if k.chord.match.isSome then
          let timeleft := k.config.chordHoldTimeout - k.config.chordInterkeyTimeout
          if timeleft > 0 then do
            let k ← scheduleTimeout k (time + timeleft)
            .ok ({ k with chord := { k.chord with state := .pendingHoldTimeout } }, true)
          else do
            let k ← resolveChord pe k
            .ok (k, true)
        else do
          let k ← abortChord pe k
          .ok (k, true)
      else .ok (k, false)
    else do
      let k ← enqueueChordEvent k code pressed time
      if !pressed then do
        let k ← abortChord pe k
        .ok (k, true)
      else chordDecide pe k time (fun k => do
        let k ← abortChord pe k
        .ok (k, true))
  | .pendingHoldTimeout =>
    if code = 0 then
      if time - k.chord.lastCodeTime ≥ k.config.chordHoldTimeout then do
        let k ← resolveChord pe k
        .ok (k, true)
      else .ok (k, false)
    else do
      let k ← enqueueChordEvent k code pressed time
      if !pressed then
        match k.chord.match with
        | none => .error (.nullDeref "chord.match")
        | some p =>
          if code ∈ (derefChord k p).keys then do
            let k ← abortChord pe k
            .ok (k, true)
          else .ok (k, true)
      else .ok (k, true)

/-- `handle_chord`, keyboard.c:888-1027. -/
def handleChord (pe : PE) (k : Kbd) (code : Code) (pressed : Bool) (time : Int) :
    Res (Kbd × Bool) :=
  match (if code ≠ 0 ∧ !pressed then findActiveChord code k.activeChords 0 else none) with
  | some i => do
    let k ← strikeChord pe k i code time
    .ok (k, true)
  | none => chordMachine pe k code pressed time

/-- Queueing an event behind the pending key, keyboard.c:1036-1060. `none`: the
event is a release of a key struck earlier and is let through. -/
def pendingEnqueue (k : Kbd) (code : Code) (pressed : Bool) (time : Int) : Res (Option Kbd) :=
  if code = 0 then .ok (some k)
  else if k.pending.queue.length ≥ 32 then
    .error (.assertFail "pending_key.queue_sz < ARRAY_SIZE(pending_key.queue)")
  else if !pressed ∧ !(k.pending.queue.any fun e => e.code = code) ∧ code ≠ k.pending.code then
    .ok none
  else
    .ok (some { k with pending := { k.pending with queue := k.pending.queue ++ [⟨code, pressed, time⟩] } })

/-- The decision of `handle_pending_key`, keyboard.c:1063-1084; `none` is
`action.op == 0` (still undecided). -/
def pendingDecision (p : PendingKey) (code : Code) (pressed : Bool) (time : Int) : Desc :=
  if time ≥ p.expire then p.action2
  else if code = p.code then
    if p.tapExpiry ≠ 0 ∧ time ≥ p.tapExpiry then .keyseq KEYD.NOOP 0 else p.action1
  else if code ≠ 0 ∧ pressed ∧ p.behaviour = .interruptAction1 then p.action1
  else if code ≠ 0 ∧ pressed ∧ p.behaviour = .interruptAction2 then p.action2
  else if p.behaviour = .uninterruptibleTapAction2 ∧ !pressed then
    if p.queue.any (fun e => e.code = code) then p.action2 else .none
  else .none

/-- Leaving the pending state, keyboard.c:1092-1106: returns the events to be
replayed. A failing `cache_set` is ignored, as in C. -/
def resolvePendingStep (k : Kbd) (action : Desc) (time : Int) : Res (Kbd × List KeyEvent) := do
  let queue := k.pending.queue
  let code := k.pending.code
  let dl := k.pending.dl
  let k := { k with pending := { k.pending with code := 0, queue := [], tapExpiry := 0 } }
  let k := (cacheSet k code (some { d := action, dl := dl, layer := 0 })).getD k
  let k := k.log (.resolve code action dl time)
  let k ← processDescriptor (descBudget k) k code action dl true time
  .ok (k, queue)

/-- `handle_pending_key`, keyboard.c:1029-1113. -/
def handlePendingKey (pe : PE) (k : Kbd) (code : Code) (pressed : Bool) (time : Int) :
    Res (Kbd × Bool) :=
  if k.pending.code = 0 then .ok (k, false)
  else do
    match ← pendingEnqueue k code pressed time with
    | none => .ok (k, false)
    | some k =>
      let action := pendingDecision k.pending code pressed time
      if action = .none then .ok (k, true)
      else do
        let (k, queue) ← resolvePendingStep k action time
        let (k, _) ← processEventsWith pe k queue
        .ok (k, true)

/-- One-shot expiry and macro repetition, keyboard.c:1133-1147. -/
def stepTimers (k : Kbd) (code : Code) (time : Int) : Res Kbd := do
  let k ← (if k.oneshotTimeout ≠ 0 ∧ time ≥ k.oneshotTimeout then do
      let k ← clearOneshot k
      .ok (updateMods k none 0)
    else .ok k : Res Kbd)
  match k.activeMacro with
  | none => .ok k
  | some m =>
    if code ≠ 0 then .ok (updateMods { k with activeMacro := none } none 0)
    else if time ≥ k.macroTimeout then do
      let k := executeMacro k k.activeMacroLayer (k.config.mac m)
      let k := { k with macroTimeout := time + k.macroRepeatInterval }
      scheduleTimeout k k.macroTimeout
    else .ok k

/-- The key itself, keyboard.c:1149-1179. -/
def stepKey (k : Kbd) (code : Code) (pressed : Bool) (time : Int) : Res Kbd :=
  if code = 0 then .ok k
  else if pressed then
    if (cacheGet k code).isSome then .ok (k.log (.key code true time none))
    else
      let (d, dl) := lookupDescriptor k code
      match cacheSet k code (some { d := d, dl := dl, layer := 0 }) with
      | none => .ok (k.log (.key code true time none))
      | some k =>
        let k := k.log (.key code true time (some (d, dl)))
        processDescriptor (descBudget k) k code d dl true time
  else
    match cacheGet k code with
    | none => .ok (k.log (.key code false time none))
    | some ce =>
      let k := (cacheSet k code none).getD k
      let k := k.log (.key code false time (some (ce.d, ce.dl)))
      processDescriptor (descBudget k) k code ce.d ce.dl false time

/-- The body of `process_event`, keyboard.c:1122-1184, given the function used
for the recursive calls. -/
def processEventBody (pe : PE) : PE := fun k code pressed time => do
  let (k, handled) ← handleChord pe k code pressed time
  let k ← (if handled then .ok k else do
      let k := if code = 0 then k else k.log (.passed ⟨code, pressed, time⟩)
      let (k, handled) ← handlePendingKey pe k code pressed time
      if handled then .ok k else do
        let k ← stepTimers k code time
        stepKey k code pressed time : Res Kbd)
  .ok (calculateMainLoopTimeout k time)

/-- `process_event`, keyboard.c:1122-1184, with a bound on the recursion depth
(theorem `C24_terminates` shows a sufficient bound exists). -/
def processEvent : Nat → PE
  | 0 => fun _ _ _ _ => .error .fuel
  | n+1 => processEventBody (processEvent n)

/-- `kbd_process_events`, keyboard.c:1187-1207. -/
def kbdProcessEvents (fuel : Nat) (k : Kbd) (evs : List KeyEvent) : Res (Kbd × Int) :=
  processEventsWith (processEvent fuel) k evs

/-- `kbd_eval`, keyboard.c:1209-1217. The flag is false on a negative result. -/
def kbdEval (k : Kbd) (exp : Str) : Res (Kbd × Bool) :=
  if exp = b!"reset" then .ok ({ k with config := k.originalConfig }, true)
  else do
    let (c, ok) ← configAddEntry k.config exp
    .ok ({ k with config := c }, ok)

end Keyd
