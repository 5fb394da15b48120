import Verif.Model.Keyboard
import Verif.Model.Device

/-
  Model of /repo/src/daemon.c and /repo/src/evloop.c: which config manages which
  device, what the daemon does with the events of the main loop, its IPC commands,
  the layer listeners, and how long the loop sleeps.

  Conventions.
  * Heap pointers to `struct keyboard` are numbers (addresses); `heap` maps the live
    ones to their keyboards. Using a freed address is the outcome `DErr.freed`, which is
    distinct from the failures of the engine and the parsers. New keyboards get fresh
    addresses.
  * What the kernel and other processes decide (does a grab succeed, is a listener's
    socket writable, what is in the config directory) is given to each step in an `Env`.
  * Calls to the virtual keyboard, lines written to listeners, LED settings and replies
    are logged, newest first.
-/

set_option autoImplicit false

namespace Keyd

/-- Failures of the daemon: those of the code it calls, and use of a freed keyboard. -/
inductive DErr where
  | inner (e : Err)
  | freed (what : String)
deriving DecidableEq, Repr

abbrev DRes (α : Type) := Except DErr α

/-- A failure of the engine or a parser is a failure of the daemon. -/
def lift {α : Type} : Res α → DRes α
  | .ok a => .ok a
  | .error e => .error (.inner e)

/-- Calls of the virtual keyboard backend, vkbd.h. -/
inductive VOut where
  /-- `vkbd_send_key` -/
  | key (code : Code) (down : Bool)
  /-- `vkbd_mouse_scroll` -/
  | scroll (x y : Int)
  /-- `vkbd_mouse_move` -/
  | move (x y : Int)
  /-- `vkbd_mouse_move_abs` -/
  | moveAbs (x y : Int)
deriving DecidableEq, Repr

/-- `CAP_MOUSE`, `CAP_MOUSE_ABS`, `CAP_KEYBOARD`, device.h:11-13. -/
def CAP_MOUSE : UInt8 := 0x1
def CAP_MOUSE_ABS : UInt8 := 0x2
def CAP_KEYBOARD : UInt8 := 0x4

/-- `struct device`, device.h:17-40. The file descriptor, name, path and axis ranges
are omitted; `data` is the address of the keyboard managing the device. `led` is the
state of the LEDs as last set by keyd. -/
structure Device where
  id : Str
  isVirtual : Bool := false
  capabilities : UInt8 := 0
  data : Option Nat := none
  grabbed : Bool := false
  led : Code → Bool := fun _ => false

/-- `struct config_ent`, daemon.c:3-7. -/
structure Ent where
  config : Config
  kbd : Nat

/-- What a client connection receives. -/
inductive Reply where
  | success | fail
  /-- the text "Max listeners exceeded" -/
  | tooManyListeners
deriving DecidableEq, Repr

/-- The environment's choices during one step. -/
structure Env where
  /-- recursion bound for the engine (see `processEvent`) -/
  fuel : Nat := 100
  /-- `device_grab` succeeds for the device with this id -/
  grab : Str → Bool := fun _ => true
  /-- a write to this connection transfers all bytes -/
  writable : Nat → Bool := fun _ => true
  /-- the contents of the `.conf` files, in directory order -/
  confs : List Str := []

/-- The static variables of daemon.c (9-17, 479-480), the device table of evloop.c and
the logs. -/
structure Daemon where
  heap : Nat → Option Kbd := fun _ => none
  next : Nat := 0
  configs : List Ent := []
  keystate : Code → Bool := fun _ => false
  listeners : List Nat := []
  active : Option Nat := none
  devices : List Device := []
  lastTime : Int := 0
  timeout : Int := 0
  vout : List VOut := []
  sent : List (Nat × Str) := []
  replies : List (Nat × Reply) := []

/-- `vkbd_send_key` (the call is logged). -/
def Daemon.vkey (d : Daemon) (c : Code) (down : Bool) : Daemon := { d with vout := .key c down :: d.vout }

/-- `vkbd_mouse_scroll` (the call is logged). -/
def Daemon.vscroll (d : Daemon) (x y : Int) : Daemon := { d with vout := .scroll x y :: d.vout }

/-- `free_configs`, daemon.c:19-30. `active_kbd` is left alone. -/
def freeConfigs (d : Daemon) : Daemon :=
  { d with
    heap := fun a => if d.configs.any (fun e => e.kbd = a) then none else d.heap a
    configs := [] }

/-- All key codes in order. -/
def codes256 : List Code := (List.range 256).map UInt8.ofNat

/-- The body of the loop of `clear_vkbd`, daemon.c:43-46. -/
def clearStep (d : Daemon) (c : Code) : Daemon :=
  if d.keystate c then { d with vout := .key c false :: d.vout, keystate := upd d.keystate c false } else d

/-- `clear_vkbd`, daemon.c:38-47. -/
def clearVkbd (d : Daemon) : Daemon := codes256.foldl clearStep d

/-- `send_key`, daemon.c:49-74. -/
def daemonSendKey (d : Daemon) (code : Code) (down : Bool) : Daemon :=
  let d := { d with keystate := upd d.keystate code down }
  if code = KEYD.SCROLL_DOWN then (if down then d.vscroll 0 (-1) else d)
  else if code = KEYD.SCROLL_UP then (if down then d.vscroll 0 1 else d)
  else if code = KEYD.SCROLL_RIGHT then (if down then d.vscroll 1 0 else d)
  else if code = KEYD.SCROLL_LEFT then (if down then d.vscroll (-1) 0 else d)
  else d.vkey code down

/-- The line sent to listeners, daemon.c:161-164. The buffer has
`MAX_LAYER_NAME_LEN + 2 = 66` bytes, so `snprintf` stores at most 65 characters and a
NUL, but the untruncated length is what `write` is given. -/
def changeLine (l : Layer) (state : Bool) : Str :=
  let full := (if l.type = .layout then 47 else if state then 43 else 45) :: l.name ++ [10]
  if full.length ≤ 65 then full else full.take 65 ++ [0]

/-- Writing a line to every listener and keeping those that took it, daemon.c:166-178. -/
def broadcast (env : Env) (d : Daemon) (line : Str) : Daemon :=
  { d with
    sent := (d.listeners.filter env.writable).reverse.map (fun con => (con, line)) ++ d.sent
    listeners := d.listeners.filter env.writable }

/-- `device_set_led` on every device managed by the keyboard, daemon.c:153-155. -/
def setLed (d : Daemon) (addr : Nat) (led : Code) (on : Bool) : Daemon :=
  { d with devices := d.devices.map fun dev =>
      if dev.data = some addr then { dev with led := upd dev.led led on } else dev }

/-- `on_layer_change`, daemon.c:135-179. `counts` is `layer_state[..].active` at the
time of the call. -/
def onLayerChange (env : Env) (d : Daemon) (addr : Nat) (c : Config) (counts : Nat → Nat) (idx : Nat) (state : Bool) :
    Daemon :=
  let d := if c.layerIndicator ≠ 0 then
      setLed d addr 1 ((List.range c.layers.length).any fun i =>
        decide (i ≠ 0 ∧ (c.layer i).type ≠ .layout ∧ counts i ≠ 0))
    else d
  if d.listeners = [] then d else broadcast env d (changeLine (c.layer idx) state)

/-- The engine's callbacks in the order they were made. `counts` follows
`layer_state[..].active` of the layers that are not layouts: `activate_layer` increments
it before the callback, `deactivate_layer` decrements it. (In C the callback reads the
keyboard; here it is replayed from the counts at the start of the call.) Commands and sleeps have no effect on
the daemon. -/
def applyOuts (env : Env) (addr : Nat) (c : Config) : Daemon → (Nat → Nat) → List Out → Daemon
  | d, _, [] => d
  | d, n, .key code down :: os => applyOuts env addr c (daemonSendKey d code down) n os
  | d, n, .layer i b :: os =>
    let n := if (c.layer i).type = .layout then n else upd n i (if b then n i + 1 else n i - 1)
    applyOuts env addr c (onLayerChange env d addr c n i b) n os
  | d, n, .command _ :: os => applyOuts env addr c d n os
  | d, n, .sleep _ :: os => applyOuts env addr c d n os

/-- A call of `kbd_process_events` through a pointer, with the callbacks it makes. -/
def kbdRun (env : Env) (d : Daemon) (addr : Nat) (evs : List KeyEvent) : DRes (Daemon × Int) :=
  match d.heap addr with
  | none => .error (.freed "kbd_process_events")
  | some k => do
    let (k', wait) ← lift (kbdProcessEvents env.fuel k evs)
    let new := (k'.trace.take (k'.trace.length - k.trace.length)).reverse
    let d := { d with heap := upd d.heap addr (some k') }
    .ok (applyOuts env addr k.config d (fun i => (k.layerState i).active) new, wait)

/-- One file of `load_configs`, daemon.c:202-221. -/
def loadConfig (d : Daemon) (text : Str) : DRes Daemon := do
  match ← lift (configParse text) with
  | some c =>
    .ok { d with
      heap := upd d.heap d.next (some (newKeyboard c))
      next := d.next + 1
      configs := ⟨c, d.next⟩ :: d.configs }
  | none => .ok d

/-- `load_configs`, daemon.c:181-225, over the files in directory order. -/
def loadConfigs : List Str → Daemon → DRes Daemon
  | [], d => .ok d
  | t :: ts, d => do loadConfigs ts (← loadConfig d t)

/-- The scan of `lookup_config_ent`, daemon.c:229-242: best entry so far and its rank. -/
def lookupScan (id : Str) (flags : UInt8) : List Ent → Option Ent × Nat → Option Ent × Nat
  | [], acc => acc
  | e :: es, (m, rank) =>
    let r := configCheckMatch e.config id flags
    lookupScan id flags es (if r > rank then (some e, r) else (m, rank))

/-- `lookup_config_ent`, daemon.c:227-249. -/
def lookupConfigEnt (configs : List Ent) (id : Str) (flags : UInt8) : Option Ent :=
  let (m, rank) := lookupScan id flags configs (none, 0)
  if rank = 1 ∧ flags = ID_MOUSE then none else m

/-- The flags of a device, daemon.c:253,259-262. -/
def deviceFlags (dev : Device) : UInt8 :=
  (if dev.capabilities &&& CAP_KEYBOARD ≠ 0 then ID_KEYBOARD else 0) |||
  (if dev.capabilities &&& (CAP_MOUSE ||| CAP_MOUSE_ABS) ≠ 0 then ID_MOUSE else 0)

/-- `manage_device`, daemon.c:251-280. -/
def manageDevice (env : Env) (configs : List Ent) (dev : Device) : Device :=
  if dev.isVirtual then dev
  else match lookupConfigEnt configs dev.id (deviceFlags dev) with
    | some ent =>
      if dev.grabbed ∨ env.grab dev.id then { dev with grabbed := true, data := some ent.kbd }
      else { dev with data := none }
    | none => { dev with data := none, grabbed := false }

/-- `reload`, daemon.c:282-293. -/
def reload (env : Env) (d : Daemon) : DRes Daemon := do
  let d ← loadConfigs env.confs (freeConfigs d)
  .ok (clearVkbd { d with devices := d.devices.map (manageDevice env d.configs) })

/-- The layout shown first to a listener, daemon.c:96-106: the first active layout other
than main, or main. -/
def shownLayout (c : Config) (k : Kbd) : Nat :=
  (((List.range c.layers.length).filter fun i =>
    decide (i ≠ 0 ∧ (k.layerState i).active ≠ 0 ∧ (c.layer i).type = .layout)).head?).getD 0

/-- The snapshot sent to a new listener, daemon.c:108-121. -/
def snapshot (k : Kbd) : List Str :=
  let c := k.config
  (47 :: (c.layer (shownLayout c k)).name ++ [10]) ::
    ((List.range c.layers.length).filter fun i =>
      decide (i ≠ 0 ∧ (k.layerState i).active ≠ 0 ∧ (c.layer i).type ≠ .layout)).map
        fun i => 43 :: (c.layer i).name ++ [10]

/-- `add_listener`, daemon.c:76-133. Simplification: a client that cannot take the
snapshot is dropped without any of it being logged as received. -/
def addListener (env : Env) (d : Daemon) (con : Nat) : DRes Daemon :=
  if d.listeners.length = 32 then .ok { d with replies := (con, .tooManyListeners) :: d.replies }
  else match d.active with
    | none => .ok { d with listeners := d.listeners ++ [con] }
    | some a =>
      match d.heap a with
      | none => .error (.freed "add_listener: active_kbd")
      | some k =>
        if env.writable con then
          .ok { d with
            sent := (snapshot k).reverse.map (fun l => (con, l)) ++ d.sent
            listeners := d.listeners ++ [con] }
        else .ok d

/-- Press and release of a key on the virtual keyboard (daemon.c:346-347 etc.). -/
def Daemon.vtap (d : Daemon) (c : Code) : Daemon := (d.vkey c true).vkey c false

/-- What `input` types for one character, daemon.c:331-375; `none` is the error exit. -/
def inputChar (d : Daemon) (sz cp : Nat) : Option Daemon :=
  let ch : UInt8 := UInt8.ofNat cp
  let direct : Option Daemon :=
    if sz = 1 then
      match parseKeySequence [ch] with
      | some (code, mods) =>
        if mods &&& MOD_SHIFT ≠ 0 then
          some ((((d.vkey KEYD.LEFTSHIFT true).vkey code true).vkey code false).vkey KEYD.LEFTSHIFT false)
        else some (d.vtap code)
      | none =>
        if ch = 32 then some (d.vtap KEYD.SPACE)
        else if ch = 10 then some (d.vtap KEYD.ENTER)
        else if ch = 9 then some (d.vtap KEYD.TAB)
        else none
    else none
  match direct with
  | some d => some d
  | none =>
    match unicodeLookupIndex cp with
    | none => none
    | some idx => some ((unicodeGetSequence idx).foldl Daemon.vtap d)

/-- The loop of `input`, daemon.c:322-385. Every step consumes a byte at least. -/
def inputLoop : Nat → Str → Daemon → DRes (Daemon × Bool)
  | 0, _, d => .ok (d, true)
  | n+1, s, d => do
    let (sz, cp) ← lift (utf8ReadChar s)
    if sz = 0 then .ok (d, true)
    else match inputChar d sz cp with
      | none => .ok (d, false)
      | some d => inputLoop n (s.drop sz) d

/-- `struct ipc_message`, keyd.h:73-88. -/
inductive MsgType where
  | success | fail | bind | input | «macro» | reload | layerListen
  /-- any other value -/
  | other
deriving DecidableEq, Repr

structure Msg where
  type : MsgType
  timeout : Nat := 0
  data : Str
  sz : Nat

/-- The data of a message as a C string once `data[sz] = 0` has been stored. -/
def cstring (s : Str) : Str := s.takeWhile (· ≠ 0)

/-- Dropping trailing newlines, daemon.c:412-413. -/
def dropNewlines (s : Str) : Str := (s.reverse.dropWhile (· = 10)).reverse

/-- `macro_execute(send_key, ..)`, daemon.c:420 (sleeps have no effect on the daemon). -/
def execMacro (d : Daemon) (outs : List MacroOut) : Daemon :=
  outs.foldl (fun d o => match o with
    | .key c b => daemonSendKey d c b
    | .sleep _ => d) d

/-- The loop over the configs for IPC_BIND, daemon.c:445-448. -/
def bindAll (exp : Str) : List Ent → Daemon → DRes (Daemon × Bool)
  | [], d => .ok (d, false)
  | e :: es, d =>
    match d.heap e.kbd with
    | none => .error (.freed "kbd_eval")
    | some k => do
      let (k', ok) ← lift (kbdEval k exp)
      let (d, any) ← bindAll exp es { d with heap := upd d.heap e.kbd (some k') }
      .ok (d, ok || any)

/-- `send_success` / `send_fail`. -/
def Daemon.reply (d : Daemon) (con : Nat) (r : Reply) : Daemon := { d with replies := (con, r) :: d.replies }

/-- `handle_client`, daemon.c:387-461. -/
def handleClient (env : Env) (d : Daemon) (con : Nat) (msg : Msg) : DRes Daemon :=
  if msg.sz ≥ 4096 then .ok (d.reply con .fail)
  else if msg.timeout > 1000000 then .ok (d.reply con .fail)
  else
    let raw := msg.data.take msg.sz
    match msg.type with
    | .macro => do
      match ← lift (macroParse (cstring (dropNewlines raw))) with
      | none => .ok (d.reply con .fail)
      | some m => .ok ((execMacro d (macroExecute m msg.timeout)).reply con .success)
    | .input => do
      let s := cstring raw
      let (d, ok) ← inputLoop s.length s d
      .ok (d.reply con (if ok then .success else .fail))
    | .reload => do .ok ((← reload env d).reply con .success)
    | .layerListen => addListener env d con
    | .bind => do
      let (d, ok) ← bindAll (cstring raw) d.configs d
      .ok (d.reply con (if ok then .success else .fail))
    | _ => .ok (d.reply con .fail)

/-- `process_keypress`, daemon.c:463-475. -/
def processKeypress (env : Env) (d : Daemon) (addr : Nat) (code : Code) (t : Int) : DRes (Daemon × Int) := do
  let (d, _) ← kbdRun env d addr [⟨code, true, t⟩]
  kbdRun env d addr [⟨code, false, t⟩]

/-- `n` repetitions of `timeout = process_keypress(..)`, daemon.c:538-551. -/
def repeatKeypress (env : Env) (addr : Nat) (code : Code) (t : Int) : Nat → Daemon → DRes Daemon
  | 0, d => .ok d
  | n+1, d => do
    let (d, w) ← processKeypress env d addr code t
    repeatKeypress env addr code t n { d with timeout := w }

/-- Scroll emulation, daemon.c:514-530 (C division and remainder truncate). -/
def scrollMove (d : Daemon) (addr : Nat) (k : Kbd) (x y : Int) : Daemon :=
  if k.scroll.sensitivity = 0 then d
  else
    let sy := k.scroll.y + y
    let sx := k.scroll.x + x
    let s := k.scroll.sensitivity
    let d := { d with heap := upd d.heap addr (some { k with scroll := { k.scroll with x := sx.tmod s, y := sy.tmod s } }) }
    (d.vscroll 0 (-1 * sy.tdiv s)).vscroll 0 (sx.tdiv s)

/-- EV_DEV_EVENT for a managed device, daemon.c:499-555. -/
def managedEvent (env : Env) (d : Daemon) (addr : Nat) (e : DevEvent) (t : Int) : DRes Daemon :=
  let d := { d with active := some addr }
  match e.type with
  | .key => do
    let (d, w) ← kbdRun env d addr [⟨e.code, decide (e.pressed ≠ 0), t⟩]
    .ok { d with timeout := w }
  | .mouseMove =>
    match d.heap addr with
    | none => .error (.freed "event_handler: kbd->scroll")
    | some k => .ok (if k.scroll.active then scrollMove d addr k e.x e.y else { d with vout := .move e.x e.y :: d.vout })
  | .mouseMoveAbs => .ok { d with vout := .moveAbs e.x e.y :: d.vout }
  | .mouseScroll => do
    let d ← repeatKeypress env addr KEYD.SCROLL_RIGHT t e.x.toNat d
    let d ← repeatKeypress env addr KEYD.SCROLL_LEFT t (-e.x).toNat d
    let d ← repeatKeypress env addr KEYD.SCROLL_UP t e.y.toNat d
    repeatKeypress env addr KEYD.SCROLL_DOWN t (-e.y).toNat d
  | _ => .ok d

/-- EV_DEV_EVENT, daemon.c:498-573. -/
def deviceEvent (env : Env) (d : Daemon) (dev : Device) (e : DevEvent) (t : Int) : DRes Daemon :=
  match dev.data with
  | some addr => managedEvent env d addr e t
  | none =>
    if dev.isVirtual = false ∧ dev.capabilities &&& CAP_MOUSE ≠ 0 then
      match d.active with
      | some a =>
        if e.type = .key ∨ e.type = .mouseScroll then do
          let (d, w) ← processKeypress env d a KEYD.EXTERNAL_MOUSE_BUTTON t
          .ok { d with timeout := w }
        else .ok d
      | none => .ok d
    else if dev.isVirtual ∧ e.type = .led then
      .ok { d with devices := d.devices.map fun dv =>
        if dv.data.isSome then { dv with led := upd dv.led e.code (decide (e.pressed ≠ 0)) } else dv }
    else .ok d

/-- The events of the main loop, keyd.h:55-63. -/
inductive LoopEvent where
  | timeout
  /-- an event read from the device with this index in the table -/
  | dev (i : Nat) (e : DevEvent)
  | devAdd (dev : Device)
  | devRemove
  | client (con : Nat) (msg : Msg)

/-- Updating the static `timeout` and `last_time`, daemon.c:483-486. -/
def tick (d : Daemon) (t : Int) : Daemon :=
  let left := d.timeout - (t - d.lastTime)
  { d with timeout := if left < 0 then 0 else left, lastTime := t }

/-- `event_handler`, daemon.c:477-597: the new state and the returned timeout. Adding a
device to the table (evloop.c:140) is included in `devAdd`. -/
def eventHandler (env : Env) (d : Daemon) (ev : LoopEvent) (t : Int) : DRes (Daemon × Int) :=
  let d := tick d t
  match ev with
  | .timeout =>
    match d.active with
    | none => .ok (d, 0)
    | some a => do
      let (d, w) ← kbdRun env d a [⟨0, false, t⟩]
      .ok ({ d with timeout := w }, w)
  | .dev i e =>
    match d.devices[i]? with
    | none => .ok (d, d.timeout)
    | some dev => do
      let d ← deviceEvent env d dev e t
      .ok (d, d.timeout)
  | .devAdd dev =>
    let d := { d with devices := d.devices ++ [manageDevice env d.configs dev] }
    .ok (d, d.timeout)
  | .devRemove => .ok (d, d.timeout)
  | .client con msg => do
    let d ← handleClient env d con msg
    .ok (d, d.timeout)

/-! ### The main loop -/

/-- The static variables of `panic_check`, evloop.c:13. -/
structure Panic where
  enter : Bool := false
  backspace : Bool := false
  escape : Bool := false
deriving DecidableEq, Repr

/-- `panic_check`, evloop.c:11-28: the new state, and whether the process dies. -/
def panicCheck (p : Panic) (code : Code) (pressed : UInt8) : Panic × Bool :=
  let on := decide (pressed ≠ 0)
  let p := if code = KEYD.ENTER then { p with enter := on }
    else if code = KEYD.BACKSPACE then { p with backspace := on }
    else if code = KEYD.ESC then { p with escape := on }
    else p
  (p, p.backspace && p.enter && p.escape)

/-- The state of the main loop: the daemon, the local variable `timeout` of `evloop` and
the panic variables. -/
structure Loop where
  d : Daemon := {}
  timeout : Int := 0
  panic : Panic := {}

/-- One event of an iteration, evloop.c:88-146: a device event passes `panic_check` first.
`none` means that the process has terminated. -/
def loopEvent (env : Env) (l : Loop) (ev : LoopEvent) (now : Int) : DRes (Option Loop) :=
  let (p, dies) := match ev with
    | .dev _ e => panicCheck l.panic e.code e.pressed
    | _ => (l.panic, false)
  if dies then .ok none
  else do
    let (d, w) ← eventHandler env l.d ev now
    .ok (some { d := d, timeout := w, panic := p })

/-- The events of one iteration. -/
def loopEvents (env : Env) (now : Int) : List LoopEvent → Loop → DRes (Option Loop)
  | [], l => .ok (some l)
  | e :: es, l => do
    match ← loopEvent env l e now with
    | none => .ok none
    | some l => loopEvents env now es l

/-- After `poll`, evloop.c:78-88: entered at `start`, returned at `now`. -/
def afterPoll (env : Env) (l : Loop) (start now : Int) : DRes Loop :=
  if l.timeout > 0 ∧ now - start ≥ l.timeout then do
    let (d, w) ← eventHandler env l.d .timeout now
    .ok { l with d := d, timeout := w }
  else .ok { l with timeout := l.timeout - (now - start) }

/-- Removed devices leave the table at the end of the iteration, evloop.c:148-155. -/
def dropRemoved (l : Loop) (removed : List Nat) : Loop :=
  { l with d := { l.d with
      devices := (l.d.devices.zipIdx.filter fun p => decide (p.2 ∉ removed)).map Prod.fst } }

/-- One iteration of `evloop`, evloop.c:56-157: `poll` was entered at `start`, returned at
`now`, and the events `evs` (devices, then IPC, then new devices) were found. Removed
devices leave the table at the end of the iteration (`removed`: their indices). -/
def iteration (env : Env) (l : Loop) (start now : Int) (evs : List LoopEvent) (removed : List Nat) :
    DRes (Option Loop) := do
  let l ← afterPoll env l start now
  let o ← loopEvents env now evs l
  .ok (o.map fun l => dropRemoved l removed)

end Keyd
