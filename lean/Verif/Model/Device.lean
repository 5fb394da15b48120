import Verif.Model.Keys

/-
  Model of the evdev side of keyd: `device_read_event` (/repo/src/device.c) and the
  virtual device back ends (/repo/src/vkbd/uinput.c, /repo/src/vkbd/usb-gadget.c).
  Files, ioctls and device discovery are not modelled.
-/

set_option autoImplicit false

namespace Keyd

/-! ### Reading events from a device -/

/-- evdev event types, input-event-codes.h. -/
def EVDEV.SYN : Nat := 0
def EVDEV.KEY : Nat := 1
def EVDEV.REL : Nat := 2
def EVDEV.ABS : Nat := 3
def EVDEV.LED : Nat := 17
/-- evdev codes used by the model, input-event-codes.h. -/
def EVDEV.BTN_LEFT : Nat := 272
def EVDEV.BTN_RIGHT : Nat := 273
def EVDEV.BTN_MIDDLE : Nat := 274
def EVDEV.BTN_SIDE : Nat := 275
def EVDEV.BTN_EXTRA : Nat := 276
def EVDEV.BTN_FORWARD : Nat := 277
def EVDEV.BTN_BACK : Nat := 278
def EVDEV.BTN_TASK : Nat := 279
def EVDEV.BTN_DIGI : Nat := 320
def EVDEV.BTN_TOOL_QUADTAP : Nat := 335
def EVDEV.KEY_ZOOM : Nat := 372
def EVDEV.KEY_VOICECOMMAND : Nat := 582
def EVDEV.REL_X : Nat := 0
def EVDEV.REL_Y : Nat := 1
def EVDEV.REL_HWHEEL : Nat := 6
def EVDEV.REL_WHEEL : Nat := 8
def EVDEV.ABS_X : Nat := 0
def EVDEV.ABS_Y : Nat := 1
def EVDEV.LED_CAPSL : Nat := 1

/-- `struct input_event` without its time, linux/input.h. -/
structure InputEvent where
  type : Nat
  code : Nat
  value : Int
deriving DecidableEq, Repr

/-- The `type` of a `struct device_event`, device.h:43-53. -/
inductive DevType where
  | key | led | mouseMove | mouseMoveAbs | mouseScroll | removed
deriving DecidableEq, Repr

/-- `struct device_event`, device.h:42-58. The static instance in
`device_read_event` starts zeroed (`DEV_KEY` is 0). -/
structure DevEvent where
  type : DevType := .key
  code : Code := 0
  pressed : UInt8 := 0
  x : Int := 0
  y : Int := 0
deriving DecidableEq, Repr

/-- The ranges of an absolute device, device.h:33-36 (`uint32_t`). -/
structure AbsRange where
  minx : Int := 0
  maxx : Int := 0
  miny : Int := 0
  maxy : Int := 0

/-- The translation table for evdev codes of 256 and above, device.c:480-546
(generated from the `case` labels; entries below 256 are unreachable, as in C). -/
def evdevTable : List (Nat × Code) := [
  (466, KEYD.F13),
  (467, KEYD.F14),
  (468, KEYD.F15),
  (469, KEYD.F16),
  (470, KEYD.F17),
  (471, KEYD.F18),
  (472, KEYD.F19),
  (473, KEYD.F20),
  (474, KEYD.F21),
  (475, KEYD.F22),
  (476, KEYD.F23),
  (477, KEYD.F24),
  (148, KEYD.F21),
  (149, KEYD.F22),
  (202, KEYD.F23),
  (203, KEYD.F24),
  (444, KEYD.F21),
  (445, KEYD.F22),
  (446, KEYD.F23),
  (485, KEYD.F13),
  (374, KEYD.F14),
  (562, KEYD.F15),
  (634, KEYD.F16),
  (532, KEYD.F17),
  (531, KEYD.F18),
  (360, KEYD.F19),
  (422, KEYD.F13),
  (423, KEYD.F14),
  (424, KEYD.F15),
  (425, KEYD.F16),
  (426, KEYD.F17),
  (427, KEYD.F18),
  (428, KEYD.F19),
  (429, KEYD.F20),
  (430, KEYD.F21),
  (464, KEYD.FN),
  (372, KEYD.ZOOM),
  (582, KEYD.VOICECOMMAND),
  (272, KEYD.LEFT_MOUSE),
  (274, KEYD.MIDDLE_MOUSE),
  (273, KEYD.RIGHT_MOUSE),
  (275, KEYD.MOUSE_1),
  (276, KEYD.MOUSE_2),
  (278, KEYD.MOUSE_BACK),
  (277, KEYD.MOUSE_FORWARD),
  (279, KEYD.F18),
  (256, KEYD.F13),
  (257, KEYD.F14),
  (258, KEYD.F15),
  (259, KEYD.F16),
  (260, KEYD.F17),
  (261, KEYD.F18),
  (262, KEYD.F19),
  (263, KEYD.F20),
  (264, KEYD.F21),
  (265, KEYD.F22)]

/-- The code translation of `device_read_event`, device.c:470-555; `none` if the
event is dropped. The result is stored in a `uint8_t`, device.c:557. -/
def translateCode (code : Nat) : Option Code :=
  if code ≥ 256 then
    match evdevTable.lookup code with
    | some c => some c
    | none =>
      if EVDEV.BTN_DIGI ≤ code ∧ code ≤ EVDEV.BTN_TOOL_QUADTAP then some (UInt8.ofNat (code % 256)) else none
  else some (UInt8.ofNat code)

/-- C's conversion of an `int` to `uint32_t`. -/
def wrapU32 (x : Int) : Int := x % 4294967296

/-- `(ev.value * 1024) / (max - min)`, device.c:444,450: the product is an `int`
(wrapping assumed where C leaves overflow undefined), the quotient is unsigned and
is stored in an `int32_t`. Division by zero is a model error. -/
def absScale (value min max : Int) : Res Int :=
  let d := wrapU32 (max - min)
  if d = 0 then .error (.assertFail "division by zero in device_read_event")
  else .ok (let q := wrapU32 ((value * 1024 + 2147483648) % 4294967296 - 2147483648) / d
            if q ≥ 2147483648 then q - 4294967296 else q)

/-- `device_read_event`, device.c:384-576, after a successful read: the new contents
of the static event, and whether it is returned (otherwise NULL). `prev` is the static
event, whose fields survive from one call to the next and from one device to another. -/
def readEvent (r : AbsRange) (prev : DevEvent) (ev : InputEvent) : Res (DevEvent × Bool) :=
  if ev.type = EVDEV.REL then
    if ev.code = EVDEV.REL_WHEEL then .ok ({ prev with type := .mouseScroll, y := ev.value, x := 0 }, true)
    else if ev.code = EVDEV.REL_HWHEEL then .ok ({ prev with type := .mouseScroll, y := 0, x := ev.value }, true)
    else if ev.code = EVDEV.REL_X then .ok ({ prev with type := .mouseMove, x := ev.value, y := 0 }, true)
    else if ev.code = EVDEV.REL_Y then .ok ({ prev with type := .mouseMove, y := ev.value, x := 0 }, true)
    else .ok (prev, false)
  else if ev.type = EVDEV.ABS then
    if ev.code = EVDEV.ABS_X then do
      let x ← absScale ev.value r.minx r.maxx
      .ok ({ prev with type := .mouseMoveAbs, x := x, y := 0 }, true)
    else if ev.code = EVDEV.ABS_Y then do
      let y ← absScale ev.value r.miny r.maxy
      .ok ({ prev with type := .mouseMoveAbs, y := y, x := 0 }, true)
    else .ok (prev, true)
  else if ev.type = EVDEV.KEY then
    if ev.value = 2 then .ok (prev, false)
    else
      match translateCode ev.code with
      | none => .ok (prev, false)
      | some c => .ok ({ prev with type := .key, code := c, pressed := UInt8.ofNat (ev.value % 256).toNat }, true)
  else if ev.type = EVDEV.LED then
    .ok ({ prev with type := .led, code := UInt8.ofNat (ev.code % 256), pressed := UInt8.ofNat (ev.value % 256).toNat }, true)
  else .ok (prev, false)

/-! ### The uinput back end -/

/-- Which virtual device an event is written to, uinput.c:29-32. -/
inductive VDev where
  | keyboard | pointer
deriving DecidableEq, Repr

/-- The target of `write_key_event`, uinput.c:173-188: device and evdev code. -/
def uinputTarget (code : Code) : VDev × Nat :=
  if code = KEYD.LEFT_MOUSE then (.pointer, EVDEV.BTN_LEFT)
  else if code = KEYD.MIDDLE_MOUSE then (.pointer, EVDEV.BTN_MIDDLE)
  else if code = KEYD.RIGHT_MOUSE then (.pointer, EVDEV.BTN_RIGHT)
  else if code = KEYD.MOUSE_1 then (.pointer, EVDEV.BTN_SIDE)
  else if code = KEYD.MOUSE_2 then (.pointer, EVDEV.BTN_EXTRA)
  else if code = KEYD.MOUSE_BACK then (.pointer, EVDEV.BTN_BACK)
  else if code = KEYD.MOUSE_FORWARD then (.pointer, EVDEV.BTN_FORWARD)
  else if code = KEYD.ZOOM then (.keyboard, EVDEV.KEY_ZOOM)
  else if code = KEYD.VOICECOMMAND then (.keyboard, EVDEV.KEY_VOICECOMMAND)
  else (.keyboard, code.toNat)

/-- `write_key_event`, uinput.c:160-226: the events written, in order. -/
def writeKeyEvent (code : Code) (state : Int) : List (VDev × InputEvent) :=
  let (dev, c) := uinputTarget code
  [(dev, ⟨EVDEV.KEY, c, state⟩), (dev, ⟨EVDEV.SYN, 0, 0⟩)]

/-- `vkbd_mouse_move`, uinput.c:239-270. -/
def uinputMouseMove (x y : Int) : List (VDev × InputEvent) :=
  (if x ≠ 0 then [(.pointer, ⟨EVDEV.REL, EVDEV.REL_X, x⟩)] else []) ++
  (if y ≠ 0 then [(.pointer, ⟨EVDEV.REL, EVDEV.REL_Y, y⟩)] else []) ++
  [(.pointer, ⟨EVDEV.SYN, 0, 0⟩)]

/-- `vkbd_mouse_scroll`, uinput.c:272-299. -/
def uinputMouseScroll (x y : Int) : List (VDev × InputEvent) :=
  [(.pointer, ⟨EVDEV.REL, EVDEV.REL_WHEEL, y⟩), (.pointer, ⟨EVDEV.REL, EVDEV.REL_HWHEEL, x⟩),
   (.pointer, ⟨EVDEV.SYN, 0, 0⟩)]

/-- `vkbd_mouse_move_abs`, uinput.c:301-332. -/
def uinputMouseMoveAbs (x y : Int) : List (VDev × InputEvent) :=
  (if x ≠ 0 then [(.pointer, ⟨EVDEV.ABS, EVDEV.ABS_X, x⟩)] else []) ++
  (if y ≠ 0 then [(.pointer, ⟨EVDEV.ABS, EVDEV.ABS_Y, y⟩)] else []) ++
  [(.pointer, ⟨EVDEV.SYN, 0, 0⟩)]

/-! ### The USB gadget back end -/

/-- `hid_table`, usb-gadget.h:22-168 (generated); other entries are 0. -/
def hidTable : List (Code × UInt8) := [
  (KEYD.ESC, 41),
  (KEYD.«1», 30),
  (KEYD.«2», 31),
  (KEYD.«3», 32),
  (KEYD.«4», 33),
  (KEYD.«5», 34),
  (KEYD.«6», 35),
  (KEYD.«7», 36),
  (KEYD.«8», 37),
  (KEYD.«9», 38),
  (KEYD.«0», 39),
  (KEYD.MINUS, 45),
  (KEYD.EQUAL, 46),
  (KEYD.BACKSPACE, 42),
  (KEYD.TAB, 43),
  (KEYD.Q, 20),
  (KEYD.W, 26),
  (KEYD.E, 8),
  (KEYD.R, 21),
  (KEYD.T, 23),
  (KEYD.Y, 28),
  (KEYD.U, 24),
  (KEYD.I, 12),
  (KEYD.O, 18),
  (KEYD.P, 19),
  (KEYD.LEFTBRACE, 47),
  (KEYD.RIGHTBRACE, 48),
  (KEYD.ENTER, 40),
  (KEYD.LEFTCTRL, 224),
  (KEYD.A, 4),
  (KEYD.S, 22),
  (KEYD.D, 7),
  (KEYD.F, 9),
  (KEYD.G, 10),
  (KEYD.H, 11),
  (KEYD.J, 13),
  (KEYD.K, 14),
  (KEYD.L, 15),
  (KEYD.SEMICOLON, 51),
  (KEYD.APOSTROPHE, 52),
  (KEYD.GRAVE, 53),
  (KEYD.LEFTSHIFT, 225),
  (KEYD.BACKSLASH, 49),
  (KEYD.Z, 29),
  (KEYD.X, 27),
  (KEYD.C, 6),
  (KEYD.V, 25),
  (KEYD.B, 5),
  (KEYD.N, 17),
  (KEYD.M, 16),
  (KEYD.COMMA, 54),
  (KEYD.DOT, 55),
  (KEYD.SLASH, 56),
  (KEYD.RIGHTSHIFT, 229),
  (KEYD.KPASTERISK, 85),
  (KEYD.LEFTALT, 226),
  (KEYD.SPACE, 44),
  (KEYD.CAPSLOCK, 57),
  (KEYD.F1, 58),
  (KEYD.F2, 59),
  (KEYD.F3, 60),
  (KEYD.F4, 61),
  (KEYD.F5, 62),
  (KEYD.F6, 63),
  (KEYD.F7, 64),
  (KEYD.F8, 65),
  (KEYD.F9, 66),
  (KEYD.F10, 67),
  (KEYD.NUMLOCK, 83),
  (KEYD.SCROLLLOCK, 71),
  (KEYD.KP7, 95),
  (KEYD.KP8, 96),
  (KEYD.KP9, 97),
  (KEYD.KPMINUS, 86),
  (KEYD.KP4, 92),
  (KEYD.KP5, 93),
  (KEYD.KP6, 94),
  (KEYD.KPPLUS, 87),
  (KEYD.KP1, 89),
  (KEYD.KP2, 90),
  (KEYD.KP3, 91),
  (KEYD.KP0, 98),
  (KEYD.KPDOT, 99),
  (KEYD.ZENKAKUHANKAKU, 148),
  (KEYD.«102ND», 100),
  (KEYD.F11, 68),
  (KEYD.F12, 69),
  (KEYD.RO, 135),
  (KEYD.KATAKANA, 146),
  (KEYD.HIRAGANA, 147),
  (KEYD.HENKAN, 138),
  (KEYD.KATAKANAHIRAGANA, 136),
  (KEYD.MUHENKAN, 139),
  (KEYD.KPENTER, 88),
  (KEYD.RIGHTCTRL, 228),
  (KEYD.KPSLASH, 84),
  (KEYD.SYSRQ, 70),
  (KEYD.RIGHTALT, 230),
  (KEYD.HOME, 74),
  (KEYD.UP, 82),
  (KEYD.PAGEUP, 75),
  (KEYD.LEFT, 80),
  (KEYD.RIGHT, 79),
  (KEYD.END, 77),
  (KEYD.DOWN, 81),
  (KEYD.PAGEDOWN, 78),
  (KEYD.INSERT, 73),
  (KEYD.DELETE, 76),
  (KEYD.MUTE, 127),
  (KEYD.VOLUMEDOWN, 129),
  (KEYD.VOLUMEUP, 128),
  (KEYD.POWER, 102),
  (KEYD.KPEQUAL, 103),
  (KEYD.KPPLUSMINUS, 215),
  (KEYD.PAUSE, 72),
  (KEYD.KPCOMMA, 133),
  (KEYD.HANGEUL, 144),
  (KEYD.HANJA, 145),
  (KEYD.YEN, 137),
  (KEYD.LEFTMETA, 227),
  (KEYD.RIGHTMETA, 231),
  (KEYD.COMPOSE, 101),
  (KEYD.AGAIN, 121),
  (KEYD.UNDO, 122),
  (KEYD.FRONT, 119),
  (KEYD.COPY, 124),
  (KEYD.OPEN, 116),
  (KEYD.PASTE, 125),
  (KEYD.FIND, 126),
  (KEYD.CUT, 123),
  (KEYD.HELP, 117),
  (KEYD.KPLEFTPAREN, 182),
  (KEYD.KPRIGHTPAREN, 183),
  (KEYD.F13, 104),
  (KEYD.F14, 105),
  (KEYD.F15, 106),
  (KEYD.F16, 107),
  (KEYD.F17, 108),
  (KEYD.F18, 109),
  (KEYD.F19, 110),
  (KEYD.F20, 111),
  (KEYD.F21, 112),
  (KEYD.F22, 113),
  (KEYD.F23, 114),
  (KEYD.F24, 115)]

/-- Indexing `hid_table`. -/
def hidCode (code : Code) : UInt8 := (hidTable.lookup code).getD 0

/-- `get_modifier`, usb-gadget.c:56-88, with the constants of usb-gadget.h:13-20. -/
def gadgetModifier (code : Code) : UInt8 :=
  if code = KEYD.LEFTSHIFT then 0x2
  else if code = KEYD.RIGHTSHIFT then 0x20
  else if code = KEYD.LEFTCTRL then 0x1
  else if code = KEYD.RIGHTCTRL then 0x10
  else if code = KEYD.LEFTALT then 0x4
  else if code = KEYD.RIGHTALT then 0x40
  else if code = KEYD.LEFTMETA then 0x8
  else if code = KEYD.RIGHTMETA then 0x80
  else 0

/-- The static state of usb-gadget.c:17-19: `mods` and `keys[6]`. Each
`vkbd_send_key` writes it as a report. -/
structure Gadget where
  mods : UInt8 := 0
  keys : List UInt8 := [0, 0, 0, 0, 0, 0]
deriving DecidableEq, Repr

/-- The first loop of `update_key_state`, usb-gadget.c:112-118. -/
def gadgetScan (hid : UInt8) (state : Bool) (keys : List UInt8) : List UInt8 :=
  keys.map fun x => if x = hid ∧ state = false then 0 else x

/-- The second loop, usb-gadget.c:119-126: the first empty slot takes the key. -/
def gadgetInsert (hid : UInt8) : List UInt8 → List UInt8
  | [] => []
  | x :: xs => if x = 0 then hid :: xs else x :: gadgetInsert hid xs

/-- `update_key_state`, usb-gadget.c:106-127. -/
def gadgetKey (g : Gadget) (code : Code) (state : Bool) : Gadget :=
  let hid := hidCode code
  let set := g.keys.contains hid
  let keys := gadgetScan hid state g.keys
  { g with keys := if state ∧ !set then gadgetInsert hid keys else keys }

/-- `update_modifier_state` and `vkbd_send_key`, usb-gadget.c:90-104,152-158. -/
def gadgetSend (g : Gadget) (code : Code) (state : Bool) : Gadget :=
  let m := gadgetModifier code
  if m ≠ 0 then { g with mods := if state then g.mods ||| m else g.mods &&& ~~~m }
  else gadgetKey g code state

end Keyd
