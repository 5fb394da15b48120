import Verif.Model.Daemon

/-
  Model of how /repo/src/vkbd/uinput.c sets up its two virtual devices, and of what is written to them for each
  call of the virtual keyboard. The system calls themselves are not modelled.
-/

set_option autoImplicit false

namespace Keyd

/-- The ids of the virtual devices, uinput.c:82-84 and 137-139: vendor and product. -/
def VDev.ids : VDev → Nat × Nat
  | .keyboard => (0x0FAC, 0x0ADE)
  | .pointer => (0x0FAC, 0x1ADE)

/-- The events a virtual device is set up for with `UI_SET_*BIT`. `create_virtual_keyboard`, uinput.c:47-80 (key codes below 256
that have a name, LEDs from `LED_NUML` = 0 to `LED_MISC` = 8, `KEY_ZOOM`), and `create_virtual_pointer`, uinput.c:121-135
(axes `ABS_X`, `ABS_Y`, `REL_X`, `REL_WHEEL`, `REL_HWHEEL`, `REL_Y`, `REL_Z` = 2, buttons `BTN_LEFT` to `BTN_TASK`). -/
def VDev.announces : VDev → InputEvent → Bool
  | .keyboard, ev =>
    if ev.type = EVDEV.KEY then
      decide (ev.code < 256 ∧ ((keycodeTable[ev.code]?).bind (·.name)).isSome) || decide (ev.code = EVDEV.KEY_ZOOM)
    else if ev.type = EVDEV.LED then decide (ev.code ≤ 8)
    else decide (ev.type = EVDEV.SYN)
  | .pointer, ev =>
    if ev.type = EVDEV.KEY then decide (EVDEV.BTN_LEFT ≤ ev.code ∧ ev.code ≤ EVDEV.BTN_TASK)
    else if ev.type = EVDEV.REL then
      decide (ev.code = EVDEV.REL_X ∨ ev.code = EVDEV.REL_WHEEL ∨ ev.code = EVDEV.REL_HWHEEL ∨ ev.code = EVDEV.REL_Y ∨ ev.code = 2)
    else if ev.type = EVDEV.ABS then decide (ev.code = EVDEV.ABS_X ∨ ev.code = EVDEV.ABS_Y)
    else decide (ev.type = EVDEV.SYN)

/-- The range of the absolute axes of the virtual pointer, uinput.c:141-142 (the minimum is left at 0). -/
def virtualAbsMax : Int := 1024

/-- What is written to the virtual devices for a call of the virtual keyboard: `vkbd_send_key`, uinput.c:334-339, with the state
0 or 1, and the mouse functions. -/
def uinputWrite : VOut → List (VDev × InputEvent)
  | .key c down => writeKeyEvent c (if down then 1 else 0)
  | .scroll x y => uinputMouseScroll x y
  | .move x y => uinputMouseMove x y
  | .moveAbs x y => uinputMouseMoveAbs x y

end Keyd
