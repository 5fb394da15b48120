import Verif.Model.Device

/-
  The USB gadget back end down to the reports, src/vkbd/usb-gadget.c: `send_hid_report` and the endpoint it writes to. `update_key_state` and
  `update_modifier_state` are in Model/Device.lean.

  Assumed of Linux (drivers/usb/gadget/function/f_hid.c): the endpoint holds one report; a write to it with O_NONBLOCK fails while the host has not yet
  fetched the last one.
-/

set_option autoImplicit false

namespace Keyd

/-- `struct hid_report` and `send_hid_report`, src/vkbd/usb-gadget.c:25-29,42-54: the eight bytes written. The second byte is not initialised. -/
def hidReport (g : Gadget) (garbage : UInt8) : Str := g.mods :: garbage :: g.keys

/-- The keyboard's state, the report in the endpoint, and the reports the host has fetched, the last one first. -/
structure GadgetBus where
  g : Gadget := {}
  pending : Option Str := none
  fetched : List Str := []
deriving DecidableEq, Repr

/-- keyd sends a key (`garbage` is what the uninitialised byte holds), or the host asks for a report. -/
inductive BusEvent where
  | key (c : Code) (down : Bool) (garbage : UInt8)
  | poll
deriving DecidableEq, Repr

/-- `vkbd_send_key`, src/vkbd/usb-gadget.c:152-158, opened with O_NONBLOCK (:34); the result of `write` (:52) is not looked at. -/
def busStep (s : GadgetBus) : BusEvent → GadgetBus
  | .key c down x =>
    let g := gadgetSend s.g c down
    { s with g := g, pending := match s.pending with | none => some (hidReport g x) | some r => some r }
  | .poll =>
    match s.pending with
    | none => s
    | some r => { s with pending := none, fetched := r :: s.fetched }

def busRun (es : List BusEvent) : GadgetBus := es.foldl busStep {}

end Keyd
