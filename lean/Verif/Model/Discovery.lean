import Verif.Model.Daemon

/-
  Devices as they are found: `resolve_device_capabilities`, `generate_uid`, `device_init`, device.c:44-199.
-/

set_option autoImplicit false

namespace Keyd

/-- What the kernel reports about an evdev node (ioctls EVIOCGBIT, EVIOCGNAME, EVIOCGID); `keys` are the key
codes it can emit, of which the code looks at those below 288 (device.c:55). Simplification: no ioctl fails. -/
structure Node where
  name : Str
  vendor : UInt16
  product : UInt16
  keys : Nat → Bool
  relmask : UInt8 := 0
  absmask : UInt8 := 0

/-- The codes in `keyboard_mask`, device.c:46-51: KEY_1 .. KEY_0 and KEY_Q .. KEY_Y. -/
def keyboardKeys : List Nat := [2, 3, 4, 5, 6, 7, 8, 9, 10, 11, 16, 17, 18, 19, 20, 21]

/-- The number of keys, device.c:73-75. -/
def Node.numKeys (n : Node) : Nat := ((List.range 288).filter n.keys).length

/-- `resolve_device_capabilities`, device.c:44-101 (KEY_BRIGHTNESSUP is 225 and KEY_VOLUMEUP 115). -/
def Node.capabilities (n : Node) : UInt8 :=
  let c : UInt8 := 0
  let c := if n.relmask ≠ 0 ∨ n.absmask ≠ 0 then c ||| CAP_MOUSE else c
  let c := if n.absmask ≠ 0 then c ||| CAP_MOUSE_ABS else c
  if keyboardKeys.all n.keys ∨ n.keys 225 ∨ n.keys 115 then c ||| CAP_KEYBOARD else c

/-- A `char` converted to `uint32_t`: bytes from 128 are negative (x86). -/
def signExtend (b : UInt8) : UInt32 := if b < 128 then b.toUInt32 else b.toUInt32 - 256

/-- `generate_uid`, device.c:103-121. -/
def generateUid (numKeys : UInt32) (absmask relmask : UInt8) (name : Str) : UInt32 :=
  let h : UInt32 := 5183
  let h : UInt32 := h * (33 : UInt32) + (numKeys >>> 24).toUInt8.toUInt32
  let h : UInt32 := h * (33 : UInt32) + (numKeys >>> 16).toUInt8.toUInt32
  let h : UInt32 := h * (33 : UInt32) + (numKeys >>> 8).toUInt8.toUInt32
  let h : UInt32 := h * (33 : UInt32) + numKeys.toUInt8.toUInt32
  let h : UInt32 := h * (33 : UInt32) + absmask.toUInt32
  let h : UInt32 := h * (33 : UInt32) + relmask.toUInt32
  name.foldl (fun h b => h * (33 : UInt32) + signExtend b) h

/-- A hexadecimal digit of `%x`. -/
def hexDigit (n : Nat) : UInt8 := UInt8.ofNat (if n < 10 then 48 + n else 87 + n)

/-- `%0<w>x` for a number of at most `w` hexadecimal digits. -/
def hex : Nat → Nat → Str
  | 0, _ => []
  | w+1, n => hex w (n / 16) ++ [hexDigit (n % 16)]

/-- The id of a device, device.c:180. -/
def Node.id (n : Node) : Str :=
  hex 4 n.vendor.toNat ++ 58 :: (hex 4 n.product.toNat ++
    58 :: hex 8 (generateUid (UInt32.ofNat n.numKeys) n.absmask n.relmask n.name).toNat)

/-- `device_init`, device.c:123-199: `none` for a node that is neither keyboard nor mouse. Simplification: the node can be
opened; the axis ranges are left out here (`AbsRange`). -/
def deviceInit (n : Node) : Option Device :=
  if n.capabilities ≠ 0 then
    some { id := n.id, capabilities := n.capabilities, isVirtual := decide (n.vendor = 0x0FAC) }
  else none

end Keyd
