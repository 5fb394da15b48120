/-
  Basic data types of the keyd model.

  Everything here is a value-level rendering of the C structs in
  /repo/src/config.h, /repo/src/macro.h and /repo/src/keyboard.h.
-/

namespace Keyd

/-- Key codes and bytes are `uint8_t` in the C source (keyboard.h:20-30). -/
abbrev Code := UInt8

/-- A C string without its terminating NUL byte. Simplification: bytes are
unsigned here; the only places where the C code looks at the sign of a `char`
are comparisons against ASCII digits, for which the result is the same. -/
abbrev Str := List UInt8

open Lean in
/-- `b!"abc"` is the list of the UTF-8 bytes of the literal. -/
macro:max "b!" s:str : term => do
  let bytes := s.getString.toUTF8.toList
  let elems : Array (TSyntax `term) := (bytes.map (fun b => (quote b.toNat : TSyntax `term))).toArray
  `(([$elems,*] : List UInt8))

/-- Abnormal outcomes of the C program, kept distinct from ordinary results.
`assertFail` is a failing `assert` (the asserts are compiled in, the Makefile
does not define NDEBUG), `nullDeref`/`oob`/`uaf` are undefined behaviour,
`wrap` marks a `uint8_t` counter that would wrap around, and `fuel` is the
model's own recursion budget running out (it is proved not to happen). -/
inductive Err where
  | fuel
  | assertFail (what : String)
  | nullDeref (what : String)
  | oob (what : String)
  | uaf (what : String)
  | wrap (what : String)
deriving DecidableEq, Repr

/-- Results of modelled functions. -/
abbrev Res (α : Type) := Except Err α

/-- Pointwise update, used for C arrays modelled as total functions. -/
def upd {α β : Type} [DecidableEq α] (f : α → β) (i : α) (v : β) : α → β :=
  fun j => if j = i then v else f j

@[simp] theorem upd_same {α β : Type} [DecidableEq α] (f : α → β) (i : α) (v : β) :
    upd f i v i = v := by simp [upd]

theorem upd_other {α β : Type} [DecidableEq α] (f : α → β) {i j : α} (v : β) (h : j ≠ i) :
    upd f i v j = f j := by simp [upd, h]

theorem upd_apply {α β : Type} [DecidableEq α] (f : α → β) (i j : α) (v : β) :
    upd f i v j = if j = i then v else f j := rfl

/-- `enum op` with its arguments, config.h:29-79 (`struct descriptor`).
The `union descriptor_arg` is unfolded: each operation carries exactly the
arguments the code reads for it (keyboard.c:478-803, config.c:47-80). Nested
descriptors, macros and commands are indices into the tables of the config,
as in C. `none` is `op == 0`. -/
inductive Desc where
  | none
  | keyseq (code : Code) (mods : UInt8)
  | oneshot (layer : Nat)
  | oneshotm (layer mac : Nat)
  | layerm (layer mac : Nat)
  | swap (layer : Nat)
  | swapm (layer mac : Nat)
  | layer (layer : Nat)
  | layout (layer : Nat)
  | clear
  | clearm (mac : Nat)
  | overload (layer desc : Nat)
  | overloadTimeout (layer desc timeout : Nat)
  | overloadTimeoutTap (layer desc timeout : Nat)
  | overloadIdle (desc1 desc2 timeout : Nat)
  | toggle (layer : Nat)
  | togglem (layer mac : Nat)
  | macro (mac : Nat)
  | macro2 (timeout repeatTimeout mac : Nat)
  | command (cmd : Nat)
  | timeout (desc1 timeout desc2 : Nat)
  | scrollToggle (sensitivity : Int)
  | scroll (sensitivity : Int)
deriving DecidableEq, Repr, Inhabited

/-- `struct macro_entry`'s type tag, macro.h:8-14. -/
inductive MacroType where
  | keysequence | hold | release | unicode | timeout
deriving DecidableEq, Repr, Inhabited

/-- `struct macro_entry`, macro.h:7-17. -/
structure MacroEntry where
  type : MacroType
  data : UInt16
deriving DecidableEq, Repr, Inhabited

/-- `struct macro`, macro.h:23-27: the first `sz` entries. -/
abbrev Macro := List MacroEntry

/-- The low byte of a macro entry's data (`uint8_t code = ent->data`). -/
def MacroEntry.code (e : MacroEntry) : Code := e.data.toUInt8
/-- The high byte of a macro entry's data (`uint8_t mods = ent->data >> 8`). -/
def MacroEntry.mods (e : MacroEntry) : UInt8 := (e.data >>> 8).toUInt8

/-- `struct chord`, config.h:81-86; `keys` holds the first `sz` keys. -/
structure Chord where
  keys : List Code
  d : Desc
deriving DecidableEq, Repr, Inhabited

/-- The anonymous layer type enum, config.h:99-103. -/
inductive LayerType where
  | normal | layout | composite
deriving DecidableEq, Repr, Inhabited

/-- `struct layer`, config.h:96-115. Counts (`nr_chords`, `nr_constituents`)
are list lengths. -/
structure Layer where
  name : Str := []
  type : LayerType := .normal
  mods : UInt8 := 0
  keymap : Code → Desc := fun _ => .none
  chords : List Chord := []
  constituents : List Nat := []

instance : Inhabited Layer := ⟨{}⟩

/-- One entry of `config.ids`, config.h:132-135. -/
structure IdEntry where
  id : Str
  flags : UInt8
deriving DecidableEq, Repr, Inhabited

/-- `struct config`, config.h:121-158. Tables with a count are lists holding
the first `count` elements. Simplification: `path` is omitted (only logged and
compared by the daemon, see Daemon.lean), and slots beyond the count are not
stored; reads beyond the count give zeroed values. -/
structure Config where
  layers : List Layer := []
  descriptors : List Desc := []
  macros : List Macro := []
  commands : List Str := []
  aliases : Code → Str := fun _ => []
  wildcard : Bool := false
  ids : List IdEntry := []
  macroTimeout : Int := 0
  macroSequenceTimeout : Int := 0
  macroRepeatTimeout : Int := 0
  oneshotTimeout : Int := 0
  overloadTapTimeout : Int := 0
  chordInterkeyTimeout : Int := 0
  chordHoldTimeout : Int := 0
  layerIndicator : UInt8 := 0
  disableModifierGuard : UInt8 := 0
  defaultLayout : Str := []

instance : Inhabited Config := ⟨{}⟩

/-- `config->layers[i]` (zeroed beyond the count). -/
def Config.layer (c : Config) (i : Nat) : Layer := c.layers.getD i {}
/-- `config->descriptors[i]` (zeroed beyond the count). -/
def Config.desc (c : Config) (i : Nat) : Desc := c.descriptors.getD i .none
/-- `config->macros[i]` (zeroed beyond the count). -/
def Config.mac (c : Config) (i : Nat) : Macro := c.macros.getD i []

/-- `struct key_event`, keyboard.h:27-31. Simplification: times are unbounded integers; in C the
`timestamp` is an `int` of milliseconds and wraps around after 2^31 ms (what then happens:
`C82_fails_wrap`). -/
structure KeyEvent where
  code : Code
  pressed : Bool
  ts : Int
deriving DecidableEq, Repr, Inhabited

end Keyd
