import Verif.Spec.WellFormed
import Verif.Model.Keyboard

/-
  Vocabulary for C03, C04 and C05: what a held key stands for.
-/

set_option autoImplicit false

namespace Keyd

/-- The layer a key bound to this action keeps active while it is held. -/
def Desc.holds : Desc → Option Nat
  | .layer l => some l
  | .layerm l _ => some l
  | .overload l _ => some l
  | .oneshot l => some l
  | .oneshotm l _ => some l
  | _ => Option.none

/-- The output key a key bound to this action keeps down while it is held. -/
def Desc.outKey : Desc → Option Code
  | .keyseq c _ => some c
  | _ => Option.none

/-- Actions whose effect is decided later, or that stand for another action. -/
def Desc.deferred : Desc → Bool
  | .overloadTimeout _ _ _ => true
  | .overloadTimeoutTap _ _ _ => true
  | .timeout _ _ _ => true
  | .overloadIdle _ _ _ => true
  | _ => false

/-- `overloadi`. -/
def Desc.idle : Desc → Bool
  | .overloadIdle _ _ _ => true
  | _ => false

/-- The number of held keys keeping layer `i` active. -/
def holders (k : Kbd) (i : Nat) : Nat :=
  k.cache.countP fun e => decide (e.code ≠ 0) && decide (e.d.holds = some i)

/-- Output keys other than the five modifiers (and the two codes that are never
sent). -/
def Plain (c : Code) : Prop :=
  (∀ m ∈ modifiers, m.2 ≠ c) ∧ c ≠ KEYD.NOOP ∧ c ≠ KEYD.EXTERNAL_MOUSE_BUTTON

/-- The actions covered by the no-stuck-keys and no-stuck-layers theorems. `tap a`:
the nested action number `a` may be the tap action of an `overload`; `alt a`: it may
be an alternative of an `overloadi`. `swap` is left out. -/
def Sober (tap alt : Nat → Prop) : Desc → Prop
  | .overload _ a => tap a
  | .overloadIdle a b _ => alt a ∧ alt b
  | .swap _ => False
  | .swapm _ _ => False
  | _ => True

/-- Tables all of whose bindings are covered, for a choice of the nested actions
that may serve as tap actions of `overload` (none of them deferred) and as
alternatives of `overloadi` (none of them `overloadi`). -/
structure Orderly (tap alt : Nat → Prop) (c : Config) : Prop where
  nested : ∀ d ∈ c.descriptors, Sober tap alt d
  keys : ∀ l ∈ c.layers, ∀ code, Sober tap alt (l.keymap code)
  chords : ∀ l ∈ c.layers, ∀ ch ∈ l.chords, Sober tap alt ch.d
  taps : ∀ a, tap a → (c.desc a).deferred = false
  alts : ∀ a, alt a → (c.desc a).idle = false

/-- No physical key is held. -/
def AllReleased (k : Kbd) : Prop := ∀ e ∈ k.cache, e.code = 0

instance (k : Kbd) : Decidable (AllReleased k) := by unfold AllReleased; infer_instance

end Keyd
