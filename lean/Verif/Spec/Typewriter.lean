import Verif.Spec.Typed
import Verif.Spec.Arrivals

/-
  A small machine that remaps keys. It is what a configuration that only remaps keys, and holds
  modifier layers, should behave like. Only used to state properties.
-/

set_option autoImplicit false

namespace Keyd

/-- What a key is for: it stands for a key, or it holds a layer. -/
inductive Role where
  | key (x : Code)
  | hold (l : Nat)
deriving DecidableEq, Repr

/-- The role of a key by the bindings of the main layer, if it is a simple one. A key without
binding stands for itself. -/
def Config.role (c : Config) (code : Code) : Option Role :=
  match (c.layer 0).keymap code with
  | .none => some (.key code)
  | .keyseq x m => if m = 0 then some (.key x) else Option.none
  | .layer l => some (.hold l)
  | _ => Option.none

/-- The configuration only remaps keys: in the main layer every key stands for a key, or holds a layer
that binds nothing (the layers that are there just for their modifiers). This is the case for a
configuration file without any bindings. -/
structure Typewriter (c : Config) : Prop where
  roles : ∀ code, Physical code → (c.role code).isSome
  /-- modifiers are only sent through layers -/
  keys : ∀ code x, Physical code → c.role code = some (.key x) → isModifierKey x = false
  bare : ∀ code l, Physical code → c.role code = some (.hold l) →
    0 < l ∧ l < c.layers.length ∧ (∀ x, (c.layer l).keymap x = .none) ∧ (c.layer l).chords = []
  composite : ∀ i, (c.layer i).type ≠ .composite
  main : 0 < c.layers.length ∧ (c.layer 0).chords = [] ∧ (c.layer 0).mods = 0
  layout : c.defaultLayout = []

/-- The remapping machine: the keys that are held, which output keys are down, and what was typed. -/
structure Machine where
  held : List (Code × Role) := []
  down : Code → Bool := fun _ => false
  out : List (Code × Bool) := []

/-- Send a key, unless it is one of the two that stand for nothing, or it already is in that state. -/
def Machine.send (m : Machine) (x : Code) (b : Bool) : Machine :=
  if x = KEYD.NOOP ∨ x = KEYD.EXTERNAL_MOUSE_BUTTON ∨ m.down x = b then m
  else { m with down := fun y => if y = x then b else m.down y, out := m.out ++ [(x, b)] }

/-- Strike a key: if it is still down because of another key, it is released first. -/
def Machine.strike (m : Machine) (r : Role) : Machine :=
  match r with
  | .key x => (m.send x false).send x true
  | .hold _ => m

/-- Let go of a key. -/
def Machine.lift (m : Machine) (r : Role) : Machine :=
  match r with
  | .key x => m.send x false
  | .hold _ => m

/-- One event. Wakeups, presses of keys already held, presses when 16 keys are held, and releases of
keys not held are ignored. -/
def Machine.step (c : Config) (m : Machine) (ev : KeyEvent) : Machine :=
  if ev.code = 0 then m
  else
    match m.held.find? (fun p => p.1 = ev.code) with
    | some (_, r) =>
      if ev.pressed then m
      else { m with held := m.held.filter (fun p => p.1 ≠ ev.code) }.lift r
    | none =>
      if ev.pressed ∧ m.held.length < 16 then
        match c.role ev.code with
        | some r => { m with held := (ev.code, r) :: m.held }.strike r
        | none => m
      else m

/-- The machine after some events. -/
def Machine.run (c : Config) (evs : List KeyEvent) : Machine := evs.foldl (Machine.step c) {}

/-- A modifier is wanted: a key holding a layer with that modifier is held. -/
def Machine.wants (c : Config) (m : Machine) (mask : UInt8) : Prop :=
  ∃ p ∈ m.held, ∃ l, p.2 = .hold l ∧ (c.layer l).mods &&& mask ≠ 0

/-- What comes from a keyboard: a key is pressed when it is up and released when it is down (`held` are
the keys down at the start), and no more than 16 keys are held at a time. -/
def Typing : List Code → List KeyEvent → Prop
  | _, [] => True
  | held, ev :: evs =>
    if ev.pressed then ev.code ∉ held ∧ held.length < 16 ∧ Typing (ev.code :: held) evs
    else ev.code ∈ held ∧ Typing (held.filter (· ≠ ev.code)) evs

end Keyd
