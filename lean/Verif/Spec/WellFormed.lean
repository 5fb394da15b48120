import Verif.Model.Config

/-
  What it means for binding tables to be well-formed (C27).
-/

set_option autoImplicit false

namespace Keyd

/-- `i` is an existing layer that is not a layout. -/
def LayerTarget (c : Config) (i : Nat) : Prop :=
  ∃ l, c.layers[i]? = some l ∧ l.type ≠ .layout

/-- `i` is main or an existing layout. -/
def LayoutTarget (c : Config) (i : Nat) : Prop :=
  ∃ l, c.layers[i]? = some l ∧ (i = 0 ∨ l.type = .layout)

/-- All references of an action are in range; nested actions are below `b`. -/
def DescOK (c : Config) (b : Nat) : Desc → Prop
  | .none => True
  | .keyseq _ _ => True
  | .clear => True
  | .scroll _ => True
  | .scrollToggle _ => True
  | .oneshot l => LayerTarget c l
  | .layer l => LayerTarget c l
  | .swap l => LayerTarget c l
  | .toggle l => LayerTarget c l
  | .oneshotm l m => LayerTarget c l ∧ m < c.macros.length
  | .layerm l m => LayerTarget c l ∧ m < c.macros.length
  | .swapm l m => LayerTarget c l ∧ m < c.macros.length
  | .togglem l m => LayerTarget c l ∧ m < c.macros.length
  | .layout l => LayoutTarget c l
  | .clearm m => m < c.macros.length
  | .macro m => m < c.macros.length
  | .macro2 t r m => t < 65536 ∧ r < 65536 ∧ m < c.macros.length
  | .overload l d => LayerTarget c l ∧ d < b
  | .overloadTimeout l d t => LayerTarget c l ∧ d < b ∧ t < 65536
  | .overloadTimeoutTap l d t => LayerTarget c l ∧ d < b ∧ t < 65536
  | .overloadIdle d1 d2 t => d1 < b ∧ d2 < b ∧ t < 65536
  | .timeout d1 t d2 => d1 < b ∧ t < 65536 ∧ d2 < b
  | .command n => n < c.commands.length

/-- Names of the layers the default configuration provides for modifier keys. -/
def modifierLayers : List Str := [b!"shift", b!"control", b!"meta", b!"alt", b!"altgr"]

/-- The code of a key that can be named in a config: not 0, and not one of the three codes
the engine uses internally for chords. -/
def NamedKey (x : Code) : Prop := x ≠ 0 ∧ ¬ (KEYD.CHORD_1 ≤ x ∧ x ≤ KEYD.CHORD_MAX)

/-- Well-formed binding tables. -/
structure WF (c : Config) : Prop where
  /-- at most 32 layers -/
  layersLe : c.layers.length ≤ 32
  /-- with distinct names -/
  names : (c.layers.map (·.name)).Nodup
  /-- the first one is `main`, a layout -/
  mainFirst : ∃ l ls, c.layers = l :: ls ∧ l.name = b!"main" ∧ l.type = .layout
  /-- the modifier layers exist and are ordinary layers -/
  modLayers : ∀ n ∈ modifierLayers, ∃ (i : Nat) (l : Layer), c.layers[i]? = some l ∧ l.name = n ∧ l.type = .normal
  /-- every binding of every layer is well-formed -/
  keymaps : ∀ l ∈ c.layers, ∀ code, DescOK c c.descriptors.length (l.keymap code)
  /-- so is every chord; chords have at most eight keys, all of them real, layers at most
  64 chords -/
  chords : ∀ l ∈ c.layers, ∀ ch ∈ l.chords, DescOK c c.descriptors.length ch.d ∧ ch.keys.length ≤ 8 ∧
    ∀ x ∈ ch.keys, NamedKey x
  chordsLe : ∀ l ∈ c.layers, l.chords.length ≤ 64
  /-- a composite layer is made of at most eight existing layers -/
  constituents : ∀ l ∈ c.layers, l.constituents.length ≤ 8 ∧ ∀ i ∈ l.constituents, i < c.layers.length
  /-- nested actions only refer to earlier ones -/
  nested : ∀ (i : Nat) (d : Desc), c.descriptors[i]? = some d → DescOK c i d
  /-- table sizes -/
  descsLe : c.descriptors.length ≤ 1024
  macrosLe : c.macros.length ≤ 256
  commandsLe : c.commands.length ≤ 64
  macroLe : ∀ m ∈ c.macros, m.length ≤ 256

end Keyd
