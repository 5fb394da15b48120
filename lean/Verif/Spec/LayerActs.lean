import Verif.Model.Keyboard
import Verif.Spec.Performed

/-
  The layers of a keyboard as a small machine of their own: what each action does to them. Used only
  to state properties.
-/

set_option autoImplicit false

namespace Keyd

/-- What is remembered about the layers of a keyboard: for each layer how often it is activated, when it was last
activated, whether it is toggled on and how many of its activations are one-shots; a counter that dates the
activations; and whether a one-shot key was pressed since one-shots were last spent. -/
structure LayerBook where
  state : Nat → LayerSt
  clock : Int
  latch : Bool

def Kbd.book (k : Kbd) : LayerBook := ⟨k.layerState, k.clock, k.oneshotLatch⟩

namespace LayerBook

/-- One more activation of a layer. -/
def enter (b : LayerBook) (l : Nat) : LayerBook :=
  { b with state := upd b.state l { b.state l with active := (b.state l).active + 1, activationTime := b.clock }, clock := b.clock + 1 }

/-- One activation of a layer less. -/
def leave (b : LayerBook) (l : Nat) : LayerBook :=
  { b with state := upd b.state l { b.state l with active := (b.state l).active - 1 } }

/-- The one-shot activations of all layers end. -/
def spend (c : Config) (b : LayerBook) : LayerBook :=
  { b with
    state := fun i => if i < c.layers.length then
        { b.state i with active := (b.state i).active - (b.state i).oneshotDepth, oneshotDepth := 0 }
      else b.state i
    latch := false }

/-- The layers other than `main` and the layouts are no longer toggled. -/
def untoggle (c : Config) (b : LayerBook) : LayerBook :=
  { b with
    state := fun i => if 0 < i ∧ i < c.layers.length ∧ (c.layer i).type ≠ .layout then
        { b.state i with active := (b.state i).active - (if (b.state i).toggled then 1 else 0), toggled := false }
      else b.state i }

/-- Only this one of the layouts is active (besides `main`). -/
def choose (c : Config) (b : LayerBook) (l : Nat) : LayerBook :=
  { b with
    state := fun i =>
      if i = l ∧ l ≠ 0 then { b.state i with active := 1, activationTime := 1 }
      else if 0 < i ∧ i < c.layers.length ∧ (c.layer i).type = .layout then { b.state i with active := 0 }
      else b.state i }

/-- The layer is toggled on or off. -/
def flip (b : LayerBook) (l : Nat) : LayerBook :=
  { b with state := upd b.state l { b.state l with toggled := !(b.state l).toggled } }

/-- An activation of the layer becomes, or stops being, a one-shot. -/
def depth (b : LayerBook) (l : Nat) (f : Nat → Nat) : LayerBook :=
  { b with state := upd b.state l { b.state l with oneshotDepth := f (b.state l).oneshotDepth } }

/-- The layer is toggled on. -/
def on (b : LayerBook) (l : Nat) : LayerBook := { b with state := upd b.state l { b.state l with toggled := true } }

end LayerBook

/-- What may happen to the layers: an action is pressed or released, `swap` replaces the layer its key was found in (`held`: this
layer is held by a key). -/
inductive Happening where
  | act (d : Desc) (p : Bool)
  | swap (dl l : Nat) (held : Bool)

/-- The effect on the layers, action by action. -/
def happen (c : Config) (b : LayerBook) : Happening → LayerBook
  | .act (.keyseq _ _) true => b.spend c
  | .act (.macro _) true => b.spend c
  | .act (.macro2 _ _ _) true => b.spend c
  | .act (.command _) true => b.spend c
  | .act (.layer l) p => if p then b.enter l else b.leave l
  | .act (.layerm l _) p => if p then b.enter l else b.leave l
  | .act (.overload l _) p => if p then b.enter l else b.leave l
  | .act (.oneshot l) p => if p then { b.enter l with latch := true } else if b.latch then b.depth l (· + 1) else b.leave l
  | .act (.oneshotm l _) p => if p then { b.enter l with latch := true } else if b.latch then b.depth l (· + 1) else b.leave l
  | .act (.toggle l) true => (if (b.state l).toggled then (b.flip l).leave l else (b.flip l).enter l).spend c
  | .act (.togglem l _) true => (if (b.state l).toggled then (b.flip l).leave l else (b.flip l).enter l).spend c
  | .act .clear true => (b.spend c).untoggle c
  | .act (.clearm _) true => (b.spend c).untoggle c
  | .act (.layout l) true => ((b.spend c).untoggle c).choose c l
  | .act _ _ => b
  | .swap dl l held =>
    if (b.state dl).toggled then (((b.leave dl).flip dl).enter l).on l
    else if (b.state dl).oneshotDepth ≠ 0 then (((b.leave dl).depth dl (· - 1)).enter l).depth l (· + 1)
    else if held then (b.leave dl).enter l
    else b

/-- `Does c dl code t m d p hs`: what pressing (`p = true`) or releasing key `code` with action `d`, found in layer `dl`, at time
`t` means for the layers, if `m` is remembered from earlier actions. Every action happens itself, except that pressing
`overloadi(a, b, T)` is pressing `a` if a symbol was typed less than `T` ms ago and `b` otherwise, that releasing
`overload(l, a)` in addition taps `a` if the key was tapped (but a macro tapped so has no effect on the layers), and that
pressing `swap` replaces `dl`. -/
inductive Does (c : Config) (dl : Nat) (code : Code) (t : Int) : Memo → Desc → Bool → List Happening → Prop
  | itself {m : Memo} {d : Desc} {p : Bool} (h1 : ∀ a b T, (d, p) ≠ (.overloadIdle a b T, true)) (h2 : ∀ l, (d, p) ≠ (.swap l, true))
      (h3 : ∀ l i, (d, p) ≠ (.swapm l i, true)) (h4 : ∀ l a, (d, p) ≠ (.overload l a, false)) : Does c dl code t m d p [.act d p]
  | idle {m : Memo} {a b T : Nat} {hs : List Happening}
      (h : Does c dl code t m (c.desc (if t - m.symbol < T then a else b)) true hs) : Does c dl code t m (.overloadIdle a b T) true hs
  | hold {m : Memo} {l a : Nat} (h : ¬ m.tap c code t) : Does c dl code t m (.overload l a) false [.act (.overload l a) false]
  | tapMacro {m : Memo} {l a i : Nat} (h : m.tap c code t) (hi : c.desc a = .macro i) :
      Does c dl code t m (.overload l a) false [.act (.overload l a) false]
  | tap {m m1 : Memo} {l a : Nat} {as : List Act} {hs hs' : List Happening} (h : m.tap c code t) (hi : ∀ i, c.desc a ≠ .macro i)
      (hp : Performs c code t m (c.desc a) true as m1) (h1 : Does c dl code t m (c.desc a) true hs)
      (h2 : Does c dl code t m1 (c.desc a) false hs') :
      Does c dl code t m (.overload l a) false (.act (.overload l a) false :: hs ++ hs')
  | swap {m : Memo} (l : Nat) (held : Bool) : Does c dl code t m (.swap l) true [.swap dl l held]
  | swapm {m : Memo} (l i : Nat) (held : Bool) : Does c dl code t m (.swapm l i) true [.swap dl l held]

/-- What a key is bound to with these layers, and the layer this binding is found in (see C08). -/
def LayerBook.lookup (c : Config) (b : LayerBook) (code : Code) : Desc × Nat :=
  lookupDescriptor { newKeyboard c with layerState := b.state } code

/-- The step tells of an action that is performed: the code, the action, the layer it was found in, and whether it is pressed. -/
def Step.action : Step → Option (Code × Desc × Nat × Bool)
  | .key code p _ (some (d, dl)) => some (code, d, dl, p)
  | .resolve code d dl _ => some (code, d, dl, true)
  | _ => none

/-- The time of a step that performs an action. -/
def Step.time : Step → Int
  | .key _ _ t _ => t
  | .resolve _ _ _ t => t
  | .passed ev => ev.ts
  | .swallowed ev => ev.ts

/-- `LayerRun c x b m log b' m'`: the log (newest step first) takes the layers from `b` to `b'`, and what is remembered from `m` to
`m'`. Only the actions in the log change them, except that one-shots may expire if `x`; and a key that is not a chord's is
pressed with the action that the layers at this moment bind it to. -/
inductive LayerRun (c : Config) (x : Prop) (b : LayerBook) (m : Memo) : List Step → LayerBook → Memo → Prop
  | nil : LayerRun c x b m [] b m
  | other {log : List Step} {b' : LayerBook} {m' : Memo} (s : Step) (h : LayerRun c x b m log b' m') (hs : s.action = none) :
      LayerRun c x b m (s :: log) b' m'
  | acts {log : List Step} {b' : LayerBook} {m' m'' : Memo} {s : Step} {code : Code} {d : Desc} {dl : Nat} {p : Bool} {as : List Act}
      {hs : List Happening} (h : LayerRun c x b m log b' m') (e : s.action = some (code, d, dl, p))
      (hl : ∀ t, s = .key code true t (some (d, dl)) → ¬ (KEYD.CHORD_1 ≤ code ∧ code ≤ KEYD.CHORD_MAX) → b'.lookup c code = (d, dl))
      (hp : s.performs c m' as m'') (hd : Does c dl code s.time m' d p hs) : LayerRun c x b m (s :: log) (hs.foldl (happen c) b') m''
  | expire {log : List Step} {b' : LayerBook} {m' : Memo} (h : LayerRun c x b m log b' m') (hx : x) :
      LayerRun c x b m log (b'.spend c) m'

end Keyd
