import Verif.Model.Daemon
import Verif.Spec.Reach

/-
  Vocabulary for C39: what a client of `keyd listen` can know. Only used to state properties.
-/

set_option autoImplicit false

namespace Keyd

/-- What a listener believes: the name of the current layout, and the names of the active layers. -/
structure Belief where
  layout : Str := []
  layers : List Str := []

/-- One line from the daemon: `/name` is the current layout, `+name` a layer activated, `-name` a layer
deactivated. -/
def Belief.hear (b : Belief) : Str → Belief
  | [] => b
  | ch :: rest =>
    let name := rest.dropLast
    if ch = 47 then { b with layout := name }
    else if ch = 43 then { b with layers := name :: b.layers.filter (· ≠ name) }
    else if ch = 45 then { b with layers := b.layers.filter (· ≠ name) }
    else b

/-- What a listener that received these lines believes. -/
def Belief.listen (lines : List Str) : Belief := lines.foldl Belief.hear {}

/-- The lines the daemon writes for these actions of the engine. -/
def changeLines (c : Config) (outs : List Out) : List Str :=
  outs.filterMap fun o => match o with
    | .layer i b => some (changeLine (c.layer i) b)
    | _ => none

/-- `k'` is what the keyboard `k` has become some time later. -/
inductive Later (k : Kbd) : Kbd → Prop
  | now : Later k k
  | events (fuel : Nat) (k1 : Kbd) (evs : List KeyEvent) (k2 : Kbd) (wait : Int)
      (h : Later k k1) (run : kbdProcessEvents fuel k1 evs = .ok (k2, wait)) : Later k k2
  | bind (k1 : Kbd) (exp : Str) (k2 : Kbd) (accepted : Bool)
      (h : Later k k1) (run : kbdEval k1 exp = .ok (k2, accepted)) : Later k k2
  | scroll (k1 : Kbd) (s : Scroll) (h : Later k k1) : Later k { k1 with scroll := s }

/-- What the keyboard has done between `k` and `k'`. -/
def Kbd.since (k k' : Kbd) : List Out := k'.outputs.drop k.outputs.length

/-- The name belongs to an active layer that is not a layout. -/
def ActiveLayer (k : Kbd) (name : Str) : Prop :=
  ∃ (i : Nat) (l : Layer), k.config.layers[i]? = some l ∧ l.name = name ∧ l.type ≠ .layout ∧ (k.layerState i).active ≠ 0

/-- The name belongs to an active layout, and no other layout is active except perhaps the main layer
(which always is, as the fallback). -/
def CurrentLayout (k : Kbd) (name : Str) : Prop :=
  ∃ (i : Nat) (l : Layer), k.config.layers[i]? = some l ∧ l.name = name ∧ l.type = .layout ∧ (k.layerState i).active ≠ 0 ∧
    ∀ (j : Nat) (m : Layer), j ≠ 0 → k.config.layers[j]? = some m → m.type = .layout → (k.layerState j).active ≠ 0 → j = i

/-- No layer (that is not a layout) is activated again while it is active. -/
def Unnested (k : Kbd) (outs : List Out) : Prop :=
  ∀ (i : Nat) (pre : List Out), (∀ l, k.config.layers[i]? = some l → l.type ≠ .layout) → pre <+: outs →
    (k.layerState i).active + pre.count (.layer i true) ≤ 1 + pre.count (.layer i false)

/-- The lines a connection has received. -/
def Daemon.linesTo (d : Daemon) (con : Nat) : List Str :=
  (d.sent.reverse.filter (fun p => p.1 = con)).map Prod.snd

end Keyd
