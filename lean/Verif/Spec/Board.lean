import Verif.Spec.LayerActs
import Verif.Spec.Arrivals
import Verif.Spec.Host

/-
  A machine that says, for configurations of key remaps, modified keys, layers, one-shots (with or without a timeout), toggles, swaps,
  overloads, overloads that depend on an idle time, layouts and commands, what the host gets for every sequence of events. Only used to state properties.
-/

set_option autoImplicit false

namespace Keyd

/-- A key that is held: what it was bound to when it was pressed, the layer this binding was found in, when it was pressed, and the
layer that it holds (0 for none). -/
structure Hit where
  code : Code
  act : Desc
  layer : Nat
  time : Int
  holds : Nat := 0

/-- The state of the machine: the keys held (in 16 places), the layers, the key pressed last, the keys and the modifiers that are down at the host,
and what was sent: every key that went down or up, with the modifiers that were down at that moment; the commands run; when the
one-shots expire (0 for never); and when a key was last struck or let go of with no modifier but shift. -/
structure Board where
  held : List (Option Hit) := List.replicate 16 none
  book : LayerBook
  last : Code := 0
  down : Code → Bool := fun _ => false
  mods : List Code := []
  out : List (Code × Bool × List Code) := []
  ran : List Str := []
  deadline : Int := 0
  typed : Int := 0

/-- At the start only `main` is active, and the default layout if there is one. -/
def Board.start (c : Config) : Board where
  book :=
    { state := fun i =>
        if c.defaultLayout ≠ [] ∧ findLayout c.defaultLayout c.layers 0 = some i then { active := 1, activationTime := 1 }
        else if i = 0 then { active := 1 } else {}
      clock := 1
      latch := false }

/-- The layer is active. -/
def LayerBook.isOn (b : LayerBook) (i : Nat) : Bool := decide ((b.state i).active ≠ 0)

/-- What a key is bound to, and where. If composite layers with all their parts active bind it, the one with most parts, the first of
those in the file; otherwise the layer activated last of the active layers that bind it (the later in the file if equal);
otherwise it stands for itself. -/
def LayerBook.find (c : Config) (b : LayerBook) (code : Code) : Desc × Nat :=
  let all := List.range c.layers.length
  let composites := all.filter fun i => decide ((c.layer i).type = .composite) && decide ((c.layer i).constituents ≠ []) && (c.layer i).constituents.all b.isOn &&
    decide ((c.layer i).keymap code ≠ .none)
  let active := all.filter fun i => b.isOn i && decide ((c.layer i).keymap code ≠ .none)
  match composites.find? fun i => composites.all fun j => decide ((c.layer j).constituents.length ≤ (c.layer i).constituents.length) with
  | some i => ((c.layer i).keymap code, i)
  | none =>
    match active.reverse.find? fun i => active.all fun j => decide ((b.state j).activationTime ≤ (b.state i).activationTime) with
    | some i => ((c.layer i).keymap code, i)
    | none => (.keyseq code 0, 0)

/-- The layer's modifiers do not count for a binding found in `ex`: it is this layer, or a part of this composite layer. -/
def Config.leftOut (c : Config) (ex : Option Nat) (i : Nat) : Bool :=
  match ex with
  | none => false
  | some e => decide (i = e) || (decide ((c.layer e).type = .composite) && decide (i ∈ (c.layer e).constituents))

/-- The modifier keys asked for: by `extra`, or by an active layer that is not left out. -/
def LayerBook.wanted (c : Config) (b : LayerBook) (ex : Option Nat) (extra : UInt8) : List Code :=
  modKeys.filter fun key => inMods extra key ||
    (List.range c.layers.length).any fun i => b.isOn i && !c.leftOut ex i && inMods (c.layer i).mods key

/-! The places of the keys held. -/

/-- A key takes the last free place, if there is one. -/
def Hit.place (h : Hit) : List (Option Hit) → Option (List (Option Hit))
  | [] => none
  | p :: ps =>
    match h.place ps with
    | some ps' => some (p :: ps')
    | none => match p with
      | none => some (some h :: ps)
      | some _ => none

/-- The key that is held in one of the places. -/
def heldIn (code : Code) (ps : List (Option Hit)) : Option Hit := ps.findSome? (Option.filter fun h => h.code = code)

/-- A key leaves its place. -/
def dropIn (code : Code) : List (Option Hit) → List (Option Hit)
  | [] => []
  | some h :: ps => if h.code = code then none :: ps else some h :: dropIn code ps
  | none :: ps => none :: dropIn code ps

/-- A key holds a layer from now on. -/
def holdIn (code : Code) (l : Nat) : List (Option Hit) → List (Option Hit)
  | [] => []
  | some h :: ps => if h.code = code then some { h with holds := l } :: ps else some h :: holdIn code l ps
  | none :: ps => none :: holdIn code l ps

/-- The first key that holds the layer `dl`, if there is one, is from now on a key for the layer `l`. -/
def reassign (dl l : Nat) : List (Option Hit) → Option (List (Option Hit))
  | [] => none
  | some h :: ps =>
    if h.holds = dl then some (some { h with act := .layer l, holds := l } :: ps) else (reassign dl l ps).map (some h :: ·)
  | none :: ps => (reassign dl l ps).map (none :: ·)

/-- A key is bound to another action from now on. -/
def rebindIn (code : Code) (d : Desc) : List (Option Hit) → List (Option Hit)
  | [] => []
  | some h :: ps => if h.code = code then some { h with act := d } :: ps else some h :: rebindIn code d ps
  | none :: ps => none :: rebindIn code d ps

namespace Board

/-- Send a key, unless it stands for nothing or is in that state already. Modifiers are kept apart. -/
def send (b : Board) (x : Code) (p : Bool) : Board :=
  if isModifierKey x then { b with mods := modKeys.filter fun y => if y = x then p else decide (y ∈ b.mods) }
  else if x = KEYD.NOOP ∨ x = KEYD.EXTERNAL_MOUSE_BUTTON ∨ b.down x = p then b
  else { b with down := fun y => if y = x then p else b.down y, out := b.out ++ [(x, p, b.mods)] }

/-- Bring the modifiers up to date. -/
def modify (c : Config) (b : Board) (ex : Option Nat) (extra : UInt8) : Board := { b with mods := b.book.wanted c ex extra }

/-- The one-shots are spent. -/
def spend (c : Config) (b : Board) : Board := { b with book := b.book.spend c, deadline := 0 }

/-- A key was struck or let go of, with the modifiers `m`. -/
def note (b : Board) (m : UInt8) (t : Int) : Board := if m = 0 ∨ m = MOD_SHIFT then { b with typed := t } else b

/-- Strike a key with modifiers; the one-shots are spent on it. -/
def strike (c : Config) (b : Board) (x : Code) (m : UInt8) (dl : Nat) (t : Int) : Board :=
  ((((b.send x false).modify c (some dl) m).send x true).spend c).note m t

/-- Let go of a key. -/
def lift (c : Config) (b : Board) (x : Code) : Board := (b.send x false).modify c none 0

/-- Everything is let go of, in the order of the key codes. -/
def letGo (b : Board) : Board := allCodes.foldl (fun b x => b.send x false) b

/-- One-shots and toggled layers end, and everything is let go of. -/
def clear (c : Config) (b : Board) : Board := { ({ b with book := happen c b.book (.act .clear true) } : Board).letGo with deadline := 0 }

/-- The effect on the layers alone (see C68). -/
def layers (c : Config) (b : Board) (d : Desc) (p : Bool) : Board := { b with book := happen c b.book (.act d p) }

/-- A key holds a layer from now on. -/
def hold (b : Board) (code : Code) (l : Nat) : Board := { b with held := holdIn code l b.held }

/-- Tap the key of a macro that is a single key with modifiers. -/
def tap (c : Config) (b : Board) (m : Nat) (dl : Nat) : Board :=
  match c.mac m with
  | [e] => ((b.modify c (some dl) e.mods).send e.code true).send e.code false
  | _ => b

/-- A layer is toggled; the one-shots are spent. -/
def switch (c : Config) (b : Board) (code : Code) (l : Nat) : Board :=
  let b := if (b.book.state l).toggled then { b with book := (b.book.flip l).leave l }
    else { b.hold code l with book := (b.book.flip l).enter l }
  (b.modify c none 0).spend c

/-- The layer `dl` is replaced by `l`: it is toggled on instead, or instead active for one key, or held instead by the key that
holds `dl`; if none of this is so nothing happens. -/
def swap (c : Config) (b : Board) (dl l : Nat) : Board :=
  if (b.book.state dl).toggled ∨ (b.book.state dl).oneshotDepth ≠ 0 then
    { b with book := happen c b.book (.swap dl l false) }.modify c none 0
  else if dl ≠ 0 ∧ (c.layer dl).type = .normal then
    match reassign dl l b.held with
    | some held => { b with held := held, book := happen c b.book (.swap dl l true) }.modify c none 0
    | none => b
  else b

/-- What an action does when its key is pressed. -/
def act (c : Config) (b : Board) (h : Hit) (t : Int) : Board :=
  match h.act with
  | .keyseq x m => b.strike c x m h.layer t
  | .layer l => ((b.hold h.code l).layers c (.layer l) true).modify c none 0
  | .layerm l m => (((b.tap c m h.layer).hold h.code l).layers c (.layer l) true).modify c none 0
  | .overload l a => ((b.hold h.code l).layers c (.overload l a) true).modify c none 0
  | .oneshot l => ((b.hold h.code l).layers c (.oneshot l) true).modify c (some h.layer) 0
  | .oneshotm l m => (((b.tap c m h.layer).hold h.code l).layers c (.oneshot l) true).modify c (some h.layer) 0
  | .toggle l => b.switch c h.code l
  | .togglem l m => (b.tap c m h.layer).switch c h.code l
  | .swap l => b.swap c h.layer l
  | .swapm l m => (b.swap c h.layer l).tap c m h.layer
  | .command n => (({ b with ran := b.ran ++ [c.commands.getD n []] } : Board).spend c).modify c none 0
  | .clear => b.clear c
  | .clearm m => (b.clear c).tap c m h.layer
  | .layout l => { b.clear c with book := happen c b.book (.act (.layout l) true) }
  | _ => b

/-- What a key does when pressed. With an idle time, its action is chosen now. -/
def press (c : Config) (b : Board) (h : Hit) (t : Int) : Board :=
  match h.act with
  | .overloadIdle d1 d2 timeout =>
    let d := c.desc (if t - b.typed ≥ timeout then d2 else d1)
    let b := b.act c { h with act := d } t
    { b with held := rebindIn h.code d b.held }
  | _ => b.act c h t

/-- A one-shot key is released. It was tapped if no key was struck since: then the layer stays, for a while. -/
def untap (c : Config) (b : Board) (l : Nat) (t : Int) : Board :=
  let b' := b.layers c (.oneshot l) false
  if b.book.latch then if c.oneshotTimeout ≠ 0 then { b' with deadline := t + c.oneshotTimeout } else b'
  else b'.modify c none 0

/-- What a key does when released, unless it is an overload. -/
def letUp (c : Config) (b : Board) (h : Hit) (t : Int) : Board :=
  match h.act with
  | .keyseq x m => (b.lift c x).note m t
  | .layer l => (b.layers c (.layer l) false).modify c none 0
  | .layerm l _ => (b.layers c (.layer l) false).modify c none 0
  | .oneshot l => b.untap c l t
  | .oneshotm l _ => b.untap c l t
  | .swapm _ m =>
    match c.mac m with
    | [e] => b.lift c e.code
    | _ => b
  | _ => b

/-- What a key does when released. An overload key is tapped if it was the last key pressed, and not too long ago. -/
def release (c : Config) (b : Board) (h : Hit) (t : Int) : Board :=
  match h.act with
  | .overload l a =>
    let b := (b.layers c (.overload l a) false).modify c none 0
    if b.last = h.code ∧ (c.overloadTapTimeout = 0 ∨ t - h.time < c.overloadTapTimeout) then
      match c.desc a with
      | .macro m => b.tap c m h.layer
      | d => (b.act c { h with act := d } t).letUp c { h with act := d } t
    else b
  | _ => b.letUp c h t

/-- The one-shots expire. -/
def expire (c : Config) (b : Board) (t : Int) : Board :=
  if b.deadline ≠ 0 ∧ t ≥ b.deadline then (b.spend c).modify c none 0 else b

/-- A key event. Presses of keys already held, presses when 16 keys are held, and releases of keys not held are ignored. -/
def key (c : Config) (b : Board) (ev : KeyEvent) : Board :=
  match heldIn ev.code b.held with
  | some h => if ev.pressed then b else { b with held := dropIn ev.code b.held }.release c h ev.ts
  | none =>
    if ev.pressed then
      let found := b.book.find c ev.code
      let h : Hit := { code := ev.code, act := found.1, layer := found.2, time := ev.ts }
      match h.place b.held with
      | some held => { { b with held := held }.press c h ev.ts with last := ev.code }
      | none => b
    else b

/-- One event; a wakeup is one without a key. -/
def step (c : Config) (b : Board) (ev : KeyEvent) : Board :=
  if ev.code = 0 then b.expire c ev.ts else (b.expire c ev.ts).key c ev

/-- The machine after some events. -/
def run (c : Config) (evs : List KeyEvent) : Board := evs.foldl (step c) (start c)

end Board

/-- The macro is a single key with modifiers. -/
def Config.taps (c : Config) (m : Nat) : Prop := ∃ e, c.mac m = [e] ∧ e.type = .keysequence

/-- The actions of the machine besides overloads. -/
def Config.does (c : Config) : Desc → Prop
  | .none => True
  | .keyseq _ _ => True
  | .layer _ | .oneshot _ | .toggle _ | .swap _ => True
  | .layerm _ m | .oneshotm _ m | .togglem _ m | .swapm _ m => c.taps m
  | .command _ => True
  | .clear => True
  | .clearm m => c.taps m
  | .layout _ => True
  | _ => False

/-- Those and `overload`, which does one of them or plays a macro of one key when it is tapped. -/
def Config.acts (c : Config) : Desc → Prop
  | .overload _ a => c.does (c.desc a) ∨ ∃ m, c.desc a = .macro m ∧ c.taps m
  | d => c.does d

/-- The actions of the machine: those, and `overloadi`, which chooses one of two of them. -/
def Config.plays (c : Config) : Desc → Prop
  | .overloadIdle d1 d2 _ => c.acts (c.desc d1) ∧ c.acts (c.desc d2)
  | d => c.acts d

/-- A configuration of such actions: without chords, macros of more than one key, `overloadt`, `overloadt2`, `timeout` and scrolling. -/
structure Simple (c : Config) : Prop where
  acts : ∀ i code, Physical code → c.plays ((c.layer i).keymap code)
  chords : ∀ i, (c.layer i).chords = []

/-- Every key that went down or up at the host, with the modifier keys down at that moment (modifiers themselves left out). -/
def hostEvents (h : Code → Bool) : List Out → List (Code × Bool × List Code)
  | [] => []
  | .key c d :: os => (if isModifierKey c then [] else [(c, d, modKeys.filter h)]) ++ hostEvents (upd h c d) os
  | _ :: os => hostEvents h os

/-- The commands run. -/
def ranCommands (os : List Out) : List Str := os.filterMap fun o => match o with
  | .command s => some s
  | _ => none

end Keyd
