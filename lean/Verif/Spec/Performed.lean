import Verif.Spec.Idle
import Verif.Spec.Log

/-
  Which actions the keys perform, and what they amount to for the commands run and for scroll
  emulation. Used only to state properties.
-/

set_option autoImplicit false

namespace Keyd

/-- The command among an output. -/
def Out.command? : Out → Option Str
  | .command s => some s
  | _ => Option.none

/-- The commands run so far, in order. -/
def Kbd.commandsRun (k : Kbd) : List Str := k.outputs.filterMap Out.command?

/-- An action together with whether it is pressed (`true`) or released (`false`). -/
abbrev Act := Desc × Bool

/-- What is remembered from earlier actions: the time a symbol was last typed, the key pressed last,
and the time an `overload` key was last pressed. -/
structure Memo where
  symbol : Int
  newest : Code
  overload : Int
deriving DecidableEq, Repr

/-- What is remembered after an action that performs nothing else: key `code` at time `t`. -/
def Memo.after (m : Memo) (code : Code) (t : Int) (d : Desc) (p : Bool) : Memo where
  symbol := if d.symbol then t else m.symbol
  newest := if p then code else m.newest
  overload := match d with
    | .overload _ _ => if p then t else m.overload
    | _ => m.overload

/-- The release of the `overload` key `code` at time `t` is the end of a tap: it was the key pressed last, and not too
long ago. -/
def Memo.tap (c : Config) (m : Memo) (code : Code) (t : Int) : Prop :=
  m.newest = code ∧ (c.overloadTapTimeout = 0 ∨ t - m.overload < c.overloadTapTimeout)

/-- `Performs c code t m d p as m'`: with `m` remembered, pressing (`p = true`) or releasing key `code` with action `d` at
time `t` amounts to the actions `as`, in this order, and `m'` is remembered. Every action performs itself, except that
pressing `overloadi(a, b, T)` performs the press of `a` if a symbol was typed less than `T` ms ago and of `b` otherwise, and
that releasing `overload(l, a)` in addition taps `a`, that is presses and releases it, if the key was tapped. (If `a` is a
macro it is typed, which is not an action of its own here.) -/
inductive Performs (c : Config) (code : Code) (t : Int) : Memo → Desc → Bool → List Act → Memo → Prop
  | itself {m : Memo} {d : Desc} {p : Bool} (h : ∀ a b T, (d, p) ≠ (.overloadIdle a b T, true))
      (h' : ∀ l a, (d, p) ≠ (.overload l a, false)) : Performs c code t m d p [(d, p)] (m.after code t d p)
  | idle {m m' : Memo} {a b T : Nat} {as : List Act}
      (h : Performs c code t m (c.desc (if t - m.symbol < T then a else b)) true as m') :
      Performs c code t m (.overloadIdle a b T) true as m'
  | hold {m : Memo} {l a : Nat} (h : ¬ m.tap c code t) :
      Performs c code t m (.overload l a) false [(.overload l a, false)] m
  | tapMacro {m : Memo} {l a i : Nat} (h : m.tap c code t) (hi : c.desc a = .macro i) :
      Performs c code t m (.overload l a) false [(.overload l a, false)] m
  | tap {m m1 m2 : Memo} {l a : Nat} {as bs : List Act} (h : m.tap c code t) (hi : ∀ i, c.desc a ≠ .macro i)
      (h1 : Performs c code t m (c.desc a) true as m1) (h2 : Performs c code t m1 (c.desc a) false bs m2) :
      Performs c code t m (.overload l a) false ((.overload l a, false) :: as ++ bs) m2

/-- The actions performed by a step of the log. -/
def Step.performs (c : Config) : Step → Memo → List Act → Memo → Prop
  | .key code p t (some (d, _)), m, as, m' => Performs c code t m d p as m'
  | .resolve code d _ t, m, as, m' => Performs c code t m d true as m'
  | _, m, as, m' => as = [] ∧ m' = m

/-- The step performs actions: a key event that found an action, or the decision of a waiting key. -/
def Step.acts : Step → Bool
  | .key _ _ _ (some _) => true
  | .resolve _ _ _ _ => true
  | _ => false

/-- The actions performed by the steps of a log (newest step first), in order of time, and what is remembered before and
after. -/
inductive LogPerforms (c : Config) (m0 : Memo) : List Step → List Act → Memo → Prop
  | nil : LogPerforms c m0 [] [] m0
  | step {s : Step} {log : List Step} {as bs : List Act} {m m' : Memo} (h : LogPerforms c m0 log as m) (hs : s.performs c m bs m') :
      LogPerforms c m0 (s :: log) (as ++ bs) m'

/-- What the keyboard remembers. -/
def Kbd.memo (k : Kbd) : Memo := ⟨k.lastSimpleKeyTime, k.lastPressedCode, k.overloadStartTime⟩

/-- `Chose c m0 code log d dl`: according to the log (newest step first), key `code` was last pressed as `overloadi(a, b, T)`,
found in layer `dl`, no other step was about it since, and `d` is the action the key was to perform: `a` if a symbol was
typed less than `T` ms before, and `b` otherwise. -/
inductive Chose (c : Config) (m0 : Memo) (code : Code) : List Step → Desc → Nat → Prop
  | press {log : List Step} {as : List Act} {m : Memo} {t : Int} {a b T dl : Nat} (h : LogPerforms c m0 log as m) :
      Chose c m0 code (.key code true t (some (.overloadIdle a b T, dl)) :: log) (c.desc (if t - m.symbol < T then a else b)) dl
  | later {log : List Step} {d : Desc} {dl : Nat} {s : Step} (h : Chose c m0 code log d dl) (hs : s.about code = false) :
      Chose c m0 code (s :: log) d dl

/-- The command run by an action: `command(<string>)` runs its string when pressed. -/
def commandOf (c : Config) : Act → Option Str
  | (.command i, true) => some (c.commands.getD i [])
  | _ => Option.none

/-- What an action does to scroll emulation: `scroll(n)` turns it on with sensitivity `n` while it is
held, `scrollt(n)` flips it when pressed. -/
def scrollOf : Scroll → Act → Scroll
  | s, (.scroll n, p) => { s with sensitivity := n, active := p }
  | s, (.scrollToggle n, true) => { s with sensitivity := n, active := !s.active }
  | s, (.scrollToggle n, false) => { s with sensitivity := n }
  | s, _ => s

end Keyd
