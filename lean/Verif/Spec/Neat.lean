import Verif.Spec.Holding

/-
  Vocabulary for C81: the configurations in which no modifier is left down.
-/

set_option autoImplicit false

namespace Keyd

/-- Conditions on single actions. `quiet m`: macro number `m` may be played by a tap of `overload` or by `clearm`; `os l`: layer `l` may
be used for one keystroke (`oneshot`, `oneshotm`); `tg`: `toggle` and `togglem` may be used. -/
def Tidying (quiet os : Nat → Prop) (tg : Prop) : Desc → Prop
  | .clearm m => quiet m
  | .toggle _ => tg
  | .togglem _ _ => tg
  | .oneshot l => os l
  | .oneshotm l _ => os l
  | _ => True

/-- Tables in which no action leaves a modifier down: they are `Orderly` (no `swap`, no tap action of `overload` that is decided later);
the macros played by a tap of `overload` or by `clearm` are not a single key with modifiers, like `macro(C-x)`; and if there are `toggle`
actions, the layers used for one keystroke have no modifiers. -/
structure Neat (tap alt quiet os : Nat → Prop) (tg : Prop) (c : Config) : Prop where
  orderly : Orderly tap alt c
  nested : ∀ d ∈ c.descriptors, Tidying quiet os tg d
  keys : ∀ l ∈ c.layers, ∀ code, Tidying quiet os tg (l.keymap code)
  chords : ∀ l ∈ c.layers, ∀ ch ∈ l.chords, Tidying quiet os tg ch.d
  taps : ∀ a m, tap a → c.desc a = .macro m → quiet m
  macros : ∀ m e, quiet m → c.mac m = [e] → e.type = .keysequence → e.mods = 0
  oneshots : tg → ∀ i, os i → (c.layer i).mods = 0

end Keyd
