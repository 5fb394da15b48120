/-
The language of actions: what may be written to the right of `=` in a binding
(the syntax described in keyd's manual), and what it means for a parsed
descriptor to stand for an action.
-/
import Verif.Props.IniText
import Verif.Props.KeyNames

set_option autoImplicit false

namespace Keyd

/-- The actions of the manual, with layers by name and nested actions in place. -/
inductive Action where
  | nothing
  | keys (code : Code) (mods : UInt8)
  | layer (name : Str)
  | oneshot (name : Str)
  | toggle (name : Str)
  | swap (name : Str)
  | layout (name : Str)
  | clear
  | clearm (m : Macro)
  | swapm (name : Str) (m : Macro)
  | togglem (name : Str) (m : Macro)
  | layerm (name : Str) (m : Macro)
  | oneshotm (name : Str) (m : Macro)
  | overload (name : Str) (tap : Action)
  | overloadt (name : Str) (tap : Action) (ms : Nat)
  | overloadt2 (name : Str) (tap : Action) (ms : Nat)
  | overloadi (first second : Action) (ms : Nat)
  | timeout (first : Action) (ms : Nat) (second : Action)
  | sequence (m : Macro)
  | macro2 (ms again : Nat) (m : Macro)
  | command (cmd : Str)
  | scroll (n : Int)
  | scrollt (n : Int)

/-- How many nested actions there are (each takes a place in a table of 1024). -/
def Action.nested : Action → Nat
  | .overload _ a => a.nested + 1
  | .overloadt _ a _ => a.nested + 1
  | .overloadt2 _ a _ => a.nested + 1
  | .overloadi a b _ => a.nested + b.nested + 2
  | .timeout a _ b => a.nested + b.nested + 2
  | _ => 0

/-- How many macros there are (each takes a place in a table of 256). -/
def Action.macros : Action → Nat
  | .overload _ a => a.macros
  | .overloadt _ a _ => a.macros
  | .overloadt2 _ a _ => a.macros
  | .overloadi a b _ => a.macros + b.macros
  | .timeout a _ b => a.macros + b.macros
  | .clearm _ => 1
  | .swapm _ _ => 1
  | .togglem _ _ => 1
  | .layerm _ _ => 1
  | .oneshotm _ _ => 1
  | .sequence _ => 1
  | .macro2 _ _ _ => 1
  | _ => 0

/-- How many commands there are (each takes a place in a table of 64). -/
def Action.commands : Action → Nat
  | .overload _ a => a.commands
  | .overloadt _ a _ => a.commands
  | .overloadt2 _ a _ => a.commands
  | .overloadi a b _ => a.commands + b.commands
  | .timeout a _ b => a.commands + b.commands
  | .command _ => 1
  | _ => 0

/-- The tables have room for the action. -/
def Action.fits (a : Action) (c : Config) : Prop :=
  c.descriptors.length + a.nested ≤ 1024 ∧ c.macros.length + a.macros ≤ 256 ∧ c.commands.length + a.commands ≤ 64

/-- There is a layer of that name, it is not main and it is not a layout. -/
def Config.offersLayer (c : Config) (name : Str) : Prop :=
  name ≠ b!"main" ∧ (∃ l ∈ c.layers, l.name = name) ∧ ∀ l ∈ c.layers, l.name = name → l.type ≠ .layout

/-- There is a layout of that name; the first layer (main) counts as one. -/
def Config.offersLayout (c : Config) (name : Str) : Prop :=
  c.layers.head?.map (·.name) = some name ∨
    ((∃ l ∈ c.layers, l.name = name) ∧ ∀ l ∈ c.layers, l.name = name → l.type = .layout)

/-- Every layer and layout the action names is there. -/
def Action.resolves (c : Config) : Action → Prop
  | .layer n => c.offersLayer n
  | .oneshot n => c.offersLayer n
  | .toggle n => c.offersLayer n
  | .swap n => c.offersLayer n
  | .layout n => c.offersLayout n
  | .swapm n _ => c.offersLayer n
  | .togglem n _ => c.offersLayer n
  | .layerm n _ => c.offersLayer n
  | .oneshotm n _ => c.offersLayer n
  | .overload n a => c.offersLayer n ∧ a.resolves c
  | .overloadt n a _ => c.offersLayer n ∧ a.resolves c
  | .overloadt2 n a _ => c.offersLayer n ∧ a.resolves c
  | .overloadi a b _ => a.resolves c ∧ b.resolves c
  | .timeout a _ b => a.resolves c ∧ b.resolves c
  | _ => True

/-- The layer with index `i` has the given name. -/
def Config.named (c : Config) (i : Nat) (name : Str) : Prop := c.layers[i]?.map (·.name) = some name

/-- The descriptor, read with the tables of the config, stands for the action. -/
inductive StandsFor (c : Config) : Desc → Action → Prop
  | nothing : StandsFor c .none .nothing
  | keys {code mods} : StandsFor c (.keyseq code mods) (.keys code mods)
  | layer {i n} (h : c.named i n) : StandsFor c (.layer i) (.layer n)
  | oneshot {i n} (h : c.named i n) : StandsFor c (.oneshot i) (.oneshot n)
  | toggle {i n} (h : c.named i n) : StandsFor c (.toggle i) (.toggle n)
  | swap {i n} (h : c.named i n) : StandsFor c (.swap i) (.swap n)
  | layout {i n} (h : c.named i n) : StandsFor c (.layout i) (.layout n)
  | clear : StandsFor c .clear .clear
  | clearm {j m} (hm : c.macros[j]? = some m) : StandsFor c (.clearm j) (.clearm m)
  | swapm {i n j m} (h : c.named i n) (hm : c.macros[j]? = some m) : StandsFor c (.swapm i j) (.swapm n m)
  | togglem {i n j m} (h : c.named i n) (hm : c.macros[j]? = some m) : StandsFor c (.togglem i j) (.togglem n m)
  | layerm {i n j m} (h : c.named i n) (hm : c.macros[j]? = some m) : StandsFor c (.layerm i j) (.layerm n m)
  | oneshotm {i n j m} (h : c.named i n) (hm : c.macros[j]? = some m) : StandsFor c (.oneshotm i j) (.oneshotm n m)
  | overload {i n j d a} (h : c.named i n) (hd : c.descriptors[j]? = some d) (ha : StandsFor c d a) :
      StandsFor c (.overload i j) (.overload n a)
  | overloadt {i n j d a t} (h : c.named i n) (hd : c.descriptors[j]? = some d) (ha : StandsFor c d a) :
      StandsFor c (.overloadTimeout i j t) (.overloadt n a t)
  | overloadt2 {i n j d a t} (h : c.named i n) (hd : c.descriptors[j]? = some d) (ha : StandsFor c d a) :
      StandsFor c (.overloadTimeoutTap i j t) (.overloadt2 n a t)
  | overloadi {i d a j e b t} (hd : c.descriptors[i]? = some d) (ha : StandsFor c d a)
      (he : c.descriptors[j]? = some e) (hb : StandsFor c e b) : StandsFor c (.overloadIdle i j t) (.overloadi a b t)
  | timeout {i d a j e b t} (hd : c.descriptors[i]? = some d) (ha : StandsFor c d a)
      (he : c.descriptors[j]? = some e) (hb : StandsFor c e b) : StandsFor c (.timeout i t j) (.timeout a t b)
  | sequence {j m} (hm : c.macros[j]? = some m) : StandsFor c (.macro j) (.sequence m)
  | macro2 {t r j m} (hm : c.macros[j]? = some m) : StandsFor c (.macro2 t r j) (.macro2 t r m)
  | command {j cmd} (hc : c.commands[j]? = some cmd) : StandsFor c (.command j) (.command cmd)
  | scroll {n} : StandsFor c (.scroll n) (.scroll n)
  | scrollt {n} : StandsFor c (.scrollToggle n) (.scrollt n)

/-- `name(arg1, ..., argn)`, with spaces after the parenthesis and the commas. -/
inductive CallText (name : Str) : List Str → Str → Prop
  | none (k : Nat) : CallText name [] (name ++ 40 :: (List.replicate k 32 ++ [41]))
  | some (k : Nat) {args : List Str} {t : Str} (h : ArgsText t args) :
      CallText name args (name ++ 40 :: (List.replicate k 32 ++ t))

/-- A decimal numeral. -/
def Numeral (t : Str) (n : Nat) : Prop :=
  t ≠ [] ∧ (∀ d ∈ t, 48 ≤ d ∧ d ≤ 57) ∧ t.foldl (fun v d => 10 * v + (d.toNat - 48)) 0 = n

/-- A decimal numeral with an optional minus sign. -/
def SignedNumeral (t : Str) (n : Int) : Prop :=
  (∃ k : Nat, Numeral t k ∧ n = k) ∨ (∃ (u : Str) (k : Nat), t = 45 :: u ∧ Numeral u k ∧ n = -(k : Int))

/-- The encoding of some characters in UTF-8 (Lean's own encoder). -/
def Utf8 (s : Str) : Prop := ∃ cs : List Char, s = cs.flatMap String.utf8EncodeChar

/-- Modifier prefixes and a key name. -/
def KeysText (s : Str) (code : Code) (mods : UInt8) : Prop :=
  ∃ p ms name shifted, PrefixText p ms ∧ (name, code, shifted) ∈ keyNames ∧ s = p ++ name ∧
    mods = if shifted then ms ||| MOD_SHIFT else ms

/-- The five modifier keys; bound by themselves they stand for the layer of the
same name. -/
def bareModifiers : List (Code × Str) :=
  [(KEYD.LEFTSHIFT, b!"shift"), (KEYD.LEFTCTRL, b!"control"), (KEYD.LEFTMETA, b!"meta"), (KEYD.LEFTALT, b!"alt"),
    (KEYD.RIGHTALT, b!"altgr")]

/-- `macro(...)`. What the body means is the subject of C21 and C33. -/
def MacroCall (s : Str) (m : Macro) : Prop :=
  ∃ body, s = b!"macro(" ++ body ++ b!")" ∧ macroParse (strEscape body) = .ok (some m)

/-- A single character that is not the name of a key. -/
def CharText (s : Str) (m : Macro) : Prop :=
  (∃ ch : Char, s = String.utf8EncodeChar ch) ∧ (∀ code mods, ¬ KeysText s code mods) ∧ macroParse s = .ok (some m)

/-- The macro argument of an action: `macro(...)`, a key sequence or a character. -/
def MacroText (s : Str) (m : Macro) : Prop :=
  MacroCall s m ∨ ((∃ code mods, KeysText s code mods) ∧ macroParse s = .ok (some m)) ∨ CharText s m

/-- The text `s` is a way of writing the action. -/
inductive Writes : Str → Action → Prop
  | nothing : Writes [] .nothing
  | keys {s code mods} (h : KeysText s code mods) (hm : ∀ n, (code, n) ∉ bareModifiers) : Writes s (.keys code mods)
  | modifier {s code mods n} (h : KeysText s code mods) (hm : (code, n) ∈ bareModifiers) : Writes s (.layer n)
  | layer {s n} (h : CallText b!"layer" [n] s) : Writes s (.layer n)
  | oneshot {s n} (h : CallText b!"oneshot" [n] s) : Writes s (.oneshot n)
  | toggle {s n} (h : CallText b!"toggle" [n] s) : Writes s (.toggle n)
  | swap {s n} (h : CallText b!"swap" [n] s) : Writes s (.swap n)
  | layout {s n} (h : CallText b!"setlayout" [n] s) : Writes s (.layout n)
  | clear {s} (h : CallText b!"clear" [] s) : Writes s .clear
  | clearm {s t m} (h : CallText b!"clearm" [t] s) (hm : MacroText t m) : Writes s (.clearm m)
  | swapm {s n t m f} (hf : f ∈ [b!"swapm", b!"swap2"]) (h : CallText f [n, t] s) (hm : MacroText t m) :
      Writes s (.swapm n m)
  | togglem {s n t m f} (hf : f ∈ [b!"togglem", b!"toggle2"]) (h : CallText f [n, t] s) (hm : MacroText t m) :
      Writes s (.togglem n m)
  | layerm {s n t m} (h : CallText b!"layerm" [n, t] s) (hm : MacroText t m) : Writes s (.layerm n m)
  | oneshotm {s n t m} (h : CallText b!"oneshotm" [n, t] s) (hm : MacroText t m) : Writes s (.oneshotm n m)
  | overload {s n t a} (h : CallText b!"overload" [n, t] s) (ha : Writes t a) : Writes s (.overload n a)
  | overloadt {s n t a u ms f} (hf : f ∈ [b!"overloadt", b!"overload2"]) (h : CallText f [n, t, u] s) (ha : Writes t a)
      (hu : Numeral u ms) (hms : ms < 65536) : Writes s (.overloadt n a ms)
  | overloadt2 {s n t a u ms f} (hf : f ∈ [b!"overloadt2", b!"overload3"]) (h : CallText f [n, t, u] s) (ha : Writes t a)
      (hu : Numeral u ms) (hms : ms < 65536) : Writes s (.overloadt2 n a ms)
  | overloadi {s t a v b u ms} (h : CallText b!"overloadi" [t, v, u] s) (ha : Writes t a) (hb : Writes v b)
      (hu : Numeral u ms) (hms : ms < 65536) : Writes s (.overloadi a b ms)
  | timeout {s t a v b u ms} (h : CallText b!"timeout" [t, u, v] s) (ha : Writes t a) (hb : Writes v b)
      (hu : Numeral u ms) (hms : ms < 65536) : Writes s (.timeout a ms b)
  | lettermod {s n t a u idle v hold} (h : CallText b!"lettermod" [n, t, u, v] s) (ha : Writes t a)
      (hu : Numeral u idle) (hi : idle < 65536) (hv : Numeral v hold) (hh : hold < 65536) :
      Writes s (.overloadi a (.overloadt2 n a hold) idle)
  | sequence {s m} (h : MacroCall s m) : Writes s (.sequence m)
  | char {s m} (h : CharText s m) : Writes s (.sequence m)
  | macro2 {s u ms v again t m} (h : CallText b!"macro2" [u, v, t] s) (hu : Numeral u ms) (hms : ms < 65536)
      (hv : Numeral v again) (hag : again < 65536) (hm : MacroText t m) : Writes s (.macro2 ms again m)
  | command {s body} (h : s = b!"command(" ++ body ++ b!")") (hl : s.length ≤ 256) :
      Writes s (.command (strEscape body))
  | scroll {s t n} (h : CallText b!"scroll" [t] s) (hn : SignedNumeral t n) (h1 : -32768 ≤ n) (h2 : n ≤ 32767) :
      Writes s (.scroll n)
  | scrollt {s t n} (h : CallText b!"scrollt" [t] s) (hn : SignedNumeral t n) (h1 : -32768 ≤ n) (h2 : n ≤ 32767) :
      Writes s (.scrollt n)

/-- The actions written as calls, with their numbers of arguments (`command` and
`macro`, whose arguments are free text, aside). -/
def actionArity : List (Str × Nat) := [
  (b!"layer", 1), (b!"oneshot", 1), (b!"toggle", 1), (b!"swap", 1), (b!"setlayout", 1), (b!"clear", 0), (b!"clearm", 1),
  (b!"swapm", 2), (b!"swap2", 2), (b!"togglem", 2), (b!"toggle2", 2), (b!"layerm", 2), (b!"oneshotm", 2), (b!"overload", 2),
  (b!"overloadt", 3), (b!"overload2", 3), (b!"overloadt2", 3), (b!"overload3", 3), (b!"overloadi", 3), (b!"timeout", 3),
  (b!"lettermod", 4), (b!"macro2", 3), (b!"scroll", 1), (b!"scrollt", 1)]

/-- The actions whose first argument is a layer. -/
def layerActions : List Str := [
  b!"layer", b!"oneshot", b!"toggle", b!"swap", b!"swapm", b!"swap2", b!"togglem", b!"toggle2", b!"layerm", b!"oneshotm",
  b!"overload", b!"overloadt", b!"overload2", b!"overloadt2", b!"overload3"]

end Keyd
