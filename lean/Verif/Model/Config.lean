import Verif.Model.Macro
import Verif.Model.Ini

/-
  Model of /repo/src/config.c: parsing of configuration text and of runtime
  bind expressions into binding tables.
-/

namespace Keyd

/-- `enum` of argument kinds, config.c:37-45. -/
inductive ArgType where
  | mac | layer | layout | timeout | sensitivity | descriptor
deriving DecidableEq, Repr

/-- The operations reachable through the `actions[]` table (config.h:29-57). -/
inductive ActOp where
  | swap | clear | oneshot | toggle | clearm | swapm | togglem | layerm | oneshotm
  | layer | overload | overloadt | overloadt2 | overloadi | timeout | macro2
  | setlayout | scrollt | scroll
deriving DecidableEq, Repr

/-- `actions[]`, config.c:47-80 (`preferred_name` only affects a warning). -/
def actions : List (Str × ActOp × List ArgType) := [
  (b!"swap", .swap, [.layer]),
  (b!"clear", .clear, []),
  (b!"oneshot", .oneshot, [.layer]),
  (b!"toggle", .toggle, [.layer]),
  (b!"clearm", .clearm, [.mac]),
  (b!"swapm", .swapm, [.layer, .mac]),
  (b!"togglem", .togglem, [.layer, .mac]),
  (b!"layerm", .layerm, [.layer, .mac]),
  (b!"oneshotm", .oneshotm, [.layer, .mac]),
  (b!"layer", .layer, [.layer]),
  (b!"overload", .overload, [.layer, .descriptor]),
  (b!"overloadt", .overloadt, [.layer, .descriptor, .timeout]),
  (b!"overloadt2", .overloadt2, [.layer, .descriptor, .timeout]),
  (b!"overloadi", .overloadi, [.descriptor, .descriptor, .timeout]),
  (b!"timeout", .timeout, [.descriptor, .timeout, .descriptor]),
  (b!"macro2", .macro2, [.timeout, .timeout, .mac]),
  (b!"setlayout", .setlayout, [.layout]),
  (b!"scrollt", .scrollt, [.sensitivity]),
  (b!"scroll", .scroll, [.sensitivity]),
  (b!"overload2", .overloadt, [.layer, .descriptor, .timeout]),
  (b!"overload3", .overloadt2, [.layer, .descriptor, .timeout]),
  (b!"toggle2", .togglem, [.layer, .mac]),
  (b!"swap2", .swapm, [.layer, .mac])]

/-- The descriptor an operation and its parsed arguments denote: the
assignments `d->op = ...; arg->... = ...` of config.c:643-715, read back
through the union members used in keyboard.c. -/
def mkDesc (op : ActOp) (args : List Int) : Desc :=
  let a (i : Nat) : Nat := (args.getD i 0).toNat
  match op with
  | .swap => .swap (a 0)
  | .clear => .clear
  | .oneshot => .oneshot (a 0)
  | .toggle => .toggle (a 0)
  | .clearm => .clearm (a 0)
  | .swapm => .swapm (a 0) (a 1)
  | .togglem => .togglem (a 0) (a 1)
  | .layerm => .layerm (a 0) (a 1)
  | .oneshotm => .oneshotm (a 0) (a 1)
  | .layer => .layer (a 0)
  | .overload => .overload (a 0) (a 1)
  | .overloadt => .overloadTimeout (a 0) (a 1) (a 2)
  | .overloadt2 => .overloadTimeoutTap (a 0) (a 1) (a 2)
  | .overloadi => .overloadIdle (a 0) (a 1) (a 2)
  | .timeout => .timeout (a 0) (a 1) (a 2)
  | .macro2 => .macro2 (a 0) (a 1) (a 2)
  | .setlayout => .layout (a 0)
  | .scrollt => .scrollToggle (args.getD 0 0)
  | .scroll => .scroll (args.getD 0 0)

/-- Index of the first layer with the given name. -/
def findLayer (name : Str) : List Layer → Nat → Option Nat
  | [], _ => none
  | l :: ls, i => if l.name = name then some i else findLayer name ls (i+1)

/-- `config_get_layer_index`, config.c:968-980 (`none` is -1). -/
def Config.layerIndex (c : Config) (name : Str) : Option Nat := findLayer name c.layers 0

/-- The loop of `layer_lookup_chord`, config.c:207-223: index of the first
chord containing all of `keys` (each key counted once per occurrence in
`keys`, so `nm == n` iff all of them are found). -/
def lookupChord (keys : List Code) : List Chord → Nat → Option Nat
  | [], _ => none
  | ch :: rest, i =>
    if (keys.filter (fun k => ch.keys.contains k)).length = keys.length then some i
    else lookupChord keys rest (i+1)

/-- The token loop of the chord branch of `set_layer_entry`, config.c:247-260. -/
def chordKeys : List Str → List Code → Option (List Code)
  | [], acc => some acc
  | tok :: rest, acc =>
    let code := lookupKeycode tok
    if code = 0 then none
    else if acc.length ≥ 8 then none
    else chordKeys rest (acc ++ [code])

/-- The chord branch of `set_layer_entry`, config.c:240-278. -/
def setChord (l : Layer) (key : Str) (d : Desc) : Option Layer :=
  match chordKeys (tokens 43 key) [] with
  | none => none
  | some keys =>
    match lookupChord keys l.chords 0 with
    | some i => some { l with chords := l.chords.modify i (fun ch => { ch with d := d }) }
    | none =>
      if l.chords.length ≥ 64 then none
      else some { l with chords := l.chords ++ [⟨keys, d⟩] }

/-- All 256 key codes in order. -/
def allCodes : List Code := (List.range 256).map UInt8.ofNat

/-- `set_layer_entry`, config.c:233-301. `none` is -1 (layer untouched). -/
def setLayerEntry (c : Config) (l : Layer) (key : Str) (d : Desc) : Option Layer :=
  if (43 : UInt8) ∈ key then setChord l key d
  else if allCodes.any (fun i => c.aliases i = key) then
    some { l with keymap := fun i => if c.aliases i = key then d else l.keymap i }
  else
    let code := lookupKeycode key
    if code = 0 then none
    else some { l with keymap := upd l.keymap code d }

/-- The constituent loop of `new_layer`, config.c:328-342. The bounds check in
the C code tests a counter `n` that is never incremented, so a ninth
constituent is written past the end of the array: outcome `oob`. -/
def constituentsOf (c : Config) : List Str → List Nat → Res (Option (List Nat))
  | [], acc => .ok (some acc)
  | name :: rest, acc =>
    match c.layerIndex name with
    | none => .ok none
    | some idx =>
      if acc.length ≥ 8 then .error (.oob "layer->constituents")
      else constituentsOf c rest (acc ++ [idx])

/-- `new_layer`, config.c:303-359. `none` is -1. A heading without any name
makes `strtok` return NULL, which is passed to `strcpy` (config.c:312). -/
def newLayer (c : Config) (s : Str) : Res (Option Layer) :=
  match tokens 58 s with
  | [] => .error (.nullDeref "new_layer: strcpy(layer->name, NULL)")
  | name :: more =>
    let type := more.head?
    if (43 : UInt8) ∈ name then
      if type.isSome then .ok none
      else do
        match ← constituentsOf c (tokens 43 name) [] with
        | none => .ok none
        | some cs => .ok (some { name := name, type := .composite, constituents := cs })
    else
      match type with
      | some t =>
        if t = b!"layout" then .ok (some { name := name, type := .layout })
        else
          match parseModset t with
          | some mods => .ok (some { name := name, mods := mods })
          | none => .ok (some { name := name })
      | none => .ok (some { name := name })

/-- `config_add_layer`, config.c:367-397. The flag is false on a negative
return value. -/
def configAddLayer (c : Config) (s : Str) : Res (Config × Bool) :=
  if s.length ≥ 65 then .ok (c, false)
  else
    let name := (tokens 58 s).head?
    let existing := match name with
      | none => none
      | some n => c.layerIndex n
    if existing.isSome then .ok (c, true)
    else if c.layers.length ≥ 32 then .ok (c, false)
    else do
      match ← newLayer c s with
      | none => .ok (c, false)
      | some l => .ok ({ c with layers := c.layers ++ [l] }, true)

/-- Scanning one argument of `parse_fn`, config.c:423-453: the argument text
(reversed accumulator), the terminator (',' or ')') and the rest. `none` when
the string ends first. -/
def scanArg : Str → Int → Str → Option (Str × UInt8 × Str)
  | [], _, _ => none
  | [c], plvl, acc =>
    if c = 41 ∧ plvl = 0 then some (acc.reverse, c, [])
    else if c = 44 ∧ plvl = 0 then some (acc.reverse, c, [])
    else none
  | c :: c1 :: rest, plvl, acc =>
    if c = 92 then scanArg rest plvl (c1 :: c :: acc)
    else if c = 40 then scanArg (c1 :: rest) (plvl + 1) (c :: acc)
    else if c = 41 then
      if plvl = 0 then some (acc.reverse, c, c1 :: rest)
      else scanArg (c1 :: rest) (plvl - 1) (c :: acc)
    else if c = 44 ∧ plvl = 0 then some (acc.reverse, c, c1 :: rest)
    else scanArg (c1 :: rest) plvl (c :: acc)

/-- The argument loop of `parse_fn`, config.c:422-469. The first parameter
bounds the number of iterations (each consumes a terminator). `none` is -1; a
sixth argument trips the assert. -/
def fnArgs : Nat → Str → List Str → Res (Option (List Str))
  | 0, _, _ => .ok none
  | n+1, s, acc =>
    match scanArg s 0 [] with
    | none => .ok none
    | some (arg, term, rest) =>
      if arg ≠ [] ∧ acc.length ≥ 5 then .error (.assertFail "parse_fn: *nargs < 5")
      else
        let acc := if arg ≠ [] then acc ++ [arg] else acc
        if term = 41 then .ok (some acc)
        else fnArgs n (rest.dropWhile (· == 32)) acc

/-- `parse_fn`, config.c:400-470: name and arguments, `none` for -1. -/
def parseFn (s : Str) : Res (Option (Str × List Str)) :=
  match splitAtByte 40 s with
  | none => .ok none
  | some (name, rest) => do
    match ← fnArgs (s.length + 1) (rest.dropWhile (· == 32)) [] with
    | none => .ok none
    | some args => .ok (some (name, args))

/-- Result of `parse_macro_expression`: `invalid` is -1, `error` is > 0. -/
inductive MacroExpr where
  | invalid | error | ok (m : Macro)
deriving DecidableEq, Repr

/-- `parse_macro_expression`, config.c:482-518. -/
def parseMacroExpression (s : Str) : Res MacroExpr :=
  if s.length ≥ 1024 then .ok .invalid
  else if isPrefix b!"macro(" s ∧ s.getLast? = some 41 then do
    match ← macroParse (strEscape (s.dropLast.drop 6)) with
    | some m => .ok (.ok m)
    | none => .ok .error
  else do
    let bad ← (if (parseKeySequence s).isNone then do
                 let n ← utf8Strlen s
                 .ok (n ≠ 1)
               else .ok false : Res Bool)
    if bad then .ok .invalid
    else
      match ← macroParse s with
      | some m => .ok (.ok m)
      | none => .ok .error

/-- Result of `parse_command`: `notCommand` is -1, `tooLong` is 1. -/
inductive CommandExpr where
  | notCommand | tooLong | ok (cmd : Str)
deriving DecidableEq, Repr

/-- `parse_command`, config.c:520-537. -/
def parseCommand (s : Str) : CommandExpr :=
  if s = [] ∨ ¬ isPrefix b!"command(" s ∨ s.getLast? ≠ some 41 then .notCommand
  else if s.length > 256 then .tooLong
  else .ok (strEscape (s.dropLast.drop 8))

/-- Layer name substituted for a bare modifier key, config.c:560-566. -/
def modifierLayerName (code : Code) : Option Str :=
  if code = 42 then some b!"shift"
  else if code = 29 then some b!"control"
  else if code = 125 then some b!"meta"
  else if code = 56 then some b!"alt"
  else if code = 100 then some b!"altgr"
  else none

/-- One argument of an action, config.c:655-720; `pd` parses nested
descriptors. `none` is the early `return -1` (the config keeps what was already
appended to its tables). -/
def parseArg (pd : Config → Str → Res (Config × Option Desc))
    (c : Config) (t : ArgType) (s : Str) : Res (Config × Option Int) :=
  match t with
  | .layer =>
    if s = b!"main" then .ok (c, none)
    else match c.layerIndex s with
      | none => .ok (c, none)
      | some i => if (c.layer i).type = .layout then .ok (c, none) else .ok (c, some i)
  | .layout =>
    match c.layerIndex s with
    | none => .ok (c, none)
    | some i =>
      if i ≠ 0 ∧ (c.layer i).type ≠ .layout then .ok (c, none) else .ok (c, some i)
  | .descriptor => do
    match ← pd c s with
    | (c, none) => .ok (c, none)
    | (c, some d) =>
      if c.descriptors.length ≥ 1024 then .ok (c, none)
      else .ok ({ c with descriptors := c.descriptors ++ [d] }, some c.descriptors.length)
  | .sensitivity => .ok (c, some (toI16 (atoi s)))
  | .timeout => .ok (c, some (toU16 (atoi s)))
  | .mac =>
    if c.macros.length ≥ 256 then .ok (c, none)
    else do
      match ← parseMacroExpression s with
      | .ok m => .ok ({ c with macros := c.macros ++ [m] }, some c.macros.length)
      | _ => .ok (c, none)

/-- The `while (j--)` loop over the arguments, config.c:655-721. The list holds
the remaining arguments, last one first, as the C loop visits them; `acc` are
the values found so far, in argument order. -/
def parseArgs (pd : Config → Str → Res (Config × Option Desc)) :
    Config → List (ArgType × Str) → List Int → Res (Config × Option (List Int))
  | c, [], acc => .ok (c, some acc)
  | c, (t, s) :: rest, acc => do
    match ← parseArg pd c t s with
    | (c, none) => .ok (c, none)
    | (c, some v) => parseArgs pd c rest (v :: acc)

/-- The rewriting of `lettermod(layer, key, idle, hold)`, config.c:618-634.
`none` is the wrong number of arguments or a failing re-parse. -/
def lettermod (args : List Str) : Res (Option (Str × List Str)) :=
  match args with
  | [a0, a1, a2, a3] =>
    parseFn ((b!"overloadi(" ++ a1 ++ b!", overloadt2(" ++ a0 ++ b!", " ++ a1 ++ b!", " ++ a3 ++
              b!"), " ++ a2 ++ b!")").take 1023)
  | _ => .ok none

/-- The action-call branch of `parse_descriptor`, config.c:615-729. -/
def parseAction (pd : Config → Str → Res (Config × Option Desc))
    (c : Config) (s : Str) : Res (Config × Option Desc) := do
  match ← parseFn s with
  | none => .ok (c, none)
  | some (fn, args) =>
    match ← (if fn = b!"lettermod" then lettermod args else .ok (some (fn, args))) with
    | none => .ok (c, none)
    | some (fn, args) =>
      match actions.find? (fun a => a.1 = fn) with
      | none => .ok (c, none)
      | some (_, op, types) =>
        if args.length ≠ types.length then .ok (c, none)
        else
          match ← parseArgs pd c (types.zip args).reverse [] with
          | (c, none) => .ok (c, none)
          | (c, some vals) => .ok (c, some (mkDesc op vals))

/-- `parse_descriptor`, config.c:539-730. The first parameter bounds the depth
of nested actions (see `parseDescriptor`). `none` is the return value -1. -/
def parseDescriptorAux : Nat → Config → Str → Res (Config × Option Desc)
  | 0, _, _ => .error .fuel
  | n+1, c, s =>
    if s = [] then .ok (c, some .none)
    else
      match parseKeySequence s with
      | some (code, mods) =>
        match modifierLayerName code with
        | some lname =>
          match c.layerIndex lname with
          | some i => .ok (c, some (.layer i))
          | none => .error (.assertFail "parse_descriptor: modifier layer exists")
        | none => .ok (c, some (.keyseq code mods))
      | none =>
        match parseCommand s with
        | .tooLong => .ok (c, none)
        | .ok cmd =>
          if c.commands.length ≥ 64 then .ok (c, none)
          else .ok ({ c with commands := c.commands ++ [cmd] }, some (.command c.commands.length))
        | .notCommand => do
          match ← parseMacroExpression s with
          | .error => .ok (c, none)
          | .ok m =>
            if c.macros.length ≥ 256 then .ok (c, none)
            else .ok ({ c with macros := c.macros ++ [m] }, some (.macro c.macros.length))
          | .invalid => parseAction (parseDescriptorAux n) c s

/-- `parse_descriptor`, config.c:539-730. Arguments of an action are shorter
than the action and `lettermod` adds one level, so twice the length bounds the
nesting. -/
def parseDescriptor (c : Config) (s : Str) : Res (Config × Option Desc) :=
  parseDescriptorAux (2 * s.length + 2) c s

/-- Splitting a bind expression into layer name and the rest, config.c:1004-1011. -/
def splitLayer (exp : Str) : Str × Str :=
  match splitAtByte 46 exp with
  | some (before, rest) =>
    if before ≠ [] ∧ (40 : UInt8) ∉ before then (before, rest) else (b!"main", exp)
  | none => (b!"main", exp)

/-- `config_add_entry`, config.c:986-1027. The flag is false on -1; the config
may have grown its auxiliary tables even then. `descstr` may be NULL, which
`parse_descriptor` treats like the empty string. -/
def configAddEntry (c : Config) (exp : Str) : Res (Config × Bool) :=
  if exp.length ≥ 512 then .ok (c, false)
  else
    let (layername, s) := splitLayer exp
    let (key, val) := parseKvp s
    match c.layerIndex layername with
    | none => .ok (c, false)
    | some idx => do
      match ← parseDescriptor c (val.getD []) with
      | (c, none) => .ok (c, false)
      | (c, some d) =>
        match setLayerEntry c (c.layer idx) key d with
        | none => .ok (c, false)
        | some l => .ok ({ c with layers := c.layers.set idx l }, true)

/-- One `[global]` option, config.c:739-761. `atoi(NULL)` is a null
dereference; `"%s"` with NULL prints "(null)" (glibc). -/
def globalEntry (c : Config) (e : IniEntry) : Res Config :=
  let num (f : Int → Config) : Res Config :=
    match e.val with
    | none => .error (.nullDeref "atoi(NULL)")
    | some v => .ok (f (atoi v))
  if e.key = b!"macro_timeout" then num fun v => { c with macroTimeout := v }
  else if e.key = b!"macro_sequence_timeout" then num fun v => { c with macroSequenceTimeout := v }
  else if e.key = b!"disable_modifier_guard" then num fun v => { c with disableModifierGuard := toU8 v }
  else if e.key = b!"oneshot_timeout" then num fun v => { c with oneshotTimeout := v }
  else if e.key = b!"chord_hold_timeout" then num fun v => { c with chordHoldTimeout := v }
  else if e.key = b!"chord_timeout" then num fun v => { c with chordInterkeyTimeout := v }
  else if e.key = b!"default_layout" then
    .ok { c with defaultLayout := (e.val.getD b!"(null)").take 63 }
  else if e.key = b!"macro_repeat_timeout" then num fun v => { c with macroRepeatTimeout := v }
  else if e.key = b!"layer_indicator" then num fun v => { c with layerIndicator := toU8 v }
  else if e.key = b!"overload_tap_timeout" then num fun v => { c with overloadTapTimeout := v }
  else .ok c

/-- `parse_global_section`, config.c:732-763. -/
def parseGlobalSection : Config → List IniEntry → Res Config
  | c, [] => .ok c
  | c, e :: rest => do
    let c ← globalEntry c e
    parseGlobalSection c rest

/-- `ID_*` flags, config.h:24-26. -/
def ID_EXCLUDED : UInt8 := 1
def ID_MOUSE : UInt8 := 2
def ID_KEYBOARD : UInt8 := 4

/-- Appending to `config->ids` with its assert; ids are truncated to 63 bytes
by `snprintf` (config.c:777-780). -/
def addId (c : Config) (flags : UInt8) (id : Str) : Res Config :=
  if c.ids.length < 64 then .ok { c with ids := c.ids ++ [⟨id.take 63, flags⟩] }
  else .error (.assertFail "config->nr_ids < ARRAY_SIZE(config->ids)")

/-- One `[ids]` line, config.c:771-798. -/
def idEntry (c : Config) (e : IniEntry) : Res Config :=
  let s := e.key
  if s = b!"*" then .ok { c with wildcard := true }
  else if isPrefix b!"m:" s then addId c ID_MOUSE (s.drop 2)
  else if isPrefix b!"k:" s then addId c ID_KEYBOARD (s.drop 2)
  else if isPrefix b!"-" s then addId c ID_EXCLUDED (s.drop 1)
  else if s.length < 63 then addId c (ID_KEYBOARD ||| ID_MOUSE) s
  else .ok c

/-- `parse_id_section`, config.c:765-800. -/
def parseIdSection : Config → List IniEntry → Res Config
  | c, [] => .ok c
  | c, e :: rest => do
    let c ← idEntry c e
    parseIdSection c rest

/-- One `[aliases]` line, config.c:807-831. -/
def aliasEntry (c : Config) (e : IniEntry) : Res Config :=
  let code := lookupKeycode e.key
  if code = 0 then .ok c
  else
    match e.val with
    | none => .error (.nullDeref "strlen(NULL)")
    | some name =>
      if name.length ≥ 32 then .ok c
      else
        let ac := lookupKeycode name
        let c := if ac = 0 then c else
          { c with layers := c.layers.modify 0 fun l =>
              { l with keymap := upd l.keymap code (.keyseq ac 0) } }
        .ok { c with aliases := upd c.aliases code name }

/-- `parse_alias_section`, config.c:802-833. -/
def parseAliasSection : Config → List IniEntry → Res Config
  | c, [] => .ok c
  | c, e :: rest => do
    let c ← aliasEntry c e
    parseAliasSection c rest

/-- First pass over the sections, config.c:844-858. -/
def passOne : Config → List IniSection → Res Config
  | c, [] => .ok c
  | c, s :: rest => do
    let c ← (if s.name = b!"ids" then parseIdSection c s.entries
             else if s.name = b!"aliases" then parseAliasSection c s.entries
             else if s.name = b!"global" then parseGlobalSection c s.entries
             else do
               let (c, _) ← configAddLayer c s.name
               .ok c : Res Config)
    passOne c rest

/-- The bindings of one section, config.c:873-886. Errors are only logged. -/
def sectionEntries (layername : Str) : Config → List IniEntry → Res Config
  | c, [] => .ok c
  | c, e :: rest =>
    match e.val with
    | none => sectionEntries layername c rest
    | some v => do
      let (c, _) ← configAddEntry c ((layername ++ b!"." ++ e.key ++ b!" = " ++ v).take 511)
      sectionEntries layername c rest

/-- Second pass over the sections, config.c:860-887. -/
def passTwo : Config → List IniSection → Res Config
  | c, [] => .ok c
  | c, s :: rest => do
    let c ← (if s.name = b!"ids" ∨ s.name = b!"aliases" ∨ s.name = b!"global" then .ok c
             else sectionEntries (((tokens 58 s.name).head?).getD b!"(null)") c s.entries : Res Config)
    passTwo c rest

/-- `config_parse_string`, config.c:836-890. `none` is -1. -/
def configParseString (c : Config) (content : Str) : Res (Option Config) := do
  match ← iniParseString content with
  | none => .ok none
  | some sections =>
    let c ← passOne c sections
    let c ← passTwo c sections
    .ok (some c)

/-- The default configuration text, config.c:898-925. -/
def defaultConfigText : Str :=
  b!"[aliases]\nleftshift = shift\nrightshift = shift\nleftalt = alt\nrightalt = altgr\nleftmeta = meta\nrightmeta = meta\nleftcontrol = control\nrightcontrol = control\n[main:layout]\nshift = layer(shift)\nalt = layer(alt)\naltgr = layer(altgr)\nmeta = layer(meta)\ncontrol = layer(control)\n[control:C]\n[shift:S]\n[meta:M]\n[alt:A]\n[altgr:G]\n"

/-- `config_init`, config.c:892-936. The return value of `config_parse_string`
is ignored in C; the default text always parses. -/
def configInit : Res Config := do
  let c ← configParseString {} defaultConfigText
  let c := c.getD {}
  .ok { c with
    chordInterkeyTimeout := 50, chordHoldTimeout := 0, oneshotTimeout := 0
    macroTimeout := 600, macroRepeatTimeout := 50 }

/-- `config_parse` on the text returned by `read_file`, config.c:938-948.
`none` is -1. -/
def configParse (content : Str) : Res (Option Config) := do
  let c ← configInit
  configParseString c content

/-- The id scan of `config_check_match`, config.c:954-963. -/
def checkIds (ids : List IdEntry) (id : Str) (flags : UInt8) : Option Nat :=
  match ids with
  | [] => none
  | e :: rest =>
    if isPrefix e.id id then
      if e.flags &&& ID_EXCLUDED ≠ 0 then some 0
      else if e.flags &&& flags ≠ 0 then some 2
      else checkIds rest id flags
    else checkIds rest id flags

/-- `config_check_match`, config.c:950-966: 0 no match, 1 wildcard, 2 explicit. -/
def configCheckMatch (c : Config) (id : Str) (flags : UInt8) : Nat :=
  match checkIds c.ids id flags with
  | some r => r
  | none => if c.wildcard then 1 else 0

end Keyd
