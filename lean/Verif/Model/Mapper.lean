import Verif.Model.Cli

/-
  The application mapper, scripts/keyd-application-mapper: its configuration file, which sections apply to a window, and
  the command it runs when the focus changes; and how it learns of focus changes from a wlroots compositor.

  The script is in Python. Strings are lists of code points. What Python's tables of characters decide is a parameter (`Py`),
  so the theorems hold whatever they say. Not modelled: the detection of the environment, KDE, the lock file,
  daemonizing and logging. Model/WlWire.lean has the wayland messages and Cosmic, Model/Focus.lean X, Gnome and the reloading of app.conf.
-/

set_option autoImplicit false

namespace Keyd

/-- Code points, as in a Python string. -/
abbrev PyStr := List Nat

/-- What the script takes from Python: `\w` of regular expressions (`word`), `str.isspace` (`space`), `str.lower`, the
bracket expressions of `fnmatch` (`inSet`: between the brackets, the character), and the encoding of arguments. Printable
ASCII characters are not spaces, and `-` is not a word character. -/
structure Py where
  word : Nat → Bool
  space : Nat → Bool
  lower : PyStr → PyStr
  inSet : PyStr → Nat → Bool
  encode : PyStr → Str
  graph : ∀ c, 33 ≤ c → c ≤ 126 → space c = false
  dash : word 45 = false

/-- `str.strip()` for a class of characters. -/
def pyStrip (f : Nat → Bool) (s : PyStr) : PyStr := ((s.dropWhile f).reverse.dropWhile f).reverse

/-- `str.split(c)`. -/
def pySplit (c : Nat) : PyStr → List PyStr
  | [] => [[]]
  | x :: s => if x = c then [] :: pySplit c s else
    match pySplit c s with
    | [] => [[x]]
    | w :: ws => (x :: w) :: ws

/-- The lines of a text file: universal newlines. Simplification: `\r\n` gives an additional empty line, which
`parse_config` ignores. -/
def pyLines : PyStr → List PyStr
  | [] => [[]]
  | x :: s => if x = 10 ∨ x = 13 then [] :: pyLines s else
    match pyLines s with
    | [] => [[x]]
    | w :: ws => (x :: w) :: ws

/-- An element of `config`: class pattern, title pattern and bindings. -/
structure AppSection where
  cls : PyStr
  title : PyStr
  bindings : List PyStr
deriving DecidableEq, Repr

/-- The loop body of `parse_config`, scripts/keyd-application-mapper:66-87. The sections are kept in reverse; `bindings`
is the list of the last one, and does not exist before the first heading: using it then is an exception (`none`). -/
def appLine (py : Py) (line : PyStr) (rev : List AppSection) : Option (List AppSection) :=
  let line := pyStrip py.space line
  if line.head? = some 91 ∧ line.getLast? = some 93 then
    match pySplit 124 line.dropLast.tail with
    | c :: t :: _ => some ({ cls := c, title := t, bindings := [] } :: rev)
    | [c] => some ({ cls := c, title := [42], bindings := [] } :: rev)
    | [] => some rev
  else if line = [] then some rev
  else if line.head? = some 35 then some rev
  else match rev with
    | [] => none
    | s :: rev => some ({ s with bindings := s.bindings ++ [line] } :: rev)

/-- `parse_config`, scripts/keyd-application-mapper:63-89. -/
def parseApp (py : Py) (text : PyStr) : Option (List AppSection) :=
  ((pyLines text).foldlM (fun rev line => appLine py line rev) []).map List.reverse

/-- A piece of a pattern: see `fnmatch.translate` in Python's library. -/
inductive GlobTok where
  | star | any
  | lit (c : Nat)
  | set (stuff : PyStr)
deriving DecidableEq, Repr

/-- The end of a bracket expression, `fnmatch.translate`: what is between the brackets, and what follows. A `!` at the
front, and a `]` at the front or after it, belong to the expression. -/
def bracket (p : PyStr) : Option (PyStr × PyStr) :=
  let (neg, p) := match p with
    | 33 :: p => ([33], p)
    | p => ([], p)
  let (first, p) := match p with
    | 93 :: p => ([93], p)
    | p => ([], p)
  let stuff := p.takeWhile (· ≠ 93)
  match p.dropWhile (· ≠ 93) with
  | [] => none
  | _ :: rest => some (neg ++ first ++ stuff, rest)

/-- The pieces of a pattern, `fnmatch.translate`. -/
def globToks : Nat → PyStr → List GlobTok
  | 0, _ => []
  | _, [] => []
  | n+1, c :: p =>
    if c = 42 then .star :: globToks n p
    else if c = 63 then .any :: globToks n p
    else if c = 91 then
      match bracket p with
      | none => .lit 91 :: globToks n p
      | some (stuff, rest) => .set stuff :: globToks n rest
    else .lit c :: globToks n p

/-- Matching the pieces against the whole of a string (Python's `re.match` of the translated pattern). -/
def globMatch (py : Py) : List GlobTok → PyStr → Bool
  | [], s => s.isEmpty
  | .star :: gs, s => (List.range (s.length + 1)).any fun i => globMatch py gs (s.drop i)
  | .any :: gs, s => match s with
    | [] => false
    | _ :: s => globMatch py gs s
  | .lit c :: gs, s => match s with
    | [] => false
    | x :: s => x == c && globMatch py gs s
  | .set stuff :: gs, s => match s with
    | [] => false
    | x :: s => py.inSet stuff x && globMatch py gs s

/-- `fnmatch(s, p)` of Python's library. Simplification: `os.path.normcase` is the identity, as on Linux. -/
def pyFnmatch (py : Py) (s p : PyStr) : Bool := globMatch py (globToks p.length p) s

/-- `lookup_bindings`, scripts/keyd-application-mapper:517-524. -/
def appBindings (py : Py) (config : List AppSection) (cls title : PyStr) : List PyStr :=
  config.flatMap fun s => if pyFnmatch py cls s.cls && pyFnmatch py title s.title then s.bindings else []

/-- `re.sub('[…]+', '-', s)`: each maximal run of characters that do not satisfy `keep` becomes a dash. -/
def dashed (keep : Nat → Bool) : Bool → PyStr → PyStr
  | _, [] => []
  | gap, c :: s => if keep c then c :: dashed keep false s else if gap then dashed keep true s else 45 :: dashed keep true s

/-- `[A-Za-z0-9]`. -/
def asciiAlnum (c : Nat) : Bool := (48 ≤ c && c ≤ 57) || (65 ≤ c && c ≤ 90) || (97 ≤ c && c ≤ 122)

/-- `normalize_class`, scripts/keyd-application-mapper:526-527. -/
def normalizeClass (py : Py) (s : PyStr) : PyStr := py.lower (pyStrip (· = 45) (dashed asciiAlnum false s))

/-- `normalize_title`, scripts/keyd-application-mapper:529-530. -/
def normalizeTitle (py : Py) (s : PyStr) : PyStr :=
  py.lower (pyStrip (· = 45) (dashed (fun c => py.word c && c ≠ 95) false s))

/-- `on_window_change`, scripts/keyd-application-mapper:532-551: the arguments of the `keyd` command that is run. The
configuration is the one last read from the file. -/
def onWindowChange (py : Py) (config : List AppSection) (cls title : PyStr) : List Str :=
  b!"bind" :: b!"reset" :: (appBindings py config (normalizeClass py cls) (normalizeTitle py title)).map py.encode

/-! ### The wlroots source of window changes -/

/-- The messages of the compositor that `Wlroots.run` looks at. -/
inductive WlEvent where
  | toplevel (id : Nat)
  | title (id : Nat) (s : PyStr)
  | appid (id : Nat) (s : PyStr)
  | state (id : Nat) (activated : Bool)
  | done (id : Nat)
  | closed (id : Nat)
deriving DecidableEq, Repr

/-- The window an event is about. -/
def WlEvent.id : WlEvent → Nat
  | .toplevel i | .title i _ | .appid i _ | .state i _ | .done i | .closed i => i

/-- The local variables of `Wlroots.run`, scripts/keyd-application-mapper:240-241. The dictionaries that describe the
windows (title and class) are objects, here numbered; `windows` and `active_window` refer to them. -/
structure Wl where
  objs : List (PyStr × PyStr) := []
  windows : Nat → Option Nat := fun _ => none
  active : Option Nat := none

def Wl.obj (w : Wl) (r : Nat) : PyStr × PyStr := w.objs.getD r ([], [])

/-- `active_window == windows[obj]`: Python compares dictionaries by their contents. -/
def Wl.isActive (w : Wl) (r : Nat) : Bool :=
  match w.active with
  | none => false
  | some a => w.obj a == w.obj r

/-- `Wlroots.run`, scripts/keyd-application-mapper:243-283: one message; the second result is the class and title
`on_window_change` is called with. -/
def wlStep (w : Wl) (e : WlEvent) : Wl × Option (PyStr × PyStr) :=
  match e with
  | .toplevel i => ({ w with objs := w.objs ++ [([], [])], windows := upd w.windows i (some w.objs.length) }, none)
  | e =>
    match w.windows e.id with
    | none => (w, none)
    | some r =>
      match e with
      | .toplevel _ => (w, none)
      | .title _ s => ({ w with objs := w.objs.set r (s, (w.obj r).2) }, none)
      | .appid _ s => ({ w with objs := w.objs.set r ((w.obj r).1, s) }, none)
      | .state _ activated =>
        let w := if w.isActive r then { w with active := none } else w
        (if activated then { w with active := some r } else w, none)
      | .done _ =>
        match w.active with
        | none => (w, none)
        | some a => if w.isActive r then (w, some ((w.obj a).2, (w.obj a).1)) else (w, none)
      | .closed i =>
        let w' := { w with windows := upd w.windows i none }
        (if w.isActive r then { w' with active := none } else w', none)

/-- A sequence of messages: the calls of `on_window_change` in order. -/
def wlRun : Wl → List WlEvent → Wl × List (PyStr × PyStr)
  | w, [] => (w, [])
  | w, e :: es =>
    let (w, o) := wlStep w e
    let (w, os) := wlRun w es
    (w, o.toList ++ os)

end Keyd
