import Verif.Model.Mapper

/-
  The application mapper's other sources of window changes, scripts/keyd-application-mapper: X and Gnome; and how it notices
  that app.conf has been edited.

  Not modelled: the connection to the X server and to the session bus (KDE), whose method `updateWindow` only calls
  `on_window_change`.
-/

set_option autoImplicit false

namespace Keyd

/-! ### app.conf -/

/-- app.conf at some moment: its modification time and its text. -/
structure AppFile where
  mtime : Nat
  text : PyStr
deriving DecidableEq, Repr

/-- The variables `config` and `last_mtime`, scripts/keyd-application-mapper:514,532. -/
structure AppState where
  config : List AppSection
  mtime : Nat
deriving DecidableEq, Repr

/-- The start of the mapper, scripts/keyd-application-mapper:511-532: the file is read, and later its time is taken. `none`: the
mapper ends. -/
def appStart (py : Py) (read stat : Option AppFile) : Option AppState :=
  match read, stat with
  | some f, some g => (parseApp py f.text).map fun c => { config := c, mtime := g.mtime }
  | _, _ => none

/-- `on_window_change`, scripts/keyd-application-mapper:533-551: `stat` is the file when its time is taken, `read` when it is
read. The second result is the command that is run, or `none` if there was an exception. -/
def windowChange (py : Py) (st : AppState) (stat read : Option AppFile) (win : PyStr × PyStr) : AppState × Option (List Str) :=
  match stat with
  | none => (st, none)
  | some f =>
    if f.mtime ≠ st.mtime then
      match read.bind fun g => parseApp py g.text with
      | none => (st, none)
      | some c => ({ config := c, mtime := f.mtime }, some (onWindowChange py c win.1 win.2))
    else (st, some (onWindowChange py st.config win.1 win.2))

/-- A call of `on_window_change`: the window, and the file when its time is taken and when it is read. -/
structure AppCall where
  win : PyStr × PyStr
  stat : Option AppFile
  read : Option AppFile

/-- Calls one after the other: the commands run. An exception is caught on X (scripts/keyd-application-mapper:401); with the other sources it ends
the mapper, so that only the calls before it count. -/
def windowChanges (py : Py) : AppState → List AppCall → List (Option (List Str))
  | _, [] => []
  | st, c :: cs => (windowChange py st c.stat c.read c.win).2 :: windowChanges py (windowChange py st c.stat c.read c.win).1 cs

/-! ### X -/

/-- The atoms `_NET_WM_STATE_ABOVE` and `_NET_WM_WINDOW_TYPE_NOTIFICATION`. -/
structure XAtoms where
  above : Nat
  notification : Nat

/-- What the server tells about a window: its class (the second part of WM_CLASS), the two names (`none` if missing or not
decodable), the first of them in UTF-8, and the properties `_NET_WM_STATE` and `_NET_WM_WINDOW_TYPE`. -/
structure XWin where
  cls : Option PyStr := none
  netName : Option PyStr := none
  wmName : Option PyStr := none
  state : List Nat := []
  types : Option (List Nat) := none
deriving DecidableEq, Repr

/-- The windows of a screen, with their children from the bottom to the top. -/
inductive XTree where
  | node (w : XWin) (children : List XTree)

mutual
/-- The number of windows. -/
def XTree.size : XTree → Nat
  | .node _ cs => 1 + XTree.sizes cs
def XTree.sizes : List XTree → Nat
  | [] => 0
  | t :: ts => t.size + XTree.sizes ts
end

theorem XTree.sizes_append (a b : List XTree) : XTree.sizes (a ++ b) = XTree.sizes a + XTree.sizes b := by
  induction a with
  | nil => simp [XTree.sizes]
  | cons t a ih => simp only [List.cons_append, XTree.sizes, ih]; omega

theorem XTree.sizes_reverse (a : List XTree) : XTree.sizes a.reverse = XTree.sizes a := by
  induction a with
  | nil => rfl
  | cons t a ih => rw [List.reverse_cons, XTree.sizes_append, ih]; simp only [XTree.sizes]; omega

/-- What an event finds: the windows, and the window with the input focus followed by its ancestors; `none` if `get_input_focus`
gives a number and no window. -/
structure XDisplay where
  root : XTree
  focus : Option (List XWin)

/-- The condition in `get_floating_window`, scripts/keyd-application-mapper:364-371. -/
def floatsAbove (a : XAtoms) (w : XWin) : Bool :=
  (w.state.head? == some a.above) && (match w.types with | none => true | some ts => !ts.contains a.notification)

/-- `q.extend(w.query_tree().children)`, scripts/keyd-application-mapper:362. -/
def xChildren (up : List XWin) (cs : List XTree) : List (XTree × List XWin) := cs.reverse.map fun c => (c, up)

/-- `get_floating_window`, scripts/keyd-application-mapper:358-373. The list `q` is kept in reverse, each window with its ancestors. -/
def floatingWindow (a : XAtoms) : List (XTree × List XWin) → Option (List XWin)
  | [] => none
  | (.node w cs, up) :: q =>
    if floatsAbove a w then some (w :: up) else floatingWindow a (xChildren (w :: up) cs ++ q)
termination_by q => XTree.sizes (q.map (·.1))
decreasing_by
  simp only [xChildren, List.map_append, List.map_map, List.map_cons, XTree.sizes_append, XTree.sizes, XTree.size]
  rw [show ((fun x : XTree × List XWin => x.1) ∘ fun c : XTree => (c, w :: up)) = id from rfl, List.map_id, XTree.sizes_reverse]
  omega

/-- `get_active_window`, scripts/keyd-application-mapper:375-380. -/
def activeWindow (a : XAtoms) (d : XDisplay) : Option (List XWin) :=
  match floatingWindow a [(d.root, [])] with
  | some w => some w
  | none => d.focus

/-- `get_title`, scripts/keyd-application-mapper:326-336. -/
def xTitle (w : XWin) : PyStr :=
  match w.netName with
  | some t => t
  | none => match w.wmName with
    | some t => t
    | none => []

/-- `get_window_info`, scripts/keyd-application-mapper:325-345. -/
def windowInfo : List XWin → PyStr × PyStr
  | [] => ([114, 111, 111, 116], [])
  | w :: up => match w.cls with
    | some c => (c, xTitle w)
    | none => windowInfo up

/-- What wakes the X loop: SIGUSR1, or an event of the server; then the state of the display, `none` if a request for it fails. -/
inductive XEvent where
  | signal
  | event (d : Option XDisplay)

/-- The loop body of `XMonitor.run`, scripts/keyd-application-mapper:382-402: the variables `last_active_class` and `last_active_title`, and
the window `on_window_change` is called with. -/
def xStep (a : XAtoms) (last : PyStr × PyStr) : XEvent → (PyStr × PyStr) × Option (PyStr × PyStr)
  | .signal => (last, some last)
  | .event none => (last, none)
  | .event (some d) =>
    match activeWindow a d with
    | none => (last, none)
    | some w =>
      let (cls, title) := windowInfo w
      if cls ≠ last.1 ∨ title ≠ last.2 then ((cls, title), some (cls, title)) else (last, none)

/-- `XMonitor.run`, scripts/keyd-application-mapper:347-402: the calls of `on_window_change` in order. -/
def xRun (a : XAtoms) (es : List XEvent) : (PyStr × PyStr) × List (PyStr × PyStr) :=
  es.foldl (fun s e => ((xStep a s.1 e).1, s.2 ++ (xStep a s.1 e).2.toList)) (([], []), [])

/-! ### Gnome -/

/-- The state of `GnomeMonitor.run`, scripts/keyd-application-mapper:446-448: what is in the pipe, what the file object `fh` has read from
it but not returned, the variables `last_cls` and `last_title`, and the calls of `on_window_change` so far. `closed`: the extension has closed
the pipe. -/
structure GnomeMon where
  pipe : PyStr := []
  held : PyStr := []
  last : PyStr × PyStr := ([], [])
  calls : List (PyStr × PyStr) := []
  closed : Bool := false
deriving DecidableEq, Repr

inductive GnomeEvent where
  | write (s : PyStr)
  | close
  | signal
  | turn
deriving DecidableEq, Repr

/-- The loop body of `GnomeMonitor.run` for a line, scripts/keyd-application-mapper:455-463. -/
def gnomeLine (g : GnomeMon) (line : PyStr) : GnomeMon :=
  match pySplit 9 (pyStrip (· = 10) line) with
  | [cls, title] => { g with last := (cls, title), calls := g.calls ++ [(cls, title)] }
  | _ => { g with calls := g.calls ++ [([], [])] }

/-- The first line of a text, with its newline. -/
def firstLine (s : PyStr) : PyStr × PyStr := (s.takeWhile (· ≠ 10) ++ [10], (s.dropWhile (· ≠ 10)).tail)

/-- `GnomeMonitor.run` and `new_interruptible_generator`, scripts/keyd-application-mapper:90-108,445-463. A turn: `select` waits
for the pipe, then `readline` returns one line from what the file object holds; it reads the pipe only if it does not hold a whole line.
Simplifications: only a newline ends a line; `readline` takes all there is in the pipe (in fact at most 8192 bytes at once); waiting for the rest of a line
is like waiting for the pipe. -/
def gnomeStep (g : GnomeMon) : GnomeEvent → GnomeMon
  | .write s => { g with pipe := g.pipe ++ s }
  | .close => { g with closed := true }
  | .signal => { g with calls := g.calls ++ [g.last] }
  | .turn =>
    if g.pipe = [] ∧ g.closed = false then g else
    let g := if 10 ∈ g.held then g else { g with held := g.held ++ g.pipe, pipe := [] }
    if 10 ∈ g.held then gnomeLine { g with held := (firstLine g.held).2 } (firstLine g.held).1
    else if g.closed then gnomeLine { g with held := [] } g.held
    else g

def gnomeRun (es : List GnomeEvent) : GnomeMon := es.foldl gnomeStep {}

end Keyd
