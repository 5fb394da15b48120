import Verif.Model.Mapper
import Verif.Model.Devmon

/-
  The wayland connection of the application mapper, scripts/keyd-application-mapper: the messages on the socket, the search
  for the interface, and the messages `Wlroots.run` and `Cosmic.run` look at.

  Not modelled: connecting to the socket and what the mapper sends (three requests without effect on what is read).
-/

set_option autoImplicit false

namespace Keyd

/-- A message as `recv_msg` returns it: object, event code and payload. -/
structure WlMsg where
  obj : Nat
  op : Nat
  data : Str
deriving DecidableEq, Repr

/-- The socket and the point `recv_msg` has reached (scripts/keyd-application-mapper:197-205): `arrived` are the bytes
that can be read at once, `head` the object and event word of a message whose payload is still to be read, `got` the messages
returned so far and `failed` that an exception ended the program. -/
structure WlSock where
  arrived : Str := []
  head : Option (Nat × Nat) := none
  got : List WlMsg := []
  failed : Bool := false
deriving DecidableEq, Repr

/-- What happens at a socket: bytes arrive, or the mapper runs up to the end of its next `recv`. -/
inductive WlSockEvent where
  | arrive (bs : Str)
  | run
deriving DecidableEq, Repr

/-- `recv_msg`, scripts/keyd-application-mapper:197-205. `recv(n)` blocks while there is nothing to read, and otherwise returns
what there is, but at most `n` bytes; `recv(0)` returns at once; a negative length is an exception, and so is unpacking
a head of less than eight bytes. -/
def wlSockStep (s : WlSock) : WlSockEvent → WlSock
  | .arrive bs => { s with arrived := s.arrived ++ bs }
  | .run =>
    if s.failed then s else
    match s.head with
    | none =>
      if s.arrived = [] then s
      else if s.arrived.length < 8 then { s with arrived := [], failed := true }
      else
        let obj := le32 s.arrived
        let ev := le32 (s.arrived.drop 4)
        let rest := s.arrived.drop 8
        if ev / 65536 < 8 then { s with arrived := rest, failed := true }
        else if ev / 65536 = 8 then { s with arrived := rest, got := s.got ++ [{ obj := obj, op := ev % 65536, data := [] }] }
        else { s with arrived := rest, head := some (obj, ev) }
    | some (obj, ev) =>
      if s.arrived = [] then s
      else { s with arrived := s.arrived.drop (ev / 65536 - 8), head := none, got := s.got ++ [{ obj := obj, op := ev % 65536, data := s.arrived.take (ev / 65536 - 8) }] }

/-- A history of the socket. -/
def wlSockRun (es : List WlSockEvent) : WlSock := es.foldl wlSockStep {}

/-- `read_string`, scripts/keyd-application-mapper:207-208. `utf8` is `bytes.decode('utf8')`, `none` its exception. A payload
of less than four bytes cannot be unpacked. Python's `b[4:4+n-1]` is empty for `n = 0`. -/
def wlString (utf8 : Str → Option PyStr) (b : Str) : Option PyStr :=
  if b.length < 4 then none else utf8 ((b.drop 4).take (le32 b - 1))

/-- How the search for an interface ends. -/
inductive WlBind where
  | bound (payload : Str)
  | absent
  | failed
  | waiting
deriving DecidableEq, Repr

/-- `_bind_interface`, scripts/keyd-application-mapper:211-231: the messages it reads, and those left for `run`. `bound`
carries the payload that is sent back to bind the interface as object 4. -/
def wlBind (utf8 : Str → Option PyStr) (name : PyStr) : List WlMsg → WlBind × List WlMsg
  | [] => (.waiting, [])
  | m :: ms =>
    if m.obj = 2 ∧ m.op = 0 then
      if m.data.length < 4 then (.failed, ms) else
      match wlString utf8 (m.data.drop 4) with
      | none => (.failed, ms)
      | some s => if s = name then (.bound (m.data ++ [4, 0, 0, 0]), ms) else wlBind utf8 name ms
    else if m.obj = 3 then (.absent, ms)
    else wlBind utf8 name ms

/-- The loop over the states of a window, scripts/keyd-application-mapper:266-274: whether one of them is 2 (activated);
`n` is the number of iterations. An incomplete element cannot be unpacked. -/
def wlStates : Nat → Str → Option Bool
  | 0, _ => some false
  | n + 1, b =>
    if b.length < 4 then none else
    match wlStates n (b.drop 4) with
    | none => none
    | some a => some (le32 b = 2 || a)

/-- The loop body of `Wlroots.run`, scripts/keyd-application-mapper:244-283, on a message from the socket: the new state
and the window reported; `none` is an exception. -/
def wlHandle (utf8 : Str → Option PyStr) (w : Wl) (m : WlMsg) : Option (Wl × Option (PyStr × PyStr)) :=
  if m.obj = 4 ∧ m.op = 0 then
    if m.data.length = 4 then some (wlStep w (.toplevel (le32 m.data))) else none
  else if w.windows m.obj = none then some (w, none)
  else if m.op = 0 then (wlString utf8 m.data).map fun s => wlStep w (.title m.obj s)
  else if m.op = 1 then (wlString utf8 m.data).map fun s => wlStep w (.appid m.obj s)
  else if m.op = 4 then
    if m.data.length < 4 then none
    else (wlStates ((le32 m.data + 3) / 4) (m.data.drop 4)).map fun a => wlStep w (.state m.obj a)
  else if m.op = 5 then some (wlStep w (.done m.obj))
  else if m.op = 6 then some (wlStep w (.closed m.obj))
  else some (w, none)

/-- `Wlroots.run` on the messages that come: the windows reported, and whether the mapper is still running. -/
def wlHandles (utf8 : Str → Option PyStr) : Wl → List WlMsg → List (PyStr × PyStr) × Bool
  | _, [] => ([], true)
  | w, m :: ms =>
    match wlHandle utf8 w m with
    | none => ([], false)
    | some (w, o) => (o.toList ++ (wlHandles utf8 w ms).1, (wlHandles utf8 w ms).2)

/-- The whole mapper on a wlroots compositor: bind, then handle. -/
def wlMapper (utf8 : Str → Option PyStr) (name : PyStr) (ms : List WlMsg) : List (PyStr × PyStr) × Bool :=
  match wlBind utf8 name ms with
  | (.bound _, rest) => wlHandles utf8 {} rest
  | (.waiting, _) => ([], true)
  | _ => ([], false)

/-- `Cosmic.run`, scripts/keyd-application-mapper:291-305: title and class known of each object. `payload[0]` of an empty payload
is an exception. -/
def cosmicHandle (utf8 : Str → Option PyStr) (w : Nat → PyStr × PyStr) (m : WlMsg) : Option ((Nat → PyStr × PyStr) × Option (PyStr × PyStr)) :=
  if m.op = 2 then (wlString utf8 m.data).map fun s => (upd w m.obj (s, (w m.obj).2), none)
  else if m.op = 3 then (wlString utf8 m.data).map fun s => (upd w m.obj ((w m.obj).1, s), none)
  else if m.op = 8 then
    match m.data with
    | [] => none
    | n :: _ =>
      if n = 0 then some (w, none)
      else match m.data[4]? with
        | none => none
        | some x => some (w, if x = 2 then some ((w m.obj).2, (w m.obj).1) else none)
  else some (w, none)

/-- `Cosmic.run` on the messages that come. -/
def cosmicHandles (utf8 : Str → Option PyStr) : (Nat → PyStr × PyStr) → List WlMsg → List (PyStr × PyStr) × Bool
  | _, [] => ([], true)
  | w, m :: ms =>
    match cosmicHandle utf8 w m with
    | none => ([], false)
    | some (w, o) => (o.toList ++ (cosmicHandles utf8 w ms).1, (cosmicHandles utf8 w ms).2)

end Keyd
