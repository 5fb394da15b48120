import Verif.Model.Ipc

/-
  `keyd listen`: `layer_listen`, keyd.c:164-203.
-/

set_option autoImplicit false

namespace Keyd

/-- One turn of the loop, keyd.c:178-201: what `poll` and `read` do. -/
inductive Wakeup where
  /-- `poll` fails, keyd.c:188-191 -/
  | pollFails
  /-- standard output is broken, keyd.c:193-194 -/
  | broken
  /-- the connection is readable and `read` gives (at most) `n` bytes, keyd.c:196-197; at the end of the stream, or on an error (`n = 0`),
  nothing; then what the `write` calls do, keyd.c:201 -/
  | readable (n : Nat) (writes : List Call)

/-- How far the client is: what the daemon has sent and it has not read, what it has printed, and whether it goes on. -/
structure ListenState where
  unread : Str
  printed : Str := []
  state : Option Int := none   -- `some r`: it has ended with `r`
  stuck : Bool := false        -- it is still inside of `xwrite`
deriving DecidableEq

/-- The bytes that the `write` calls of `xwrite`, util.c:3-16, have taken when it returns, fails, or is still waiting. -/
def xwritten : List Call → Str → Str
  | [], _ => []
  | c :: cs, buf =>
    if buf = [] then []
    else match c with
      | .fails => []
      | .bytes n => buf.take n ++ xwritten cs (buf.drop n)

/-- One turn, keyd.c:178-201. -/
def listenStep (s : ListenState) (w : Wakeup) : ListenState :=
  if s.state ≠ none ∨ s.stuck then s
  else match w with
    | .pollFails => { s with state := some (-1) }
    | .broken => { s with state := some (-1) }
    | .readable n writes =>
      let got := s.unread.take (min n 512)
      if got = [] then { s with state := some (-1) }
      else match xwrite writes got s.printed with
        | .done out _ => { s with unread := s.unread.drop (min n 512), printed := out }
        | .exits => { s with unread := s.unread.drop (min n 512), printed := s.printed ++ xwritten writes got, state := some (-1) }
        | .waiting out => { s with unread := s.unread.drop (min n 512), printed := out, stuck := true }

/-- The client after some turns; `stream` is what the daemon sends on the connection. -/
def listenRun (stream : Str) (ws : List Wakeup) : ListenState := ws.foldl listenStep { unread := stream }

end Keyd
