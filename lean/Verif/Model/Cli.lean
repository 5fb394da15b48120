import Verif.Model.Ipc

/-
  The `keyd` command: keyd.c. What it does to a running daemon, what it prints and its exit status.

  Not modelled: the texts printed by `help` and by failing requests, the colours, signals, and the commands `monitor` (see
  Model/Monitor.lean) and `listen` (which forwards what the daemon sends it).
-/

set_option autoImplicit false

namespace Keyd

/-- The functions of the `commands` table, keyd.c:212-232. -/
inductive Cmd where
  | help | version | monitor | bind | input | «do» | listen | reload | listKeys
deriving DecidableEq, Repr

/-- `commands`, keyd.c:212-232: name, flag, long flag, function. -/
def commandTable : List (Str × Str × Str × Cmd) :=
  [(b!"help", b!"-h", b!"--help", .help),
   (b!"version", b!"-v", b!"--version", .version),
   (b!"monitor", b!"-m", b!"--monitor", .monitor),
   (b!"bind", b!"-e", b!"--expression", .bind),
   (b!"input", [], [], .input),
   (b!"do", [], [], .do),
   (b!"listen", [], [], .listen),
   (b!"reload", [], [], .reload),
   (b!"list-keys", [], [], .listKeys)]

/-- `main`, keyd.c:234-264: which function is run for the arguments after the program name; `none` is the daemon. -/
def dispatch (args : List Str) : Option Cmd :=
  match args with
  | [] => none
  | a :: _ =>
    match commandTable.find? (fun e => e.1 = a ∨ e.2.1 = a ∨ e.2.2.1 = a) with
    | some e => some e.2.2.2
    | none => some .help

/-- The outcome of a command run against a daemon: it exits with a status, having printed something; it is stopped by its
`assert` or by `die`; or it waits forever for a reply. -/
inductive Outcome where
  | exits (status : Int) (out : Str) (d : Daemon)
  | stops (d : Daemon)
  | waits (d : Daemon)

/-- The daemon when the command is over. -/
def Outcome.daemon : Outcome → Daemon
  | .exits _ _ d | .stops d | .waits d => d

/-- The reply sent while the daemon went from one state to the other. -/
def replySent (d d' : Daemon) : Option Reply :=
  if d'.replies.length = d.replies.length then none else (d'.replies.head?).map (·.2)

/-- The end of a request: it was not sent, it was answered, or it was not. -/
inductive Exec where
  | aborted
  | answered (fail : Bool) (d : Daemon)
  | unanswered (d : Daemon)

/-- `ipc_exec`, keyd.c:9-37, with the daemon's `handle_client` at the other end (see C54 for the transfer of the bytes).
`con` is the connection, `garbage` what `msg.data` contains before. Simplification: the text that may come with
a failure is not printed. -/
def ipcExec (env : Env) (garbage : Str) (d : Daemon) (con : Nat) (type : MsgType) (data : Str) (timeout : Nat) : DRes Exec :=
  match ipcMessage garbage type data timeout with
  | .error _ => .ok .aborted
  | .ok bytes => do
    let d' ← handleClient env d con (decodeMsg bytes)
    match replySent d d' with
    | none => .ok (.unanswered d')
    | some r => .ok (.answered (decide (r = .fail)) d')

/-- `add_bindings`, keyd.c:84-98: the loop over the arguments. -/
def addBindings (env : Env) (garbage : Str) : List Str → Nat → Int → Daemon → DRes Outcome
  | [], _, ret, d => .ok (.exits ret (if ret = 0 then b!"Success\n" else []) d)
  | a :: as, con, ret, d => do
    match ← ipcExec env garbage d con .bind a 0 with
    | .aborted => .ok (.stops d)
    | .unanswered d => .ok (.waits d)
    | .answered fail d => addBindings env garbage as (con + 1) (if fail then -1 else ret) d

/-- The option `-t` of `do` and `input`, keyd.c:135-139,153-157: the timeout and the arguments left. -/
def timeoutOption (args : List Str) : Nat × List Str :=
  match args with
  | f :: t :: rest => if f = b!"-t" then ((atoi t % 4294967296).toNat, rest) else (0, args)
  | _ => (0, args)

/-- `read_input`, keyd.c:100-127: the arguments, or standard input if there are none. -/
def readInput (args : List Str) (stdin : Str) : Option Str :=
  if args = [] then readInputStdin 4096 stdin else readInputArgs 4096 args []

/-- `cmd_do` and `input`, keyd.c:129-162. -/
def sendText (env : Env) (garbage : Str) (type : MsgType) (args : List Str) (stdin : Str) (con : Nat) (d : Daemon) : DRes Outcome :=
  let (timeout, args) := timeoutOption args
  match readInput args stdin with
  | none => .ok (.stops d)
  | some text => do
    match ← ipcExec env garbage d con type text timeout with
    | .aborted => .ok (.stops d)
    | .unanswered d => .ok (.waits d)
    | .answered fail d => .ok (.exits (if fail then 1 else 0) [] d)

/-- `reload`, keyd.c:205-210: the result of the request is not looked at. -/
def reloadCommand (env : Env) (garbage : Str) (con : Nat) (d : Daemon) : DRes Outcome := do
  match ← ipcExec env garbage d con .reload [] 0 with
  | .aborted => .ok (.stops d)
  | .unanswered d => .ok (.waits d)
  | .answered _ d => .ok (.exits 0 [] d)

/-- `list_keys`, keyd.c:63-81: the lines printed. -/
def listKeys : List Str := keycodeTable.flatMap fun e => e.name.toList ++ e.alt.toList ++ e.shifted.toList

/-- The commands that end by themselves and depend on nothing but the daemon: what `main` does for the arguments after the
program name; `none` for the daemon, `monitor` and `listen`. -/
def command (env : Env) (garbage : Str) (args : List Str) (stdin : Str) (con : Nat) (d : Daemon) : DRes (Option Outcome) :=
  match dispatch args with
  | some .bind => do .ok (some (← addBindings env garbage args.tail con 0 d))
  | some .input => do .ok (some (← sendText env garbage .input args.tail stdin con d))
  | some .do => do .ok (some (← sendText env garbage .macro args.tail stdin con d))
  | some .reload => do .ok (some (← reloadCommand env garbage con d))
  | some .listKeys => .ok (some (.exits 0 (listKeys.flatMap (· ++ [10])) d))
  | some .help => .ok (some (.exits 0 [] d))
  | some .version => .ok (some (.exits 0 [] d))
  | _ => .ok none

end Keyd
