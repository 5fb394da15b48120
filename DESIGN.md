# keyd in Lean 4: design

## 1. Layout

* `lean/Verif/Model/*` – the model, function by function; every definition cites file and lines of /repo.
* `lean/Verif/Spec/*` – small declarative specifications used by theorem statements (histories, host state,
  what an action text stands for, well-formed configs, what a listener believes, …).
* `lean/Verif/Proofs/*` – invariants and lemmas.
* `lean/Verif/Props/*` – the property theorems `Cnn_…`; a suffix `_partial` marks a theorem that covers only
  part of its English claim, `Cnn_fails_…` a proved counterexample (the code violates the claim there),
  `Cnn_witness…` a concrete reachable case that meets the hypotheses of the theorems beside it.
* `properties.jsonl` the English claims, `MANIFEST.json` claim → theorems, `seeded/LOG.jsonl` mutation log.

## 2. Trusted base

* Lean 4.33.0's kernel, and the axioms below. No axioms of our own, no compiled evaluation: concrete cases are
  closed by `decide +kernel`, `rfl` or `simp`, i.e. by kernel reduction.
* Axioms: every theorem listed in MANIFEST.json depends on a subset of `propext`, `Classical.choice`,
  `Quot.sound` (section 6 gives the list, produced with `#print axioms`).
* That the model is a faithful reading of the C code. This is by inspection: the model keeps the functions,
  tables, array sizes, integer widths (where a width matters to behaviour) and order of effects of the C code,
  and is executable, so expected values of the C code were checked by evaluation while it was written.

## 3. How the C program is modelled

* **Engine (keyboard.c, keyboard.h)** – `Model/Keyboard.lean`: a state machine `Kbd` with the fields of
  `struct keyboard`, plus a clock, an output trace (virtual key events, layer notifications, commands, sleeps)
  and a ghost log `steps` of the decisions taken (a key event handled with a descriptor, an undecided key
  decided, an event passed on or swallowed by the chord matcher). Nothing in the engine reads trace or log.
  Functions return `Except Err`: `assertFail`, `nullDeref`, `oob` (index beyond an array), `uaf`, `wrap`
  (a uint8 counter overflows) are distinct outcomes; `fuel` is the recursion depth bound of the three mutually
  recursive functions, and C24 proves it is never the outcome when the bound is large enough, and that the result
  does not depend on it.
* **Configuration (config.c, config.h, ini.c, string.c, macro.c, unicode.c, keys.c/h)** – `Model/Config.lean`,
  `Ini`, `Str`, `Macro`, `Unicode`, `Keys`: byte strings are `List UInt8` without NUL; tables are lists with the
  C bounds checked where the code checks them, an error where it does not.
* **File reading and includes (config.c read_file)** – `Model/File.lean`: a file system as a function from path
  to contents, fgets with its 256-byte line array including what the array held before.
* **Daemon (daemon.c, evloop.c)** – `Model/Daemon.lean`: heap of keyboards with freed flags, device table,
  listeners, the panic sequence, IPC requests, scroll emulation, `keyd input`/`do`/`bind`/`reload`, one
  `iteration` of the event loop with its poll timeout. What the operating system does (which descriptors are
  ready, clock readings, grab results, file contents) are arguments chosen freely by the theorem.
* **Devices (device.c, vkbd/uinput.c, vkbd/usb-gadget.c)** – `Model/Device.lean`: translation of evdev events,
  absolute-axis normalisation, the virtual devices' outputs, HID report arrays. `Model/Discovery.lean`:
  capability and product-id derivation.
* **IPC transfers (keyd.c, util.c)** – `Model/Ipc.lean`: xread/xwrite with arbitrary short reads.
* **Command line (keyd.c)** – `Model/Cli.lean`: the command table, bind, input, do, reload, list-keys and the replies they print.
* **Monitor and log (monitor.c, log.c)** – `Model/Monitor.lean`: the lines printed for each event, the colour markup.
  `Model/Terminal.lean`: what monitor.c does with the terminal, with signals at any point.
* **Application mapper (scripts/keyd-application-mapper)** – `Model/Mapper.lean`: parsing of app.conf, `fnmatch`, name
  normalisation, the command run on a focus change, the wlroots message loop. Python's character tables (`\w`, white space,
  `lower`), the bracket sets of `fnmatch` and the encoding of arguments are parameters; assumed of them: printable ASCII is not
  white space, and `-` is not a word character.
* **Compose file (scripts/generate_xcompose)** – `Model/Compose.lean`: the lines of data/keyd.compose. That the committed data/keyd.compose and
  src/unicode.c are this file and this table is checked outside Lean by `tools/check_compose.py`.
* **Config directory (daemon.c)** – `Model/ConfDir.lean`: `load_configs` over the entries of the directory, with the file reader.
* **Finding devices (device.c, evloop.c)** – `Model/Devmon.lean`: the inotify buffer of `devmon_read_device` byte by byte, the threads of `device_scan`;
  `Model/Devdir.lean`: the start of `evloop` while nodes come and go.
* **Several daemons (ipc.c, daemon.c)** – `Model/Instance.lean`: lock file, socket, processes started by commands.
  `Model/Command.lean`: the processes of `execute_command`.
  `Model/MapperLock.lean`: the lock of the application mapper, its forks and the programs it runs.
* **Listening (keyd.c)** – `Model/Listen.lean`: `keyd listen` with every partial read and write.
* **Taking over a device (device.c)** – `Model/Grab.lean`: device_grab interleaved with the user's events.

Simplifications (each also stated at the definition): C `int` and `long` are unbounded `Int` except where the code
stores into a narrower type; pointers into tables are indices; `time` is the millisecond clock passed in by the event,
unbounded (in C it wraps after 24.8 days of uptime, see C82); the activation counter of `get_time` is per keyboard (in C per process);
`usleep`/`write` failures other than those modelled do not occur; strings hold no NUL.

**Not modelled**: the help and version texts of keyd.c,
vkbd/stdout.c, the KDE source of window changes of the application mapper (a session bus
method that only calls `on_window_change`), its detection and logging code, and the other scripts.

## 4. Per-property plan

Kinds of proof: *invariant* = preserved by every function of the engine and so by every history (schema `EngineInv`,
`OutInv`, `LayerInv`, `TInv` in Proofs/); *step* = exact effect of one call from any state meeting the hypotheses;
*refinement* = simulation of a small abstract machine; *grammar* = induction on the syntax tree or text;
*witness* = concrete run evaluated in the kernel.
* **C01 Virtual-keyboard output alternates per key** - Model keyboard.c send path with an output trace. Invariant: folding the trace gives the engine's keystate. False with multi-entry macros (they bypass keystate): counter-witness + _partial for configs without them.
* **C02 A key is released with the binding it was pressed with** - Invariant over histories: the cache entry of a held key bound to a key sequence is untouched by events for other codes.
* **C03 No stuck keys once everything is released** - Invariant: every non-modifier key down is owned by a cache entry; the cache entries are the keys whose latest processed event is a press, so once every key that arrived down has arrived up (nothing waiting) the host has no such key down (C03_history). Needs overload tap actions not to be time-based (real code violates: witness).
* **C04 No stuck layers** - Counting invariant over cache entries/toggles/one-shots; swap excluded (witness).
* **C05 Layer bookkeeping never aborts the daemon** - Corollary of C04's invariant; witness crash with swap.
* **C06 Repeated key-downs and unmatched key-ups are ignored** - Direct theorem on process_event from any state.
* **C07 Keys without bindings pass through; plain remaps substitute** - Refinement of the engine to a small remap machine by induction on events.
* **C08 Binding lookup follows the documented precedence** - lookup_descriptor against a declarative specification (argmax).
* **C09 Held modifiers are exactly those asked for** - set_mods/update_mods characterised exactly.
* **C10 Modifier guard** - Trace emitted by clear_mod characterised; last-pressed tracking as trace invariant.
* **C11 clear() releases everything and drops toggles and one-shots** - clear characterised from every state.
* **C12 At most one layout besides main is active** - Invariant over histories for parser-well-formed configs.
* **C13 A one-shot layer affects exactly the next key** - Press step theorem + lookup theorem; invariant on one-shot depth.
* **C14 One-shot timeout** - Step theorem + wakeup theorem.
* **C15 Wakeup requests are exact** - calculate_main_loop_timeout against declarative minimum.
* **C16 overload: layer while held, action only on an uninterrupted timely tap** - Press/intermediate/release theorem.
* **C17 overloadt/overloadt2/timeout resolve per the documented decision table** - handle_pending_key decision table.
* **C18 Events queued behind an undecided key are neither lost, duplicated nor reordered** - Queue append/flush theorems for pending and chord queues.
* **C19 Chord matching** - chord_event_match/check_chord_match against declarative spec; duplicate-key caveat as witness.
* **C20 A chord's release ends its action exactly once, when its last key is released** - Active chord release theorem.
* **C21 Macros leave no key down** - Trace balance of macro_execute on macro_parse output.
* **C22 Macro repetition stops at the next key event and keeps its interval** - Step theorems on wakeup/key events.
* **C23 toggle is an involution** - Step theorem on two presses.
* **C24 Event processing always terminates** - Fuel-indexed model; prove fuel always suffices via potential argument.
* **C25 bind reset restores the loaded bindings** - Invariant: original config never modified; reset copies it.
* **C26 A binding affects only its own key and the latest wins** - set_layer_entry/config_add_entry frame theorem.
* **C27 Parsed configs are well-formed** - Well-formedness invariant through the parser model.
* **C28 Re-opening a section adds to the layer and cannot change its type** - Direct on config_add_layer.
* **C29 Action-call argument splitting** - Structural induction on argument syntax.
* **C30 Key-sequence syntax round-trips** - Induction on prefixes, exhaustive table.
* **C31 Modifier-set syntax** - Induction on string; finite set for printing.
* **C32 INI line structure** - Induction on line bytes.
* **C33 UTF-8 decoding** - Bit arithmetic per encoding length, induction on strings.
* **C34 Escape processing** - Induction.
* **C35 Distinct characters get distinct key sequences** - Base-36 arithmetic.
* **C36 Device id matching** - Against declarative first-match spec.
* **C37 The best matching config manages a device** - Fold invariant.
* **C38 Panic sequence** - Fold over device events; LED events are confused with keys in the code: witness.
* **C39 Layer listeners can reconstruct the active layers** - Listener reconstruction; reference counts break it: witness + partial.
* **C40 Reload releases every key the daemon had pressed** - Daemon model; dangling active keyboard: witness + partial.
* **C41 IPC requests are bounded and answered once** - handle_client case analysis.
* **C42 USB gadget reports show the held keys** - Refinement to a held-set under the six-key bound.
* **C43 Mouse buttons survive the round trip** - Exhaustive over the translation tables, all codes.
* **C44 Scroll emulation loses no motion** - Induction with truncated division.
* **C45 Absolute pointer positions are normalised** - Range arithmetic; fails when minimum is not 0: witness + partial.
* **C46 Aliases** - set_layer_entry with aliases.
* **C47 Config file reading stays inside its buffer** - Size accounting of read_file; off-by-one: witness + partial.
* **C48 Deadlines survive the main loop** - Event-loop timer model; witness + partial.
* **C49 Macro text parses to what it says** - macro_parse against a token grammar.
* **C50 The chord engine stops the daemon only at identified places** - Invariant over all reachable states: every error of the engine is one of seven stop points; the same with run-time bindings, with or without a weaker invariant about the noted chord; witnesses for each.
* **C51 Global settings** - Whole-document theorems through both parser passes.
* **C52 The last line for a key decides, and only it** - Fold over the binding lines of the document.
* **C53 Includes are spliced in** - read_file over an arbitrary file system, by induction on lines.
* **C54 IPC transfers are exact under any splitting** - Induction on the list of short reads/writes; witnesses for early close.
* **C55 Device identity** - Capability flags and product id are functions of what the device reports; hex injectivity.
* **C56 Actions mean what they say** - Grammar: `StandsFor` relates an action tree to a descriptor; completeness, unambiguity, rejections.
* **C57 Reading a config ends, and stops the daemon only at nine places** - Every error of the parser is one of nine stop points, all reachable.
* **C58 overloadi chooses by the time since the last symbol** - Ghost-log invariant `IdleInv` ties the timestamp kept by the engine to the last symbol step of the log; step theorem for the press; the deterministic relation `Performs`/`LogPerforms` with what is remembered (`Memo`) carries the choice through any batch of events, with chords and undecided keys (`Props/Chosen.lean`); witnesses.
* **C59 Commands run once** - Invariant `Since`: the commands of the trace are those of the actions performed by the logged steps (`LogPerforms`).
* **C60 Scroll emulation follows the scroll keys** - Same invariant, on the scroll field.
* **C61 Keystrokes reach the host with exactly their modifiers** - Host-side state folded over the output (`keystrokes`, `hostAfter`); step theorem for key sequences and macros.
* **C62 keyd input types its text** - Induction on the text; the host-side fold of the virtual events.
* **C63 keyd do performs its macro** - As C61 through handle_client.
* **C64 layer indicator** - Devices carry their LEDs; `applyOuts` replays the callbacks. Proof: the counts replayed by the callbacks are the nesting of the announced changes (C39's invariant), so the LED set last agrees with the engine's state; preserved by every event (`Shown`), then induction over the history. Partial: see the C64_fails theorems.
* **C65 section headings** - Shapes (name, type, modifiers, constituents) of the layers as a fold of `declare` over the headings; proof by case analysis of config_add_layer/new_layer for the four forms of a heading, then induction over the headings.
* **C66 routing** - A table (`routed`) of what each event of the main loop amounts to, and for which keyboard; proved against event_handler by case analysis, with the engine's outputs carried through the callbacks (`applyOuts_vout`).
* **C67 chord lines** - `Props/ChordLines.lean`: the chords of a layer are followed through the binding lines of the document (`ChordRun`): each line leaves them, changes the action of the first chord containing its keys, or appends one. The theorem gives existence, uniqueness and the action (via C56) for lines not preceded by a bigger and not followed by a smaller chord; `C67_fails_subset` shows the claim false otherwise, hence partial.
* **C68 layers follow actions** - `Spec/LayerActs.lean` is a small separate machine (`LayerBook`, `happen`) saying what each action does to the layers; `Proofs/LayerActs.lean` shows by the engine invariant `Layered` that the ghost log of performed actions, run through that machine (`LayerRun`), gives the layers after any batch, for any state. `Props/LayerActs.lean` states it (C68) and derives the one-shot life cycle over whole batches (C13_kept, C13_next_key, C13_spent). What is left open by the log (which of two `overloadi` branches, whether an `overload` is tapped, whether `swap` finds its layer held) is non-deterministic in `Does`.
* **C69 end to end** - `Props/Transparent.lean`: `Session` is any run of the daemon without clients; by induction over it the heap holds one keyboard that emulates the machine of C07 (`Plays`), using C66 for routing and C07 for the engine; the host's view of modifiers follows from C01. `C69_survives` shows every handler returns.
* **C70 remap files** - `Props/Remap.lean`: the file's text is taken through C32 (sections), `configAddEntry` line by line (each line changes the key map of main only, `Base.line`) to a configuration whose roles are those of the lines; C69 then gives the machine's output, and `relabel_run` shows the machine replaces each key when no two typed keys collide.
* **C71 arrival at the host** - `Model/Uinput.lean` models which events the two virtual devices announce; `Props/Wire.lean` compares that with what is written for every key code and movement. False for `voicecommand` (finding 29), hence partial.
* **C72 wire to wire** - `Props/Wire.lean`: a run reading raw events (`Wired`) is a session in the sense of C69, so C70 gives the calls of the virtual keyboard for the keys; the motion part is followed step by step (`wired_motion`); C71 shows what is written for those calls arrives.
* **C73 board machine** - `Spec/Board.lean` is the machine (a host-visible board: held keys, wanted modifiers, layer book, remembered bindings); `Proofs/Places.lean` matches its 16 places with the key cache (`Grip`), `Proofs/Board.lean`, `Proofs/BoardActs.lean` show each engine function does what the machine does (`At`), `Props/Board.lean` follows a whole run by induction (`Follows`); `Props/Shipped.lean` shows that seven of the twelve example configurations of the repository are covered word for word, and what they do, and a configuration with `oneshot_timeout` and `overloadi`. Outside the class: actions that keep a key waiting (`overloadt`, `timeout`, chords), and macros of more than one key.
* **C74 daemon plays the machine** - `Props/BoardDaemon.lean`: every session feeds the engine its key events (`Feeding`), so C73 applies; the virtual keyboard's calls are the engine's outputs with the wheel keys turned into scrolling (`vkbd_host`).
* **C75 keyd bind** - `Model/Cli.lean` (keyd.c) composed with `Model/Ipc.lean` and the daemon's `handleClient`: induction over the argument list with the daemon's invariant; `C75_fails_long` is the aborting argument.
* **C76 keyd input / keyd do** - `Props/Cli.lean`: option parsing, reading the words or standard input, encoding the request, C54's decoding, C62 and C63 for what the daemon does, and the exit status from the reply.
* **C77 command line, list-keys** - `Model/Cli.lean` has the command table and `list_keys`; the statement about usable names uses C30 in both directions. An empty first argument is an exception (`C77_fails_empty`).
* **C78 keyd monitor** - `Model/Monitor.lean` (monitor.c); an independent reader (`fields`, `readKeyLine`) inverts the output, by induction over the events. The four codes without a name are the exception (`C78_fails_unnamed`).
* **C79 message markup** - `colorize` in `Model/Monitor.lean`; induction over the parts of the message (`Piece`, `MarkedText`). A full buffer is written one byte too far (`C79_fails_long`).
* **C80 taking over a device** - `Model/Grab.lean` (device_grab and the kernel's side of a device as a transition system); invariant over all schedules (`GrabInv`). The race between check and grab is a witness (`C80_fails_race`).
* **C81 No stuck modifiers** - Invariant `Kempt` (Proofs/Tidy): the modifiers down are those of the active layers, or a macro repeats, or a held key is bound to a key sequence. Every action but a key press re-establishes it. History and host versions via C03_history's argument and C01. Class `Neat` (Spec/Neat.lean), with a witness for each exclusion.
* **C82 Uptime** - Two runs side by side: `Delayed d k k'` says k' is k with every stored time shifted by d (times that are unset stay 0). Each engine function is shown to carry the relation (Proofs/Uptime: functions without times commute with replacing the times; the others one by one), by induction on the recursion bound and on the history. `C82_daemon` lifts this to the daemon: the heaps of keyboards are related pointwise, the statics `timeout` and `last_time` shifted, everything else equal, through every kind of event of the main loop. Limits: `C82_fails_first_minute`, `C82_fails_wrap`, `C82_fails_wrap_repeat`.
* **C83 Unplugging** - Every handler treats the device table as a list of independent entries: its outcome is the same for all tables up to mapping one function over the table (`Tab`). So running with the device dropped equals running with it kept and then dropping it; induction over the event sequence. `C83_leaves_table` ties the drop to the main loop's.
* **C84 Plugging in** - The same independence of the table entries as C83, read backwards for the last entry of the table; in addition two ticks of the daemon's clock amount to one.
* **C85 Application sections** - Model/Mapper.lean (the Python script; its character tables are parameters). Specification (Spec/Mapper.lean): lines making up sections (`AppDoc`), names made of words (`Spaced`), patterns (`Glob`, an inductive relation), bindings collected (`Collected`). Induction over lines, words and patterns.
* **C86 Focus changes** - The command of C85 run through the models of the `keyd` command, the request, the daemon and `kbd_eval` (C75); `reset` returns to the loaded configuration after every history (C25), so the result is a function of the file and the bindings (`masked`).
* **C87 Following the focus** - Wlroots.run as a state machine with Python's dictionaries as objects compared by content; refinement of a desktop that knows windows by number. False when another window has the same title and class as the focused one (C87_fails_twins), so proved for messages in which this does not happen.
* **C88 Where the daemon stops** - C50 (with run-time bindings), C57 and C24 composed over the event handler and the main loop: a computation `Ends` when its outcome is the same for all large recursion depths; composition rule for sequences; the error sets are listed per kind of event.
* **C89 Text received** - model of the generator of the compose file over the same table; a receiver (US layout and compose automaton) written as a specification; base 36 is injective below 36^3, so the file is found at the right line; composed with C62, C63, C61 and C49. data/keyd.compose itself is compared with the model outside Lean by tools/check_compose.py.
* **C90 Config directory** - model of the loop over the directory with the file reader of C47/C53 and the parser; which entries count is a relation written apart; order independence by permutations of the list of configs and uniqueness of the match (C37_lookup). It also discharges `Env.confs`: loading a directory is loading the texts of its config files.
* **C91 One daemon** - transition system of processes, the holders of the locked open file and the owner of the socket path; invariant: the holders of the lock are the daemon and the programs it started, there is one daemon, the path is its.
* **C92 Restart** - in the transition system of C91: the exact condition under which a start gets the lock, and a counterexample to the full statement.
* **C93 Listen** - Model/Listen.lean models the loop of `layer_listen` with every partial `read` and `write`; an invariant (printed ++ unread = stream) over all turns; that layer names contain no newline is proved through the whole parser (Proofs/LayerNames.lean), so that the lines sent are the lines of the text; composed with C39.
* **C94 Notices** - Model/Devmon.lean models `devmon_read_device` on the bytes of its static buffer and `device_scan` with its threads; a byte-level specification of inotify records; refinement by induction on the records.
* **C95 Plugging in** - Model/Devdir.lean: a transition system of /dev/input, the watch, the listing and the worker threads; an invariant over all interleavings. `readdir` and inotify are assumed to do what POSIX and inotify(7) say.
* **C96 The wayland wire** - Model/WlWire.lean: the socket as a transition system (bytes arrive, the mapper reads), `recv_msg`, the registry, the handlers of Wlroots and Cosmic on raw messages. Proof: an invariant relating the bytes in the socket to the messages not yet read, and a round trip for every message of the protocol; composed with C87.
* **C97 X** - Model/Focus.lean: the window tree, the search with its explicit stack, the loop. Proof: the search finds the first window of a recursive listing; the loop by induction over the events.
* **C98 Gnome** - Model/Focus.lean: the pipe, the buffer of the file object and the loop. Proof: an invariant over all interleavings; the second half of the statement is false of the code and proved for windows that come one at a time.
* **C99 app.conf** - Model/Focus.lean: `on_window_change` with the file's time and text at the two moments it looks at them. Proof: an invariant (the configuration in use is not older than the time kept).
* **C100 Signals** - Model/Shutdown.lean: `free_configs` and `load_configs` statement by statement on a heap, `cleanup` at any point. Proof: an invariant for every statement; the statement is false while `free_configs` runs and the exact set of bad moments is proved.
* **C101 USB host** - Model/Gadget.lean: the report bytes and the one-report endpoint; the host's reading of a report by the report descriptor is the specification. Proof: what the host fetches is always the report of some earlier state (induction on the interleaving), and a report says which keys are held (C60 for the state). False when the host is slower than the keys, and for usages above 101.
* **C102 Several keyboards** - the daemon model (Model/Daemon.lean); `Life` collects what arrived for each keyboard. Proof: an invariant over all lives of the daemon (each engine has been fed exactly what arrived, the last word on a key that is down came from an engine that holds it), using C66 for the steps, C21 for macros of clients, C40 for reloads, C03 and C81 for the single engine.
* **C103 Every keyboard plays its own machine** - the daemon model and the machine of C73. Proof: the life of C102 without clients; each step appends the outputs of one engine, tagged with its keyboard (`Mixed`), the configuration of an engine without clients is the one loaded, and C73 applied to each engine.
* **C104 A listener of several keyboards** - the daemon model; the lines a connection receives are split by the keyboard that caused them (`Told`, a relation proved for every step of the event handler and closed under composition), then C39 for each keyboard; who has the last word on a layer (`last_share`). The last sentence of the claim is false (reload), and so is exactness when two keyboards share a layer name: witnesses.
* **C105 The terminal of keyd monitor** - Model/Terminal.lean: the statements of monitor.c that touch the terminal, one by one, with signals between any two. Proof: an invariant per program point; an exact description of the ends that leave the terminal unusable (`C105_exact`); termination of the draining loop by induction on what was typed. The full claim is false: witnesses.
* **C106 One application mapper at a time** - Model/MapperLock.lean: the lock and the forks of the mapper as a transition system over any number of processes. Proof: an invariant relating the descriptors of the locked file to the phases of the processes, by induction on the events.
* **C107 The programs of command actions** - Model/Command.lean: `execute_command` as a transition relation on processes with parents and descriptor tables; forks and exec may fail, any process may end. Proof: an invariant on parents and stages by induction on reachability; the wait of the daemon gets shorter with each step; exact descriptor table of the program. `No other open file` is false: the socket, the lock and the connections of listeners are inherited (witness).
* **C108 The first devices have no time** - `addFound` runs the initial EV_DEV_ADD events with an arbitrary time. Two runs side by side that are equal but for the statics `timeout` and `last_time`; the first handled event makes them equal. The hypothesis is needed (`C108_fails_ahead`).
* **C109 A binding added at run time does what the line in the file would do** - the text of the file with the lines appended is run through the whole parser (`C109_parsed`): the parser splits into the old sections and the new ones, the first pass finds the layers already there, the second pass makes exactly the requests. Then the keyboards: a request changes nothing of the state a new keyboard starts in, and event handling neither reads nor writes the saved configuration (`Proofs/Original`, a simulation through every function of keyboard.c). The hypotheses are needed: `C109_fails_new_layer`, `C109_fails_reset`.
* **C110 A binding of a key that is not pressed has no effect** - a simulation through every function of keyboard.c between a keyboard and the same keyboard with longer tables and changed entries of the key (`Proofs/UnrelatedRun`); everything stored (active keys, pending tap-or-hold, active chords, macros) refers only to the old part of the tables (`Proofs/Unrelated`, an instance of the closure result of C103, and `Proofs/MacroBound` for the macro being repeated). What a request changes: `bound_aug`. Hypotheses that are needed: no `reset` before (`C110_fails_after_reset`), no press of the key among the events kept back. With C109 the same for a line at the end of the file (`C110_in_file`). Not covered: requests for a chord (`a+b`), which concern two keys.

## 5. Findings

Places where the code does not do what the claim (or the manual) says; those marked † are proved as `_fails_`/witness theorems.

1. † Multi-step macros bypass the key state: a macro can press a key that is already down, or release a held modifier (C01).
2. `overload(l, macro(C-x))` and `clearm(C-x)` leave the modifier down until the next event.
3. † A time-based tap action inside `overload` is decided after the key is up: its key sticks (C03).
4. † `swap` leaks an activation and can trip the layer assertion (C04, C05).
5. † More than 32 events behind an undecided key, more than 64 deadlines, or a fourth simultaneous chord abort the daemon (C18, C50).
6. † A one-shot tapped 256 times without timeout wraps the activation counter (C13).
7. † The first layer activation since creation ties with a layout (C08).
8. Chord matching counts duplicate key-downs; a chord that is a subset of an earlier one overwrites it.
9. `C-` over-reads; the empty key name is accepted; layer names with a dot cannot be bound at run time.
10. † Six arguments, or truncated UTF-8, abort the parser (C29, C33, C57); control characters in macro text are dropped (C49).
11. † `[]`, `[:]`, nine constituents, `[aliases]`/`[global]` lines without value crash the parser (C57).
12. † A pause inside a `+` group is also released as if it were a key (C21).
13. † The panic sequence is confused by LED events (C38).
14. † After a reload the active keyboard is used after being freed (C40).
15. † A listener is told of a deactivation while the layer is still active (C39).
16. † Horizontal scroll ticks are sent as vertical ones; absolute axes ignore their minimum (C44, C45).
17. † Config of 65536 bytes overruns the buffer by one; last line without newline; line beginning with NUL (C47). A held key bound at run time then takes over the action of the next request (`C110_fails_after_reset`).
18. `bind reset` leaves cached descriptors with stale indices, and stale chord pointers.
19. † `[ = ]` is taken as a heading (C32).
20. † One-shot and macro deadlines are dropped while a key is undecided (C14); a macro goes on repeating when the next key may start a chord (C22).
21. † An unknown absolute axis redelivers the previous event (C43/C45).
22. † A device unplugged leaves its keys down (`C83_example`); `chord_timeout = 0` drops the deadline.
23. † Main-loop deadline lost by processing delays, or diverted by another keyboard's device (C48).
24. † An IPC client that closes early hangs or ends the daemon (C54).
25. † Upper-case device ids never match (C55).
26. † `C-leftshift` forgets its prefix (C56).
27. † Nested `overloadi` leaves its layer active; the idle time counts releases too (C58).
28. † A one-shot key that was held and used counts as tapped if another one-shot key is pressed before it is let go; tapping `overload(l, macro(..))` does not spend one-shots (C13).
29. † The virtual keyboard announces only key codes below 256 and `KEY_ZOOM`, but `write_key_event` also sends `KEY_VOICECOMMAND` (582): the kernel drops it, so `voicecommand` never reaches the host, not even unmapped (`C71_fails_voicecommand`). `vkbd_mouse_move_abs` does not write a coordinate that is 0, so an absolute device cannot move the pointer to the left or top edge (`C71_fails_edge`). Outside the model: `vkbd_init` allocates `sizeof vkbd` (a pointer's size) for the whole struct.
30. † `keyd bind` sends its arguments one by one and `assert`s that each is under 4096 bytes: a longer argument aborts the client after the earlier bindings have been made (`C75_fails_long`).
31. † `keyd ""` (an empty first argument) runs the `input` command, whose flag columns in the command table are empty strings (`C77_fails_empty`).
32. † `keyd list-keys` prints empty lines (the keys whose alternative name is the empty string) and lists shifted names such as `!`, which are not accepted on the left of a binding (`C77_fails_listed`).
33. † `keyd monitor` prints the null name of the codes 196-199 (`printf("%s", NULL)`, undefined behaviour; `(null)` with glibc) (`C78_fails_unnamed`).
34. † `colorize` writes its terminating NUL one byte behind its buffer when a message fills it (1024 bytes); all messages of the program are shorter (`C79_fails_long`).
35. † `device_grab` checks that no key is down and then grabs: a key pressed in between stays down for the host, and its release goes to keyd only (`C80_fails_race`); a key pressed between the grab and the end of the draining loop is lost.
36. † `toggle` sets the modifiers before it clears the one-shot layers: after `oneshot(shift)` and a toggle, shift stays down with no layer asking for it until the next key event (`C81_fails_toggle`).
37. † A macro of one key with modifiers played by a tap of `overload` or by `clearm` leaves its modifiers down: `overload(nav, macro(C-x))` tapped leaves control down (`C81_fails_tap`, `C81_fails_clearm`). Bound directly, the release of the key clears them.
38. † The time of an event is an `int` in milliseconds (keyd.h:69, keyboard.h:30), deadlines are `long`: after 2^31 ms (24.8 days) of uptime the time jumps back by 2^32 and a deadline pending at that moment is never reached. A tap-hold key held then stays undecided, with everything typed after it queued, until it is released (`C82_fails_wrap`); a macro being repeated stops (`C82_fails_wrap_repeat`).
39. † **`[ = ]` in app.conf** (C85_fails_bracket): a binding that begins with `[` and ends with `]` is taken for a heading; it and the bindings below it are silently lost. A binding above the first heading ends the script with an exception (C85_headless).
40. † **Windows with the same class and title** (C87_fails_twins): `active_window == windows[obj]` compares contents, so a message about another window with the same class and title as the focused one makes the mapper forget the focused window; later changes of its title go unnoticed and the bindings stay those of the old title.
41. † `chord.match` is a pointer into the table of the layer. `keyd bind reset` while a chord is being decided, followed by binding a longer chord, puts another chord there; when the chord is resolved, `queue_sz - queue_offset` wraps around and the engine reads far beyond the queue. The application mapper sends exactly this on a focus change (C50_fails_bind).
42. † Two config files that take the same device with the same rank (two wildcards, or two lists with the device) are resolved by the order of `readdir`, which is arbitrary and can change when an unrelated file is added (`C90_tie`); man page and README do not mention it (daemon.c:227-249).
43. † The lock file and the server socket are opened without close-on-exec (ipc.c:50,63), so every program started by a `command` action inherits them. If the daemon ends while such a program still runs, no new daemon can start (`another instance already running?`), and clients connect to a socket nobody serves and wait for ever (`C92_fails_restart`).
44. † In `execute_command` nothing follows a failing `execl` (keyboard.c:395-396): the forked process returns into the event loop as a second daemon on the same devices (`C91_fails_exec`).
45. † `devmon_read_device` reads a name out of every inotify record, also of one without a name (device.c:300). When the kernel's queue overflows, its overflow record has no name, and the bytes behind it - a name left in the static buffer by an earlier delivery - are taken for one: a device that is in the table already is opened a second time, and the devices whose notices were lost stay unknown (`C94_fails_overflow`).
46. † A device node that appears after the watch is set up and before the directory is listed is both listed and announced, and so is opened and put into the table twice (`C95_twice`); the second descriptor cannot be grabbed (`Failed to grab`), so the copy only wastes an entry.
47. † The mapper takes what one `recv` returns for the whole head or payload of a wayland message: a message that arrives in two pieces ends it with an exception or is cut, and its rest is read as the head of another message (`C96_fails_split`).
48. † On Cosmic a window is reported only if "activated" is the first of its states (`C96_fails_cosmic`).
49. † On Gnome the mapper reads one line each time the pipe is readable, but the file object takes all there is: of two focus changes in quick succession the second is reported only at the next one, and from then on the mapper stays one window behind (`C98_fails_behind`).
50. † A window whose title contains a tab is treated as having neither class nor title, and SIGUSR1 then brings back the bindings of the window before it (`C98_fails_tab`); when the extension closes the pipe the mapper runs `keyd bind reset` without pause (`C98_fails_closed`).
51. † An edit of app.conf between its first reading and the first look at its time, while the mapper starts, goes unnoticed until the next edit (`C99_fails_start`).
52. † SIGTERM or SIGINT while a reload is in `free_configs` makes `cleanup` walk the same list again: use after free and double free (`C100_fails_midway`); exactly from the first `free` until `configs = NULL` (`C100_exact`).
53. † The gadget's endpoint is opened O_NONBLOCK and the result of `write` is ignored: a report written before the host fetched the last one is lost, so a quickly released key stays down at the host until another key is sent (`C101_fails_lost`).
54. † The report descriptor in usb-gadget.sh only allows usages up to 0x65: F13-F24, volume, power, … are in `hid_table` but never reach the host (`C101_fails_range`).
55. † A key held on two keyboards is released at the host when the first of them releases it (`C102_shared`).
56. † A layer name used by two keyboards: when one of them leaves the layer, listeners believe it inactive although the other still holds it (`C104_fails_shared`); a listener that connects is told only of the keyboard used last (`C104_fails_unseen`).
57. † A reload deactivates all layers without telling the listeners (`C104_fails_reload`).
58. † `keyd monitor` leaves a terminal without echo if it is killed, or ended before `atexit` (monitor.c:89-106), and one that neither echoes nor reads lines if a second signal arrives during `cleanup` (`C105_fails_killed`, `C105_fails_early`, `C105_fails_twice`).
59. † `keyd monitor` leaves standard input non-blocking (the open file is shared with the shell and later programs), and switches the echo on even if it was off before (`C105_fails_same`).
60. † Connections are accepted without close-on-exec (daemon.c:583), so a program started by a `command` action keeps the connections of `keyd listen` open: the listener does not notice that the daemon has ended as long as the program runs (`C107_fails_listener`).
61. † A layer name of 64 bytes (the documented maximum) is announced to listeners with a NUL instead of the newline, so that the next line is lost, too (`C39_fails_long`; daemon.c:138).
62. † evloop.c:50-55 announces the first devices with an event whose `timestamp` is uninitialised, and event_handler stores it as `last_time`. If the stack holds a value later than the uptime, the first event that is not a key press makes the daemon wait for the difference and wake up for nothing (`C108_fails_ahead`); otherwise it has no effect (`C108_same`).

## 6. Axioms per theorem

Produced with `#print axioms` on every theorem of MANIFEST.json.

* no axioms: C105_example, C105_fails_early, C105_fails_killed, C105_fails_same, C105_fails_twice, C29_six_arguments_assert, C38_example, C38_fails_led, C38_misses_led, C43_fails_for_reassigned, C43_wide_keys, C45_example, C45_fails_for_negative, C45_fails_for_offset_range, C46_alias_binds_all_carriers, C46_alias_line_ignored, C54_fails_gone, C77_fails_empty, C80_nothing_lost, C91_fails_exec, C91_witness, C93_example_closed, unknown_axis_repeats_last_event.

* `propext`: C08_chord_code, C100_example, C100_fails_midway, C105_hushed, C106_example, C107_steady, C10_unguarded_release, C26_default_layer_is_main, C29_no_arguments, C32_bracket_line_is_heading, C32_entry_before_heading, C32_key_value, C32_no_value, C33_truncated_input_asserts, C34_unescape_escape, C34_unescape_plain, C35_prefix_free, C39_snapshot_sent, C44_horizontal_is_vertical, C47_fails_nul, C47_fails_unterminated, C53_example, C53_near_first, C53_no_extension, C54_example, C55_upper_case, C56_unambiguous, C59_determined, C62_witness, C68_determined, C71_fails_edge, C71_fails_voicecommand, C71_pointer, C78_example, C78_fails_unnamed, C79_example, C87_fails_twins, C93_example, C94_example, C94_example_scan, C94_fails_overflow, C96_fails_cosmic, C96_fails_split.

* `Quot.sound`, `propext`: C01_violated_by_macros, C03_fails_for_deferred_tap, C03_history_example, C04_fails_for_swap, C05_fails_for_swap, C06_ignored, C07_example, C07_example_empty, C07_example_run, C08_first_activation_ties_with_layout, C09_other_keys_unchanged, C101_example, C101_fails_lost, C102_example, C102_shared, C103_example, C104_fails_reload, C104_fails_shared, C104_fails_unseen, C105_exact, C105_restored_partial, C106_lets_go, C106_one, C108_fails_ahead, C108_same, C109_example, C109_fails_new_layer, C109_fails_reset, C10_guarded_release, C110_example, C110_fails_after_reset, C110_in_file_example, C11_example, C13_C06_example, C13_example, C13_fails_latch, C13_fails_tapped_macro, C13_held_ends, C13_kept_example, C13_next_key_example, C13_stays_on_press, C13_stays_on_release, C13_tap_example, C14_example, C14_fails_pending, C15_wait_exact, C17_keeps_waiting, C17_undecided, C18_fails_order, C18_fails_stuck, C18_order_witness, C18_overflow_witness, C19_examples, C19_fails_action, C19_fails_interval, C19_fires, C19_held_long_enough, C19_match, C19_released_early, C20_ended, C20_examples, C21_macro_leaves_keys_up, C21_spurious_release, C22_example, C22_fails_chord, C22_not_early, C22_press_example, C22_repeats, C22_zero_example, C22_zero_interval, C23_example, C23_toggle_release, C23_toggle_twice, C24_witness, C28_existing_heading, C29_split_arguments, C30_key_sequence, C30_only_key_sequences, C31_modstring_roundtrip, C31_parse_modset, C32_binding_line, C32_blank_line, C32_comment_line, C32_document, C32_entry_line, C32_heading_line, C32_too_many_entries, C32_too_many_sections, C34_unescape_length, C35_distinct_characters, C35_lookup_correct, C35_sequence_injective, C35_sequence_shape, C36_check_match, C37_always, C37_always_example, C37_example, C37_load_order, C37_lookup, C37_manage, C37_own, C37_pure_mouse, C37_virtual, C38_iteration, C38_loop, C39_example_off, C39_example_on, C39_fails_long, C39_fails_nested, C40_example, C40_fails_listen, C40_fails_timeout, C40_no_freed_partial, C40_only_releases, C40_released, C40_start_live, C40_used_live, C41_bind, C41_example, C41_fails_crash, C41_listen, C41_listeners, C41_one_reply_partial, C41_rejected, C42_example, C42_example_six, C42_modifiers, C43_distinct, C43_keys, C43_mouse_buttons, C44_conserved, C44_example, C44_off, C44_zero, C45_monotone_partial, C45_zero_based_partial, C46_alias_line, C47_full_example, C47_tidy_partial, C48_asked, C48_example_owed, C48_example_woken, C48_fails_delay, C48_fails_other, C48_prompt_partial, C48_turn_partial, C50_all_reachable, C50_chord_queue, C50_deadlines, C50_four_chords, C50_oneshot, C50_oneshot_depth, C50_pending_queue, C53_included, C53_last_line_partial, C54_arguments, C54_fails_short, C54_read_exact, C54_write, C55_claims, C55_config_example, C55_example, C55_mouse, C55_own_devices, C55_product, C57_stops_reachable, C58_fails_nested, C58_release_counts, C58_waiting_idle, C58_waiting_typing, C58_witness, C58_witness_idle, C58_witness_typing, C59_witness, C59_witness_run, C60_witness, C61_witness_run, C63_do, C63_line, C63_refused, C63_witness, C64_fails_host, C64_fails_plugged, C64_fails_reload, C64_witness, C65_initial, C65_refused, C65_witness, C65_witness_run, C66_not_routed, C66_witness_click, C66_witness_keyboards, C66_witness_wheel, C67_fails_subset, C68_example, C69_example, C69_example_run, C70_example, C70_remap_file, C71_keys_partial, C71_names, C72_example, C73_carousel, C73_example, C73_extend, C73_macos, C73_recommended, C73_shipped, C73_tapping, C73_timed, C73_vim, C74_example, C75_example, C75_fails_long, C76_example, C76_too_long, C77_dispatch, C77_fails_listed, C77_lines, C77_list_keys, C77_listed_usable, C77_reload_example, C77_usable_listed, C78_read_back, C79_fails_long, C79_markup, C80_no_stuck_keys, C80_nothing_twice, C80_waits, C81_example, C81_fails_clearm, C81_fails_tap, C81_fails_toggle, C82_daemon_example, C82_fails_first_minute, C82_fails_wrap, C82_fails_wrap_repeat, C83_example, C83_nothing_sent, C84_added, C84_example, C85_file, C85_headless, C85_title, C85_words, C88_client_stop, C88_key_stop, C90_confs, C90_example, C90_loaded, C90_others, C90_tie, C91_single, C91_socket, C91_undisturbed, C92_fails_restart, C93_ends, C93_example_terminal, C93_lines, C93_listen, C94_example_batches, C94_notices, C94_scan, C94_scan_full, C95_example, C95_only, C95_twice, C96_bind, C96_cosmic_partial, C96_example, C97_active, C98_focus_partial, C98_order, C99_edits_partial, doc_parses, doc_settings, mainLoopTimeout_exact.

* `Classical.choice`, `Quot.sound`, `propext`: C01_all_keys_without_macros, C01_keystate_is_host_state, C01_output_alternates_partial, C02_effect, C02_released_as_decided, C02_released_as_pressed, C02_still_held, C03_down_keys_owned, C03_history, C03_no_stuck_keys, C04_activations_accounted, C04_history, C04_released_inactive, C05_deactivation_safe, C07_any_batches, C07_passthrough, C07_refines, C08_highest_precedence, C08_most_recently_activated, C08_most_specific_composite, C08_ordinary_over_layout_partial, C08_unbound_history, C09_key_down_with_modifiers, C09_modifiers_exact, C100_exact, C100_idle, C100_stop_partial, C101_earlier, C101_fails_range, C101_keys_partial, C102_exact, C102_no_stuck_keys, C102_no_stuck_modifiers, C102_owner, C103_machines, C104_believed_partial, C104_exact_partial, C104_example, C104_layout_partial, C104_single_partial, C106_starts, C107_descriptors, C107_example, C107_fails_listener, C107_launched, C107_reaped, C107_streams, C107_waits, C108_example, C109_bind_is_line, C109_bind_stops, C109_parsed, C10_no_bare_tap, C110_history, C110_in_file, C110_other_keys, C11_clear, C11_clear_event, C11_clear_macro, C11_clear_succeeds, C11_main_is_layout, C12_active_layout_is_selected, C12_at_most_one_layout, C12_main_always_active, C12_setlayout, C13_kept, C13_next_key, C13_next_key_spends, C13_spent, C13_tap, C14_key_expires_partial, C14_late_press_lookup_partial, C14_wakeup_expires_partial, C16_hold, C16_press, C16_release, C16_tap, C17_earlier_release, C17_hold, C17_hold_effect, C17_hold_nested, C17_interrupted, C17_press, C17_tap, C17_tap_effect, C17_tap_types, C18_batch, C18_exactly_once, C18_key_order_partial, C18_order_partial, C18_overflow, C19_chord_missed, C19_deadline, C19_hold_noted, C19_no_chord, C19_noted, C19_struck, C19_undecided, C19_verdict, C20_once, C20_outstanding, C20_swallowed, C22_asks_for_wakeup, C22_key_stops_partial, C22_press_starts, C23_toggle, C23_toggle_event, C23_toggle_macro, C24_depth, C24_deterministic, C24_terminates, C25_reset_restores, C26_accepted_binds_key, C26_chord_keeps_keys, C26_rejected_changes_nothing, C27_modifier_layers_exist, C27_modifier_layers_exist_bind, C27_reachable, C27_wellformed, C28_bind_keeps_type, C28_layers_keep_their_type, C33_utf8_read_char, C33_utf8_strlen, C38_panic_partial, C39_believed_is_active, C39_exact_partial, C39_layout, C39_lines_sent, C42_report_complete, C42_report_sound, C47_fails_full, C48_delivered_partial, C48_wakes, C49_at_most_256, C49_macro_text, C50_fails_bind, C50_stops, C50_stops_bind, C50_stops_considerate, C51_default_layout, C51_global, C51_ids, C52_last_line_wins, C52_unmentioned, C54_read, C54_request, C55_keyboard, C56_actions, C56_document, C56_rejects_call, C56_rejects_layer, C56_rejects_layout, C56_rejects_word, C57_bind, C57_parse, C58_choice, C58_everywhere, C58_held, C58_layer, C58_released, C58_types, C58_waits, C58_witness_waiting, C59_commands, C59_once, C59_press, C59_release, C60_only, C60_press, C60_release, C60_scroll, C61_key_keystroke, C61_macro_keystrokes, C61_witness, C62_input, C64_always_partial, C64_indicator_partial, C65_heading, C65_layers, C66_routed, C66_used_last, C67_chord_line_partial, C67_only, C68_layers, C68_layers_start, C69_passthrough, C69_remaps, C69_survives, C70_typing, C72_wire, C73_machine, C74_daemon, C75_bind, C76_do, C76_input, C77_reload, C78_times, C80_example, C80_fails_race, C81_all_modifiers_up, C81_history, C81_no_stuck_modifiers, C82_daemon, C82_example, C82_uptime, C83_leaves_table, C83_unplugged, C84_plugged, C85_class, C85_command, C85_example, C85_fails_bracket, C86_example, C86_focus, C86_forgets, C87_example, C87_focus_partial, C88_run, C88_start, C88_stops, C89_do, C89_file, C89_input, C89_key, C89_needs_file, C89_witness, C89_words, C90_order, C91_comes_up, C92_starts_partial, C93_terminal, C94_full, C95_found, C95_once, C96_events_partial, C96_focus_partial, C96_messages_partial, C97_example, C97_known, C97_reports, C98_example, C98_fails_behind, C98_fails_closed, C98_fails_tab, C99_example, C99_fails_start.
