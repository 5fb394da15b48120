{"id": "C01", "title": "Virtual-keyboard output alternates per key", "statement": "For every key code, the key events that the engine hands to the output callback alternate strictly between down and up, starting with down: the host never sees a second down for a key that is already down, nor an up for a key that is not down.", "quantifier": "all configs, all event histories (any length, any timestamps)", "why_tests_cant": "alternation must survive every interleaving of layers, oneshots, modifier guards, clears, overloads and timeouts; a test samples a handful of histories", "anchors": ["src/keyboard.c:send_key", "src/keyboard.c:reset_keystate", "src/keyboard.c:execute_macro", "src/macro.c:macro_execute"]}
{"id": "C02", "title": "A key is released with the binding it was pressed with", "statement": "If pressing a physical key produced output key X (a key binding), then whatever other keys are pressed or released in between and whatever layers change, releasing that physical key is processed as the release of X, never as the release of whatever the key would map to now.", "quantifier": "all configs, all states at press time, all intermediate histories that do not contain the key itself", "why_tests_cant": "the intermediate history is unbounded and may change any layer", "anchors": ["src/keyboard.c:cache_set", "src/keyboard.c:cache_get", "src/keyboard.c:process_event", "src/keyboard.c:lookup_descriptor"]}
{"id": "C03", "title": "No stuck keys once everything is released", "statement": "Every non-modifier key that is down according to the engine's output state is the key of the binding of some key still held; so whenever no key is held, no non-modifier key is down.", "quantifier": "all well-formed configs without swap in which the tap action of every overload takes effect at once (is not timeout, overloadt, overloadt2 or overloadi) and no alternative of overloadi is overloadi; all event histories, including bind commands that stay within such configs. The code violates the claim outside this class: see the theorems C0x_fails_for_...", "why_tests_cant": "a stuck key can need an arbitrarily long, arbitrarily interleaved history", "anchors": ["src/keyboard.c:process_descriptor", "src/keyboard.c:process_event", "src/keyboard.c:handle_pending_key"]}
{"id": "C04", "title": "No stuck layers", "statement": "At every point each layer's activation count equals the number of held keys that are holding it plus one if it is toggled plus its outstanding one-shot activations plus one if it is the selected layout; in particular when no key is held and nothing is toggled, latched or selected, only main is active.", "quantifier": "all well-formed configs without swap in which the tap action of every overload takes effect at once (is not timeout, overloadt, overloadt2 or overloadi) and no alternative of overloadi is overloadi; all event histories, including bind commands that stay within such configs. The code violates the claim outside this class: see the theorems C0x_fails_for_...", "why_tests_cant": "counts could drift by one only after specific nestings of overload/oneshot/toggle; the set of histories is infinite", "anchors": ["src/keyboard.c:activate_layer", "src/keyboard.c:deactivate_layer", "src/keyboard.c:clear_oneshot", "src/keyboard.c:clear", "src/keyboard.c:setlayout"]}
{"id": "C05", "title": "Layer bookkeeping never aborts the daemon", "statement": "Processing a key event or a timeout never trips the assertion that a layer being deactivated is active.", "quantifier": "all well-formed configs without swap in which the tap action of every overload takes effect at once (is not timeout, overloadt, overloadt2 or overloadi) and no alternative of overloadi is overloadi; all event histories, including bind commands that stay within such configs. The code violates the claim outside this class: see the theorems C0x_fails_for_...", "why_tests_cant": "the failing history, if any, is not known in advance", "anchors": ["src/keyboard.c:deactivate_layer"]}
{"id": "C06", "title": "Repeated key-downs and unmatched key-ups are ignored", "statement": "A key-down for a physical key that is already down, or a key-up for one that is not down, changes neither the held bindings nor the layers and emits nothing, when no chord, pending key, running macro or one-shot deadline is waiting to be serviced.", "quantifier": "all states, all keys, all times", "why_tests_cant": "must hold in every reachable state", "anchors": ["src/keyboard.c:process_event", "src/keyboard.c:cache_get"]}
{"id": "C07", "title": "Keys without bindings pass through; plain remaps substitute", "statement": "With a config whose active layers bind keys only to plain keys, the output of any event history is exactly what a small remapping machine (held set of at most 16 keys, key substitution, noop dropped) produces; with no bindings at all the output is the input.", "quantifier": "all such configs, all event histories, all timestamps", "why_tests_cant": "a refinement over unbounded histories", "anchors": ["src/keyboard.c:process_event", "src/keyboard.c:lookup_descriptor", "src/keyboard.c:process_descriptor", "src/keyboard.c:send_key"]}
{"id": "C08", "title": "Binding lookup follows the documented precedence", "statement": "The binding chosen for a pressed key is the one in the most specific fully-active composite layer that binds it, else the one in the most recently activated active layer that binds it, else the key itself unmodified.", "quantifier": "all configs, all sets of active layers and activation times, all keys", "why_tests_cant": "combinatorially many layer stacks", "anchors": ["src/keyboard.c:lookup_descriptor"]}
{"id": "C09", "title": "Held modifiers are exactly those asked for", "statement": "After the engine recomputes modifiers, each of the five modifier keys is down iff it is requested explicitly or belongs to an active layer that is not excluded (the layer supplying the binding, or a constituent of it when composite); no other key changes state.", "quantifier": "all states, all requested modifier sets, all excluded layers", "why_tests_cant": "2^5 modifier states times all layer stacks times guard states", "anchors": ["src/keyboard.c:update_mods", "src/keyboard.c:set_mods", "src/keyboard.c:clear_mod"]}
{"id": "C10", "title": "Modifier guard", "statement": "With the guard enabled, releasing left meta, left alt or right alt straight after it was the last key pressed is wrapped in a left-control tap unless control is already down, so the host never sees a bare tap of it; with the guard disabled or inhibited exactly the release is emitted.", "quantifier": "all states", "why_tests_cant": "depends on the whole output history through the last pressed key", "anchors": ["src/keyboard.c:clear_mod", "src/keyboard.c:send_key"]}
{"id": "C11", "title": "clear() releases everything and drops toggles and one-shots", "statement": "After a clear action no output key is down, no non-layout layer is toggled, no one-shot is outstanding, no macro is repeating, and every layer's count dropped by exactly its toggle and one-shot contributions.", "quantifier": "all states", "why_tests_cant": "must hold from every reachable state", "anchors": ["src/keyboard.c:clear", "src/keyboard.c:clear_oneshot", "src/keyboard.c:reset_keystate"]}
{"id": "C12", "title": "At most one layout besides main is active", "statement": "At every point of every history at most one layer declared as a layout, other than main, is active; setlayout(L) makes L the only one and setlayout(main) leaves none.", "quantifier": "all parsed configs, all event histories", "why_tests_cant": "invariant over unbounded histories", "anchors": ["src/keyboard.c:setlayout", "src/keyboard.c:new_keyboard", "src/config.c:parse_descriptor"]}
{"id": "C13", "title": "A one-shot layer affects exactly the next key", "statement": "A tapped one-shot layer stays active until the next key that emits a key sequence or macro is pressed, that key is looked up with the layer active, and afterwards no one-shot activation is outstanding.", "quantifier": "all states, all keys", "why_tests_cant": "must hold for every combination of stacked one-shots and other layers", "anchors": ["src/keyboard.c:process_descriptor", "src/keyboard.c:clear_oneshot"]}
{"id": "C14", "title": "One-shot timeout", "statement": "If a one-shot timeout is configured, a one-shot left unused is deactivated by the first event or wakeup at or after its deadline, and the engine asks to be woken no later than that deadline.", "quantifier": "all states, all configured timeouts, all later events", "why_tests_cant": "real-time behaviour under any schedule", "anchors": ["src/keyboard.c:process_event", "src/keyboard.c:schedule_timeout", "src/keyboard.c:calculate_main_loop_timeout"]}
{"id": "C15", "title": "Wakeup requests are exact", "statement": "The wait returned after an event is zero iff no scheduled deadline lies in the future, and otherwise reaches exactly the earliest future deadline; no future deadline is forgotten.", "quantifier": "all deadline sets, all times", "why_tests_cant": "arbitrary sets of up to 64 deadlines", "anchors": ["src/keyboard.c:calculate_main_loop_timeout", "src/keyboard.c:schedule_timeout"]}
{"id": "C16", "title": "overload: layer while held, action only on an uninterrupted timely tap", "statement": "An overload key activates its layer on press; on release the layer is deactivated and the tap action fires iff no other key was pressed in between and (if configured) the hold was shorter than overload_tap_timeout.", "quantifier": "all states, all intermediate histories, all times", "why_tests_cant": "intermediate history unbounded", "anchors": ["src/keyboard.c:process_descriptor"]}
{"id": "C17", "title": "overloadt/overloadt2/timeout resolve per the documented decision table", "statement": "A pending key resolves to its hold action iff an event or wakeup arrives at or after the deadline (or, for overloadt2, another key is tapped meanwhile), to its tap action iff it is released before the deadline (or, for timeout(), another key is pressed meanwhile), and otherwise stays pending; the release of a key that was already down when the undecided key was pressed is let through at once and decides nothing, whatever the time.", "quantifier": "all pending states, all events, all times", "why_tests_cant": "timing and interleaving space is infinite", "anchors": ["src/keyboard.c:handle_pending_key", "src/keyboard.c:process_descriptor"]}
{"id": "C18", "title": "Events queued behind an undecided key are neither lost, duplicated nor reordered", "statement": "Every key event that arrives while a pending key or chord is undecided is either passed through at once (a release of a key pressed earlier) or replayed, exactly once and in arrival order, when the decision is made; if the queue would overflow the daemon stops rather than dropping events.", "quantifier": "all undecided states, all event sequences", "why_tests_cant": "unbounded sequences of interleaved events", "anchors": ["src/keyboard.c:handle_pending_key", "src/keyboard.c:handle_chord", "src/keyboard.c:resolve_chord", "src/keyboard.c:abort_chord"]}
{"id": "C19", "title": "Chord matching", "statement": "A chord is considered fully struck iff the number of key-downs seen equals the chord's size and every one of them belongs to the chord, partially struck iff all belong but there are fewer or more, and not at all otherwise; among full matches the most recently activated layer wins, and the engine waits for disambiguation iff some other chord is partially struck.", "quantifier": "all chords, all event queues, all layer stacks", "why_tests_cant": "all permutations and subsets of keys over all layer stacks", "anchors": ["src/keyboard.c:chord_event_match", "src/keyboard.c:check_chord_match"]}
{"id": "C20", "title": "A chord's release ends its action exactly once, when its last key is released", "statement": "While a chord action is active, releasing one of its keys is swallowed; the chord's action is released exactly when the last of its keys is released.", "quantifier": "all chords, all release orders", "why_tests_cant": "all permutations of releases interleaved with other keys", "anchors": ["src/keyboard.c:handle_chord", "src/keyboard.c:resolve_chord"]}
{"id": "C21", "title": "Macros leave no key down", "statement": "Executing any macro accepted by the macro parser releases every key it presses; the host's key state for the keys it pressed ends up.", "quantifier": "all macro source strings", "why_tests_cant": "infinitely many macro texts", "anchors": ["src/macro.c:macro_parse", "src/macro.c:macro_execute"]}
{"id": "C22", "title": "Macro repetition stops at the next key event and keeps its interval", "statement": "A held macro is repeated only by wakeups at or after its deadline, each repetition schedules the next one repeat-interval later, any key event stops repetition, and a zero interval schedules none.", "quantifier": "all states, all times", "why_tests_cant": "all schedules of wakeups and events", "anchors": ["src/keyboard.c:process_event", "src/keyboard.c:process_descriptor"]}
{"id": "C23", "title": "toggle is an involution", "statement": "Pressing a toggle key flips whether the layer is toggled and changes its activation count by exactly one accordingly; two presses restore both.", "quantifier": "all states, all layers", "why_tests_cant": "must hold in every reachable state", "anchors": ["src/keyboard.c:process_descriptor"]}
{"id": "C24", "title": "Event processing always terminates", "statement": "Handling any batch of key events, from any state, terminates: the mutual recursion between chord resolution, pending-key resolution and event replay, and the catch-up loop over deadlines, are finite.", "quantifier": "all configs, all states, all batches of events", "why_tests_cant": "non-termination cannot be observed by finite tests", "anchors": ["src/keyboard.c:process_event", "src/keyboard.c:kbd_process_events", "src/keyboard.c:resolve_chord", "src/keyboard.c:handle_pending_key", "src/keyboard.c:process_descriptor"]}
{"id": "C25", "title": "bind reset restores the loaded bindings", "statement": "After any sequence of runtime bind commands, successful or not, and any key events, `bind reset` makes the binding tables equal to those loaded from the config file.", "quantifier": "all configs, all sequences of bind expressions and key events", "why_tests_cant": "unbounded histories", "anchors": ["src/keyboard.c:kbd_eval", "src/config.c:config_add_entry"]}
{"id": "C26", "title": "A binding affects only its own key and the latest wins", "statement": "A successful `layer.key = action` makes key map to the action in that layer and leaves every other key of every layer unchanged; a failing one leaves all key maps unchanged.", "quantifier": "all configs, all layers, keys and expressions", "why_tests_cant": "all binding sequences", "anchors": ["src/config.c:config_add_entry", "src/config.c:set_layer_entry"]}
{"id": "C27", "title": "Parsed configs are well-formed", "statement": "Every config produced by parsing any text, followed by any bind commands, has at most 32 layers with distinct names, main first and a layout, and all layer, macro, command and nested-action references inside bindings in range; layer actions never refer to a layout and nested actions only refer to earlier ones.", "quantifier": "all config texts, all bind expressions", "why_tests_cant": "all strings", "anchors": ["src/config.c:config_parse_string", "src/config.c:parse_descriptor", "src/config.c:config_add_layer", "src/config.c:new_layer"]}
{"id": "C28", "title": "Re-opening a section adds to the layer and cannot change its type", "statement": "A second heading for an existing layer, with whatever type suffix, leaves the layer table unchanged.", "quantifier": "all configs, all headings", "why_tests_cant": "all heading strings", "anchors": ["src/config.c:config_add_layer"]}
{"id": "C29", "title": "Action-call argument splitting", "statement": "name(arg1, ..., argn) with at most five arguments is split into exactly that name and those arguments, where arguments may contain balanced parentheses with commas inside and backslash-escaped characters.", "quantifier": "all names and argument strings", "why_tests_cant": "nesting depth and length are unbounded", "anchors": ["src/config.c:parse_fn"]}
{"id": "C30", "title": "Key-sequence syntax round-trips", "statement": "For every named key and every list of modifier prefixes, parsing the prefixes followed by the name yields that key and exactly the union of those modifiers; shifted names add shift.", "quantifier": "all keys in the table, all prefix lists of any length", "why_tests_cant": "prefix lists are unbounded", "anchors": ["src/keys.c:parse_key_sequence", "src/keys.c:keycode_table"]}
{"id": "C31", "title": "Modifier-set syntax", "statement": "A layer's modifier suffix is accepted iff it is a dash-separated list of C, M, A, S, G (empty and a trailing dash allowed), giving the union of the named modifiers; printing a modifier set and parsing it gives the set back.", "quantifier": "all strings; all modifier sets", "why_tests_cant": "all strings", "anchors": ["src/keys.c:parse_modset", "src/keys.c:modstring"]}
{"id": "C32", "title": "INI line structure", "statement": "A line `key = value` yields exactly that key and value for every key without '=' and every value; the value may contain '='; a line without '=' has no value; comments and blank lines are ignored and entries stay under the latest heading in order.", "quantifier": "all keys, values and files", "why_tests_cant": "all strings", "anchors": ["src/ini.c:parse_kvp", "src/ini.c:ini_parse_string"]}
{"id": "C33", "title": "UTF-8 decoding", "statement": "Reading the UTF-8 encoding of any Unicode code point returns that code point and the encoding's length, and string length counts code points.", "quantifier": "all code points, all strings of code points", "why_tests_cant": "1.1 million code points and unbounded strings", "anchors": ["src/string.c:utf8_read_char", "src/string.c:utf8_strlen"]}
{"id": "C34", "title": "Escape processing", "statement": "Unescaping never lengthens a string, leaves backslash-free strings alone, and inverts escaping of newline, tab, backslash and parentheses.", "quantifier": "all strings", "why_tests_cant": "all strings", "anchors": ["src/string.c:str_escape"]}
{"id": "C35", "title": "Distinct characters get distinct key sequences", "statement": "Two different indices below 36^3 yield different compose sequences, all of four keys starting with cancel and otherwise alphanumeric, so no sequence is a prefix of another.", "quantifier": "all index pairs", "why_tests_cant": "a billion pairs", "anchors": ["src/unicode.c:unicode_get_sequence", "src/unicode.c:unicode_lookup_index"]}
{"id": "C36", "title": "Device id matching", "statement": "A config claims a device iff the first listed id that is a prefix of the device's id and applies to it is not an exclusion, or no listed id applies and the wildcard is present; the claim is explicit in the former case.", "quantifier": "all id lists, all device ids and device kinds", "why_tests_cant": "all strings and orders", "anchors": ["src/config.c:config_check_match", "src/config.c:parse_id_section"]}
{"id": "C37", "title": "The best matching config manages a device", "statement": "A device is managed by a config that explicitly lists it if there is one, else by a wildcard config, else by none; among equals the most recently loaded wins; a pure mouse is never managed through a wildcard and virtual devices never.", "quantifier": "all sets of configs, all devices", "why_tests_cant": "all config sets", "anchors": ["src/daemon.c:lookup_config_ent", "src/daemon.c:manage_device"]}
{"id": "C38", "title": "Panic sequence", "statement": "keyd terminates as soon as backspace, enter and escape are all held, as reported by the physical keyboards' key events, and not otherwise.", "quantifier": "all device event histories", "why_tests_cant": "all histories", "anchors": ["src/evloop.c:panic_check", "src/evloop.c:evloop"]}
{"id": "C39", "title": "Layer listeners can reconstruct the active layers", "statement": "A listener that applies the snapshot and the change lines it receives knows at every point the current layout and exactly the set of active layers.", "quantifier": "all histories of layer changes and connections", "why_tests_cant": "all histories", "anchors": ["src/daemon.c:add_listener", "src/daemon.c:on_layer_change"]}
{"id": "C40", "title": "Reload releases every key the daemon had pressed", "statement": "After a reload no key sent through the daemon's key path remains down on the virtual keyboard, and no freed keyboard is used afterwards.", "quantifier": "all histories before and after the reload", "why_tests_cant": "all histories", "anchors": ["src/daemon.c:reload", "src/daemon.c:clear_vkbd", "src/daemon.c:send_key", "src/daemon.c:event_handler"]}
{"id": "C41", "title": "IPC requests are bounded and answered once", "statement": "Every client message gets exactly one success or failure reply, or becomes a listener; oversize messages and timeouts over one second are rejected before acting; bind succeeds iff some config accepted the expression.", "quantifier": "all messages, all daemon states", "why_tests_cant": "all byte strings", "anchors": ["src/daemon.c:handle_client"]}
{"id": "C42", "title": "USB gadget reports show the held keys", "statement": "The HID report always contains no key twice, contains only held keys, and contains all of them if at most six distinct non-modifier keys were ever down at once; modifier bits equal the held modifiers.", "quantifier": "all key event histories", "why_tests_cant": "all histories", "anchors": ["src/vkbd/usb-gadget.c:update_key_state", "src/vkbd/usb-gadget.c:update_modifier_state"]}
{"id": "C43", "title": "Mouse buttons survive the round trip", "statement": "A mouse button event read from a device and passed through keyd unmapped is written as the same evdev button to the virtual pointer, and ordinary keys below 256 are written as themselves to the virtual keyboard.", "quantifier": "all evdev key codes", "why_tests_cant": "finite but exhaustive table, both translation directions", "anchors": ["src/device.c:device_read_event", "src/vkbd/uinput.c:write_key_event"]}
{"id": "C44", "title": "Scroll emulation loses no motion", "statement": "While scroll mode is on, for every sequence of mouse movements the emitted ticks times the sensitivity plus the carried remainder equals the total movement, and the remainder stays smaller than the sensitivity.", "quantifier": "all movement sequences, all non-zero sensitivities", "why_tests_cant": "unbounded sequences", "anchors": ["src/daemon.c:event_handler"]}
{"id": "C45", "title": "Absolute pointer positions are normalised", "statement": "An absolute coordinate within the device's reported range is scaled into 0..1024.", "quantifier": "all ranges, all values in range", "why_tests_cant": "all 32-bit triples", "anchors": ["src/device.c:device_read_event"]}
{"id": "C46", "title": "Aliases", "statement": "Binding an alias binds every key carrying that alias and no other key; assigning an alias that is itself a key name makes the aliased key default to that key.", "quantifier": "all alias tables, all alias names, all bindings", "why_tests_cant": "all tables", "anchors": ["src/config.c:parse_alias_section", "src/config.c:set_layer_entry"]}
{"id": "C47", "title": "Config file reading stays inside its buffer", "statement": "Reading a config file of any size, with any includes, either fails or stores at most the buffer's capacity including the terminator.", "quantifier": "all file contents", "why_tests_cant": "all sizes around the limit", "anchors": ["src/config.c:read_file"]}
{"id": "C48", "title": "Deadlines survive the main loop", "statement": "If the engine asked to be woken at a deadline and no key event intervenes, the main loop delivers a wakeup to that keyboard at or after the deadline.", "quantifier": "all schedules of other events and processing delays", "why_tests_cant": "all schedules", "anchors": ["src/evloop.c:evloop", "src/daemon.c:event_handler"]}
{"id": "C49", "title": "Macro text parses to what it says", "statement": "A macro text yields, token by token, the key sequences, held groups, delays and characters it names, at most 256 entries, and a text that would need more is rejected.", "quantifier": "all macro texts", "why_tests_cant": "all strings", "anchors": ["src/macro.c:macro_parse", "src/string.c:is_timeval"]}
{"id": "C50", "title": "The engine stops the daemon only at its documented limits", "statement": "Handling any batch of key events, from any state reached by events and by bindings changed at run time, either succeeds or aborts at one of seven known places: the capacity assertions (64 deadlines, 32 events held back by a chord or by a hold-tap key, three simultaneous chords), the assertion that a deactivated layer was active, and two 8-bit counters overflowing. The only exception is an array overrun, which needs `keyd bind reset` while a chord is being decided. It never follows a missing chord pointer, never indexes outside a queue otherwise, and never runs forever. Each of the seven places is reached by ordinary key events.", "quantifier": "all configurations, all event histories with bindings changed in between, all timestamps", "why_tests_cant": "absence of crashes over all histories cannot be sampled", "anchors": ["src/keyboard.c:kbd_process_events", "src/keyboard.c:resolve_chord", "src/keyboard.c:handle_chord", "src/keyboard.c:schedule_timeout", "src/keyboard.c:handle_pending_key"]}
{"id": "C51", "title": "Settings are what the document's last line says", "statement": "For every configuration text that is accepted, the device ids are exactly those listed in the [ids] sections, in order and with their m:/k:/- qualifiers; the wildcard is set exactly if some line is '*'; and each [global] setting has the value of the last line that sets it, or its documented default.", "quantifier": "all configuration texts", "why_tests_cant": "unbounded set of texts, sections may repeat and interleave in any order", "anchors": ["src/config.c:parse_id_section", "src/config.c:parse_global_section", "src/config.c:config_parse_string", "src/config.c:config_init"]}
{"id": "C52", "title": "The last binding line for a key wins", "statement": "For every configuration text of ordinary lines that is accepted, a key is bound in a layer to the action of the last line in that layer's sections that names it (by key name or alias), whatever other sections contain; a key that no line names keeps its default, and is unbound in new layers.", "quantifier": "all configuration texts, all layers, all keys", "why_tests_cant": "unbounded set of texts", "anchors": ["src/config.c:config_parse_string", "src/config.c:config_add_entry", "src/config.c:set_layer_entry", "src/config.c:parse_alias_section"]}
{"id": "C53", "title": "Include lines stand for the included file", "statement": "The text the parser gets from a config file is the file's lines in order, with every line `include name` replaced by the contents of that file - looked up next to the config file first, then in the data directory - or by nothing when there is none or the name contains a dot; included text is not searched for further includes.", "quantifier": "all config files of ordinary lines that fit the buffer, all file systems, all contents of uninitialised memory", "why_tests_cant": "ranges over all file contents and over what the stack happens to contain", "anchors": ["src/config.c:read_file", "src/config.c:resolve_include_path"]}
{"id": "C54", "title": "Requests arrive as they were made", "statement": "A request of a keyd command reaches the daemon with its type, timeout, size and data unchanged, and a reply reaches the client, however the kernel splits reads and writes; and a client that goes away early does not stop the daemon.", "quantifier": "all messages, all ways of splitting the transfers, all contents of uninitialised memory", "why_tests_cant": "ranges over all schedules of partial reads and writes", "anchors": ["src/util.c:xread", "src/util.c:xwrite", "src/keyd.c:ipc_exec", "src/keyd.c:read_input", "src/daemon.c:handle_client"]}
{"id": "C55", "title": "Devices are recognised by vendor, product and capabilities", "statement": "A line vvvv:pppp in [ids] (lower case hexadecimal) matches exactly the devices with this vendor and product id; a device is a keyboard when it has the digits and the letters Q to Y, or a volume or brightness key, a mouse when it has an axis, and is ignored when it is neither; and keyd's own virtual devices are never taken over, whatever the configs say.", "quantifier": "all devices (names, ids, key sets, axis masks) and all configs", "why_tests_cant": "ranges over all device descriptions and id pairs", "anchors": ["src/device.c:resolve_device_capabilities", "src/device.c:generate_uid", "src/device.c:device_init", "src/daemon.c:manage_device"]}
{"id": "C56", "title": "Actions mean what they say", "statement": "Every action of the manual (key sequences, layer/oneshot/toggle/swap/setlayout/clear and their macro variants, overload, overloadt, overloadt2, overloadi, timeout, lettermod, macro, macro2, command, scroll, and the deprecated names), nested to any depth and spaced in any way, is accepted when its layers exist and the tables have room, and the descriptor stored stands for exactly that action: same keys, same named layers, same nested actions in the same places, same times. In a whole document, the last line for a key decides. Calls of unknown actions, with the wrong number of arguments, or on missing layers, layouts or main are rejected.", "quantifier": "all action texts (UTF-8, up to 511 bytes), all configs, all documents", "why_tests_cant": "actions nest arbitrarily and refer to tables by index; a wrong index or a swapped argument shows only for some nestings and some earlier bindings", "anchors": ["src/config.c:parse_descriptor", "src/config.c:actions", "src/config.c:parse_fn", "src/config.c:parse_macro_expression", "src/config.c:parse_command"]}
{"id": "C57", "title": "Reading a config always ends, and stops the daemon only at nine places", "statement": "Whatever the bytes of a config file, reading it terminates with a config, a refusal, or at one of nine identified places (five assertions, three null pointers, one array overrun), all of which some file reaches. A binding added at run time can stop the daemon only at two of them: malformed UTF-8 and a sixth argument.", "quantifier": "all file contents; all bind expressions on all reachable configs", "why_tests_cant": "termination and absence of other crash points range over all byte strings", "anchors": ["src/config.c:config_parse_string", "src/config.c:config_add_entry", "src/ini.c:ini_parse_string", "src/string.c:utf8_read_char"]}
{"id": "C58", "title": "overloadi chooses by the time since the last symbol", "statement": "A key bound to overloadi(action1, action2, T) and pressed at time t performs action1 if a key typing a symbol (a key alone or with shift) was last pressed or released less than T ms before t, and action2 otherwise; it is held with the chosen action, so that its release ends that action.", "quantifier": "every config, every history of key events, every time and timeout", "why_tests_cant": "the choice depends on the whole history of keys and their times; the boundary and the interplay with other actions range over all histories", "anchors": ["src/keyboard.c: process_descriptor (OP_OVERLOAD_IDLE_TIMEOUT, OP_KEYSEQUENCE), last_simple_key_time", "docs/keyd.scdoc: overloadi"]}
{"id": "C59", "title": "Commands run once, when their action is performed", "statement": "Whatever key events arrive, the shell commands the daemon runs are exactly those of the command actions performed, each once, in order: pressing a key bound to command(s) runs s once; holding it, timers and releasing it run nothing more (a tapped overload key performs its action at the release). No other action runs a command.", "quantifier": "every state, every batch of key events, every config", "why_tests_cant": "a command run twice, or run by a timer or a release, depends on the interplay of the action with pending keys, repeats and layers over every history", "anchors": ["src/keyboard.c: process_descriptor (OP_COMMAND, OP_OVERLOAD*, OP_TIMEOUT)", "src/keyboard.c: execute_command"]}
{"id": "C60", "title": "Scroll emulation follows the scroll keys and nothing else", "statement": "Scroll emulation is on, and with the sensitivity n, exactly as the scroll(n) and scrollt(n) keys pressed and released say: scroll(n) turns it on while held and off when released, scrollt(n) flips it when pressed; no other key, timer or layer change touches it.", "quantifier": "every state, every batch of key events, every config", "why_tests_cant": "the mode must survive every other action and history", "anchors": ["src/keyboard.c: process_descriptor (OP_SCROLL, OP_SCROLL_TOGGLE)", "src/keyboard.h: scroll"]}
{"id": "C61", "title": "Keystrokes reach the host with exactly their modifiers", "statement": "When a key bound to a key sequence or to a macro of text and key sequences is pressed, the host sees exactly the keystrokes asked for, in order, each with its own modifiers and those of the layers that stay active, but not those of the layer the binding comes from (for a macro that does not itself use a modifier an active layer holds down).", "quantifier": "every state in which the key is handled at once, every config, every macro of text, key sequences and pauses, every time", "why_tests_cant": "the modifiers seen by the host at each key press depend on all active layers and on the order of the modifier events", "anchors": ["src/keyboard.c: process_descriptor (OP_KEYSEQUENCE, OP_MACRO, OP_MACRO2)", "src/keyboard.c: update_mods", "src/keyboard.c: set_mods", "src/macro.c: macro_execute"]}
{"id": "C62", "title": "keyd input types its text", "statement": "A text sent with `keyd input` is typed on the host exactly: each character is the keystroke(s) that bear it (with shift for upper characters, the compose sequence for the characters of the table), in order, up to the first character that cannot be typed; no key is left down, and the reply says whether everything was typed.", "quantifier": "every text, every state of the daemon, every pause", "why_tests_cant": "every character of Unicode and every text must be covered; the keys left down matter after any prefix", "anchors": ["src/daemon.c: input", "src/daemon.c: handle_client (IPC_INPUT)", "src/unicode.c", "src/string.c: utf8_read_char"]}
{"id": "C63", "title": "keyd do performs its macro", "statement": "A macro sent with `keyd do` is performed on the host exactly: the keystrokes of its text and key sequences, in order, with their modifiers, leaving no key down; a text that is not a macro is refused and sends nothing.", "quantifier": "every macro text, every state of the daemon, every pause", "why_tests_cant": "ranges over all macros", "anchors": ["src/daemon.c: handle_client (IPC_MACRO)", "src/macro.c: macro_execute", "src/macro.c: macro_parse"]}
{"id": "C64", "title": "The layer indicator tells whether a layer is active", "statement": "With `layer_indicator` set, the caps lock LED of every device of a keyboard is lit exactly while one of the keyboard's layers (other than main and the layouts) is active.", "quantifier": "every history of the daemon: key events of any device, wakeups, clients, devices plugged in and out, several keyboards and devices", "why_tests_cant": "holds at every point of every history, across several devices sharing a keyboard", "anchors": ["src/daemon.c: on_layer_change", "src/daemon.c: event_handler", "src/daemon.c: reload", "src/device.c: device_set_led"]}
{"id": "C65", "title": "Section headings declare the layers", "statement": "The layers of a configuration are the built-in ones (main and the modifier layers) followed by one layer per new section heading, in order, named and typed as the heading says (`name`, `name:layout`, `name:MODS`, `a+b`); a second heading of the same name declares nothing new, and a refused heading changes nothing. At start the layout named by `default_layout` is active.", "quantifier": "every sequence of headings, every name", "why_tests_cant": "all sequences of headings and names", "anchors": ["src/config.c: config_add_layer", "src/config.c: new_layer", "src/config.c: parse_config_string", "src/keyboard.c: new_keyboard"]}
{"id": "C66", "title": "Events reach the keyboard they are meant for, and no other", "statement": "Key events of a device go, one at a time and unchanged, to the keyboard whose config manages the device; each step of its wheel is a tap of the corresponding scroll key there; a click or wheel step of a mouse no config manages counts as a (silent) key tap on the keyboard used last, and a wakeup goes to the keyboard used last. No other keyboard's layers, pending decisions or bindings change, the host is sent exactly what that keyboard sends, and pointer motion of managed devices is passed on unchanged.", "quantifier": "every state of the daemon, every event, every set of configs and devices", "why_tests_cant": "ranges over all histories of several keyboards and devices; isolation is a statement about everything that does not happen", "anchors": ["src/daemon.c: event_handler", "src/daemon.c: process_keypress", "src/daemon.c: send_key", "src/keyboard.c: kbd_process_events"]}
{"id": "C67", "title": "A chord line binds exactly the chord it names", "statement": "In an accepted config file, a line `k1+k2+... = action` in a layer's section (two to eight key names) gives the layer exactly one chord made of exactly those keys, standing for that action, provided no other chord line of the layer overrides it; and the layer has no other chords than those its lines name. (False of the code when an earlier chord line of the layer names all those keys and more: then that chord's action is changed instead.)", "quantifier": "every config file, every layer, every chord line and every action text", "why_tests_cant": "ranges over all documents and all combinations of other lines", "anchors": ["src/config.c: set_layer_entry", "src/config.c: layer_lookup_chord"]}
{"id": "C68", "title": "The layers follow the actions performed", "statement": "Whatever a batch of events does to the layers (how often each is activated, since when, toggled, one-shot) is the composition, in order, of what each performed action is documented to do to layers: layer/overload activate while held, toggle flips, one-shot counts, clear and setlayout reset, swap exchanges, keys/macros/commands spend one-shots; nothing else changes the layers except the expiry of one-shots when a timeout is configured, and each key is looked up with the layers its predecessors left.", "quantifier": "all keyboard states, all batches of events, with chords, undecided keys and nested actions", "why_tests_cant": "ranges over all interleavings of layer actions, undecided keys, chords and deadlines", "anchors": ["src/keyboard.c: process_descriptor", "src/keyboard.c: clear_oneshot", "src/keyboard.c: clear", "src/keyboard.c: setlayout", "src/keyboard.c: activate_layer", "src/keyboard.c: deactivate_layer"]}
{"id": "C69", "title": "From devices to host, a remapping config is a remapping machine", "statement": "A daemon started with one config file that only remaps keys and holds modifier layers turns the events of all its devices, in the order they come, into exactly the calls of the virtual keyboard a small remapping machine would make: keys struck and released as remapped, wheel steps as wheel steps, a modifier down exactly while a key holding its layer is held on any keyboard; with no remapping the host gets the keys typed. It never stops, whatever devices come and go and whatever else happens.", "quantifier": "every such config, every sequence of loop events other than client requests, any number of devices, any timestamps", "why_tests_cant": "ranges over all event sequences, devices and configs, through the whole daemon", "anchors": ["src/daemon.c: event_handler", "src/daemon.c: process_keypress", "src/daemon.c: send_key", "src/keyboard.c: kbd_process_events", "src/evloop.c: evloop"]}
{"id": "C70", "title": "A file of remaps does what it says, from its text to the host", "statement": "Every configuration file consisting of an [ids] section and a [main] section of lines 'key = target' between key names is accepted, and a daemon started with it makes the host see exactly the keys typed on all its keyboards, each replaced by what the last line about it says (itself if no line is about it), in order; a modifier is down at the host exactly while a key standing for it is held.", "quantifier": "all lists of up to 1024 such lines, all ids, all sequences of key events of any number of devices (no two typed keys standing for the same key), any timestamps, any other events in between except client requests", "why_tests_cant": "ranges over all files and all typing through parser, engine and daemon at once", "anchors": ["src/ini.c: ini_parse_string", "src/config.c: config_parse_string", "src/config.c: config_add_entry", "src/config.c: set_layer_entry", "src/config.c: parse_descriptor", "src/keyboard.c: process_event", "src/daemon.c: event_handler"]}
{"id": "C71", "title": "What keyd sends arrives", "statement": "Every key that can be named in a configuration file, and every pointer or wheel movement, is written to a virtual device that has been set up to report it, so the host gets it.", "quantifier": "all key codes and values, all coordinates", "why_tests_cant": "ranges over every key code and coordinate against the capabilities the virtual devices announce", "anchors": ["src/vkbd/uinput.c: create_virtual_keyboard", "src/vkbd/uinput.c: create_virtual_pointer", "src/vkbd/uinput.c: write_key_event", "src/vkbd/uinput.c: vkbd_mouse_move_abs", "src/keys.c: keycode_table"]}
{"id": "C72", "title": "From the wire to the wire", "statement": "With a configuration file of remaps, the raw key and button events the host gets from keyd's virtual devices are exactly those read from the physical devices, each with the key the file says, the same value and in the same order (modifiers aside, see C70), and the raw pointer motion it gets is exactly the motion read, unchanged; keys keyd does not know produce nothing.", "quantifier": "all files of up to 1024 remaps, all sequences of raw key and motion events from any number of devices at any times, with wakeups and devices coming and going in between", "why_tests_cant": "ranges over all files and all raw event sequences through the device reader, parser, engine, daemon and virtual device writer at once", "anchors": ["src/device.c: device_read_event", "src/daemon.c: event_handler", "src/config.c: config_parse_string", "src/keyboard.c: kbd_process_events", "src/vkbd/uinput.c: write_key_event", "src/vkbd/uinput.c: vkbd_mouse_move"]}
{"id": "C73", "title": "A configuration that never defers a key is a small deterministic machine", "statement": "With a configuration whose keys are bound to keys (modifier keys too) with or without modifiers, layer, oneshot, toggle and swap (each with or without a one-key macro), overload (tapping any of these, or a one-key macro), overloadi between such actions, command, clear, clearm and setlayout, with or without oneshot_timeout, the host sees exactly the keys, each with exactly the modifiers, and keyd runs exactly the commands, that a short table-driven machine gives: look the key up in the most recently activated active layer that binds it (composites and the layout included), remember the binding in one of 16 places until the key is released, and play it; swap hands the layer a key holds to another layer; one-shot layers end with the next key, or when their time is up; overloadi chooses by the time since the last ordinary key.", "quantifier": "all such configurations (any layers, any composites, any modifiers, any timeouts), all sequences of physical key events and timeouts at any times", "why_tests_cant": "it characterises the whole output for every configuration of the class and every event history; tests can only sample both", "anchors": ["src/keyboard.c: kbd_process_events", "src/keyboard.c: process_descriptor", "src/keyboard.c: lookup_descriptor", "src/keyboard.c: update_mods"]}
{"id": "C74", "title": "The daemon plays the machine", "statement": "When the daemon runs with one such configuration, what the host gets from the virtual keyboard - keys, wheel motion, and the modifiers held with each - is exactly what the machine of C73 gives for the key events read from all the physical devices together, whatever devices come and go.", "quantifier": "all configurations of the class of C73, all sessions of any number of devices, key, wheel and motion events and wakeups", "why_tests_cant": "ranges over all configurations and all event loops of the daemon", "anchors": ["src/daemon.c: event_handler", "src/daemon.c: send_key", "src/keyboard.c: kbd_process_events", "src/vkbd/uinput.c: vkbd_send_key"]}
{"id": "C75", "title": "keyd bind applies its bindings and reports", "statement": "`keyd bind e1 e2 ...` makes every keyboard of the daemon evaluate the expressions in order, sends no key, concerns no device and no listener; it prints Success and exits with 0 just when every expression was accepted by some keyboard, and exits with -1 otherwise. (An argument of 4096 bytes or more stops the command halfway.)", "quantifier": "all lists of arguments, all reachable states of the daemon, all contents of uninitialised message buffers", "why_tests_cant": "ranges over all argument lists and daemon histories", "anchors": ["src/keyd.c: add_bindings", "src/keyd.c: ipc_exec", "src/ipc.c: ipc_connect", "src/daemon.c: handle_client"]}
{"id": "C76", "title": "keyd input and keyd do, end to end", "statement": "`keyd input [-t ms] text...` (or the text on standard input) types on the host exactly the characters of the text up to the first that cannot be typed, and exits with 0 just when all were typed; `keyd do` performs exactly the keystrokes of the macro with their modifiers and exits with 0, or performs nothing and exits with 1 if it is not a macro. No key is left down. A text of 4096 bytes or more is not sent at all.", "quantifier": "all texts, options and daemon states, all contents of uninitialised message buffers", "why_tests_cant": "ranges over all texts and daemon states", "anchors": ["src/keyd.c: input", "src/keyd.c: cmd_do", "src/keyd.c: read_input", "src/daemon.c: handle_client", "src/daemon.c: input"]}
{"id": "C77", "title": "The command line selects the command; list-keys lists the keys", "statement": "The command run is the one whose name or flag is the first argument, any other argument shows the help, and no argument runs the daemon. `keyd reload` makes the daemon reload its configuration, and succeeds. `keyd list-keys` prints exactly the key names, one on each line: each printed name can be used as an action, alone and with modifier prefixes, and every key sequence that can be used ends in a printed name or is a list of modifiers.", "quantifier": "all argument vectors, all names and key sequences", "why_tests_cant": "ranges over all strings", "anchors": ["src/keyd.c: main", "src/keyd.c: list_keys", "src/keys.c: parse_key_sequence"]}
{"id": "C78", "title": "keyd monitor can be read back", "statement": "The output of `keyd monitor`, read line by line and column by column, gives exactly the key events that happened, in order: the device's name and id, the key, and whether it went down or up; the printed key name is one a configuration understands as that very key. With -t each line starts with the time since the previous event of any kind.", "quantifier": "all sequences of events on all devices whose texts have no tabs or newlines, all keys but the four codes without a name", "why_tests_cant": "ranges over all event sequences and keys", "anchors": ["src/monitor.c: event_handler", "src/keys.c: keycode_table", "src/config.c: lookup_keycode"]}
{"id": "C79", "title": "Colour markup of messages", "statement": "A message written as plain text and coloured parts r{text} is shown as the text of its parts in order, each coloured part between the terminal's escape sequence for its colour and the one that resets it, or without any of them if colours are suppressed.", "quantifier": "all messages that are shown in under 1024 bytes, with and without colours", "why_tests_cant": "ranges over all messages", "anchors": ["src/log.c: colorize"]}
{"id": "C80", "title": "Taking over a device leaves no stuck key and processes nothing twice", "statement": "keyd takes a device over only when none of its keys is down, so that once it has, no key of that device is down for the rest of the system (unless one is pressed in the moment between the last check and the grab). Whatever the user types meanwhile, no event is both passed on by the kernel and processed by keyd: what keyd reads afterwards are only later events, and none of those that follow its return is lost.", "quantifier": "all interleavings of the user's key events with the steps of the takeover", "why_tests_cant": "ranges over all schedules", "anchors": ["src/device.c: device_grab"]}
{"id": "C81", "title": "No stuck modifiers", "statement": "When no key is held and no macro is being repeated, every modifier key that is down is a modifier of an active layer; so when moreover no layer is toggled or latched for the next key, no modifier is down. Seen from outside: once every key that was pressed has been released (and no event waits behind an undecided key), a modifier is down at the host only for a toggled or latched layer.", "quantifier": "all histories of events and binds over configurations without swap in which the tap actions of overload take effect at once, no single key with modifiers such as macro(C-x) is the macro of an overload tap or of clearm, and one-shot layers have no modifiers if toggle is used. The code violates the claim outside this class: C81_fails_...", "why_tests_cant": "ranges over all histories and configurations", "anchors": ["src/keyboard.c: update_mods", "src/keyboard.c: process_descriptor", "src/keyboard.c: execute_macro", "src/keyboard.c: clear_oneshot"]}
{"id": "C82", "title": "Behaviour does not depend on the uptime", "statement": "What keyd does depends on the times between the events only: if a whole history of key events and binds happens d milliseconds later, the same keys are sent, the same waits are asked for, the same bindings are accepted, and a run that stops at an error stops at the same one. Holds from 65.536 s of uptime on (before, 'idle since the last key' means 'since boot') and while the 32-bit millisecond time of the events does not wrap (24.8 days); across the wrap it is violated (C82_fails_wrap, C82_fails_wrap_repeat).", "quantifier": "all configurations with non-negative time settings obtainable from texts and binds, all histories, all delays d >= 0", "why_tests_cant": "tests run at one uptime; the claim relates all histories at all uptimes", "anchors": ["src/keyboard.c: process_event", "src/keyboard.c: calculate_main_loop_timeout", "src/keyboard.c: handle_chord", "src/keyboard.c: handle_pending_key", "src/keyboard.c: kbd_process_events", "src/evloop.c: get_time_ms"]}
{"id": "C83", "title": "Unplugging a device", "statement": "Unplugging a device has no effect except that its events stop: at the removal nothing is sent (in particular no held key is released), and from then on everything - events of other devices, deadlines, clients, reloads, newly plugged devices - goes as if the device were still in the table and silent: same output to the virtual keyboard, listeners and clients, same waits, same keyboards and lights for the other devices. A key held on the unplugged device therefore stays down at the host until it is released on another device with the same configuration (or by clear or reload).", "quantifier": "all daemon states, all devices, all later event sequences not from that device, with configuration files, grabs and clients varying freely from event to event", "why_tests_cant": "all continuations after all histories", "anchors": ["src/daemon.c: event_handler", "src/evloop.c: evloop", "src/daemon.c: manage_device", "src/daemon.c: on_layer_change"]}
{"id": "C84", "title": "Plugging in a device disturbs nothing", "statement": "Plugging in a device sends nothing to the virtual keyboard, listeners or clients, and as long as the new device is not used everything else goes exactly as if it had not been plugged in: keys held, undecided keys, deadlines, layers and lights of the other devices are as they would have been.", "quantifier": "all daemon states, all devices, all later event sequences not from that device, with configuration files, grabs and clients varying freely from event to event", "why_tests_cant": "all continuations after all histories", "anchors": ["src/daemon.c: event_handler", "src/daemon.c: manage_device", "src/evloop.c: evloop"]}
{"id": "C85", "title": "Which sections of app.conf apply to a window", "statement": "When a window comes into focus, the application mapper runs `keyd bind reset` followed by the bindings of exactly those sections of app.conf whose class pattern fits the window's class and whose title pattern (default *) fits its title, in the order of the file. Class and title are matched by their words joined by dashes, in lower case; in a pattern * stands for any text, ? for any character and [...] for one of a set. Blank lines, comments and surrounding white space do not matter.", "quantifier": "every app.conf made of sections, every window class and title, whatever Python's character tables say", "why_tests_cant": "all files, patterns and names", "anchors": ["scripts/keyd-application-mapper: parse_config", "scripts/keyd-application-mapper: lookup_bindings", "scripts/keyd-application-mapper: normalize_class", "scripts/keyd-application-mapper: normalize_title", "scripts/keyd-application-mapper: on_window_change"]}
{"id": "C86", "title": "Focusing a window sets its bindings, whatever was focused before", "statement": "After a window comes into focus each keyboard of the daemon has the bindings loaded from its configuration file with those of the window's sections of app.conf added on top in order, whatever windows had the focus before and whatever was bound by hand or typed; nothing else changes: no key is sent or released, no layer entered or left.", "quantifier": "every history of the daemon, every app.conf and window (bindings under 4096 bytes)", "why_tests_cant": "all histories", "anchors": ["scripts/keyd-application-mapper: on_window_change", "src/keyd.c: add_bindings", "src/daemon.c: handle_client", "src/keyboard.c: kbd_eval"]}
{"id": "C87", "title": "The application mapper follows the focus (wlroots)", "statement": "Whatever the compositor says of the windows, the mapper is told of the class and title of the focused window each time the compositor has finished describing it (so on every change of focus and every change of its title), and of no other window.", "quantifier": "all sequences of messages of the compositor", "why_tests_cant": "all sequences of messages, any number of windows", "anchors": ["scripts/keyd-application-mapper: Wlroots.run"]}
{"id": "C88", "title": "The daemon stops only at known places", "statement": "Whatever happens - key, pointer and timer events, devices plugged and unplugged, client requests, configuration files edited and reloaded - handling it comes to an end, and the daemon goes on running unless the panic sequence was typed or it stops at one of seventeen known places: the eight of the key engine for input events, invalid UTF-8 for `macro` and `input` requests, that or a call with six arguments for `bind`, the nine of the configuration parser for `reload`. Plugging devices, `listen` and malformed requests never stop it. A freed keyboard is used only after a reload.", "quantifier": "all configuration files, all event sequences in all batches at all times, all client messages, all device sets", "why_tests_cant": "the absence of any other abort, overrun or endless loop over all histories", "anchors": ["src/daemon.c: event_handler", "src/daemon.c: handle_client", "src/evloop.c: evloop", "src/keyboard.c: kbd_process_events", "src/config.c: config_parse"]}
{"id": "C89", "title": "The text typed is the text received", "statement": "An application with a US layout that uses the generated compose file receives exactly the text: the text given to `keyd input` up to the first character that cannot be typed, what the words of a macro say for `keyd do` and for a key bound to a macro. Each character of the table has one line in the compose file, and no other line has its keys.", "quantifier": "all texts of any characters, all macros of words, key sequences and delays, all states in which the key is handled at once", "why_tests_cant": "the agreement of two generated tables with 34493 entries and of the sequences with one another, for every text", "anchors": ["scripts/generate_xcompose", "data/keyd.compose", "src/unicode.c: unicode_get_sequence", "src/daemon.c: input", "src/macro.c: macro_execute"]}
{"id": "C90", "title": "Which files of the config directory count", "statement": "The daemon loads exactly the entries of the config directory that are not directories, are called something.conf, and can be read and parsed; every other entry - also a file with an error - has no effect at all. The order of the directory decides nothing for a device unless two files tie for it (both list it, or both take it by a wildcard).", "quantifier": "all directories in all orders, all file contents, all devices", "why_tests_cant": "every order readdir may give and every mixture of good and bad files", "anchors": ["src/daemon.c: load_configs", "src/daemon.c: lookup_config_ent", "src/config.c: config_parse"]}
{"id": "C91", "title": "One daemon at a time", "statement": "Provided the shell that runs commands can be executed: however many keyd processes are started, in whatever interleaving, and wherever they crash, at most one is past the lock at any time; while it serves, the socket path names its socket; what other processes do in the meantime (attempts to start, failures, crashes) takes from it neither its progress nor its socket, and a process that got the lock comes to serve.", "quantifier": "all interleavings of the start-up steps of any number of processes, all crash points, all programs started by commands", "why_tests_cant": "races between the start-up steps of several processes and crashes at each point", "anchors": ["src/ipc.c: ipc_create_server", "src/daemon.c: run_daemon", "src/keyboard.c: execute_command"]}
{"id": "C92", "title": "A new daemon can start once the old one has ended", "statement": "Once the daemon has ended, in whatever way, a new keyd can start, also if the old socket is still in the file system; clients cannot connect to a daemon that is gone.", "quantifier": "all histories of processes and crashes", "why_tests_cant": "every crash point and every set of surviving processes", "anchors": ["src/ipc.c: ipc_create_server", "src/keyboard.c: execute_command"]}
{"id": "C93", "title": "keyd listen shows the lines that were sent", "statement": "Whatever the pieces in which the bytes of the connection arrive and the terminal takes them, what `keyd listen` has printed is at any time the beginning of what the daemon has sent to it, and nothing is lost while it runs; the complete lines it has printed are the first lines sent, unchanged. Reading them line by line, the user has the current layout and (where C39 holds) exactly the active layers in front of him once all of it has been read.", "quantifier": "all streams, all partial reads and writes, all failures of poll, read and write, all configurations and histories of the keyboard", "why_tests_cant": "every way of cutting the stream into reads and writes, and every history of layer changes", "anchors": ["src/keyd.c: layer_listen", "src/util.c: xwrite", "src/daemon.c: add_listener, on_layer_change"]}
{"id": "C94", "title": "Every new device node is looked at once, in order", "statement": "Whatever the notices of created nodes, however `read` cuts them into deliveries, and whatever earlier deliveries left in the buffer, keyd looks at each new event node exactly once, in the order of their creation, and adds the usable ones to its table in that order; at its start it takes the event nodes of /dev/input in the order of the directory, whatever the order in which its threads finish. With more than 64 devices it stops at an assertion and writes nothing past the table.", "quantifier": "all notices, all ways they are delivered, all buffer contents, all results of opening the nodes, all orders of the threads", "why_tests_cant": "every cutting of the stream and every thread order; unit tests have no inotify", "anchors": ["src/device.c: devmon_read_device, device_scan, device_scan_worker", "src/evloop.c: evloop"]}
{"id": "C95", "title": "No device is missed, whenever it is plugged in", "statement": "A usable input node that exists once the main loop runs and has read its notices has been opened by keyd, also if it appeared while keyd started or was listing the directory. A node that appears before the watch or in the main loop, and whose name is not used again, is opened at most once. Nothing that keyd cannot use is opened as a device.", "quantifier": "all interleavings of devices coming and going with the start of the daemon, its threads and its notices", "why_tests_cant": "races between plugging in and the start of the daemon", "anchors": ["src/evloop.c: evloop", "src/device.c: devmon_create, device_scan, devmon_read_device"]}
{"id": "C96", "title": "What a wayland compositor sends is what the application mapper acts on", "statement": "However the compositor's messages are spread over time, the application mapper reads them in order and unchanged, finds the window interface if and only if it is announced before the end of the registry's list, ignores messages about other things, and reports the windows that the messages about titles, classes and activation call for (wlroots; on Cosmic: a window announced as activated, with its last class and title).", "quantifier": "all sequences of messages, all arrivals of their bytes, all turns of the mapper", "why_tests_cant": "messages and their arrival are unbounded; a message split in two by the socket is rare", "anchors": ["scripts/keyd-application-mapper: Wayland.recv_msg, Wayland.read_string, Wayland._bind_interface, Wlroots.run, Cosmic.run"]}
{"id": "C97", "title": "The application mapper follows the focus (X)", "statement": "After every event of the X server at which there is an active window, the last window reported is that one: the frontmost window kept above the others that is no notification, or else the one with the input focus, under the class and title of the nearest window around it that has a class. A window is not reported twice in a row by events, an event without an active window reports nothing, and SIGUSR1 repeats the last report.", "quantifier": "all sequences of events and signals, all window trees", "why_tests_cant": "unbounded trees and histories", "anchors": ["scripts/keyd-application-mapper: XMonitor.run, XMonitor.get_window_info, new_interruptible_generator"]}
{"id": "C98", "title": "The application mapper follows the focus (Gnome)", "statement": "The windows the extension tells about are reported in order, each once and none left out; when the mapper has nothing to do but wait, the last window reported is the one that has the focus.", "quantifier": "all sequences of windows, all interleavings of the extension's writes with the mapper's turns", "why_tests_cant": "it depends on how writes and reads interleave", "anchors": ["scripts/keyd-application-mapper: GnomeMonitor.run, new_interruptible_generator", "data/gnome-extension-45/extension.js: send, enable"]}
{"id": "C99", "title": "Edits of app.conf take effect at the next focus change", "statement": "Every window change is handled with the text app.conf has at that moment, however often it was edited before; if it cannot be parsed no command is run for the window, and the next change after a repair is handled with the repaired file.", "quantifier": "all histories of edits and window changes", "why_tests_cant": "edits may fall between any two steps of the mapper", "anchors": ["scripts/keyd-application-mapper: on_window_change, last_mtime"]}
{"id": "C100", "title": "Stopping the daemon with a signal", "statement": "At whatever moment SIGTERM or SIGINT comes, also in the middle of a reload, the daemon ends without touching freed memory; reloading itself never touches freed memory, and however often it is done nothing is left allocated but the configurations in use.", "quantifier": "all histories of reloads, all moments between two statements at which the signal may come", "why_tests_cant": "the signal may come between any two statements", "anchors": ["src/keyd.c: main (signal)", "src/daemon.c: cleanup, free_configs, load_configs, reload"]}
{"id": "C101", "title": "Keys reach a USB host", "statement": "When keyd runs as a USB keyboard gadget, the host it is plugged into holds exactly the keys that keyd holds, as long as no more than six ordinary keys are down at once; the bytes of a report that keyd does not initialise make no difference.", "quantifier": "all sequences of key events, all moments at which the host asks for reports, all values of the uninitialised byte", "why_tests_cant": "it depends on how the host's polling interleaves with the keys sent, and ranges over all key histories", "anchors": ["src/vkbd/usb-gadget.c: send_hid_report, vkbd_send_key, update_key_state, update_modifier_state", "src/vkbd/usb-gadget.sh: report descriptor", "src/vkbd/usb-gadget.h: hid_table"]}
{"id": "C102", "title": "Several keyboards on one virtual keyboard", "statement": "However many keyboards with however many configurations are used at once, mixed with typing by clients, bind requests, reloads and devices coming and going: whatever key is down at the host is held down by some keyboard; a key that only one keyboard sends is down exactly when that keyboard holds it down; and once every key has been released on every keyboard, no key is down at the host, and a modifier only if a layer that is toggled or waiting for one more key asks for it.", "quantifier": "all numbers of configurations and devices, all interleavings of their events, deadlines, client requests, reloads and hot-plugging", "why_tests_cant": "ranges over all interleavings of the event streams of any number of keyboards", "anchors": ["src/daemon.c: event_handler, send_key, handle_client, reload", "src/keyboard.c: kbd_process_events"]}
{"id": "C103", "title": "Every keyboard plays its own machine", "statement": "With any number of configuration files and keyboards used at once (wheels turned, pointers moved, devices coming and going, time passing), what the virtual devices are told besides pointer motion is a mixture of what the keyboards do, and each keyboard does exactly what the keyboard machine (C73) of its own configuration says for the events that came for it, whatever happens on the other keyboards: every key that goes down or up with the modifiers this keyboard holds then, the commands run, and what it holds afterwards.", "quantifier": "all numbers of configuration files of the machine's actions, all devices, all interleavings of their events, deadlines and hot-plugging, without client requests", "why_tests_cant": "ranges over all configurations and all interleavings of the event streams of any number of keyboards", "anchors": ["src/daemon.c: event_handler, load_configs, lookup_config_ent", "src/keyboard.c: kbd_process_events"]}
{"id": "C104", "title": "A listener of several keyboards", "statement": "However many keyboards are used at once, whatever layer a `keyd listen` client believes active (from the lines the daemon writes to it) is active on some keyboard, and the layout it believes in is the current layout of some keyboard; of a layer that only one keyboard has, and that this keyboard does not activate twice, it knows exactly when it is active, whatever happens on the other keyboards; with one configuration file it has all the knowledge C39 promises. It keeps this knowledge across reloads.", "quantifier": "all numbers of configurations and devices, all interleavings of their events, deadlines, requests of other clients and hot-plugging, all moments of connecting", "why_tests_cant": "ranges over all interleavings of the event streams of any number of keyboards and clients", "anchors": ["src/daemon.c: on_layer_change, add_listener, event_handler, handle_client, reload", "src/keyboard.c: kbd_process_events"]}
{"id": "C105", "title": "keyd monitor gives the terminal back", "statement": "keyd monitor switches off the echo of a terminal while it runs; however and whenever it ends, the terminal reads lines and echoes again, as it did before, and nothing typed meanwhile is left for the next program.", "quantifier": "all moments at which the process is ended, by a signal or by itself, all that is typed, all kinds of standard input and output and initial terminal states", "why_tests_cant": "ranges over all crash points and all interleavings of signals with the statements of the program", "anchors": ["src/monitor.c: set_tflags, cleanup, monitor, event_handler", "src/keyd.c: main (signal)"]}
{"id": "C106", "title": "One application mapper at a time", "statement": "However many application mappers are started by a user, in the background or not, and whenever any of the processes ends, never more than one is active. A new one becomes the mapper exactly when no process of an earlier one is left that runs the script (otherwise it ends); programs that an earlier one started do not stand in the way, and every process that keeps the lock without being the mapper lets go of it by running on.", "quantifier": "all interleavings of starts, locks, forks, program starts and deaths of any number of processes", "why_tests_cant": "ranges over all schedules and crash points of any number of processes", "anchors": ["scripts/keyd-application-mapper: lock, daemonize, run_or_die, on_window_change"]}
{"id": "C107", "title": "The programs of command actions", "statement": "A command action starts exactly one process that runs the command, with /dev/null as standard input, output and error and with no other open file of the daemon. The daemon never waits for the program and leaves no dead child behind, whatever the programs do, whichever system calls fail and whenever any of the processes ends.", "quantifier": "all interleavings of commands, forks, execs, ends and failures of any number of processes; all descriptor tables", "why_tests_cant": "ranges over all schedules, crash points and failures of any number of processes", "anchors": ["src/keyboard.c: execute_command", "src/daemon.c: event_handler (accept)", "src/ipc.c: ipc_create_server"]}
{"id": "C108", "title": "The first devices have no time", "statement": "The devices present when the daemon starts are announced with a time that was never set. Whatever it happens to be, as long as it is not later than the first event, everything keyd sends, shows, answers and waits for is the same.", "quantifier": "all configurations, devices, histories of the main loop and values of the unset time", "why_tests_cant": "ranges over all contents of uninitialised memory and all later histories", "anchors": ["src/evloop.c: evloop (lines 45-55)", "src/daemon.c: event_handler (timeout, last_time)"]}
{"id": "C109", "title": "A binding added at run time does what the line in the file would do", "statement": "keyd bind layer.key = action, for a layer of the configuration, has the effect that the line key = action under the heading [layer] at the end of the file would have had: a keyboard that started with the file and got the requests afterwards, before the first key, gives the same output, waits and answers as one that started with the lines in the file, for every later history of keys and further binds. Only bind reset tells them apart.", "quantifier": "all configuration files, all lists of additions (several layers, any lines), and all later histories of key events, binds and scroll settings", "why_tests_cant": "ranges over all file texts, all added lines (accepted or refused) and all later histories", "anchors": ["src/config.c: config_add_entry, config_parse_string", "src/keyboard.c: kbd_eval, new_keyboard", "src/ini.c: ini_parse_string"]}
{"id": "C110", "title": "A binding of a key that is not pressed has no effect", "statement": "A request layer.key = action to a running keyboard (keyd bind), accepted or refused, has no effect on anything but the presses of that key: after any history without reset, in the middle of held keys, tap-or-hold decisions, chords, layers, toggles and macros, and even when the key itself is held, the output, the waits and the answers are those without the request, as long as the key does not go down and no further binding is made; a reset then brings the two together for good. The same holds of a line added at the end of the file.", "quantifier": "all configuration files, all histories without reset, all requests binding a single key (or several names of it) in any layer, all later histories in which the key does not go down, ending in anything after a reset", "why_tests_cant": "ranges over all texts, all histories before and after and all actions; what must be ruled out is an influence through any of the tables a binding extends, read at any later time", "anchors": ["src/keyboard.c: kbd_eval, kbd_process_events, process_event, lookup_descriptor, process_descriptor", "src/config.c: config_add_entry, set_layer_entry, parse_descriptor"]}
