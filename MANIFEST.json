{"claims": [
{"property": "C01", "status": "partial", "theorems": ["Keyd.C01_output_alternates_partial", "Keyd.C01_keystate_is_host_state", "Keyd.C01_all_keys_without_macros", "Keyd.C01_violated_by_macros"], "note": "holds for keys not emitted by multi-step macros; false otherwise (witness proved)"},
{"property": "C02", "status": "proved", "theorems": ["Keyd.C02_released_as_pressed", "Keyd.C02_released_as_decided", "Keyd.C02_still_held", "Keyd.C02_effect"], "note": "Over every reachable history (any events, binds, layer changes): the next step about a key pressed as a key sequence is its release with the same binding; the release then lets go of exactly that key."},
{"property": "C03", "status": "proved", "theorems": ["Keyd.C03_down_keys_owned", "Keyd.C03_no_stuck_keys", "Keyd.C03_history", "Keyd.C03_history_example", "Keyd.C03_fails_for_deferred_tap"], "note": "Histories of any length with events, wakeups, binds and scrolls. C03_history says it of the events that arrived and the outputs the host sees (configs without chords, where arrivals and decisions correspond). Outside the class: C03_fails_for_deferred_tap."},
{"property": "C04", "status": "proved", "theorems": ["Keyd.C04_activations_accounted", "Keyd.C04_released_inactive", "Keyd.C04_history", "Keyd.C04_fails_for_swap"], "note": "C04_history: for the events that arrived, in configs without chords. Swap leaks activations: C04_fails_for_swap."},
{"property": "C05", "status": "proved", "theorems": ["Keyd.C05_deactivation_safe", "Keyd.C05_fails_for_swap"], "note": "Swap can trip the assertion: C05_fails_for_swap."},
{"property": "C06", "status": "proved", "theorems": ["Keyd.C06_ignored", "Keyd.C13_C06_example"], "note": "For an event that no chord, undecided key, repeating macro or expired one-shot concerns: the press of a key already down (or of a 17th key) and the release of a key not down change nothing but the pruning of expired deadlines."},
{"property": "C07", "status": "proved", "theorems": ["Keyd.C07_refines", "Keyd.C07_any_batches", "Keyd.C07_passthrough", "Keyd.C07_example_empty", "Keyd.C07_example", "Keyd.C07_example_run"], "note": "Refinement of an explicit remapping machine by the engine, for all configurations that bind keys to plain keys or to modifier layers, all events, all batchings; pass-through corollary."},
{"property": "C08", "status": "partial", "theorems": ["Keyd.C08_most_specific_composite", "Keyd.C08_highest_precedence", "Keyd.C08_most_recently_activated", "Keyd.C08_unbound_history", "Keyd.C08_ordinary_over_layout_partial", "Keyd.C08_chord_code", "Keyd.C08_first_activation_ties_with_layout"], "note": "exact precedence proved for all histories; the only deviation from the English rule is that the first layer activation since creation ties with a later-declared layout (witness theorem), so ordinary-over-layout is partial"},
{"property": "C09", "status": "proved", "theorems": ["Keyd.C09_modifiers_exact", "Keyd.C09_other_keys_unchanged", "Keyd.C09_key_down_with_modifiers"], "note": "set_mods/update_mods: each modifier key is down afterwards iff requested explicitly or by an active non-excluded layer; other keys keep their state; also at the level of a key sequence press"},
{"property": "C10", "status": "proved", "theorems": ["Keyd.C10_guarded_release", "Keyd.C10_unguarded_release", "Keyd.C10_no_bare_tap"], "note": "clear_mod, exact output in the guarded and unguarded case; no bare tap of meta/alt at the host"},
{"property": "C100", "status": "partial", "theorems": ["Keyd.C100_idle", "Keyd.C100_exact", "Keyd.C100_stop_partial", "Keyd.C100_example", "Keyd.C100_fails_midway"], "note": "false while free_configs runs (C100_fails_midway, exact set of moments C100_exact); proved at all other moments"},
{"property": "C101", "status": "partial", "theorems": ["Keyd.C101_keys_partial", "Keyd.C101_earlier", "Keyd.C101_example", "Keyd.C101_fails_lost", "Keyd.C101_fails_range"], "note": "proved when the host fetches each report before the next key, and for usages up to 101; in general the host sees an earlier state. Missing: the host may be slower (C101_fails_lost) and usages above 101 never arrive (C101_fails_range); both are defects of the code."},
{"property": "C102", "status": "proved", "theorems": ["Keyd.C102_owner", "Keyd.C102_exact", "Keyd.C102_no_stuck_keys", "Keyd.C102_no_stuck_modifiers", "Keyd.C102_example", "Keyd.C102_shared"], "note": "configurations without chords, swap, deferred tap actions for the last part, as in C03 and C81; C102_shared shows that the condition 'only one keyboard sends it' is needed"},
{"property": "C103", "status": "proved", "theorems": ["Keyd.C103_machines", "Keyd.C103_example"], "note": "each keyboard's share of the output is what the C73 machine of its configuration does"},
{"property": "C104", "status": "partial", "theorems": ["Keyd.C104_believed_partial", "Keyd.C104_exact_partial", "Keyd.C104_layout_partial", "Keyd.C104_single_partial", "Keyd.C104_example", "Keyd.C104_fails_shared", "Keyd.C104_fails_unseen", "Keyd.C104_fails_reload"], "note": "Proved for all interleavings without reload (which the listeners are not told of: C104_fails_reload). Exactness only for layers of one keyboard: with shared names it is false (C104_fails_shared, C104_fails_unseen)."},
{"property": "C105", "status": "partial", "theorems": ["Keyd.C105_exact", "Keyd.C105_restored_partial", "Keyd.C105_hushed", "Keyd.C105_example", "Keyd.C105_fails_killed", "Keyd.C105_fails_twice", "Keyd.C105_fails_early", "Keyd.C105_fails_same"], "note": "Proved for one request to end in the event loop (C105_restored_partial), and the exact set of ends that leave the terminal sane (C105_exact). The full claim is false: the C105_fails theorems."},
{"property": "C106", "status": "proved", "theorems": ["Keyd.C106_one", "Keyd.C106_starts", "Keyd.C106_lets_go", "Keyd.C106_example"], "note": "The lock is a flock lock, as Linux implements it; Python closes it in programs it executes."},
{"property": "C107", "status": "partial", "theorems": ["Keyd.C107_reaped", "Keyd.C107_waits", "Keyd.C107_steady", "Keyd.C107_launched", "Keyd.C107_streams", "Keyd.C107_descriptors", "Keyd.C107_fails_listener", "Keyd.C107_example"], "note": "All proved except 'no other open file': the exact set of inherited descriptors is C107_descriptors, and C107_fails_listener shows one that matters."},
{"property": "C108", "status": "proved", "theorems": ["Keyd.C108_same", "Keyd.C108_example", "Keyd.C108_fails_ahead"], "note": "The whole daemon: start, first devices, main loop; reading an uninitialised value is modelled as an arbitrary value."},
{"property": "C109", "status": "proved", "theorems": ["Keyd.C109_bind_is_line", "Keyd.C109_parsed", "Keyd.C109_bind_stops", "Keyd.C109_example", "Keyd.C109_fails_new_layer", "Keyd.C109_fails_reset"], "note": "Whole parser and whole keyboard, for all texts, additions and later histories; C109_example shows a non-trivial file, four requests (one refused) and a day of keys; the two C109_fails theorems show that the layer must exist and that reset is excepted."},
{"property": "C11", "status": "proved", "theorems": ["Keyd.C11_clear", "Keyd.C11_clear_event", "Keyd.C11_clear_macro", "Keyd.C11_clear_succeeds", "Keyd.C11_main_is_layout", "Keyd.C11_example"], "note": "clear(): all output keys released, toggles and one-shots dropped, counts drop by exactly those shares; clear(macro) is clear then macro; succeeds whenever the counts cover the shares"},
{"property": "C110", "status": "proved", "theorems": ["Keyd.C110_other_keys", "Keyd.C110_history", "Keyd.C110_in_file", "Keyd.C110_example", "Keyd.C110_in_file_example", "Keyd.C110_fails_after_reset"], "note": "All texts, histories and requests for a single key; lines at the end of the file in C110_in_file. The history before the request must not contain reset: C110_fails_after_reset shows why (finding 18)."},
{"property": "C12", "status": "proved", "theorems": ["Keyd.C12_at_most_one_layout", "Keyd.C12_active_layout_is_selected", "Keyd.C12_main_always_active", "Keyd.C12_setlayout"], "note": "over all histories of keyboards created from any parsed/bound config; also: the active layout is the last selected one, main is always active, exact effect of setlayout"},
{"property": "C13", "status": "proved", "theorems": ["Keyd.C13_tap", "Keyd.C13_stays_on_press", "Keyd.C13_stays_on_release", "Keyd.C13_next_key_spends", "Keyd.C13_example", "Keyd.C13_tap_example", "Keyd.C13_C06_example", "Keyd.C13_kept", "Keyd.C13_next_key", "Keyd.C13_spent", "Keyd.C13_kept_example", "Keyd.C13_next_key_example", "Keyd.C13_held_ends", "Keyd.C13_fails_latch", "Keyd.C13_fails_tapped_macro"], "note": "Tap leaves the layer active with one more one-shot activation; layer/overload/scroll/one-shot presses and releases of other keys keep it; the next key/macro/command press is looked up with the layer active (processEvent_press uses lookupDescriptor of the state before) and leaves no one-shot activation outstanding, each layer losing exactly its one-shot activations. Model errors (uint8 overflow of the depth, asserts) are explicit outcomes. Over whole batches with chords and undecided keys: C13_kept, C13_next_key, C13_spent (from C68). Two findings (shared latch, tapped macro) are witnessed."},
{"property": "C14", "status": "partial", "theorems": ["Keyd.C14_wakeup_expires_partial", "Keyd.C14_key_expires_partial", "Keyd.C14_late_press_lookup_partial", "Keyd.C13_tap", "Keyd.C14_example", "Keyd.C14_fails_pending"], "note": "Proved for every state without a waiting chord or undecided key. While a key is undecided the claim is false: the wakeups do not take the layer back and no further wakeup is asked for (C14_fails_pending). The wait bound is part of C13_tap."},
{"property": "C15", "status": "proved", "theorems": ["Keyd.C15_wait_exact", "Keyd.mainLoopTimeout_exact"], "note": "For every state and event with a non-negative time."},
{"property": "C16", "status": "proved", "theorems": ["Keyd.C16_press", "Keyd.C16_release", "Keyd.C16_hold", "Keyd.C16_tap"], "note": "press, release, hold and tap of an overload key over every reachable state (events not concerned by chords or an undecided key); the tap condition is read off the log of the keyboard. When a swap has replaced the layer the key holds, its binding is no longer the overload."},
{"property": "C17", "status": "proved", "theorems": ["Keyd.C17_press", "Keyd.C17_hold", "Keyd.C17_hold_nested", "Keyd.C17_tap", "Keyd.C17_interrupted", "Keyd.C17_undecided", "Keyd.C17_keeps_waiting", "Keyd.C17_earlier_release", "Keyd.C17_hold_effect", "Keyd.C17_tap_effect", "Keyd.C17_tap_types"], "note": "The decision table for overloadt/overloadt2/timeout, for every reachable undecided state and every event not concerned by chords. The release of a key pressed before the undecided key is handled at once even after the deadline (C17_earlier_release): the next event or wakeup decides."},
{"property": "C18", "status": "partial", "theorems": ["Keyd.C18_exactly_once", "Keyd.C18_batch", "Keyd.C18_order_partial", "Keyd.C18_key_order_partial", "Keyd.C18_overflow", "Keyd.C18_order_witness", "Keyd.C18_overflow_witness", "Keyd.C18_fails_order", "Keyd.C18_fails_stuck"], "note": "Exactly-once accounting proved for every history and config; arrival order proved for configs without chords (presses overall, and all events of each key). With chords order is violated by the code: witnesses C18_fails_order and C18_fails_stuck (a key left stuck down). Overflow of the pending queue stops the daemon."},
{"property": "C19", "status": "proved", "theorems": ["Keyd.C19_match", "Keyd.C19_verdict", "Keyd.C19_no_chord", "Keyd.C19_chord_missed", "Keyd.C19_undecided", "Keyd.C19_struck", "Keyd.C19_fires", "Keyd.C19_deadline", "Keyd.C19_held_long_enough", "Keyd.C19_released_early", "Keyd.C19_noted", "Keyd.C19_hold_noted", "Keyd.C19_examples", "Keyd.C19_fails_interval", "Keyd.C19_fails_action"], "note": "One chord, all chords, the winner, waiting, firing, deadlines; two witnesses show where the wider expectation (keys struck within chord_timeout; a chord executes its own action) fails when a hold-tap key is pending."},
{"property": "C20", "status": "proved", "theorems": ["Keyd.C20_swallowed", "Keyd.C20_ended", "Keyd.C20_outstanding", "Keyd.C20_once", "Keyd.C20_examples"], "note": "Exact effect of each release, counting of firings against endings, and what an active chord waits for, in every state with a fixed configuration."},
{"property": "C21", "status": "proved", "theorems": ["Keyd.C21_macro_leaves_keys_up", "Keyd.C21_spurious_release"], "note": "For every accepted macro text and every inter-event delay. Finding C21_spurious_release: a delay inside a group is also released as if it were a key code."},
{"property": "C22", "status": "partial", "theorems": ["Keyd.C22_press_starts", "Keyd.C22_repeats", "Keyd.C22_not_early", "Keyd.C22_zero_interval", "Keyd.C22_asks_for_wakeup", "Keyd.C22_key_stops_partial", "Keyd.C22_example", "Keyd.C22_zero_example", "Keyd.C22_press_example", "Keyd.C22_fails_chord"], "note": "Repetition at and only at wakeups at or after the deadline, next deadline one interval later, zero interval leaves no deadline: proved. 'Any key event stops repetition' is proved for events that are processed at once; it is false of the code for a key held back as the possible start of a chord (C22_fails_chord)."},
{"property": "C23", "status": "proved", "theorems": ["Keyd.C23_toggle", "Keyd.C23_toggle_macro", "Keyd.C23_toggle_event", "Keyd.C23_toggle_release", "Keyd.C23_toggle_twice", "Keyd.C23_example"], "note": "toggle flips the flag and changes the count by one; twice restores both"},
{"property": "C24", "status": "proved", "theorems": ["Keyd.C24_terminates", "Keyd.C24_deterministic", "Keyd.C24_depth", "Keyd.C24_witness"], "note": "For every reachable state and batch there is a recursion depth that is not exceeded and the outcome is independent of it; explicit depth bound; more fuel never changes an outcome. The model's fuel parameter is the recursion depth of process_event."},
{"property": "C25", "status": "proved", "theorems": ["Keyd.C25_reset_restores"], "note": "for every history of events and binds"},
{"property": "C26", "status": "proved", "theorems": ["Keyd.C26_accepted_binds_key", "Keyd.C26_chord_keeps_keys", "Keyd.C26_rejected_changes_nothing", "Keyd.C26_default_layer_is_main"], "note": "accepted key bindings, chord bindings, rejected bindings"},
{"property": "C27", "status": "proved", "theorems": ["Keyd.C27_wellformed", "Keyd.C27_reachable", "Keyd.C27_modifier_layers_exist", "Keyd.C27_modifier_layers_exist_bind"], "note": "for every text and bind sequence"},
{"property": "C28", "status": "proved", "theorems": ["Keyd.C28_existing_heading", "Keyd.C28_layers_keep_their_type", "Keyd.C28_bind_keeps_type"], "note": ""},
{"property": "C29", "status": "proved", "theorems": ["Keyd.C29_split_arguments", "Keyd.C29_no_arguments", "Keyd.C29_six_arguments_assert"], "note": "a sixth argument aborts (witness)"},
{"property": "C30", "status": "proved", "theorems": ["Keyd.C30_key_sequence", "Keyd.C30_only_key_sequences"], "note": ""},
{"property": "C31", "status": "proved", "theorems": ["Keyd.C31_parse_modset", "Keyd.C31_modstring_roundtrip"], "note": ""},
{"property": "C32", "status": "proved", "theorems": ["Keyd.C32_key_value", "Keyd.C32_no_value", "Keyd.C32_blank_line", "Keyd.C32_comment_line", "Keyd.C32_heading_line", "Keyd.C32_entry_line", "Keyd.C32_binding_line", "Keyd.C32_document", "Keyd.C32_entry_before_heading", "Keyd.C32_bracket_line_is_heading", "Keyd.C32_too_many_sections", "Keyd.C32_too_many_entries"], "note": ""},
{"property": "C33", "status": "proved", "theorems": ["Keyd.C33_utf8_read_char", "Keyd.C33_utf8_strlen", "Keyd.C33_truncated_input_asserts"], "note": "truncated input aborts (witness)"},
{"property": "C34", "status": "proved", "theorems": ["Keyd.C34_unescape_escape", "Keyd.C34_unescape_length", "Keyd.C34_unescape_plain"], "note": ""},
{"property": "C35", "status": "proved", "theorems": ["Keyd.C35_sequence_injective", "Keyd.C35_sequence_shape", "Keyd.C35_prefix_free", "Keyd.C35_lookup_correct", "Keyd.C35_distinct_characters"], "note": ""},
{"property": "C36", "status": "proved", "theorems": ["Keyd.C36_check_match", "Keyd.C51_ids"], "note": ""},
{"property": "C37", "status": "proved", "theorems": ["Keyd.C37_lookup", "Keyd.C37_load_order", "Keyd.C37_manage", "Keyd.C37_virtual", "Keyd.C37_pure_mouse", "Keyd.C37_example", "Keyd.C51_ids", "Keyd.C37_always", "Keyd.C37_own", "Keyd.C37_always_example"], "note": "Which config and keyboard a device gets, for all config lists, devices and environments; load order."},
{"property": "C38", "status": "partial", "theorems": ["Keyd.C38_loop", "Keyd.C38_iteration", "Keyd.C38_panic_partial", "Keyd.C38_fails_led", "Keyd.C38_misses_led", "Keyd.C38_example"], "note": "Proved when no LED event is read from a device; with LED events the claim is false in both directions (C38_fails_led, C38_misses_led)."},
{"property": "C39", "status": "partial", "theorems": ["Keyd.C39_layout", "Keyd.C39_believed_is_active", "Keyd.C39_exact_partial", "Keyd.C39_lines_sent", "Keyd.C39_snapshot_sent", "Keyd.C39_example_on", "Keyd.C39_example_off", "Keyd.C39_fails_nested", "Keyd.C39_fails_long"], "note": "Proved for every configuration, history and listener: the layout a listener computes from the snapshot and the change lines is always the current one; every layer it believes active is active; and its set is exactly the active layers while no layer is activated again while active; and the lines written to a listener are exactly those lines. Missing: with nested activations the daemon announces a deactivation while the layer is still active, so the listener misses it (C39_fails_nested); layer names of 64 bytes, which are announced without a newline (C39_fails_long). For several keyboards at once see C104."},
{"property": "C40", "status": "partial", "theorems": ["Keyd.C40_released", "Keyd.C40_only_releases", "Keyd.C40_no_freed_partial", "Keyd.C40_start_live", "Keyd.C40_used_live", "Keyd.C40_fails_timeout", "Keyd.C40_fails_listen", "Keyd.C40_example"], "note": "The release half is proved for every history. The second half holds except between a reload and the next event of a managed device, where the code uses freed memory (witnesses through the main loop)."},
{"property": "C41", "status": "partial", "theorems": ["Keyd.C41_listeners", "Keyd.C41_rejected", "Keyd.C41_one_reply_partial", "Keyd.C41_listen", "Keyd.C41_bind", "Keyd.C41_fails_crash", "Keyd.C41_example"], "note": "Proved for every request the daemon survives; requests that trip an assertion get no reply (C41_fails_crash)."},
{"property": "C42", "status": "proved", "theorems": ["Keyd.C42_report_sound", "Keyd.C42_report_complete", "Keyd.C42_modifiers", "Keyd.C42_example", "Keyd.C42_example_six"], "note": "no key twice, only held keys, complete while at most six were ever down, modifier byte exact; all histories of key events"},
{"property": "C43", "status": "proved", "theorems": ["Keyd.C43_mouse_buttons", "Keyd.C43_keys", "Keyd.C43_wide_keys", "Keyd.C43_distinct", "Keyd.C43_fails_for_reassigned", "Keyd.unknown_axis_repeats_last_event"], "note": "mouse buttons and ordinary keys round-trip; KEY_ZOOM and VOICECOMMAND too; distinct codes stay distinct. Limit: evdev numbers that keyd has reassigned (C43_fails_for_reassigned)"},
{"property": "C44", "status": "proved", "theorems": ["Keyd.C44_conserved", "Keyd.C44_zero", "Keyd.C44_off", "Keyd.C44_horizontal_is_vertical", "Keyd.C44_example"], "note": "For all movement sequences and non-zero sensitivities (C int overflow not modelled)."},
{"property": "C45", "status": "partial", "theorems": ["Keyd.C45_zero_based_partial", "Keyd.C45_monotone_partial", "Keyd.C45_fails_for_offset_range", "Keyd.C45_fails_for_negative", "Keyd.C45_example"], "note": "true for ranges starting at 0 (proved for max < 2^21, larger ones overflow the C int product); false for offset or negative ranges, shown by witnesses"},
{"property": "C46", "status": "proved", "theorems": ["Keyd.C46_alias_binds_all_carriers", "Keyd.C46_alias_line", "Keyd.C46_alias_line_ignored", "Keyd.C26_accepted_binds_key"], "note": ""},
{"property": "C47", "status": "partial", "theorems": ["Keyd.C47_tidy_partial", "Keyd.C47_fails_full", "Keyd.C47_full_example", "Keyd.C47_fails_unterminated", "Keyd.C47_fails_nul"], "note": "Proved for every file of ordinary lines (at most 255 bytes, no NUL, newline at the end), any includes and any stack contents: reading fails cleanly, or gives the text, which fits with its terminator, or the text is 65536 bytes or longer. Missing because false: a text of exactly 65536 bytes stores its terminator past the buffer (C47_fails_full); a last line without newline is copied from an array without terminator (C47_fails_unterminated); a line that begins with NUL reads line[-1] (C47_fails_nul)."},
{"property": "C48", "status": "partial", "theorems": ["Keyd.C48_asked", "Keyd.C48_turn_partial", "Keyd.C48_wakes", "Keyd.C48_delivered_partial", "Keyd.C48_prompt_partial", "Keyd.C48_example_owed", "Keyd.C48_example_woken", "Keyd.C48_fails_delay", "Keyd.C48_fails_other"], "note": "Proved: a keyboard whose key event asks for a wakeup is owed it (C48_asked), every turn of the main loop without key events keeps the poll finite and not too short, and when the poll has waited its time the wakeup goes to that keyboard, not before the deadline (C48_delivered_partial); unconditionally so for a loop that returns to poll without delay (C48_prompt_partial). Missing because false: with processing delays an event between the deadline and the end of the poll cancels the wakeup (C48_fails_delay), and an event of another keyboard's device diverts it (C48_fails_other)."},
{"property": "C49", "status": "proved", "theorems": ["Keyd.C49_macro_text", "Keyd.C49_at_most_256"], "note": "Every text whose words are key sequences, + groups, delays or plain UTF-8 text parses to the concatenated meanings, at most 256 entries. Finding: control characters and DEL in plain text, and the character with compose index 0, are silently dropped (charEntry)."},
{"property": "C50", "status": "proved", "theorems": ["Keyd.C50_stops", "Keyd.C50_stops_bind", "Keyd.C50_stops_considerate", "Keyd.C50_fails_bind", "Keyd.C50_all_reachable", "Keyd.C50_four_chords", "Keyd.C50_chord_queue", "Keyd.C50_deadlines", "Keyd.C50_oneshot", "Keyd.C50_pending_queue", "Keyd.C50_oneshot_depth"], "note": "Fixed config: seven stop points (C50_stops); bindings changed at any time: those or the chord overrun (C50_stops_bind), which needs a reset while a chord is being decided (C50_stops_considerate) and happens (C50_fails_bind); all seven reachable."},
{"property": "C51", "status": "proved", "theorems": ["Keyd.C51_ids", "Keyd.C51_global", "Keyd.C51_default_layout", "Keyd.doc_parses", "Keyd.doc_settings"], "note": "Whole-document theorems through both passes of the parser. Example: docText (doc_parses, doc_settings)."},
{"property": "C52", "status": "proved", "theorems": ["Keyd.C52_last_line_wins", "Keyd.C52_unmentioned"], "note": "Lines are 'ordinary' (no dot/parenthesis in layer names, no '=' inside a key, under 512 bytes); key names without '+', i.e. not chords. The [aliases] section's side effect of binding a key in main is part of C52_unmentioned. Example after the theorem (docText)."},
{"property": "C53", "status": "proved", "theorems": ["Keyd.C53_included", "Keyd.C53_last_line_partial", "Keyd.C53_example", "Keyd.C53_no_extension", "Keyd.C53_near_first"], "note": "For every file of ordinary lines that leaves room for one more line, any file system, any stack contents; and for a last line without newline when the stack array ends in NUL."},
{"property": "C54", "status": "partial", "theorems": ["Keyd.C54_request", "Keyd.C54_read", "Keyd.C54_read_exact", "Keyd.C54_write", "Keyd.C54_arguments", "Keyd.C54_fails_short", "Keyd.C54_fails_gone", "Keyd.C54_example"], "note": "Proved for all messages and all splittings. The last part of the claim is false: a client that closes before it has sent a whole message makes the daemon wait forever (C54_fails_short), and one that is gone when the reply is written ends it (C54_fails_gone)."},
{"property": "C55", "status": "proved", "theorems": ["Keyd.C55_product", "Keyd.C55_claims", "Keyd.C55_keyboard", "Keyd.C55_mouse", "Keyd.C55_own_devices", "Keyd.C55_example", "Keyd.C55_config_example", "Keyd.C55_upper_case"], "note": "Upper case ids never match (C55_upper_case)."},
{"property": "C56", "status": "proved", "theorems": ["Keyd.C56_actions", "Keyd.C56_unambiguous", "Keyd.C56_document", "Keyd.C56_rejects_call", "Keyd.C56_rejects_word", "Keyd.C56_rejects_layer", "Keyd.C56_rejects_layout"], "note": "completeness and unambiguity of the action grammar, end to end for whole documents; rejections of unknown calls, wrong arity, words, bad layers and layouts"},
{"property": "C57", "status": "proved", "theorems": ["Keyd.C57_parse", "Keyd.C57_bind", "Keyd.C57_stops_reachable"], "note": "errors of the parser are exactly the nine stop points; model recursion bound never reached"},
{"property": "C58", "status": "partial", "theorems": ["Keyd.C58_choice", "Keyd.C58_types", "Keyd.C58_layer", "Keyd.C58_waits", "Keyd.C58_witness", "Keyd.C58_witness_typing", "Keyd.C58_witness_idle", "Keyd.C58_release_counts", "Keyd.C58_fails_nested", "Keyd.C58_everywhere", "Keyd.C58_held", "Keyd.C58_released", "Keyd.C58_waiting_idle", "Keyd.C58_waiting_typing", "Keyd.C58_witness_waiting"], "note": "Choice proved in every state, with chords and undecided keys (C58_everywhere); held with and released as the chosen action (C58_held, C58_released) if that action neither holds a layer (swap may then rebind the key) nor waits for a decision; for layers and waiting actions proved when the key is handled at once (C58_layer, C58_waits). Partial because the release half is false of the code for an overloadi nested in an overloadi (C58_fails_nested: the layer stays)."},
{"property": "C59", "status": "proved", "theorems": ["Keyd.C59_commands", "Keyd.C59_once", "Keyd.C59_press", "Keyd.C59_release", "Keyd.C59_witness_run", "Keyd.C59_witness", "Keyd.C59_determined"], "note": "C59_commands/C59_once: any batch of events in any state; C59_determined: the actions performed (which branch of overloadi, tapped or held overload) are a function of the log; C59_press/C59_release: the key handled at once (Direct)."},
{"property": "C60", "status": "proved", "theorems": ["Keyd.C60_scroll", "Keyd.C60_only", "Keyd.C60_press", "Keyd.C60_release", "Keyd.C60_witness"], "note": "C60_scroll/C60_only: any batch of events in any state; C60_press/C60_release for the keys themselves."},
{"property": "C61", "status": "proved", "theorems": ["Keyd.C61_macro_keystrokes", "Keyd.C61_key_keystroke", "Keyd.C61_witness_run", "Keyd.C61_witness"], "note": "For a key handled at once; macro keys must be up, and the macro must not use a modifier that an active layer holds (macro_execute would release it: finding 1)."},
{"property": "C62", "status": "proved", "theorems": ["Keyd.C62_input", "Keyd.C62_witness"], "note": "The host is assumed to have no key down when the text is typed."},
{"property": "C63", "status": "proved", "theorems": ["Keyd.C63_do", "Keyd.C63_refused", "Keyd.C63_witness", "Keyd.C63_line"], "note": "For macros of text, key sequences, pauses and unicode (no hold/release chords); none of the keys is a scroll key. The host has no key down."},
{"property": "C64", "status": "partial", "theorems": ["Keyd.C64_always_partial", "Keyd.C64_indicator_partial", "Keyd.C64_witness", "Keyd.C64_fails_plugged", "Keyd.C64_fails_reload", "Keyd.C64_fails_host"], "note": "Proved for every history without meddling: the host sets no LED, the configuration is not reloaded, and devices are plugged in with the LED off while no layer of their keyboard is active. Missing (and false of the code, shown by the C64_fails theorems): a reload leaves the LED lit, a device plugged in while a layer is active stays dark, and the host's caps lock changes the LED too."},
{"property": "C65", "status": "proved", "theorems": ["Keyd.C65_heading", "Keyd.C65_layers", "Keyd.C65_refused", "Keyd.C65_initial", "Keyd.C65_witness_run", "Keyd.C65_witness"], "note": "What each heading declares (C65_heading), the layers after any sequence of headings (C65_layers), which headings are refused (C65_refused), and the layout active at start (C65_initial)."},
{"property": "C66", "status": "proved", "theorems": ["Keyd.C66_routed", "Keyd.C66_not_routed", "Keyd.C66_used_last", "Keyd.C66_witness_keyboards", "Keyd.C66_witness_click", "Keyd.C66_witness_wheel"], "note": "Key events, wheel steps, clicks of unmanaged mice, wakeups (C66_routed); everything else but clients (C66_not_routed; motion while a keyboard emulates scrolling is C44); the keyboard used last (C66_used_last). Requests of clients are C25, C26, C39-C41, C62, C63."},
{"property": "C67", "status": "partial", "theorems": ["Keyd.C67_chord_line_partial", "Keyd.C67_only", "Keyd.C67_fails_subset"], "note": "proved for chord lines with no earlier chord line of the layer naming a proper superset and no later one naming a subset of their keys; otherwise the claim is false of the code (C67_fails_subset)"},
{"property": "C68", "status": "proved", "theorems": ["Keyd.C68_layers", "Keyd.C68_layers_start", "Keyd.C68_determined", "Keyd.C68_example"], "note": "Engine-wide: no assumption on the state or configuration. Which branch of overloadi is taken and whether an overload key is tapped follow from the log (Does); only whether the layer replaced by swap is held by a key is left open. C68_determined: without swap and without a one-shot timeout the log determines the layers."},
{"property": "C69", "status": "proved", "theorems": ["Keyd.C69_remaps", "Keyd.C69_passthrough", "Keyd.C69_survives", "Keyd.C69_example_run", "Keyd.C69_example"], "note": "Composition of routing (C66), engine refinement (C07) and host state (C01), plus absence of any stop. Client requests are excluded (C25, C26, C39-C41, C62, C63). Modifiers at the host assume no multi-step macro of the file contains them (see C01)."},
{"property": "C70", "status": "proved", "theorems": ["Keyd.C70_remap_file", "Keyd.C70_typing", "Keyd.C70_example"], "note": "End to end: text, parser, engine, daemon, virtual keyboard. The one line that cannot be written is '[ = ]' (taken as a heading, see Findings); targets are unshifted key names. Example: swapRemaps."},
{"property": "C71", "status": "partial", "theorems": ["Keyd.C71_keys_partial", "Keyd.C71_names", "Keyd.C71_pointer", "Keyd.C71_fails_voicecommand", "Keyd.C71_fails_edge"], "note": "All named keys except voicecommand arrive, and all pointer and wheel events; voicecommand is dropped by the kernel (C71_fails_voicecommand) and an absolute coordinate 0 is not written (C71_fails_edge)."},
{"property": "C72", "status": "proved", "theorems": ["Keyd.C72_wire", "Keyd.C72_example"], "note": "Composition of device reader, parser, engine, daemon and uinput writer for files of remaps; modifiers at the host are C70's."},
{"property": "C73", "status": "proved", "theorems": ["Keyd.C73_machine", "Keyd.C73_recommended", "Keyd.C73_example", "Keyd.C73_shipped", "Keyd.C73_vim", "Keyd.C73_macos", "Keyd.C73_carousel", "Keyd.C73_tapping", "Keyd.C73_extend", "Keyd.C73_timed"], "note": "The class covers the README's recommended configuration and 7 of the 12 shipped examples word for word (C73_shipped), one-shot timeouts and overloadi (C73_timed); the other five use actions that keep a key waiting (overloadt) or macros of several keys."},
{"property": "C74", "status": "proved", "theorems": ["Keyd.C74_daemon", "Keyd.C74_example"], "note": "One configuration file; any number of devices."},
{"property": "C75", "status": "proved", "theorems": ["Keyd.C75_bind", "Keyd.C75_example", "Keyd.C75_fails_long"], "note": "For arguments under 4096 bytes; C75_fails_long shows what a longer one does."},
{"property": "C76", "status": "proved", "theorems": ["Keyd.C76_input", "Keyd.C76_do", "Keyd.C76_too_long", "Keyd.C76_example"], "note": "Composes the client, the request, C62/C63 and the exit status."},
{"property": "C77", "status": "partial", "theorems": ["Keyd.C77_dispatch", "Keyd.C77_fails_empty", "Keyd.C77_list_keys", "Keyd.C77_listed_usable", "Keyd.C77_usable_listed", "Keyd.C77_fails_listed", "Keyd.C77_lines", "Keyd.C77_reload", "Keyd.C77_reload_example"], "note": "For non-empty first arguments and non-empty names; the exceptions are proved as witnesses (C77_fails_empty, C77_fails_listed)."},
{"property": "C78", "status": "proved", "theorems": ["Keyd.C78_read_back", "Keyd.C78_times", "Keyd.C78_fails_unnamed", "Keyd.C78_example"], "note": "For device texts without tabs and newlines and named keys."},
{"property": "C79", "status": "proved", "theorems": ["Keyd.C79_markup", "Keyd.C79_fails_long", "Keyd.C79_example"], "note": "For messages shown in under 1024 bytes; C79_fails_long is the overflow by one."},
{"property": "C80", "status": "proved", "theorems": ["Keyd.C80_waits", "Keyd.C80_no_stuck_keys", "Keyd.C80_nothing_twice", "Keyd.C80_nothing_lost", "Keyd.C80_fails_race", "Keyd.C80_example"], "note": "The race between the check and the grab is excluded in C80_no_stuck_keys and shown by C80_fails_race."},
{"property": "C81", "status": "proved", "theorems": ["Keyd.C81_no_stuck_modifiers", "Keyd.C81_all_modifiers_up", "Keyd.C81_history", "Keyd.C81_example", "Keyd.C81_fails_toggle", "Keyd.C81_fails_tap", "Keyd.C81_fails_clearm"], "note": "Engine state (C81_no_stuck_modifiers), nothing active (C81_all_modifiers_up), and events against host (C81_history, no chords; modifiers that multi-step macros press themselves excluded as in C01)."},
{"property": "C82", "status": "proved", "theorems": ["Keyd.C82_uptime", "Keyd.C82_daemon", "Keyd.C82_example", "Keyd.C82_daemon_example", "Keyd.C82_fails_first_minute", "Keyd.C82_fails_wrap", "Keyd.C82_fails_wrap_repeat"], "note": "One keyboard with events and binds (C82_uptime), and the whole daemon from its start with any files, devices, clients and reloads (C82_daemon), for non-negative time settings (SaneTimes). The model's times are unbounded; the wrap of the 32-bit event times is applied explicitly in C82_fails_wrap."},
{"property": "C83", "status": "proved", "theorems": ["Keyd.C83_unplugged", "Keyd.C83_nothing_sent", "Keyd.C83_leaves_table", "Keyd.C83_example"], "note": "commuting of unplugging with any later run; the removal itself sends nothing; example with the key left down"},
{"property": "C84", "status": "proved", "theorems": ["Keyd.C84_added", "Keyd.C84_plugged", "Keyd.C84_example"], "note": "Any continuation not using the new device; the light of the new device itself is C64."},
{"property": "C85", "status": "proved", "theorems": ["Keyd.C85_file", "Keyd.C85_headless", "Keyd.C85_class", "Keyd.C85_title", "Keyd.C85_words", "Keyd.C85_command", "Keyd.C85_example", "Keyd.C85_fails_bracket"], "note": "Python's character tables, str.lower and bracket sets of fnmatch are parameters. Findings C85_fails_bracket, C85_headless."},
{"property": "C86", "status": "proved", "theorems": ["Keyd.C86_focus", "Keyd.C86_forgets", "Keyd.C86_example"], "note": "For bindings under 4096 bytes (see C75)."},
{"property": "C87", "status": "partial", "theorems": ["Keyd.C87_focus_partial", "Keyd.C87_example", "Keyd.C87_fails_twins"], "note": "False when another window has the same title and class as the focused one (witness C87_fails_twins); proved otherwise."},
{"property": "C88", "status": "proved", "theorems": ["Keyd.C88_stops", "Keyd.C88_start", "Keyd.C88_run", "Keyd.C88_key_stop", "Keyd.C88_client_stop"], "note": "Per event and for whole runs of the main loop, with the outcome independent of the recursion depth; freed keyboards only after a reload (C40)."},
{"property": "C89", "status": "proved", "theorems": ["Keyd.C89_file", "Keyd.C89_input", "Keyd.C89_do", "Keyd.C89_key", "Keyd.C89_words", "Keyd.C89_witness", "Keyd.C89_needs_file"], "note": "For macros: words that are text, keys of the layout with at most shift, and delays; a key bound to a macro must be handled at once with no modifier held by an active layer. The host has no key down. The receiver (layout and compose automaton) is a specification, not code of this repository; that data/keyd.compose is the modelled file is checked by tools/check_compose.py."},
{"property": "C90", "status": "proved", "theorems": ["Keyd.C90_loaded", "Keyd.C90_others", "Keyd.C90_order", "Keyd.C90_confs", "Keyd.C90_example", "Keyd.C90_tie"], "note": "Names are at most 255 bytes (no truncation of the path); the directory can be opened; d_type is filled in."},
{"property": "C91", "status": "proved", "theorems": ["Keyd.C91_single", "Keyd.C91_socket", "Keyd.C91_undisturbed", "Keyd.C91_comes_up", "Keyd.C91_witness", "Keyd.C91_fails_exec"], "note": "Kernel semantics of flock, fork, unlink and bind are part of the model; nobody else removes or replaces the lock file or the socket. Where the shell cannot be executed the statement fails (C91_fails_exec, finding 44)."},
{"property": "C92", "status": "partial", "theorems": ["Keyd.C92_starts_partial", "Keyd.C92_fails_restart"], "note": "Proved: a start gets the lock exactly when there is neither a daemon nor a program left that a daemon has started. The full statement is false of the code (finding 43)."},
{"property": "C93", "status": "proved", "theorems": ["Keyd.C93_listen", "Keyd.C93_lines", "Keyd.C93_ends", "Keyd.C93_terminal", "Keyd.C93_example", "Keyd.C93_example_closed", "Keyd.C93_example_terminal"], "note": "Model/Listen.lean models keyd.c:164-203 with xwrite of util.c; the wire between daemon and client is a byte stream (as for C62). Layer names of exactly 64 bytes lose their newline (C39), hence ShortNames in the composed theorem."},
{"property": "C94", "status": "proved", "theorems": ["Keyd.C94_notices", "Keyd.C94_full", "Keyd.C94_scan", "Keyd.C94_scan_full", "Keyd.C94_example", "Keyd.C94_example_batches", "Keyd.C94_example_scan", "Keyd.C94_fails_overflow"], "note": "For deliveries of whole records with names, as inotify(7) gives them; for the nameless overflow record see C94_fails_overflow. What device_init makes of a node is Model/Discovery.lean."},
{"property": "C95", "status": "proved", "theorems": ["Keyd.C95_found", "Keyd.C95_once", "Keyd.C95_only", "Keyd.C95_example", "Keyd.C95_twice"], "note": "readdir and inotify as POSIX and inotify(7) describe them, without queue overflow. A node that appears between watch and listing may be opened twice (C95_twice)."},
{"property": "C96", "status": "partial", "theorems": ["Keyd.C96_messages_partial", "Keyd.C96_events_partial", "Keyd.C96_bind", "Keyd.C96_focus_partial", "Keyd.C96_cosmic_partial", "Keyd.C96_example", "Keyd.C96_fails_split", "Keyd.C96_fails_cosmic"], "note": "proved for messages that arrive in one piece (and on Cosmic for the first state); false of the code otherwise: C96_fails_split, C96_fails_cosmic"},
{"property": "C97", "status": "proved", "theorems": ["Keyd.C97_active", "Keyd.C97_known", "Keyd.C97_reports", "Keyd.C97_example"], "note": "the display is taken as it is at one moment; requests that fail are events without an active window"},
{"property": "C98", "status": "partial", "theorems": ["Keyd.C98_order", "Keyd.C98_focus_partial", "Keyd.C98_example", "Keyd.C98_fails_behind", "Keyd.C98_fails_tab", "Keyd.C98_fails_closed"], "note": "order and completeness proved for windows without tab and newline; being up to date is false of the code (C98_fails_behind) and proved when the windows come one at a time"},
{"property": "C99", "status": "partial", "theorems": ["Keyd.C99_edits_partial", "Keyd.C99_example", "Keyd.C99_fails_start"], "note": "false for an edit during the start (C99_fails_start); proved otherwise"}
]}
