/-
C57: reading a config always ends, and the places where it stops the daemon.
-/
import Verif.Props.Bindings
import Verif.Props.Document

set_option autoImplicit false

namespace Keyd

/-- Whether reading the text stops with the error. -/
def stopsAt (text : Str) (e : Err) : Bool :=
  match configParse text with
  | .error e' => decide (e' = e)
  | .ok _ => false

set_option maxRecDepth 100000 in
theorem stop_utf8 : stopsAt (b!"[main]\na = " ++ [195] ++ b!"\n") (.assertFail "utf8_read_char") = true := by decide +kernel
set_option maxRecDepth 100000 in
theorem stop_args : stopsAt b!"[main]\na = f(a,b,c,d,e,f)\n" (.assertFail "parse_fn: *nargs < 5") = true := by decide +kernel
set_option maxRecDepth 100000 in
theorem stop_sections : stopsAt ((List.range 33).flatMap fun _ => b!"[a]\n") (.assertFail "ini: n < MAX_SECTIONS") = true := by
  decide +kernel
set_option maxRecDepth 100000 in
theorem stop_entries : stopsAt (b!"[a]\n" ++ (List.range 1025).flatMap fun _ => b!"a\n")
    (.assertFail "ini: nr_entries < MAX_SECTION_ENTRIES") = true := by
  decide +kernel
set_option maxRecDepth 100000 in
theorem stop_ids : stopsAt (b!"[ids]\n" ++ (List.range 65).flatMap fun _ => b!"1:1\n")
    (.assertFail "config->nr_ids < ARRAY_SIZE(config->ids)") = true := by
  decide +kernel
set_option maxRecDepth 100000 in
theorem stop_heading : stopsAt b!"[]\n" (.nullDeref "new_layer: strcpy(layer->name, NULL)") = true := by decide +kernel
set_option maxRecDepth 100000 in
theorem stop_global : stopsAt b!"[global]\nmacro_timeout\n" (.nullDeref "atoi(NULL)") = true := by decide +kernel
set_option maxRecDepth 100000 in
theorem stop_alias : stopsAt b!"[aliases]\na\n" (.nullDeref "strlen(NULL)") = true := by decide +kernel
set_option maxRecDepth 100000 in
theorem stop_composite : stopsAt b!"[shift+shift+shift+shift+shift+shift+shift+shift+shift]\n" (.oob "layer->constituents") = true := by
  decide +kernel

attribute [local irreducible] configInit

/-- C57. Whatever the text of a config file, reading it comes to an end: with a config, with a refusal, or at one of nine places
where the program stops — five assertions, three null pointers and an array overrun. -/
theorem C57_parse (text : Str) : (∃ r, configParse text = .ok r) ∨ ∃ e ∈ parseStops, configParse text = .error e := by
  cases h : configParse text with
  | ok r => exact .inl ⟨r, rfl⟩
  | error e => exact .inr ⟨e, (configParse_sat text).of_err h, rfl⟩

/-- C57. A binding added at run time ends the same way, at one of two of those places: malformed UTF-8, or a call with six arguments. -/
theorem C57_bind (c : Config) (hb : Bound c) (exp : Str) : (∃ r, configAddEntry c exp = .ok r) ∨
    ∃ e ∈ [Err.assertFail "utf8_read_char", Err.assertFail "parse_fn: *nargs < 5"], configAddEntry c exp = .error e := by
  have hw := C27_wellformed c hb
  cases h : configAddEntry c exp with
  | ok r => exact .inl ⟨r, rfl⟩
  | error e =>
    refine .inr ⟨e, ?_, rfl⟩
    unfold configAddEntry at h
    split at h
    · cases h
    · rename_i hlen
      dsimp only at h
      split at h
      · cases h
      · have hl : ((parseKvp (splitLayer exp).2).2.getD []).length < 512 := by
          have h1 := parseKvp_length (splitLayer exp).2
          have h2 := splitLayer_length exp
          omega
        cases hp : parseDescriptor c ((parseKvp (splitLayer exp).2).2.getD []) with
        | ok r =>
          obtain ⟨c1, d⟩ := r
          rw [hp] at h
          cases d with
          | none => cases h
          | some d =>
            rw [show ∀ f : Config × Option Desc → Res (Config × Bool), ((Except.ok (c1, some d) : Res (Config × Option Desc)) >>= f) =
              f (c1, some d) from fun _ => rfl] at h
            dsimp only at h
            split at h <;> cases h
        | error e' =>
          rw [hp] at h
          injection (show (Except.error e' : Res (Config × Bool)) = .error e from h) with h
          subst h
          exact (parseDescriptor_stops hw _ hl).of_err hp

/-- C57. The nine places are all reachable: for each there is a config file that stops the daemon there. -/
theorem C57_stops_reachable (e : Err) (he : e ∈ parseStops) : ∃ text, configParse text = .error e := by
  have conv : ∀ {text : Str} {e : Err}, stopsAt text e = true → ∃ text, configParse text = .error e := by
    intro text e h
    unfold stopsAt at h
    split at h
    · rename_i e' h'
      exact ⟨text, by rw [h', of_decide_eq_true h]⟩
    · cases h
  simp only [parseStops, actionStops, List.cons_append, List.nil_append, List.mem_cons, List.not_mem_nil, or_false] at he
  rcases he with rfl | rfl | rfl | rfl | rfl | rfl | rfl | rfl | rfl
  · exact conv stop_utf8
  · exact conv stop_args
  · exact conv stop_sections
  · exact conv stop_entries
  · exact conv stop_ids
  · exact conv stop_heading
  · exact conv stop_global
  · exact conv stop_alias
  · exact conv stop_composite

end Keyd
