import Verif.Spec.Reach

/-
  Running configuration texts, for the concrete examples next to the theorems.
-/

set_option autoImplicit false

namespace Keyd

/-- The configuration a text denotes. -/
def textConfig (text : Str) : Option Config :=
  match configParse text with
  | .ok (some c) => some c
  | _ => none

/-- The keyboard after feeding the events to a fresh keyboard with this config. -/
def runConfig (c : Config) (evs : List KeyEvent) : Option Kbd :=
  match kbdProcessEvents 40 (newKeyboard c) evs with
  | .ok (k, _) => some k
  | .error _ => none

/-- The abnormal outcome of a run, if any. -/
def runErr (text : Str) (evs : List KeyEvent) : Option Err :=
  match textConfig text with
  | some c =>
    match kbdProcessEvents 40 (newKeyboard c) evs with
    | .ok _ => none
    | .error e => some e
  | none => none

/-- A decidable check of a configuration text and of the state reached from it. -/
def checkRun (text : Str) (evs : List KeyEvent) (p : Config → Bool) (q : Kbd → Bool) : Bool :=
  match textConfig text with
  | some c =>
    p c && (match runConfig c evs with
      | some k => q k
      | none => false)
  | none => false

/-- The key outputs of a run from a configuration text. -/
def runText (text : Str) (evs : List KeyEvent) : Option (List Out) :=
  match textConfig text with
  | some c => (runConfig c evs).map Kbd.outputs
  | none => none

theorem runConfig_reach {cfg : Config → Prop} {c : Config} {evs : List KeyEvent} {k : Kbd}
    (h : runConfig c evs = some k) (hc : cfg c) : Reach cfg k := by
  unfold runConfig at h
  split at h
  · rename_i k' w heq
    cases h
    exact .events 40 _ evs _ w (.init c hc) heq
  · cases h

/-- A successful check exhibits a reachable state. -/
theorem checkRun_reach {cfg : Config → Prop} {text : Str} {evs : List KeyEvent}
    {p : Config → Bool} {q : Kbd → Bool} (h : checkRun text evs p q = true)
    (hp : ∀ c, p c = true → cfg c) : ∃ k, Reach cfg k ∧ q k = true := by
  unfold checkRun at h
  split at h
  · rename_i c _
    rw [Bool.and_eq_true] at h
    obtain ⟨h1, h2⟩ := h
    split at h2
    · rename_i k hk
      exact ⟨k, runConfig_reach hk (hp c h1), h2⟩
    · cases h2
  · cases h

/-- The same for a history with two batches of events and a `bind` in between. -/
def press (c : Code) (t : Int) : KeyEvent := ⟨c, true, t⟩
def release (c : Code) (t : Int) : KeyEvent := ⟨c, false, t⟩
def wakeup (t : Int) : KeyEvent := ⟨0, false, t⟩

end Keyd
