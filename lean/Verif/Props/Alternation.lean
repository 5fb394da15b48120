import Verif.Spec.Run
import Verif.Proofs.OutInv
import Mathlib.Tactic.ByContra

/-
  C01: the key events handed to the output callback alternate per key.
-/

set_option autoImplicit false

namespace Keyd

/-- `c` is emitted by no macro that bypasses the engine's key state, i.e. by no
macro other than single key sequences. -/
def NotInMacros (c : Code) (cfg : Config) : Prop :=
  ∀ m ∈ cfg.macros, ¬ PlainMacro m → ∀ t b, MacroOut.key c b ∉ macroExecute m t

/-- Invariant: what the host saw alternates, and the engine's key state is the
parity of what the host saw. -/
def AltInv (c : Code) (k : Kbd) : Prop :=
  NotInMacros c k.config ∧
  (Alternates (keyHistory c k.outputs) ∧
    k.keystate c = ((keyHistory c k.outputs).length % 2 == 1))

theorem keyHistory_append (c : Code) (l l' : List Out) :
    keyHistory c (l ++ l') = keyHistory c l ++ keyHistory c l' := by
  simp [keyHistory]

theorem keyHistory_emit (c : Code) (k : Kbd) (o : Out) :
    keyHistory c (k.emit o).outputs = keyHistory c k.outputs ++ keyHistory c [o] := by
  rw [← keyHistory_append]
  simp [Kbd.outputs, Kbd.emit]

theorem Alternates.snoc {l : List Bool} (h : Alternates l) {b : Bool}
    (hb : b = (l.length % 2 == 0)) : Alternates (l ++ [b]) := by
  intro i b' hi
  rw [List.getElem?_append] at hi
  split at hi
  · exact h i b' hi
  · rename_i hlt
    have : i - l.length = 0 := by
      by_contra hne
      rw [List.getElem?_eq_none (by simp; omega)] at hi
      cases hi
    have hil : i = l.length := by omega
    subst hil
    simp at hi
    subst hi
    exact hb

/-- Sending an edge that changes the key state keeps the invariant. -/
theorem AltInv.edge {c c' : Code} {k : Kbd} {b : Bool} (h : AltInv c k) (hne : k.keystate c' ≠ b) :
    AltInv c { k.emit (.key c' b) with keystate := upd k.keystate c' b } := by
  obtain ⟨h1, h2, h3⟩ := h
  refine ⟨h1, ?_⟩
  have hout : ({ k.emit (.key c' b) with keystate := upd k.keystate c' b } : Kbd).outputs
      = (k.emit (.key c' b)).outputs := rfl
  rw [hout, keyHistory_emit]
  by_cases hc : c' = c
  · subst hc
    have hb : b = !k.keystate c' := by cases b <;> cases hk : k.keystate c' <;> simp_all
    have : keyHistory c' [Out.key c' b] = [b] := by simp [keyHistory]
    rw [this]
    refine ⟨h2.snoc ?_, ?_⟩
    · rw [hb, h3]
      rcases Nat.mod_two_eq_zero_or_one (keyHistory c' k.outputs).length with h | h <;> simp [h]
    · rw [hb, h3]
      simp only [upd_same, List.length_append, List.length_singleton]
      rcases Nat.mod_two_eq_zero_or_one (keyHistory c' k.outputs).length with h | h <;>
        simp [h, Nat.add_mod]
  · have : keyHistory c [Out.key c' b] = [] := by simp [keyHistory, hc]
    rw [this, List.append_nil]
    refine ⟨h2, ?_⟩
    show upd k.keystate c' b c = _
    rw [upd_other _ _ (Ne.symm hc), h3]

theorem emitMacro_history (c : Code) : ∀ (l : List MacroOut) (k : Kbd),
    (∀ b, MacroOut.key c b ∉ l) →
    keyHistory c (emitMacro k l).outputs = keyHistory c k.outputs ∧
    (emitMacro k l).keystate = k.keystate ∧ (emitMacro k l).config = k.config
  | [], k, _ => ⟨rfl, rfl, rfl⟩
  | .key c' b :: rest, k, h => by
    unfold emitMacro
    obtain ⟨h1, h2, h3⟩ := emitMacro_history c rest (k.emit (.key c' b))
      (fun b' hb => h b' (List.mem_cons_of_mem _ hb))
    refine ⟨?_, h2, h3⟩
    rw [h1, keyHistory_emit]
    have hc : c' ≠ c := by
      intro hc
      subst hc
      exact h b (List.mem_cons_self)
    simp [keyHistory, hc]
  | .sleep us :: rest, k, h => by
    unfold emitMacro
    obtain ⟨h1, h2, h3⟩ := emitMacro_history c rest (k.emit (.sleep us))
      (fun b' hb => h b' (List.mem_cons_of_mem _ hb))
    refine ⟨?_, h2, h3⟩
    rw [h1, keyHistory_emit]
    simp [keyHistory]

theorem mac_mem_or_nil (c : Config) (i : Nat) : c.mac i ∈ c.macros ∨ c.mac i = [] := by
  unfold Config.mac
  rw [List.getD_eq_getElem?_getD]
  cases h : c.macros[i]? with
  | none => right; rfl
  | some m => left; exact List.mem_of_getElem? h

theorem altInv_outInv (c : Code) : OutInv (AltInv c) where
  frame := by
    intro k k' _ h1 h2 h3 h
    unfold AltInv at *
    rw [h1, h2]
    simpa [Kbd.outputs, h3] using h
  send := by
    intro k c' b h
    unfold sendKey
    split
    · exact h
    · dsimp only
      have h' : AltInv c (if b = true then { k with lastPressedOutputCode := c' } else k) := by
        split <;> exact h
      revert h'
      generalize (if b = true then { k with lastPressedOutputCode := c' } else k) = k1
      intro h'
      split
      · rename_i hne
        exact h'.edge hne
      · exact h'
  reset1 := by
    intro k c' h hc
    exact h.edge (by simp [hc])
  emit := by
    intro k o ho h
    obtain ⟨h1, h2⟩ := h
    refine ⟨h1, ?_⟩
    rw [keyHistory_emit]
    have : keyHistory c [o] = [] := by
      cases o with
      | key c' b => exact absurd rfl (ho c' b)
      | layer _ _ => rfl
      | command _ => rfl
      | sleep _ => rfl
    rw [this, List.append_nil]
    exact h2
  mac := by
    intro k i t hn h
    have hmem : ∀ b, MacroOut.key c b ∉ macroExecute (k.config.mac i) t := by
      rcases mac_mem_or_nil k.config i with hm | hm
      · exact fun b => h.1 _ hm hn t b
      · rw [hm]; intro b; simp [macroExecute, macroExecAux]
    obtain ⟨h1, h2, h3⟩ := emitMacro_history c _ k hmem
    unfold AltInv
    rw [h1, h2, h3]
    exact h

theorem newKeyboard_config (c : Config) : (newKeyboard c).config = c := rfl
theorem newKeyboard_trace (c : Config) : (newKeyboard c).trace = [] := rfl
theorem newKeyboard_keystate (c : Config) : (newKeyboard c).keystate = fun _ => false := rfl

theorem kbdEval_frame {k k' : Kbd} {e : Str} {b : Bool} (h : kbdEval k e = .ok (k', b)) :
    k' = { k with config := k'.config } := by
  unfold kbdEval at h
  split at h
  · cases h; rfl
  · rw [bind_eq_ok] at h
    obtain ⟨⟨c, ok⟩, _, h2⟩ := h
    cases h2
    rfl

theorem altInv_reach {c : Code} {k : Kbd} (h : Reach (NotInMacros c) k) : AltInv c k := by
  induction h with
  | init cfg hc =>
    refine ⟨hc, ?_, ?_⟩
    · intro i b hi
      simp [Kbd.outputs, newKeyboard_trace, keyHistory] at hi
    · simp [Kbd.outputs, newKeyboard_trace, keyHistory, newKeyboard_keystate]
  | events n k evs k' w _ run ih =>
    exact (kbdProcessEvents_sat (altInv_outInv c).engineInv n k evs ih).of_ok run
  | bind k e k' ok _ run hc ih =>
    have := kbdEval_frame run
    exact ⟨hc, by rw [this]; exact ih.2⟩
  | scroll k s _ ih => exact ih

/-- C01 (partial). In every reachable state the output history of a key strictly
alternates down, up, down, ... starting with down, for every key that no
multi-step macro of the configuration emits. Full statement: for every key,
without the hypothesis on macros. Missing: keys emitted by multi-step macros,
for which the claim is false of the code: `C01_violated_by_macros` below. -/
theorem C01_output_alternates_partial (c : Code) (k : Kbd) (h : Reach (NotInMacros c) k) :
    Alternates (keyHistory c k.outputs) :=
  (altInv_reach h).2.1

/-- C01, engine state: the engine's idea of whether a key is down is what the
host last saw. -/
theorem C01_keystate_is_host_state (c : Code) (k : Kbd) (h : Reach (NotInMacros c) k) :
    k.keystate c = true ↔ DownAtHost c k.outputs := by
  obtain ⟨_, h2, h3⟩ := altInv_reach h
  rw [h3]
  unfold DownAtHost
  rw [List.getLast?_eq_getElem?]
  generalize hl : keyHistory c k.outputs = l at *
  by_cases he : l = []
  · simp [he]
  · have hlen : 0 < l.length := List.length_pos_iff.mpr he
    have hget : l[l.length - 1]? = some (l[l.length - 1]'(by omega)) :=
      List.getElem?_eq_getElem (by omega)
    rw [hget]
    have := h2 _ _ hget
    rw [this]
    have : (l.length - 1) % 2 = 0 ↔ l.length % 2 = 1 := by omega
    simp only [beq_iff_eq, Option.some.injEq]
    exact this.symm

/-- With configurations whose macros are all single key sequences (or that have
no macros) C01 holds for every key. -/
theorem C01_all_keys_without_macros (c : Code) (k : Kbd)
    (h : Reach (fun cfg => ∀ m ∈ cfg.macros, PlainMacro m) k) :
    Alternates (keyHistory c k.outputs) := by
  refine C01_output_alternates_partial c k ?_
  induction h with
  | init cfg hc => exact .init cfg (fun m hm hn => absurd (hc m hm) hn)
  | events n k evs k' w _ run ih => exact .events n k evs k' w ih run
  | bind k e k' ok _ run hc ih =>
    exact .bind k e k' ok ih run (fun m hm hn => absurd (hc m hm) hn)
  | scroll k s _ ih => exact .scroll k s ih

set_option maxRecDepth 100000 in
/-- Non-vacuity: a configuration with a layer, an overload key and modifiers
reaches a state in which `a` went down, up and down again. -/
example : ∃ k, Reach (fun cfg => ∀ m ∈ cfg.macros, PlainMacro m) k ∧
    keyHistory 30 k.outputs = [true, false, true] := by
  have h := checkRun_reach (cfg := fun cfg => ∀ m ∈ cfg.macros, PlainMacro m)
    (text := b!"[main]\ncapslock = overload(nav, esc)\n[nav]\nb = C-a\n")
    (evs := [press 30 1, press 58 5, press 48 9])
    (p := fun c => c.macros.isEmpty)
    (q := fun k => keyHistory 30 k.outputs == [true, false, true])
    (by decide +kernel) (by intro c h; simp at h; simp [h])
  simpa using h

set_option maxRecDepth 100000 in
/-- The hypothesis on macros cannot be dropped: with `b = macro(a c)`, holding
`a` and pressing `b` sends a second down for `a` (macro.c:85-166 bypasses
`keystate`). -/
theorem C01_violated_by_macros : ∃ k, Reach (fun _ => True) k ∧
    keyHistory 30 k.outputs = [true, true, false] := by
  have h := checkRun_reach (cfg := fun _ => True) (text := b!"[main]\nb = macro(a c)\n")
    (evs := [press 30 0, press 48 10]) (p := fun _ => true)
    (q := fun k => keyHistory 30 k.outputs == [true, true, false])
    (by decide +kernel) (fun _ _ => trivial)
  simpa using h

end Keyd
