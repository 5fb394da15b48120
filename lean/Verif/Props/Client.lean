import Verif.Props.MacroKeys
import Verif.Model.Daemon

/-
  C62: `keyd input` types the text it is given. C63: `keyd do` performs the macro it is given.
-/

set_option autoImplicit false

namespace Keyd

attribute [local irreducible] configInit

/-! ### Specification -/

/-- The key events the daemon has sent to the host, oldest first. -/
def Daemon.hostKeys (d : Daemon) : List Out :=
  d.vout.reverse.filterMap fun o => match o with
    | .key c b => some (.key c b)
    | _ => none

/-- The keystrokes that type a character, each with the modifier keys held: the key that bears an ASCII
character, with shift if it is the upper one; space, enter and tab; for any other character its
compose sequence, if it is in the table. -/
def charStrokes (c : Char) : Option (List (Code × List Code)) :=
  if c.toNat < 128 ∧ (asciiKey (UInt8.ofNat c.toNat)).isSome then
    (asciiKey (UInt8.ofNat c.toNat)).map fun k => [(k.1, if k.2 then [42] else [])]
  else if c = ' ' then some [(57, [])]
  else if c = '\n' then some [(28, [])]
  else if c = '\t' then some [(15, [])]
  else (unicodeLookupIndex c.toNat).map fun i => (unicodeGetSequence i).map (·, [])

/-! ### Proofs -/

/-- The events of a keystroke by itself. -/
def strokeOut (s : Code × List Code) : List VOut :=
  s.2.map (.key · true) ++ [.key s.1 true, .key s.1 false] ++ s.2.map (.key · false)

theorem vtap_out (d : Daemon) (c : Code) : d.vtap c = { d with vout := (strokeOut (c, [])).reverse ++ d.vout } := rfl

theorem vtaps_out : ∀ (l : List Code) (d : Daemon),
    l.foldl Daemon.vtap d = { d with vout := ((l.map (·, ([] : List Code))).flatMap strokeOut).reverse ++ d.vout }
  | [], d => rfl
  | c :: l, d => by
    rw [List.foldl_cons, vtap_out, vtaps_out l]
    simp [strokeOut]

theorem sequence_ascii : ∀ b : Nat, b < 128 →
    parseKeySequence [UInt8.ofNat b] = (asciiKey (UInt8.ofNat b)).map (fun k => (k.1, if k.2 then MOD_SHIFT else 0)) := by
  decide +kernel

theorem char_ascii (c : Char) (n : Nat) (hn : n < 128) (h : c.toNat = n) : c = Char.ofNat n := by
  subst h; exact (Char.ofNat_toNat c).symm

theorem byte_char (c : Char) (h : c.toNat < 128) (n : Nat) (hn : n < 128) (e : UInt8.ofNat c.toNat = UInt8.ofNat n) :
    c = Char.ofNat n := by
  refine char_ascii c n hn ?_
  have := congrArg UInt8.toNat e
  rw [UInt8.toNat_ofNat', UInt8.toNat_ofNat', Nat.mod_eq_of_lt (by omega), Nat.mod_eq_of_lt (by omega)] at this
  exact this

/-- One character. -/
theorem inputChar_out (d : Daemon) (c : Char) :
    inputChar d (String.utf8EncodeChar c).length c.toNat =
      (charStrokes c).map (fun ss => { d with vout := (ss.flatMap strokeOut).reverse ++ d.vout }) := by
  by_cases h : c.toNat < 128
  · have hlen : (String.utf8EncodeChar c).length = 1 := by rw [encode_ascii c h]; rfl
    have hp := sequence_ascii c.toNat h
    rw [hlen]
    cases ha : asciiKey (UInt8.ofNat c.toNat) with
    | some k =>
      have hcs : charStrokes c = some [(k.1, if k.2 then [42] else [])] := by
        unfold charStrokes
        rw [ha, if_pos ⟨h, rfl⟩]
        rfl
      rw [ha] at hp
      obtain ⟨code, sh⟩ := k
      rw [hcs]
      unfold inputChar
      dsimp only
      rw [if_pos rfl, hp]
      cases sh with
      | true => simp [MOD_SHIFT, strokeOut, Daemon.vkey, KEYD.LEFTSHIFT]
      | false => simp [strokeOut, Daemon.vkey, Daemon.vtap]
    | none =>
      rw [ha] at hp
      have hcs : charStrokes c = if c = ' ' then some [(57, [])] else if c = '\n' then some [(28, [])] else
          if c = '\t' then some [(15, [])] else
          (unicodeLookupIndex c.toNat).map fun i => (unicodeGetSequence i).map (·, []) := by
        unfold charStrokes
        rw [ha, if_neg (by simp)]
      rw [hcs]
      unfold inputChar
      dsimp only
      rw [if_pos rfl, hp]
      dsimp only [Option.map_none]
      by_cases h1 : c = ' '
      · rw [if_pos h1, if_pos (show UInt8.ofNat c.toNat = 32 by rw [h1]; rfl)]
        rfl
      · rw [if_neg h1, if_neg (fun e : UInt8.ofNat c.toNat = 32 => h1 (byte_char c h 32 (by omega) e))]
        by_cases h2 : c = '\n'
        · rw [if_pos h2, if_pos (show UInt8.ofNat c.toNat = 10 by rw [h2]; rfl)]
          rfl
        · rw [if_neg h2, if_neg (fun e : UInt8.ofNat c.toNat = 10 => h2 (byte_char c h 10 (by omega) e))]
          by_cases h3 : c = '\t'
          · rw [if_pos h3, if_pos (show UInt8.ofNat c.toNat = 9 by rw [h3]; rfl)]
            rfl
          · rw [if_neg h3, if_neg (fun e : UInt8.ofNat c.toNat = 9 => h3 (byte_char c h 9 (by omega) e))]
            cases unicodeLookupIndex c.toNat with
            | none => rfl
            | some i =>
              dsimp only [Option.map_some]
              rw [vtaps_out]
  · have hlen := encode_nonascii c h
    unfold inputChar charStrokes
    dsimp only
    rw [if_neg (by omega), if_neg (fun h' => h h'.1), if_neg (by rintro rfl; exact h (by decide)),
      if_neg (by rintro rfl; exact h (by decide)), if_neg (by rintro rfl; exact h (by decide))]
    cases unicodeLookupIndex c.toNat with
    | none => rfl
    | some i =>
      dsimp only [Option.map_some]
      rw [vtaps_out]

/-- The characters up to the first one that cannot be typed. -/
def typeable (cs : List Char) : List Char := cs.takeWhile fun c => (charStrokes c).isSome

theorem inputLoop_out : ∀ (cs : List Char) (n : Nat) (d : Daemon), (cs.flatMap String.utf8EncodeChar).length ≤ n →
    inputLoop n (cs.flatMap String.utf8EncodeChar) d =
      .ok ({ d with vout := (((typeable cs).flatMap fun c => (charStrokes c).getD []).flatMap strokeOut).reverse ++ d.vout },
        decide (typeable cs = cs))
  | [], n, d, _ => by
    cases n with
    | zero => rfl
    | succ n => rfl
  | c :: cs, n, d, hn => by
    have hpos : 1 ≤ (String.utf8EncodeChar c).length := by
      by_cases h : c.toNat < 128
      · rw [encode_ascii c h]; simp
      · have := encode_nonascii c h; omega
    rw [List.flatMap_cons, List.length_append] at hn
    obtain ⟨n, rfl⟩ : ∃ n', n = n' + 1 := ⟨n - 1, by omega⟩
    rw [List.flatMap_cons]
    unfold inputLoop
    rw [C33_utf8_read_char]
    show (if (String.utf8EncodeChar c).length = 0 then _ else _) = _
    rw [if_neg (by omega), inputChar_out]
    cases hs : charStrokes c with
    | none =>
      have : typeable (c :: cs) = [] := by simp [typeable, hs]
      rw [this]
      rfl
    | some ss =>
      have : typeable (c :: cs) = c :: typeable cs := by simp [typeable, hs]
      rw [this]
      dsimp only [Option.map_some]
      rw [List.drop_left, inputLoop_out cs n _ (by omega)]
      simp [hs]

/-- The key event among the calls. -/
def keyOut : VOut → Option Out
  | .key c b => some (.key c b)
  | _ => none

theorem hostKeys_eq (d : Daemon) : d.hostKeys = d.vout.reverse.filterMap keyOut := by
  unfold Daemon.hostKeys
  congr 1

theorem hostKeys_append (d : Daemon) (vs : List VOut) :
    ({ d with vout := vs.reverse ++ d.vout } : Daemon).hostKeys = d.hostKeys ++ vs.filterMap keyOut := by
  rw [hostKeys_eq, hostKeys_eq]
  simp

/-- A single keystroke, when no key is down. -/
theorem stroke_host (s : Code × List Code) (hs : s.2 = [] ∨ s.2 = [42]) (hm : isModifierKey s.1 = false) :
    keystrokes (fun _ => false) ((strokeOut s).filterMap keyOut) = [s] ∧
    hostAfter (fun _ => false) ((strokeOut s).filterMap keyOut) = fun _ => false := by
  obtain ⟨c, l⟩ := s
  dsimp only at hs hm
  rcases hs with rfl | rfl
  · have e : (strokeOut (c, [])).filterMap keyOut = [.key c true, .key c false] := rfl
    rw [e]
    refine ⟨?_, ?_⟩
    · simp [keystrokes, hm]
    · show upd (upd _ c true) c false = _
      rw [upd_upd]
      exact upd_eta (fun _ => false) c
  · have e : (strokeOut (c, [42])).filterMap keyOut = [.key 42 true, .key c true, .key c false, .key 42 false] := rfl
    have hc : c ≠ 42 := by rintro rfl; revert hm; decide
    rw [e]
    refine ⟨?_, ?_⟩
    · simp only [keystrokes, hm]
      rw [if_neg (by decide), if_pos ⟨trivial, by rw [upd_other _ _ hc], trivial⟩]
      simp
      decide
    · show upd (upd (upd (upd _ 42 true) c true) c false) 42 false = _
      funext x
      by_cases hx : x = 42
      · subst hx; rw [upd_same]
      · rw [upd_other _ _ hx]
        by_cases hy : x = c
        · subst hy; rw [upd_same]
        · rw [upd_other _ _ hy, upd_other _ _ hy, upd_other _ _ hx]

theorem strokes_host : ∀ (l : List (Code × List Code)), (∀ s ∈ l, (s.2 = [] ∨ s.2 = [42]) ∧ isModifierKey s.1 = false) →
    keystrokes (fun _ => false) ((l.flatMap strokeOut).filterMap keyOut) = l ∧
    hostAfter (fun _ => false) ((l.flatMap strokeOut).filterMap keyOut) = fun _ => false
  | [], _ => ⟨rfl, rfl⟩
  | s :: l, h => by
    obtain ⟨a1, a2⟩ := stroke_host s (h s List.mem_cons_self).1 (h s List.mem_cons_self).2
    obtain ⟨b1, b2⟩ := strokes_host l (fun x hx => h x (List.mem_cons_of_mem _ hx))
    rw [List.flatMap_cons, List.filterMap_append, keystrokes_append, hostAfter_append, a1, a2, b1, b2]
    exact ⟨rfl, rfl⟩

theorem asciiKey_unmodified : ∀ b : Nat, b < 128 → ∀ k, asciiKey (UInt8.ofNat b) = some k → isModifierKey k.1 = false := by
  have : ∀ b : Nat, b < 128 → ((asciiKey (UInt8.ofNat b)).map fun k => isModifierKey k.1).getD false = false := by
    decide +kernel
  intro b hb k hk
  have h := this b hb
  rw [hk] at h
  exact h

theorem charStrokes_plain {c : Char} {ss : List (Code × List Code)} (h : charStrokes c = some ss) :
    ∀ s ∈ ss, (s.2 = [] ∨ s.2 = [42]) ∧ isModifierKey s.1 = false := by
  unfold charStrokes at h
  split at h
  · rename_i hc
    cases ha : asciiKey (UInt8.ofNat c.toNat) with
    | none => rw [ha] at hc; cases hc.2
    | some k =>
      rw [ha] at h
      injection h with h
      subst h
      intro s hs
      rw [List.mem_singleton] at hs
      subst hs
      refine ⟨?_, asciiKey_unmodified _ hc.1 k ha⟩
      cases k.2
      · left; rfl
      · right; rfl
  · split at h
    · injection h with h; subst h; decide
    · split at h
      · injection h with h; subst h; decide
      · split at h
        · injection h with h; subst h; decide
        · rw [Option.map_eq_some_iff] at h
          obtain ⟨i, _, rfl⟩ := h
          intro s hs
          rw [List.mem_map] at hs
          obtain ⟨c, hc, rfl⟩ := hs
          exact ⟨.inl rfl, unicode_codes _ c hc⟩

/-- C62. A client asks for the text `cs` to be typed. The host (on which no key is down) sees exactly the
keystrokes of the characters, in order, up to the first character that cannot be typed, and no key is
left down. The reply tells whether all of the text was typed. Nothing else changes. -/
theorem C62_input (env : Env) (d : Daemon) (con : Nat) (msg : Msg) (ht : msg.type = .input) (hsz : msg.sz < 4096)
    (hto : msg.timeout ≤ 1000000) (cs : List Char)
    (hcs : cstring (msg.data.take msg.sz) = cs.flatMap String.utf8EncodeChar) :
    ∃ d' os, handleClient env d con msg = .ok d' ∧ d'.hostKeys = d.hostKeys ++ os ∧
      keystrokes (fun _ => false) os = (typeable cs).flatMap (fun c => (charStrokes c).getD []) ∧
      hostAfter (fun _ => false) os = (fun _ => false) ∧
      d'.replies = (con, if typeable cs = cs then .success else .fail) :: d.replies ∧
      d' = { d with vout := d'.vout, replies := d'.replies } := by
  have hl := inputLoop_out cs (cs.flatMap String.utf8EncodeChar).length d (Nat.le_refl _)
  obtain ⟨a1, a2⟩ := strokes_host ((typeable cs).flatMap fun c => (charStrokes c).getD []) (by
    intro s hs
    rw [List.mem_flatMap] at hs
    obtain ⟨c, _, hs⟩ := hs
    cases hc : charStrokes c with
    | none => rw [hc] at hs; cases hs
    | some ss => rw [hc] at hs; exact charStrokes_plain hc s hs)
  have run : handleClient env d con msg = .ok (({ d with vout :=
      (((typeable cs).flatMap fun c => (charStrokes c).getD []).flatMap strokeOut).reverse ++ d.vout } : Daemon).reply con
      (if decide (typeable cs = cs) then .success else .fail)) := by
    unfold handleClient
    rw [if_neg (by omega), if_neg (by omega), ht]
    dsimp only
    rw [hcs, hl]
    rfl
  refine ⟨_, _, run, ?_, a1, a2, ?_, rfl⟩
  · exact hostKeys_append d _
  · simp [Daemon.reply]

/-- The calls made for the output of a macro, if it has no wheel events. -/
theorem execMacro_out : ∀ (os : List MacroOut) (d : Daemon),
    (∀ c b, MacroOut.key c b ∈ os → c ∉ ([148, 149, 202, 203] : List Code)) →
    (execMacro d os).hostKeys = d.hostKeys ++ (os.map asOut).filter (fun o => match o with | .key _ _ => true | _ => false) ∧
    (execMacro d os).replies = d.replies
  | [], d, _ => by simp [execMacro]
  | .sleep us :: os, d, h => by
    have ih := execMacro_out os d (fun c b hm => h c b (List.mem_cons_of_mem _ hm))
    refine ⟨?_, ih.2⟩
    show (execMacro d os).hostKeys = _
    rw [ih.1]
    simp [asOut]
  | .key c b :: os, d, h => by
    have hc := h c b List.mem_cons_self
    simp only [List.mem_cons, List.not_mem_nil, or_false, not_or] at hc
    have e : daemonSendKey d c b = { d with keystate := upd d.keystate c b, vout := [VOut.key c b].reverse ++ d.vout } := by
      unfold daemonSendKey
      dsimp only
      rw [if_neg (show ¬ c = KEYD.SCROLL_DOWN from hc.1), if_neg (show ¬ c = KEYD.SCROLL_UP from hc.2.1),
        if_neg (show ¬ c = KEYD.SCROLL_RIGHT from hc.2.2.2), if_neg (show ¬ c = KEYD.SCROLL_LEFT from hc.2.2.1)]
      rfl
    have ih := execMacro_out os (daemonSendKey d c b) (fun c b hm => h c b (List.mem_cons_of_mem _ hm))
    refine ⟨?_, ih.2.trans (by rw [e])⟩
    show (execMacro (daemonSendKey d c b) os).hostKeys = _
    rw [ih.1, e]
    have := hostKeys_append { d with keystate := upd d.keystate c b } [VOut.key c b]
    rw [this]
    simp [asOut, keyOut, Daemon.hostKeys]

theorem filter_keys : ∀ (os : List Out) (h : Code → Bool),
    keystrokes h (os.filter (fun o => match o with | .key _ _ => true | _ => false)) = keystrokes h os ∧
    hostAfter h (os.filter (fun o => match o with | .key _ _ => true | _ => false)) = hostAfter h os
  | [], h => ⟨rfl, rfl⟩
  | .key c b :: os, h => by
    obtain ⟨h1, h2⟩ := filter_keys os (upd h c b)
    simp only [List.filter_cons_of_pos, keystrokes, hostAfter, h1, h2]
    exact ⟨trivial, trivial⟩
  | .layer _ _ :: os, h => filter_keys os h
  | .command _ :: os, h => filter_keys os h
  | .sleep _ :: os, h => filter_keys os h

/-- C63. A client asks for a macro of text and key sequences to be performed. The host (on which no key
is down) sees exactly the keystrokes the macro asks for, in order and with their modifiers, and no key
is left down. -/
theorem C63_do (env : Env) (d : Daemon) (con : Nat) (msg : Msg) (ht : msg.type = .«macro») (hsz : msg.sz < 4096)
    (hto : msg.timeout ≤ 1000000) (m : Macro)
    (hp : macroParse (cstring (dropNewlines (msg.data.take msg.sz))) = .ok (some m)) (htext : TextMacro m)
    (hw : ∀ s ∈ Macro.strokes m, s.1 ∉ ([148, 149, 202, 203] : List Code)) :
    ∃ d' os, handleClient env d con msg = .ok d' ∧ d'.hostKeys = d.hostKeys ++ os ∧
      keystrokes (fun _ => false) os = (Macro.strokes m).map (fun s => (s.1, modKeys.filter (inMods s.2))) ∧
      hostAfter (fun _ => false) os = (fun _ => false) ∧ d'.replies = (con, .success) :: d.replies := by
  have run : handleClient env d con msg = .ok ((execMacro d (macroExecute m msg.timeout)).reply con .success) := by
    unfold handleClient
    rw [if_neg (by omega), if_neg (by omega), ht]
    dsimp only
    rw [hp]
    rfl
  have keys : ∀ (m : Macro), TextMacro m → ∀ c b, MacroOut.key c b ∈ macroExecAux msg.timeout m none →
      (∃ s ∈ Macro.strokes m, s.1 = c) ∨ isModifierKey c = true := by
    intro m
    induction m with
    | nil => intro _ c b hm; cases hm
    | cons e m ih =>
      intro ht c b hm
      have he := ht e List.mem_cons_self
      have eq : macroExecAux msg.timeout (e :: m) none = macroEntryOut msg.timeout e ++ macroSleep msg.timeout ++ macroExecAux msg.timeout m none := by
        conv => lhs; unfold macroExecAux
        split
        · rename_i hh; exact absurd hh he.1
        · rename_i hh; exact absurd hh he.2.1
        · rfl
      have hst : Macro.strokes (e :: m) = e.strokes ++ Macro.strokes m := by simp [Macro.strokes]
      have sl : ∀ us, MacroOut.key c b ∉ macroSleep us := by
        intro us
        unfold macroSleep
        split <;> simp
      rw [eq, List.mem_append, List.mem_append] at hm
      rcases hm with (hm | hm) | hm
      · unfold macroEntryOut at hm
        unfold MacroEntry.strokes at hst
        cases hty : e.type with
        | hold => exact absurd hty he.1
        | release => exact absurd hty he.2.1
        | timeout => rw [hty] at hm; simp at hm
        | unicode =>
          rw [hty] at hm hst
          dsimp only at hm hst
          rw [List.mem_flatMap] at hm
          obtain ⟨x, hx, hm⟩ := hm
          left
          refine ⟨(x, 0), ?_, ?_⟩
          · rw [hst]
            exact List.mem_append_left _ (List.mem_map.2 ⟨x, hx, rfl⟩)
          · simp only [List.mem_cons, MacroOut.key.injEq, List.not_mem_nil, or_false] at hm
            rcases hm with hm | hm <;> exact hm.1.symm
        | keysequence =>
          rw [hty] at hm hst
          dsimp only at hm hst
          rw [List.mem_append, List.mem_append, List.mem_append] at hm
          rcases hm with ((hm | hm) | hm) | hm
          · right
            rw [List.mem_map] at hm
            obtain ⟨x, hx, hm⟩ := hm
            injection hm with h1 h2
            subst h1
            exact inMods_isModifier ((filter_modifiers e.mods x.2).1 (List.mem_map.2 ⟨x, hx, rfl⟩))
          · split at hm
            · exact absurd hm (sl _)
            · cases hm
          · left
            refine ⟨(e.code, e.mods), by rw [hst]; exact List.mem_cons_self, ?_⟩
            simp only [List.mem_cons, MacroOut.key.injEq, List.not_mem_nil, or_false] at hm
            rcases hm with hm | hm <;> exact hm.1.symm
          · right
            rw [List.mem_map] at hm
            obtain ⟨x, hx, hm⟩ := hm
            injection hm with h1 h2
            subst h1
            exact inMods_isModifier ((filter_modifiers e.mods x.2).1 (List.mem_map.2 ⟨x, hx, rfl⟩))
      · exact absurd hm (sl _)
      · rcases ih (fun x hx => ht x (List.mem_cons_of_mem _ hx)) c b hm with ⟨s, hs, e'⟩ | h
        · exact .inl ⟨s, by rw [hst]; exact List.mem_append_right _ hs, e'⟩
        · exact .inr h
  obtain ⟨o1, o2⟩ := execMacro_out (macroExecute m msg.timeout) d (by
    intro c b hm
    rcases keys m htext c b hm with ⟨s, hs, rfl⟩ | h
    · exact hw s hs
    · intro hc
      revert h
      simp only [List.mem_cons, List.not_mem_nil, or_false] at hc
      rcases hc with rfl | rfl | rfl | rfl <;> decide)
  obtain ⟨a1, a2⟩ := exec_host msg.timeout m (fun _ => false) htext (fun s _ => ⟨rfl, fun _ _ => rfl⟩)
  obtain ⟨b1, b2⟩ := filter_keys ((macroExecute m msg.timeout).map asOut) (fun _ => false)
  refine ⟨_, _, run, o1, ?_, ?_, ?_⟩
  · rw [b1]
    unfold macroExecute
    rw [a1]
    simp
  · rw [b2]
    unfold macroExecute
    exact a2
  · show (con, Reply.success) :: (execMacro d (macroExecute m msg.timeout)).replies = _
    rw [o2]

/-- C63, bad macros. A text that is not a macro is refused, and nothing is sent. -/
theorem C63_refused (env : Env) (d : Daemon) (con : Nat) (msg : Msg) (ht : msg.type = .«macro») (hsz : msg.sz < 4096)
    (hto : msg.timeout ≤ 1000000) (hp : macroParse (cstring (dropNewlines (msg.data.take msg.sz))) = .ok none) :
    handleClient env d con msg = .ok { d with replies := (con, .fail) :: d.replies } := by
  unfold handleClient
  rw [if_neg (by omega), if_neg (by omega), ht]
  dsimp only
  rw [hp]
  rfl

/-- Of a text without NUL and not ending in a newline, followed by newlines, the newlines are dropped. -/
theorem dropNewlines_line (s : Str) (n : Nat) (junk : Str) (hz : (0 : UInt8) ∉ s) (hl : s.getLast? ≠ some 10) :
    cstring (dropNewlines ((s ++ List.replicate n 10 ++ junk).take (s.length + n))) = s := by
  rw [List.take_left' (by simp)]
  have h1 : dropNewlines (s ++ List.replicate n 10) = s := by
    unfold dropNewlines
    rw [List.reverse_append, List.reverse_replicate]
    have h2 : ∀ n, (List.replicate n (10 : UInt8) ++ s.reverse).dropWhile (· = 10) = s.reverse := by
      intro n
      induction n with
      | zero =>
        rw [List.replicate_zero, List.nil_append]
        cases hr : s.reverse with
        | nil => rfl
        | cons x xs =>
          rw [List.dropWhile_cons_of_neg]
          intro hx
          apply hl
          rw [← List.head?_reverse, hr]
          simpa using hx
      | succ n ih => rw [List.replicate_succ, List.cons_append, List.dropWhile_cons_of_pos (by decide)]; exact ih
    rw [h2, List.reverse_reverse]
  rw [h1]
  unfold cstring
  clear h1 hl
  induction s with
  | nil => rfl
  | cons x xs ih =>
    rw [List.takeWhile_cons_of_pos (by simpa using fun e : x = 0 => hz (by simp [e])), ih (fun h => hz (List.mem_cons_of_mem _ h))]

/-- C63, lines. `keyd do` sends what it reads from a file or a terminal, with the newlines at its end (`n` of them) and whatever is in the
buffer after that: it is the macro without them that is performed. -/
theorem C63_line (env : Env) (d : Daemon) (con : Nat) (msg : Msg) (ht : msg.type = .«macro») (hto : msg.timeout ≤ 1000000)
    (s junk : Str) (n : Nat) (hd : msg.data = s ++ List.replicate n 10 ++ junk) (hsz : msg.sz = s.length + n) (hmax : msg.sz < 4096)
    (hz : (0 : UInt8) ∉ s) (hl : s.getLast? ≠ some 10) :
    (∀ m, macroParse s = .ok (some m) → TextMacro m → (∀ st ∈ Macro.strokes m, st.1 ∉ ([148, 149, 202, 203] : List Code)) →
      ∃ d' os, handleClient env d con msg = .ok d' ∧ d'.hostKeys = d.hostKeys ++ os ∧
        keystrokes (fun _ => false) os = (Macro.strokes m).map (fun s => (s.1, modKeys.filter (inMods s.2))) ∧
        hostAfter (fun _ => false) os = (fun _ => false) ∧ d'.replies = (con, .success) :: d.replies) ∧
    (macroParse s = .ok none → handleClient env d con msg = .ok { d with replies := (con, .fail) :: d.replies }) := by
  have hs : cstring (dropNewlines (msg.data.take msg.sz)) = s := by
    rw [hd, hsz]
    exact dropNewlines_line s n junk hz hl
  exact ⟨fun m hp htext hw => C63_do env d con msg ht hmax hto m (by rw [hs]; exact hp) htext hw,
    fun hp => C63_refused env d con msg ht hmax hto (by rw [hs]; exact hp)⟩

/-! Concrete cases. -/

/-- A text that can be typed, in part. -/
theorem C62_witness : typeable ['H', 'i', ' ', 'é', '\u0001', 'x'] = ['H', 'i', ' ', 'é'] ∧
    charStrokes 'H' = some [(35, [42])] ∧ charStrokes 'é' = some [(223, []), (11, []), (3, []), (45, [])] := by
  decide +kernel

theorem C63_witness : ∃ m, macroParse b!"Hi C-x 10ms enter" = .ok (some m) ∧
    Macro.strokes m = [(35, MOD_SHIFT), (23, 0), (45, MOD_CTRL), (28, 0)] ∧ TextMacro m := by
  refine ⟨[⟨.keysequence, 1059⟩, ⟨.keysequence, 23⟩, ⟨.keysequence, 2093⟩, ⟨.timeout, 10⟩, ⟨.keysequence, 28⟩], ?_, ?_, ?_⟩
  · decide +kernel
  · decide +kernel
  · intro e he
    simp only [List.mem_cons, List.not_mem_nil, or_false] at he
    rcases he with rfl | rfl | rfl | rfl | rfl <;> decide

end Keyd
