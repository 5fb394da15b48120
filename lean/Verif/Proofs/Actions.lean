import Verif.Props.IniText
import Verif.Props.KeyNames
import Verif.Props.Strings
import Verif.Proofs.ConfigParse

/-
  Proofs about the parsing of actions: the arguments found by `parse_fn` are well-formed, the depth bound of
  `parseDescriptor` suffices, and more depth never changes the outcome.
-/

set_option autoImplicit false

namespace Keyd

/-! ### Every argument found is well-formed -/

theorem Balanced.append {s t : Str} (hs : Balanced s) (ht : Balanced t) : Balanced (s ++ t) := by
  induction hs with
  | nil => exact ht
  | char h _ ih => exact .char h ih
  | esc _ ih => exact .esc ih
  | @paren a b ha _ _ ih =>
    have : (40 :: (a ++ 41 :: b)) ++ t = 40 :: (a ++ 41 :: (b ++ t)) := by simp
    rw [this]
    exact .paren ha ih

theorem ArgText.append {s t : Str} (hs : ArgText s) (ht : ArgText t) : ArgText (s ++ t) := by
  induction hs with
  | nil => exact ht
  | char h _ ih => exact .char h ih
  | esc _ ih => exact .esc ih
  | @paren a b ha _ ih =>
    have : (40 :: (a ++ 41 :: b)) ++ t = 40 :: (a ++ 41 :: (b ++ t)) := by simp
    rw [this]
    exact .paren ha ih

/-- Text of an argument with `p` parentheses still open. -/
inductive Nest : Nat → Str → Prop
  | zero {t : Str} (h : ArgText t) : Nest 0 t
  | succ {p : Nat} {t u : Str} (h : Nest p t) (hu : Balanced u) : Nest (p+1) (t ++ 40 :: u)

theorem Nest.snoc_arg {p : Nat} {t : Str} (h : Nest p t) {u : Str} (hu : ArgText u) (hu' : Balanced u) : Nest p (t ++ u) := by
  cases h with
  | zero h => exact .zero (h.append hu)
  | @succ p t v h hv =>
    rw [List.append_assoc, List.cons_append]
    exact .succ h (hv.append hu')

theorem Nest.snoc_inner {p : Nat} {t : Str} (h : Nest (p+1) t) {u : Str} (hu : Balanced u) : Nest (p+1) (t ++ u) := by
  cases h with
  | @succ _ t v h hv =>
    rw [List.append_assoc, List.cons_append]
    exact .succ h (hv.append hu)

theorem Nest.open {p : Nat} {t : Str} (h : Nest p t) : Nest (p+1) (t ++ [40]) := .succ h .nil

theorem Nest.close {p : Nat} {t : Str} (h : Nest (p+1) t) : Nest p (t ++ [41]) := by
  cases h with
  | @succ _ t v h hv =>
    rw [List.append_assoc, List.cons_append]
    exact h.snoc_arg (.paren hv .nil) (.paren hv .nil)

/-- What `scanArg` finds: the argument up to the first comma or closing parenthesis of its own level. -/
theorem scanArg_some : ∀ (s : Str) (p : Nat) (acc arg rest : Str) (term : UInt8), Nest p acc.reverse →
    scanArg s p acc = some (arg, term, rest) →
    ArgText arg ∧ (term = 41 ∨ term = 44) ∧ acc.reverse ++ s = arg ++ term :: rest
  | [], _, _, _, _, _, _, h => by cases h
  | [c], p, acc, arg, rest, term, hn, h => by
    have stop : p = 0 → (c = 41 ∨ c = 44) → some (acc.reverse, c, []) = some (arg, term, rest) →
        ArgText arg ∧ (term = 41 ∨ term = 44) ∧ acc.reverse ++ [c] = arg ++ term :: rest := by
      rintro rfl hc e
      injection e with e
      injection e with e1 e
      injection e with e2 e3
      subst e1 e2 e3
      cases hn with
      | zero hn => exact ⟨hn, hc, rfl⟩
    rw [scanArg] at h
    split at h
    · rename_i hc; exact stop (by omega) (.inl hc.1) h
    · split at h
      · rename_i hc; exact stop (by omega) (.inr hc.1) h
      · cases h
  | c :: c1 :: rest', p, acc, arg, rest, term, hn, h => by
    have stop : p = 0 → (c = 41 ∨ c = 44) → some (acc.reverse, c, c1 :: rest') = some (arg, term, rest) →
        ArgText arg ∧ (term = 41 ∨ term = 44) ∧ acc.reverse ++ c :: c1 :: rest' = arg ++ term :: rest := by
      rintro rfl hc e
      injection e with e
      injection e with e1 e
      injection e with e2 e3
      subst e1 e2 e3
      cases hn with
      | zero hn => exact ⟨hn, hc, rfl⟩
    have fix : ∀ x : Str, (c :: acc).reverse ++ x = acc.reverse ++ c :: x := fun x => by simp
    rw [scanArg] at h
    split at h
    · rename_i hc
      subst hc
      have := scanArg_some rest' p (c1 :: 92 :: acc) arg rest term
        (by
          have : (c1 :: 92 :: acc).reverse = acc.reverse ++ [92, c1] := by simp
          rw [this]
          exact hn.snoc_arg (.esc .nil) (.esc .nil)) h
      simpa using this
    · rename_i h92
      split at h
      · rename_i hc
        subst hc
        have e := scanArg_some (c1 :: rest') (p+1) (40 :: acc) arg rest term
          (by rw [List.reverse_cons]; exact hn.open) (by simpa using h)
        rwa [fix] at e
      · rename_i h40
        split at h
        · rename_i hc
          split at h
          · rename_i hp
            exact stop (by omega) (.inl hc) h
          · rename_i hp
            subst hc
            obtain ⟨q, rfl⟩ : ∃ q, p = q + 1 := ⟨p - 1, by omega⟩
            have e := scanArg_some (c1 :: rest') q (41 :: acc) arg rest term
              (by rw [List.reverse_cons]; exact hn.close)
              (by rw [← h]; congr 1; omega)
            rwa [fix] at e
        · rename_i h41
          split at h
          · rename_i hc
            exact stop (by omega) (.inr hc.1) h
          · rename_i h44
            have e := scanArg_some (c1 :: rest') p (c :: acc) arg rest term
              (by
                rw [List.reverse_cons]
                cases p with
                | zero => exact hn.snoc_arg (.char ⟨h92, h40, h41, fun h => h44 ⟨h, rfl⟩⟩ .nil) (.char ⟨h92, h40, h41⟩ .nil)
                | succ p => exact hn.snoc_inner (.char ⟨h92, h40, h41⟩ .nil)) h
            rwa [fix] at e

theorem dropWhile_sp_head : ∀ s : Str, (s.dropWhile (· == 32)).head? ≠ some 32
  | [] => by simp
  | c :: s => by
    rw [List.dropWhile_cons]
    split
    · exact dropWhile_sp_head s
    · rename_i h
      intro e
      injection e with e
      subst e
      exact h rfl

theorem dropWhile_sp_length (s : Str) : (s.dropWhile (· == 32)).length ≤ s.length :=
  (List.dropWhile_sublist _).length_le

theorem sum_append (xs ys : List Nat) : (xs ++ ys).sum = xs.sum + ys.sum := List.sum_append

/-- The arguments found by the loop: well-formed, and together with the commas between them no longer than the text. -/
theorem fnArgs_some : ∀ (n : Nat) (s : Str) (acc args : List Str), s.head? ≠ some 32 → (∀ a ∈ acc, IsArg a) →
    fnArgs n s acc = .ok (some args) →
    (∀ a ∈ args, IsArg a) ∧ (args.map (fun a => a.length + 1)).sum ≤ (acc.map (fun a => a.length + 1)).sum + s.length
  | 0, _, _, _, _, _, h => by cases h
  | n+1, s, acc, args, hs, hacc, h => by
    rw [fnArgs] at h
    split at h
    · cases h
    · rename_i arg term rest hsc
      obtain ⟨ha, _, he⟩ := scanArg_some s 0 [] arg rest term (.zero .nil) hsc
      rw [List.reverse_nil, List.nil_append] at he
      have hlen : s.length = arg.length + 1 + rest.length := by rw [he]; simp; omega
      split at h
      · cases h
      · have hacc' : ∀ a ∈ (if arg ≠ [] then acc ++ [arg] else acc), IsArg a := by
          split
          · rename_i hne
            intro a hm
            rcases List.mem_append.1 hm with hm | hm
            · exact hacc a hm
            · rw [List.mem_singleton] at hm
              subst hm
              refine ⟨ha, hne, ?_⟩
              rw [he] at hs
              cases a with
              | nil => exact absurd rfl hne
              | cons x xs => exact hs
          · exact hacc
        have hsum : ((if arg ≠ [] then acc ++ [arg] else acc).map (fun a => a.length + 1)).sum ≤
            (acc.map (fun a => a.length + 1)).sum + (arg.length + 1) := by
          split
          · rw [List.map_append, sum_append]; simp
          · omega
        dsimp only at h
        split at h
        · injection h with h
          injection h with h
          subst h
          exact ⟨hacc', by omega⟩
        · have := fnArgs_some n _ _ args (dropWhile_sp_head rest) hacc' h
          have hl := dropWhile_sp_length rest
          exact ⟨this.1, by omega⟩

theorem splitAtByte_some {b : UInt8} : ∀ {s before rest : Str}, splitAtByte b s = some (before, rest) →
    s = before ++ b :: rest ∧ b ∉ before
  | [], _, _, h => by cases h
  | c :: s, before, rest, h => by
    rw [splitAtByte] at h
    split at h
    · rename_i hc
      injection h with h
      injection h with h1 h2
      subst h1 h2
      exact ⟨by rw [hc]; rfl, by simp⟩
    · rename_i hc
      cases hs : splitAtByte b s with
      | none => rw [hs] at h; cases h
      | some p =>
        obtain ⟨x, y⟩ := p
        rw [hs] at h
        injection h with h
        injection h with h1 h2
        subst h1 h2
        obtain ⟨e, hm⟩ := splitAtByte_some hs
        refine ⟨by rw [e]; rfl, ?_⟩
        intro hm'
        rcases List.mem_cons.1 hm' with hm' | hm'
        · exact hc hm'.symm
        · exact hm hm'

/-- What `parse_fn` finds is well-formed. -/
theorem parseFn_some {s name : Str} {args : List Str} (h : parseFn s = .ok (some (name, args))) :
    (∀ a ∈ args, IsArg a) ∧ name.length + 1 + (args.map (fun a => a.length + 1)).sum ≤ s.length ∧ (40 : UInt8) ∉ name := by
  unfold parseFn at h
  split at h
  · cases h
  · rename_i nm rest hsp
    obtain ⟨e, hm⟩ := splitAtByte_some hsp
    obtain ⟨r, hr, h⟩ := bind_eq_ok.1 h
    cases r with
    | none => cases h
    | some as =>
      injection h with h
      injection h with h
      injection h with h1 h2
      subst h1 h2
      obtain ⟨ha, hl⟩ := fnArgs_some _ _ _ _ (dropWhile_sp_head rest) (by intro _ hm; cases hm) hr
      have := dropWhile_sp_length rest
      refine ⟨ha, ?_, hm⟩
      have hs : s.length = nm.length + 1 + rest.length := by rw [e]; simp; omega
      simp only [List.map_nil, List.sum_nil] at hl
      omega

/-! ### More depth never changes the outcome -/

/-- `f'` has the outcomes of `f`, except where `f` runs out of depth. -/
def Deeper (f f' : Config → Str → Res (Config × Option Desc)) : Prop :=
  ∀ c s, f c s = .error .fuel ∨ f' c s = f c s

theorem bind_fuel {α β : Type} {r : Res α} {f : α → Res β} : r = .error .fuel → (r >>= f) = .error .fuel := by
  rintro rfl; rfl

theorem parseArg_deeper {f f' : Config → Str → Res (Config × Option Desc)} (h : Deeper f f') (c : Config) (t : ArgType) (s : Str) :
    parseArg f c t s = .error .fuel ∨ parseArg f' c t s = parseArg f c t s := by
  cases t with
  | descriptor =>
    unfold parseArg
    dsimp only
    rcases h c s with e | e
    · exact .inl (bind_fuel e)
    · exact .inr (by rw [e])
  | _ => exact .inr rfl

theorem parseArgs_deeper {f f' : Config → Str → Res (Config × Option Desc)} (h : Deeper f f') :
    ∀ (l : List (ArgType × Str)) (c : Config) (acc : List Int),
      parseArgs f c l acc = .error .fuel ∨ parseArgs f' c l acc = parseArgs f c l acc
  | [], _, _ => .inr rfl
  | (t, s) :: rest, c, acc => by
    rw [parseArgs, parseArgs]
    rcases parseArg_deeper h c t s with e | e
    · exact .inl (bind_fuel e)
    · rw [e]
      cases hp : parseArg f c t s with
      | error x => exact .inr rfl
      | ok r =>
        obtain ⟨c1, v⟩ := r
        cases v with
        | none => exact .inr rfl
        | some v => exact parseArgs_deeper h rest c1 (v :: acc)

theorem parseAction_deeper {f f' : Config → Str → Res (Config × Option Desc)} (h : Deeper f f') (c : Config) (s : Str) :
    parseAction f c s = .error .fuel ∨ parseAction f' c s = parseAction f c s := by
  unfold parseAction
  cases parseFn s with
  | error x => exact .inr rfl
  | ok r =>
    cases r with
    | none => exact .inr rfl
    | some q =>
      obtain ⟨fn, args⟩ := q
      dsimp only [bind, Except.bind]
      cases (if fn = b!"lettermod" then lettermod args else Except.ok (some (fn, args)) : Res (Option (Str × List Str))) with
      | error x => exact .inr rfl
      | ok r =>
        cases r with
        | none => exact .inr rfl
        | some q =>
          obtain ⟨fn, args⟩ := q
          dsimp only
          cases actions.find? (fun a => a.1 = fn) with
          | none => exact .inr rfl
          | some a =>
            obtain ⟨_, op, types⟩ := a
            dsimp only
            split
            · exact .inr rfl
            · rcases parseArgs_deeper h (types.zip args).reverse c [] with e | e
              · rw [e]; exact .inl rfl
              · rw [e]; exact .inr rfl

theorem descriptorAux_deeper : ∀ n : Nat, Deeper (parseDescriptorAux n) (parseDescriptorAux (n+1))
  | 0 => fun _ _ => .inl rfl
  | n+1 => fun c s => by
    rw [parseDescriptorAux, parseDescriptorAux]
    split
    · exact .inr rfl
    · cases parseKeySequence s with
      | some q => exact .inr rfl
      | none =>
        dsimp only
        cases parseCommand s with
        | tooLong => exact .inr rfl
        | ok cmd => exact .inr rfl
        | notCommand =>
          dsimp only [bind, Except.bind]
          cases parseMacroExpression s with
          | error x => exact .inr rfl
          | ok m =>
            cases m with
            | invalid => exact parseAction_deeper (descriptorAux_deeper n) c s
            | error => exact .inr rfl
            | ok m => exact .inr rfl

/-- Once the depth suffices, the outcome stays the same. -/
theorem descriptorAux_le {n m : Nat} (h : n ≤ m) (c : Config) (s : Str) (hne : parseDescriptorAux n c s ≠ .error .fuel) :
    parseDescriptorAux m c s = parseDescriptorAux n c s := by
  induction h with
  | refl => rfl
  | @step m hm ih =>
    rcases descriptorAux_deeper m c s with e | e
    · exact absurd (ih ▸ e) hne
    · rw [e, ih]

/-! ### The depth bound suffices -/

theorem parseArgs_nofuel {f : Config → Str → Res (Config × Option Desc)} :
    ∀ (l : List (ArgType × Str)) (c : Config) (acc : List Int),
      (∀ q ∈ l, q.1 = .descriptor → ∀ c, f c q.2 ≠ .error .fuel) → (∀ q ∈ l, parseMacroExpression q.2 ≠ .error .fuel) →
      parseArgs f c l acc ≠ .error .fuel
  | [], _, _, _, _ => by intro h; cases h
  | (t, s) :: rest, c, acc, hd, hm => by
    have harg : parseArg f c t s ≠ .error .fuel := by
      cases t with
      | descriptor =>
        unfold parseArg
        dsimp only
        have := hd _ List.mem_cons_self rfl c
        cases hf : f c s with
        | error x =>
          intro e
          rw [hf] at this
          injection (show (Except.error x : Res (Config × Option Int)) = .error .fuel from e) with e
          exact this (by rw [e])
        | ok r =>
          obtain ⟨c1, v⟩ := r
          cases v with
          | none => intro e; cases e
          | some v =>
            show ¬ (if _ then _ else _) = _
            split <;> (intro e; cases e)
      | mac =>
        unfold parseArg
        dsimp only
        split
        · intro e; cases e
        · have := hm _ List.mem_cons_self
          cases hf : parseMacroExpression s with
          | error x =>
            intro e
            dsimp only at this
            rw [hf] at this
            injection (show (Except.error x : Res (Config × Option Int)) = .error .fuel from e) with e
            exact this (by rw [e])
          | ok r => cases r <;> (intro e; cases e)
      | layer =>
        unfold parseArg
        dsimp only
        split
        · intro e; cases e
        · split
          · intro e; cases e
          · split <;> (intro e; cases e)
      | layout =>
        unfold parseArg
        dsimp only
        split
        · intro e; cases e
        · split <;> (intro e; cases e)
      | sensitivity => intro e; cases e
      | timeout => intro e; cases e
    rw [parseArgs]
    cases hp : parseArg f c t s with
    | error x =>
      intro e
      rw [hp] at harg
      injection (show (Except.error x : Res (Config × Option (List Int))) = .error .fuel from e) with e
      exact harg (by rw [e])
    | ok r =>
      obtain ⟨c1, v⟩ := r
      cases v with
      | none => intro e; cases e
      | some v =>
        exact parseArgs_nofuel rest c1 (v :: acc) (fun q h => hd q (List.mem_cons_of_mem _ h))
          (fun q h => hm q (List.mem_cons_of_mem _ h))

/-! ### Everything else has no depth bound -/

theorem Sat.nofuel {α : Type} {r : Res α} {Q : α → Prop} (h : Sat r Q (· ∈ actionStops)) : r ≠ .error .fuel := by
  intro e
  rw [e] at h
  exact absurd h (by simp [actionStops])

theorem utf8ReadChar_stops (s : Str) : Sat (utf8ReadChar s) (fun _ => True) (· ∈ actionStops) := by
  unfold utf8ReadChar
  repeat' split
  all_goals first | trivial | simp [actionStops]

theorem utf8StrlenAux_stops : ∀ (n : Nat) (s : Str), Sat (utf8StrlenAux n s) (fun _ => True) (· ∈ actionStops)
  | 0, _ => trivial
  | n+1, s => by
    unfold utf8StrlenAux
    refine Sat.bind (utf8ReadChar_stops s) ?_
    rintro ⟨sz, cp⟩ _
    refine Sat.ite (fun _ => trivial) (fun _ => Sat.bind (utf8StrlenAux_stops n _) (fun _ _ => trivial))

theorem macroChars_stops : ∀ (n : Nat) (tok : Str) (m : Macro), Sat (macroChars n tok m) (fun _ => True) (· ∈ actionStops)
  | 0, _, _ => trivial
  | n+1, tok, m => by
    unfold macroChars
    refine Sat.bind (utf8ReadChar_stops tok) ?_
    rintro ⟨sz, cp⟩ _
    dsimp only
    repeat' split
    all_goals first | trivial | exact macroChars_stops n _ _

theorem macroToken_stops (tok : Str) (m : Macro) : Sat (macroToken tok m) (fun _ => True) (· ∈ actionStops) := by
  unfold macroToken
  repeat' split
  all_goals first | trivial | exact macroChars_stops _ _ _

theorem macroTokens_stops : ∀ (toks : List Str) (m : Macro), Sat (macroTokens toks m) (fun _ => True) (· ∈ actionStops)
  | [], _ => trivial
  | tok :: rest, m => by
    unfold macroTokens
    refine Sat.bind (macroToken_stops tok m) ?_
    intro r _
    cases r with
    | none => trivial
    | some m => exact macroTokens_stops rest m

theorem parseMacroExpression_stops (s : Str) : Sat (parseMacroExpression s) (fun _ => True) (· ∈ actionStops) := by
  have key : ∀ s, Sat (do
      match ← macroParse s with
      | some m => .ok (.ok m)
      | none => .ok .error : Res MacroExpr) (fun _ => True) (· ∈ actionStops) := by
    intro s
    refine Sat.bind (macroTokens_stops _ _) ?_
    intro r _
    cases r <;> trivial
  unfold parseMacroExpression
  refine Sat.ite (fun _ => trivial) (fun _ => Sat.ite (fun _ => key _) (fun _ => ?_))
  refine Sat.bind (Q := fun _ => True) ?_ (fun b _ => Sat.ite (fun _ => trivial) (fun _ => key _))
  refine Sat.ite (fun _ => ?_) (fun _ => trivial)
  exact Sat.bind (utf8StrlenAux_stops _ _) (fun _ _ => trivial)

theorem fnArgs_stops : ∀ (n : Nat) (s : Str) (acc : List Str), Sat (fnArgs n s acc) (fun _ => True) (· ∈ actionStops)
  | 0, _, _ => trivial
  | n+1, s, acc => by
    unfold fnArgs
    split
    · trivial
    · refine Sat.ite (fun _ => by simp [actionStops]) (fun _ => ?_)
      dsimp only
      refine Sat.ite (fun _ => trivial) (fun _ => fnArgs_stops n _ _)

theorem parseFn_stops (s : Str) : Sat (parseFn s) (fun _ => True) (· ∈ actionStops) := by
  unfold parseFn
  split
  · trivial
  · refine Sat.bind (fnArgs_stops _ _ _) ?_
    intro r _
    cases r <;> trivial

theorem lettermod_stops (args : List Str) : Sat (lettermod args) (fun _ => True) (· ∈ actionStops) := by
  unfold lettermod
  split
  · exact parseFn_stops _
  · trivial

/-- The text `lettermod` is rewritten to has the three arguments it should have. -/
theorem lettermod_some {a0 a1 a2 a3 : Str} (h0 : IsArg a0) (h1 : IsArg a1) (h2 : IsArg a2) (h3 : IsArg a3)
    (hl : a0.length + 2 * a1.length + a2.length + a3.length + 31 ≤ 1023) :
    lettermod [a0, a1, a2, a3] = .ok (some (b!"overloadi",
      [a1, b!"overloadt2(" ++ a0 ++ b!", " ++ a1 ++ b!", " ++ a3 ++ b!")", a2])) ∧
    IsArg (b!"overloadt2(" ++ a0 ++ b!", " ++ a1 ++ b!", " ++ a3 ++ b!")") := by
  have hb : ∀ {s : Str}, ArgText s → Balanced s := by
    intro s h
    induction h with
    | nil => exact .nil
    | char h _ ih => exact .char ⟨h.1, h.2.1, h.2.2.1⟩ ih
    | esc _ ih => exact .esc ih
    | paren hs _ ih => exact .paren hs ih
  have hinner : IsArg (b!"overloadt2(" ++ a0 ++ b!", " ++ a1 ++ b!", " ++ a3 ++ b!")") := by
    refine ⟨?_, by simp, by simp⟩
    have e : b!"overloadt2(" ++ a0 ++ b!", " ++ a1 ++ b!", " ++ a3 ++ b!")" =
        b!"overloadt2" ++ 40 :: ((a0 ++ (b!", " ++ (a1 ++ (b!", " ++ a3)))) ++ 41 :: []) := by simp
    rw [e]
    refine ArgText.append (by repeat (first | exact .nil | refine .char (by decide) ?_)) (.paren ?_ .nil)
    refine (hb h0.1).append (Balanced.append (by repeat (first | exact .nil | refine .char (by decide) ?_)) ?_)
    exact (hb h1.1).append (Balanced.append (by repeat (first | exact .nil | refine .char (by decide) ?_)) (hb h3.1))
  refine ⟨?_, hinner⟩
  unfold lettermod
  dsimp only
  rw [List.take_of_length_le (by simp; omega)]
  have e : b!"overloadi(" ++ a1 ++ b!", overloadt2(" ++ a0 ++ b!", " ++ a1 ++ b!", " ++ a3 ++ b!"), " ++ a2 ++ b!")" =
      b!"overloadi" ++ 40 :: (List.replicate 0 32 ++ (a1 ++ 44 :: (List.replicate 1 32 ++
        ((b!"overloadt2(" ++ a0 ++ b!", " ++ a1 ++ b!", " ++ a3 ++ b!")") ++ 44 :: (List.replicate 1 32 ++ (a2 ++ 41 :: [])))))) := by
    simp
  rw [e]
  exact C29_split_arguments _ (by decide) 0 _ _ (.more 1 h1 (.more 1 hinner (.last h2))) (by simp)

/-! ### The depth bound suffices -/

theorem parseAction_nofuel {f : Config → Str → Res (Config × Option Desc)} (c : Config) (s : Str)
    (h : ∀ fn args, parseFn s = .ok (some (fn, args)) → ∀ fn' args',
      (if fn = b!"lettermod" then lettermod args else .ok (some (fn, args)) : Res (Option (Str × List Str))) = .ok (some (fn', args')) →
      ∀ a ∈ args', ∀ c, f c a ≠ .error .fuel) : parseAction f c s ≠ .error .fuel := by
  unfold parseAction
  cases hp : parseFn s with
  | error x =>
    intro e
    injection (show (Except.error x : Res (Config × Option Desc)) = .error .fuel from e) with e
    exact (parseFn_stops s).nofuel (by rw [hp, e])
  | ok r =>
    cases r with
    | none => intro e; cases e
    | some q =>
      obtain ⟨fn, args⟩ := q
      dsimp only [bind, Except.bind]
      cases hl : (if fn = b!"lettermod" then lettermod args else Except.ok (some (fn, args)) : Res (Option (Str × List Str))) with
      | error x =>
        intro e
        injection (show (Except.error x : Res (Config × Option Desc)) = .error .fuel from e) with e
        subst e
        split at hl
        · exact (lettermod_stops args).nofuel hl
        · cases hl
      | ok r =>
        cases r with
        | none => intro e; cases e
        | some q =>
          obtain ⟨fn', args'⟩ := q
          dsimp only
          cases actions.find? (fun a => a.1 = fn') with
          | none => intro e; cases e
          | some a =>
            obtain ⟨_, op, types⟩ := a
            dsimp only
            split
            · intro e; cases e
            · have := parseArgs_nofuel (f := f) (types.zip args').reverse c []
                (fun q hq _ c => h fn args hp fn' args' hl q.2 (List.of_mem_zip (List.mem_reverse.1 hq)).2 c)
                (fun q _ => (parseMacroExpression_stops q.2).nofuel)
              cases hps : parseArgs f c (types.zip args').reverse [] with
              | error x =>
                intro e
                injection (show (Except.error x : Res (Config × Option Desc)) = .error .fuel from e) with e
                exact this (by rw [hps, e])
              | ok r =>
                obtain ⟨c1, v⟩ := r
                cases v <;> (intro e; cases e)

theorem descriptorAux_nofuel_step {n : Nat} (c : Config) (s : Str)
    (h : parseAction (parseDescriptorAux n) c s ≠ .error .fuel) : parseDescriptorAux (n+1) c s ≠ .error .fuel := by
  rw [parseDescriptorAux]
  split
  · intro e; cases e
  · cases parseKeySequence s with
    | some q =>
      obtain ⟨code, mods⟩ := q
      dsimp only
      split
      · split
        · intro e; cases e
        · intro e; injection e with e; cases e
      · intro e; cases e
    | none =>
      dsimp only
      cases parseCommand s with
      | tooLong => intro e; cases e
      | ok cmd =>
        dsimp only
        split <;> (intro e; cases e)
      | notCommand =>
        dsimp only
        cases hm : parseMacroExpression s with
        | error x =>
          intro e
          injection (show (Except.error x : Res (Config × Option Desc)) = .error .fuel from e) with e
          exact (parseMacroExpression_stops s).nofuel (by rw [hm, e])
        | ok m =>
          cases m with
          | invalid => exact h
          | error => intro e; cases e
          | ok m =>
            show ¬ (if _ then _ else _) = _
            split <;> (intro e; cases e)

theorem mem_length_le {a : Str} : ∀ {args : List Str}, a ∈ args → a.length + 1 ≤ (args.map (fun a => a.length + 1)).sum
  | x :: xs, h => by
    rw [List.map_cons, List.sum_cons]
    rcases List.mem_cons.1 h with h | h
    · subst h; omega
    · have := mem_length_le h; omega

/-- Twice the length of the text is enough. -/
theorem descriptorAux_nofuel : ∀ (len : Nat) (s : Str), s.length ≤ len → s.length < 512 → ∀ (n : Nat), 2 * s.length + 2 ≤ n →
    ∀ c, parseDescriptorAux n c s ≠ .error .fuel := by
  intro len
  induction len with
  | zero =>
    intro s hs _ n hn c
    obtain ⟨n, rfl⟩ : ∃ m, n = m + 1 := ⟨n - 1, by omega⟩
    have : s = [] := List.length_eq_zero_iff.1 (by omega)
    subst this
    rw [parseDescriptorAux, if_pos rfl]
    intro e; cases e
  | succ len ih =>
    intro s hs h512 n hn c
    obtain ⟨n, rfl⟩ : ∃ m, n = m + 1 := ⟨n - 1, by omega⟩
    refine descriptorAux_nofuel_step c s (parseAction_nofuel c s ?_)
    intro fn args hp fn' args' hl a ha c
    obtain ⟨hargs, hsum, _⟩ := parseFn_some hp
    split at hl
    · rename_i hfn
      subst hfn
      unfold lettermod at hl
      split at hl
      · rename_i a0 a1 a2 a3
        have h0 := hargs a0 (by simp)
        have h1 := hargs a1 (by simp)
        have h2 := hargs a2 (by simp)
        have h3 := hargs a3 (by simp)
        have l0 := List.length_pos_iff.2 h0.2.1
        have l1 := List.length_pos_iff.2 h1.2.1
        have l2 := List.length_pos_iff.2 h2.2.1
        have l3 := List.length_pos_iff.2 h3.2.1
        have hsum' : 9 + 1 + (a0.length + 1 + (a1.length + 1 + (a2.length + 1 + (a3.length + 1)))) ≤ s.length := by
          simpa using hsum
        have hb : ∀ m, 2 * s.length ≤ m → ∀ c, parseDescriptorAux m c a1 ≠ .error .fuel := fun m hm c =>
          ih a1 (by omega) (by omega) m (by omega) c
        have h2' : ∀ c, parseDescriptorAux n c a2 ≠ .error .fuel := fun c => ih a2 (by omega) (by omega) n (by omega) c
        obtain ⟨e1, e2⟩ := lettermod_some h0 h1 h2 h3 (by omega)
        have e1' := e1
        unfold lettermod at e1'
        dsimp only at e1' hl
        rw [e1'] at hl
        injection hl with hl
        injection hl with hl
        injection hl with hl1 hl2
        subst hl2
        rcases List.mem_cons.1 ha with ha | ha
        · subst ha
          exact hb n (by omega) c
        rcases List.mem_cons.1 ha with ha | ha
        · subst ha
          obtain ⟨n, rfl⟩ : ∃ m, n = m + 1 := ⟨n - 1, by omega⟩
          refine descriptorAux_nofuel_step c _ (parseAction_nofuel c _ ?_)
          intro gn brgs hp' gn' brgs' hl' b hb' c
          have ep : parseFn (b!"overloadt2(" ++ a0 ++ b!", " ++ a1 ++ b!", " ++ a3 ++ b!")") = .ok (some (b!"overloadt2", [a0, a1, a3])) := by
            have e : b!"overloadt2(" ++ a0 ++ b!", " ++ a1 ++ b!", " ++ a3 ++ b!")" =
                b!"overloadt2" ++ 40 :: (List.replicate 0 32 ++ (a0 ++ 44 :: (List.replicate 1 32 ++
                  (a1 ++ 44 :: (List.replicate 1 32 ++ (a3 ++ 41 :: [])))))) := by simp
            rw [e]
            exact C29_split_arguments _ (by decide) 0 _ _ (.more 1 h0 (.more 1 h1 (.last h3))) (by simp)
          rw [ep] at hp'
          injection hp' with hp'
          injection hp' with hp'
          injection hp' with hp1 hp2
          subst hp1 hp2
          rw [if_neg (by decide)] at hl'
          injection hl' with hl'
          injection hl' with hl'
          injection hl' with hl1 hl2
          subst hl1 hl2
          simp only [List.mem_cons, List.not_mem_nil, or_false] at hb'
          rcases hb' with rfl | rfl | rfl
          · exact ih b (by omega) (by omega) n (by omega) c
          · exact hb n (by omega) c
          · exact ih b (by omega) (by omega) n (by omega) c
        · rw [List.mem_singleton] at ha
          subst ha
          exact h2' c
      · cases hl
    · injection hl with hl
      injection hl with hl
      injection hl with hl1 hl2
      subst hl1 hl2
      have := mem_length_le ha
      exact ih a (by omega) (by omega) n (by omega) c

/-- `parseDescriptor` never runs out of depth on the texts it is given (`config_add_entry` accepts at most 511 bytes), and any
larger depth gives the same outcome. -/
theorem parseDescriptor_depth (c : Config) (s : Str) (h : s.length < 512) :
    parseDescriptor c s ≠ .error .fuel ∧ ∀ n, 2 * s.length + 2 ≤ n → parseDescriptorAux n c s = parseDescriptor c s := by
  have := descriptorAux_nofuel s.length s (Nat.le_refl _) h _ (Nat.le_refl _) c
  exact ⟨this, fun n hn => descriptorAux_le hn c s this⟩

/-! ### The value of a line is shorter than the line -/

theorem kvpScan_length : ∀ (s key sp k v : Str), kvpScan s key sp = some (k, v) → v.length < s.length
  | [], _, _, _, _, h => by cases h
  | c :: rest, key, sp, k, v, h => by
    unfold kvpScan at h
    split at h
    · injection h with h
      injection h with _ h
      subst h
      have := (List.dropWhile_sublist isBlank (l := rest)).length_le
      simp; omega
    · split at h
      · have := kvpScan_length rest _ _ k v h
        simp; omega
      · have := kvpScan_length rest _ _ k v h
        simp; omega

theorem parseKvp_length (s : Str) : ((parseKvp s).2.getD []).length ≤ s.length := by
  unfold parseKvp
  dsimp only
  split
  · rename_i k v h
    show v.length ≤ _
    split at h
    · have := kvpScan_length _ _ _ _ _ h
      simp; omega
    · have := kvpScan_length _ _ _ _ _ h
      omega
  · simp

theorem splitLayer_length (exp : Str) : (splitLayer exp).2.length ≤ exp.length := by
  unfold splitLayer
  split
  · rename_i before rest h
    obtain ⟨rfl, _⟩ := splitAtByte_some h
    split
    · simp; omega
    · simp
  · simp

theorem parseDescriptor_stops {c : Config} (hw : WF c) (s : Str) (h : s.length < 512) :
    Sat (parseDescriptor c s) (fun r => Extends c r.1 ∧ WF r.1 ∧ ∀ d, r.2 = some d → DescOK r.1 r.1.descriptors.length d) (· ∈ actionStops) := by
  have h1 := parseDescriptor_sat c s hw
  have h2 := (parseDescriptor_depth c s h).1
  cases hr : parseDescriptor c s with
  | ok r => rw [hr] at h1; exact h1
  | error e =>
    rw [hr] at h1 h2
    rcases (show ParseErr e from h1) with h | h
    · exact absurd (by rw [h]) h2
    · exact h

end Keyd
