/-
C56: actions mean what they say.
-/
import Verif.Spec.Actions
import Verif.Proofs.Actions
import Verif.Props.Strings
import Verif.Props.Document

set_option autoImplicit false

namespace Keyd

/-! ### UTF-8 text splits at ASCII characters -/

theorem utf8_multi (ch : Char) (b : UInt8) (hb : b ∈ String.utf8EncodeChar ch) (h : b < 128) :
    String.utf8EncodeChar ch = [b] := by
  unfold String.utf8EncodeChar at hb ⊢
  have hc : ch.val.toNat < 1114112 := by
    rcases ch.valid with h | h
    · have : ch.val.toNat < 55296 := h
      omega
    · exact h.2
  generalize ch.val.toNat = v at *
  have hn : ∀ k, k < 256 → 128 ≤ k → UInt8.ofNat k = b → False := by
    intro k h1 h2 e
    subst e
    rw [UInt8.lt_iff_toNat_lt, UInt8.toNat_ofNat', Nat.mod_eq_of_lt (by omega)] at h
    exact absurd h (by simp; omega)
  dsimp only at hb ⊢
  split at hb
  · rename_i hv
    rw [if_pos hv]
    rw [List.mem_singleton] at hb
    rw [hb]
  · exfalso
    split at hb
    · simp only [List.mem_cons, List.not_mem_nil, or_false] at hb
      rcases hb with hb | hb <;> exact hn _ (by omega) (by omega) hb.symm
    · split at hb
      · simp only [List.mem_cons, List.not_mem_nil, or_false] at hb
        rcases hb with hb | hb | hb <;> exact hn _ (by omega) (by omega) hb.symm
      · simp only [List.mem_cons, List.not_mem_nil, or_false] at hb
        rcases hb with hb | hb | hb | hb <;> exact hn _ (by omega) (by omega) hb.symm

theorem Utf8.split : ∀ (cs : List Char) (x : Str) (b : UInt8) (y : Str), b < 128 →
    cs.flatMap String.utf8EncodeChar = x ++ b :: y → Utf8 x ∧ Utf8 y
  | [], x, b, y, _, e => by
    rw [List.flatMap_nil] at e
    have := congrArg List.length e
    simp at this
  | ch :: cs, x, b, y, hb, e => by
    rw [List.flatMap_cons] at e
    rcases List.append_eq_append_iff.1 e with ⟨as, h1, h2⟩ | ⟨bs, h1, h2⟩
    · obtain ⟨hx, hy⟩ := Utf8.split cs as b y hb h2
      refine ⟨?_, hy⟩
      obtain ⟨ds, rfl⟩ := hx
      exact ⟨ch :: ds, by rw [h1]; rfl⟩
    · cases bs with
      | nil =>
        obtain ⟨hx, hy⟩ := Utf8.split cs [] b y hb (by simpa using h2.symm)
        refine ⟨⟨[ch], ?_⟩, hy⟩
        rw [List.append_nil] at h1
        rw [← h1]; simp
      | cons b' bs =>
        injection h2 with h2 h3
        subst h2
        have := utf8_multi ch b (by rw [h1]; simp) hb
        rw [this] at h1
        have hl := congrArg List.length h1
        simp at hl
        obtain ⟨hx, hbs⟩ : x = [] ∧ bs = [] := by
          constructor
          · exact List.length_eq_zero_iff.1 (by omega)
          · exact List.length_eq_zero_iff.1 (by omega)
        subst hx hbs
        exact ⟨⟨[], rfl⟩, ⟨cs, by simpa using h3⟩⟩

theorem Utf8.at {x : Str} {b : UInt8} {y : Str} (h : Utf8 (x ++ b :: y)) (hb : b < 128) : Utf8 x ∧ Utf8 y := by
  obtain ⟨cs, e⟩ := h
  exact Utf8.split cs x b y hb e.symm

theorem Utf8.ascii {b : UInt8} (hb : b < 128) : Utf8 [b] := by
  revert b
  have : ∀ k : Fin 128, Utf8 [UInt8.ofNat k.val] := by
    intro k
    refine ⟨[Char.ofNat k.val], ?_⟩
    revert k
    decide +kernel
  intro b hb
  have h := this ⟨b.toNat, by rw [UInt8.lt_iff_toNat_lt] at hb; simpa using hb⟩
  simpa using h

theorem Utf8.append {x y : Str} (hx : Utf8 x) (hy : Utf8 y) : Utf8 (x ++ y) := by
  obtain ⟨cs, rfl⟩ := hx
  obtain ⟨ds, rfl⟩ := hy
  exact ⟨cs ++ ds, by rw [List.flatMap_append]⟩

theorem Utf8.all_ascii : ∀ {x : Str}, (∀ b ∈ x, b < 128) → Utf8 x
  | [], _ => ⟨[], rfl⟩
  | b :: x, h => (Utf8.ascii (h b (by simp))).append (Utf8.all_ascii (x := x) fun b hb => h b (by simp [hb]))

theorem Utf8.spaces {k : Nat} {t : Str} (h : Utf8 (List.replicate k 32 ++ t)) : Utf8 t := by
  induction k with
  | zero => simpa using h
  | succ k ih =>
    refine ih ?_
    have : Utf8 ([] ++ 32 :: (List.replicate k 32 ++ t)) := by
      simpa [List.replicate_succ] using h
    exact (this.at (by decide)).2

theorem Utf8.args {t : Str} {args : List Str} (h : ArgsText t args) : Utf8 t → ∀ a ∈ args, Utf8 a := by
  induction h with
  | last h =>
    intro hu a ha
    rw [List.mem_singleton] at ha
    subst ha
    exact (hu.at (by decide)).1
  | more n h t ih =>
    intro hu a ha
    obtain ⟨h1, h2⟩ := hu.at (by decide)
    rcases List.mem_cons.1 ha with ha | ha
    · subst ha; exact h1
    · exact ih h2.spaces a ha

/-- Text with two characters or more that has an ASCII character is not one
character. -/
theorem Utf8.strlen {s : Str} (h : Utf8 s) {b : UInt8} (hb : b ∈ s) (hb' : b < 128) (hl : 2 ≤ s.length) :
    ∃ n, utf8Strlen s = .ok n ∧ n ≠ 1 := by
  obtain ⟨cs, rfl⟩ := h
  refine ⟨_, C33_utf8_strlen cs, ?_⟩
  intro e
  obtain ⟨ch, rfl⟩ := List.length_eq_one_iff.1 e
  rw [List.flatMap_cons, List.flatMap_nil, List.append_nil] at hb hl
  rw [utf8_multi ch b hb hb'] at hl
  simp at hl

/-! ### Key sequences and calls are different texts -/

theorem prefix_paren {p : Str} {ms : UInt8} (h : PrefixText p ms) : (40 : UInt8) ∉ p := by
  induction h with
  | nil => simp
  | cons h t ih =>
    simp only [List.mem_cons, not_or]
    refine ⟨?_, by decide, ih⟩
    intro e
    subst e
    have hh := (modLetter_iff _ _).2 h
    revert hh
    simp [modLetter]

theorem keyNames_paren : ∀ e ∈ keyNames, (40 : UInt8) ∈ e.1 → e.1 = [40] := by decide +kernel

theorem not_keys {x y : Str} (hy : y ≠ []) (hx : (40 : UInt8) ∉ x) : parseKeySequence (x ++ 40 :: y) = none := by
  cases h : parseKeySequence (x ++ 40 :: y) with
  | none => rfl
  | some r =>
    exfalso
    obtain ⟨code, m⟩ := r
    obtain ⟨p, ms, name, hp, e, hn⟩ := C30_only_key_sequences _ _ _ h
    have hm : (40 : UInt8) ∈ name := by
      have : (40 : UInt8) ∈ p ++ name := by rw [← e]; simp
      rcases List.mem_append.1 this with h | h
      · exact absurd h (prefix_paren hp)
      · exact h
    rcases hn with ⟨sh, hk, _⟩ | ⟨hn, _⟩
    · have hname := keyNames_paren _ hk hm
      dsimp only at hname
      subst hname
      have hl := congrArg List.getLast? e
      rw [List.getLast?_append, List.getLast?_append] at hl
      have e1 : (40 :: y).getLast? = y.getLast? := by
        cases y with
        | nil => exact absurd rfl hy
        | cons b y => rw [List.getLast?_cons_cons]
      -- the prefix has no parenthesis, so the one in `x ++ 40 :: y` is the last character
      have hcount : (x ++ 40 :: y).length = (p ++ [40]).length := by rw [e]
      have ht : (x ++ 40 :: y).takeWhile (· != 40) = x := by
        rw [List.takeWhile_append_of_pos (by
          intro b hb
          simp only [bne_iff_ne, ne_eq]
          intro hb'
          exact hx (hb' ▸ hb))]
        simp
      have ht' : (p ++ [40]).takeWhile (· != 40) = p := by
        rw [List.takeWhile_append_of_pos (by
          intro b hb
          simp only [bne_iff_ne, ne_eq]
          intro hb'
          exact prefix_paren hp (hb' ▸ hb))]
        simp
      rw [e, ht'] at ht
      subst ht
      simp at hcount
      exact hy hcount
    · rw [hn] at hm; cases hm

theorem callText_shape {f : Str} {args : List Str} {s : Str} (h : CallText f args s) : ∃ y, y ≠ [] ∧ s = f ++ 40 :: y := by
  cases h with
  | none k => exact ⟨_, by simp, rfl⟩
  | some k h =>
    refine ⟨_, ?_, rfl⟩
    cases h <;> simp

theorem prefix_paren_iff {f g y : Str} (hf : (40 : UInt8) ∉ f) (hg : (40 : UInt8) ∉ g)
    (h : isPrefix (f ++ [40]) (g ++ 40 :: y) = true) : f = g := by
  unfold isPrefix at h
  rw [List.isPrefixOf_iff_prefix] at h
  obtain ⟨t, ht⟩ := h
  have e1 : splitAtByte 40 (f ++ 40 :: t) = some (f, t) := splitAtByte_first 40 f t hf
  have e2 : splitAtByte 40 (g ++ 40 :: y) = some (g, y) := splitAtByte_first 40 g y hg
  rw [← ht, List.append_assoc, List.singleton_append, e1] at e2
  injection e2 with e2
  injection e2

/-- A call of anything but `command` and `macro` reaches the table of actions. -/
theorem call_action {f : Str} {args : List Str} {s : Str} (h : CallText f args s) (hf : (40 : UInt8) ∉ f)
    (hc : f ≠ b!"command") (hm : f ≠ b!"macro") (hu : Utf8 s) (n : Nat) (c : Config) :
    parseDescriptorAux (n+1) c s = parseAction (parseDescriptorAux n) c s := by
  obtain ⟨y, hy, rfl⟩ := callText_shape h
  have hk := not_keys hy hf
  have e1 : parseCommand (f ++ 40 :: y) = .notCommand := by
    unfold parseCommand
    rw [if_pos]
    right; left
    intro hp
    exact hc (prefix_paren_iff (f := b!"command") (by decide) hf hp).symm
  have e2 : parseMacroExpression (f ++ 40 :: y) = .ok .invalid := by
    unfold parseMacroExpression
    by_cases hl : (f ++ 40 :: y).length ≥ 1024
    · rw [if_pos hl]
    · rw [if_neg hl, if_neg]
      · obtain ⟨k, hk1, hk2⟩ := hu.strlen (b := 40) (by simp) (by decide) (by
          have := List.length_pos_iff.2 hy
          simp; omega)
        rw [hk]
        simp [hk1, hk2, bind_ok]
      · rintro ⟨hp, _⟩
        exact hm (prefix_paren_iff (f := b!"macro") (by decide) hf hp).symm
  rw [parseDescriptorAux, if_neg (by simp), hk]
  dsimp only
  rw [e1]
  dsimp only
  rw [e2]
  rfl

theorem callText_parseFn {f : Str} {args : List Str} {s : Str} (h : CallText f args s) (hf : (40 : UInt8) ∉ f)
    (h5 : args.length ≤ 5) : parseFn s = .ok (some (f, args)) := by
  cases h with
  | none k => exact C29_no_arguments f hf k []
  | some k h => exact C29_split_arguments f hf k _ _ h h5

/-- A call whose arguments parse. -/
theorem call_parses {f : Str} {args : List Str} {s : Str} (h : CallText f args s) (hu : Utf8 s) (hf : (40 : UInt8) ∉ f)
    (hc : f ≠ b!"command") (hm : f ≠ b!"macro") (hlm : f ≠ b!"lettermod") {g : Str} {op : ActOp} {types : List ArgType}
    (hfind : actions.find? (fun a => a.1 = f) = some (g, op, types)) (hlen : args.length = types.length) (h5 : args.length ≤ 5)
    {n : Nat} {c c' : Config} {vals : List Int}
    (hp : parseArgs (parseDescriptorAux n) c (types.zip args).reverse [] = .ok (c', some vals)) :
    parseDescriptorAux (n+1) c s = .ok (c', some (mkDesc op vals)) := by
  rw [call_action h hf hc hm hu]
  unfold parseAction
  rw [callText_parseFn h hf h5, bind_ok]
  dsimp only
  rw [if_neg hlm, bind_ok]
  dsimp only
  rw [hfind]
  dsimp only
  rw [if_neg (by omega), hp, bind_ok]

/-! ### Arguments -/

theorem findLayer_found {n : Str} : ∀ (ls : List Layer) (k i : Nat), findLayer n ls k = some i →
    k ≤ i ∧ ∃ l, ls[i - k]? = some l ∧ l.name = n
  | [], _, _, h => by cases h
  | l :: ls, k, i, h => by
    rw [findLayer] at h
    split at h
    · rename_i hn
      injection h with h
      subst h
      exact ⟨Nat.le_refl _, l, by simp, hn⟩
    · obtain ⟨h1, l', h2, h3⟩ := findLayer_found ls (k+1) i h
      refine ⟨by omega, l', ?_, h3⟩
      rw [show i - k = (i - (k+1)) + 1 by omega, List.getElem?_cons_succ, h2]

theorem findLayer_mem {n : Str} : ∀ (ls : List Layer) (k : Nat), (∃ l ∈ ls, l.name = n) → ∃ i, findLayer n ls k = some i
  | [], _, h => by obtain ⟨l, hm, _⟩ := h; cases hm
  | l :: ls, k, h => by
    rw [findLayer]
    split
    · exact ⟨_, rfl⟩
    · rename_i hn
      obtain ⟨l', hm, hn'⟩ := h
      rcases List.mem_cons.1 hm with e | hm
      · exact absurd (e ▸ hn') hn
      · exact findLayer_mem ls (k+1) ⟨l', hm, hn'⟩

theorem layerIndex_named {c : Config} {n : Str} {i : Nat} (h : c.layerIndex n = some i) :
    ∃ l, c.layers[i]? = some l ∧ l.name = n := by
  obtain ⟨_, l, h1, h2⟩ := findLayer_found c.layers 0 i h
  exact ⟨l, by simpa using h1, h2⟩

theorem arg_layer {c : Config} {n : Str} (h : c.offersLayer n) :
    ∃ i : Nat, c.named i n ∧ ∀ pd, parseArg pd c .layer n = .ok (c, some (i : Int)) := by
  obtain ⟨hm, hl, ht⟩ := h
  obtain ⟨i, hi⟩ := findLayer_mem c.layers 0 hl
  have hi' : c.layerIndex n = some i := hi
  obtain ⟨l, h1, h2⟩ := layerIndex_named hi'
  refine ⟨i, by unfold Config.named; rw [h1]; exact congrArg some h2, ?_⟩
  intro pd
  unfold parseArg
  dsimp only
  rw [if_neg hm, hi']
  dsimp only
  rw [if_neg]
  rw [layer_of_getElem h1]
  exact ht l (List.mem_of_getElem? h1) h2

theorem arg_layout {c : Config} {n : Str} (h : c.offersLayout n) :
    ∃ i : Nat, c.named i n ∧ ∀ pd, parseArg pd c .layout n = .ok (c, some (i : Int)) := by
  have hl : ∃ l ∈ c.layers, l.name = n := by
    rcases h with h | h
    · cases hls : c.layers with
      | nil => rw [hls] at h; cases h
      | cons l ls =>
        rw [hls] at h
        exact ⟨l, by simp, by simpa using h⟩
    · exact h.1
  obtain ⟨i, hi⟩ := findLayer_mem c.layers 0 hl
  have hi' : c.layerIndex n = some i := hi
  obtain ⟨l, h1, h2⟩ := layerIndex_named hi'
  refine ⟨i, by unfold Config.named; rw [h1]; exact congrArg some h2, ?_⟩
  intro pd
  unfold parseArg
  dsimp only
  rw [hi']
  dsimp only
  rw [if_neg]
  rintro ⟨h0, hty⟩
  rcases h with h | h
  · apply h0
    cases hls : c.layers with
    | nil => rw [hls] at h; cases h
    | cons l ls =>
      rw [hls] at h
      have : l.name = n := by simpa using h
      rw [hls, findLayer, if_pos this] at hi
      injection hi with hi
      exact hi.symm
  · apply hty
    rw [layer_of_getElem h1]
    exact h.2 l (List.mem_of_getElem? h1) h2

theorem atoiDigits_numeral : ∀ (t : Str) (acc : Nat), (∀ d ∈ t, 48 ≤ d ∧ d ≤ 57) →
    atoiDigits t acc = t.foldl (fun v d => 10 * v + (d.toNat - 48)) acc
  | [], _, _ => rfl
  | d :: t, acc, h => by
    rw [atoiDigits, if_pos, List.foldl_cons, atoiDigits_numeral t _ fun d hd => h d (by simp [hd]), Nat.mul_comm 10]
    obtain ⟨h1, h2⟩ := h d (by simp)
    simp [isDigit, h1, h2]

theorem numeral_head {t : Str} {n : Nat} (h : Numeral t n) : ∃ d u, t = d :: u ∧ 48 ≤ d ∧ d ≤ 57 := by
  cases t with
  | nil => exact absurd rfl h.1
  | cons d u => exact ⟨d, u, rfl, h.2.1 d (by simp)⟩

theorem digit_cases : ∀ d : UInt8, 48 ≤ d → d ≤ 57 → isSpaceC d = false ∧ d ≠ 45 ∧ d ≠ 43 := by
  intro d h1 h2
  have h1' : 48 ≤ d.toNat := h1
  have h2' : d.toNat ≤ 57 := h2
  have : ∀ k : Fin 256, 48 ≤ k.val → k.val ≤ 57 → isSpaceC (UInt8.ofNat k.val) = false ∧ UInt8.ofNat k.val ≠ 45 ∧ UInt8.ofNat k.val ≠ 43 := by
    decide +kernel
  have h := this ⟨d.toNat, d.toNat_lt⟩ h1' h2'
  simpa using h

theorem atoi_numeral {t : Str} {n : Nat} (h : Numeral t n) (hn : n < 2147483648) : atoi t = n := by
  obtain ⟨d, u, rfl, h1, h2⟩ := numeral_head h
  obtain ⟨a1, a2, a3⟩ := digit_cases d h1 h2
  unfold atoi
  rw [List.dropWhile_cons, if_neg (by simp [a1])]
  dsimp only
  have e := atoiDigits_numeral (d :: u) 0 h.2.1
  rw [h.2.2] at e
  split
  · rename_i heq; injection heq with heq; exact absurd heq a2
  · rename_i heq; injection heq with heq; exact absurd heq a3
  · rw [e]
    unfold wrapI32
    rw [Int.min_eq_right (by omega), Int.max_eq_right (by omega)]
    omega

theorem atoi_signed {t : Str} {n : Int} (h : SignedNumeral t n) (h1 : -32768 ≤ n) (h2 : n ≤ 32767) : atoi t = n := by
  rcases h with ⟨k, hk, rfl⟩ | ⟨u, k, rfl, hk, rfl⟩
  · exact atoi_numeral hk (by omega)
  · unfold atoi
    rw [List.dropWhile_cons, if_neg (by decide)]
    show wrapI32 (max (-9223372036854775808) (min 9223372036854775807 (-(atoiDigits u 0 : Int)))) = _
    rw [atoiDigits_numeral u 0 hk.2.1, hk.2.2]
    unfold wrapI32
    rw [Int.min_eq_right (by omega), Int.max_eq_right (by omega)]
    omega

theorem arg_timeout {t : Str} {n : Nat} (h : Numeral t n) (hn : n < 65536) (pd) (c : Config) :
    parseArg pd c .timeout t = .ok (c, some (n : Int)) := by
  unfold parseArg
  dsimp only
  rw [atoi_numeral h (by omega)]
  unfold toU16
  have : ((n : Int) % 65536).toNat = n := by omega
  rw [this]

theorem arg_sensitivity {t : Str} {n : Int} (h : SignedNumeral t n) (h1 : -32768 ≤ n) (h2 : n ≤ 32767) (pd) (c : Config) :
    parseArg pd c .sensitivity t = .ok (c, some n) := by
  unfold parseArg
  dsimp only
  rw [atoi_signed h h1 h2]
  unfold toI16
  have : (n + 32768) % 65536 - 32768 = n := by omega
  rw [this]

theorem keysText_parses {s : Str} {code : Code} {mods : UInt8} (h : KeysText s code mods) :
    parseKeySequence s = some (code, mods) := by
  obtain ⟨p, ms, name, sh, hp, hk, rfl, rfl⟩ := h
  exact C30_key_sequence p ms hp name code sh hk

theorem macroCall_paren {s : Str} {m : Macro} (h : MacroCall s m) :
    parseKeySequence s = none ∧ isPrefix b!"macro(" s = true ∧ s.getLast? = some 41 ∧
      macroParse (strEscape (s.dropLast.drop 6)) = .ok (some m) := by
  obtain ⟨body, rfl, hm⟩ := h
  refine ⟨?_, ?_, ?_, ?_⟩
  · have := not_keys (x := b!"macro") (y := body ++ b!")") (by simp) (by decide)
    simpa using this
  · unfold isPrefix
    rw [List.isPrefixOf_iff_prefix, List.append_assoc]
    exact ⟨_, rfl⟩
  · rw [List.getLast?_append]; rfl
  · have : ((b!"macro(" ++ body ++ b!")").dropLast.drop 6) = body := by
      rw [List.dropLast_concat]
      simp
    rw [this]
    exact hm

theorem macroCall_expression {s : Str} {m : Macro} (h : MacroCall s m) (hl : s.length < 1024) :
    parseMacroExpression s = .ok (.ok m) := by
  obtain ⟨_, h2, h3, h4⟩ := macroCall_paren h
  unfold parseMacroExpression
  rw [if_neg (by omega), if_pos ⟨h2, h3⟩, h4, bind_ok]

theorem char_notKeys {s : Str} {m : Macro} (h : CharText s m) : parseKeySequence s = none := by
  obtain ⟨⟨ch, hch⟩, hk, _⟩ := h
  cases hp : parseKeySequence s with
  | none => rfl
  | some r =>
    exfalso
    obtain ⟨code, mods⟩ := r
    obtain ⟨p, ms, name, hp, e, hn⟩ := C30_only_key_sequences _ _ _ hp
    rcases hn with ⟨sh, hn, hm⟩ | ⟨hn, hpe, _⟩
    · exact hk code mods ⟨p, ms, name, sh, hp, hn, e, hm⟩
    · subst hn
      rw [List.append_nil] at e
      cases hp with
      | nil => exact hpe rfl
      | cons hl ht =>
        have hmem : (45 : UInt8) ∈ String.utf8EncodeChar ch := by rw [← hch, e]; simp
        have := utf8_multi ch 45 hmem (by decide)
        rw [← hch, e] at this
        have := congrArg List.length this
        simp at this

theorem char_noPrefix {s : Str} {m : Macro} (h : CharText s m) : s.length ≤ 4 ∧ utf8Strlen s = .ok 1 := by
  obtain ⟨⟨ch, rfl⟩, _⟩ := h
  constructor
  · rw [String.length_utf8EncodeChar]
    exact Char.utf8Size_le_four ch
  · have := C33_utf8_strlen [ch]
    simpa using this

theorem isPrefix_length {p s : Str} (h : isPrefix p s = true) : p.length ≤ s.length := by
  unfold isPrefix at h
  rw [List.isPrefixOf_iff_prefix] at h
  exact h.length_le

theorem char_expression {s : Str} {m : Macro} (h : CharText s m) : parseMacroExpression s = .ok (.ok m) := by
  have hk := char_notKeys h
  obtain ⟨hl, hu⟩ := char_noPrefix h
  unfold parseMacroExpression
  rw [if_neg (by omega), if_neg]
  · rw [hk]
    simp [hu, bind_ok, h.2.2]
  · rintro ⟨hp, _⟩
    have := isPrefix_length hp
    simp at this
    omega

theorem keysText_expression {s : Str} {m : Macro} {code : Code} {mods : UInt8} (h : KeysText s code mods)
    (hm : macroParse s = .ok (some m)) (hl : s.length < 1024) : parseMacroExpression s = .ok (.ok m) := by
  have hk := keysText_parses h
  unfold parseMacroExpression
  rw [if_neg (by omega), if_neg]
  · rw [hk]
    simp [bind_ok, hm]
  · rintro ⟨hp, hlast⟩
    unfold isPrefix at hp
    rw [List.isPrefixOf_iff_prefix] at hp
    obtain ⟨t, rfl⟩ := hp
    cases t with
    | nil => exact absurd hlast (by decide)
    | cons b t =>
      have := not_keys (x := b!"macro") (y := b :: t) (by simp) (by decide)
      simp only [List.cons_append, List.nil_append] at this hk
      rw [this] at hk
      cases hk

theorem macroText_expression {s : Str} {m : Macro} (h : MacroText s m) (hl : s.length < 1024) :
    parseMacroExpression s = .ok (.ok m) := by
  rcases h with h | ⟨⟨code, mods, h⟩, hm⟩ | h
  · exact macroCall_expression h hl
  · exact keysText_expression h hm hl
  · exact char_expression h

theorem arg_mac {t : Str} {m : Macro} (h : MacroText t m) (hl : t.length < 1024) {c : Config} (hc : c.macros.length < 256) (pd) :
    parseArg pd c .mac t = .ok ({ c with macros := c.macros ++ [m] }, some (c.macros.length : Int)) := by
  unfold parseArg
  dsimp only
  rw [if_neg (by omega), macroText_expression h hl, bind_ok]

/-! ### Growing tables -/

/-- `c'` is `c` with room taken for the action and nothing else changed. -/
def Adds (c c' : Config) (nested macros commands : Nat) : Prop :=
  ∃ xs ys zs, c' = { c with descriptors := c.descriptors ++ xs, macros := c.macros ++ ys, commands := c.commands ++ zs } ∧
    xs.length = nested ∧ ys.length = macros ∧ zs.length = commands

theorem Adds.refl (c : Config) : Adds c c 0 0 0 := ⟨[], [], [], by simp, rfl, rfl, rfl⟩

theorem Adds.trans {c c' c'' : Config} {n m k n' m' k' : Nat} (h : Adds c c' n m k) (h' : Adds c' c'' n' m' k') :
    Adds c c'' (n + n') (m + m') (k + k') := by
  obtain ⟨xs, ys, zs, rfl, rfl, rfl, rfl⟩ := h
  obtain ⟨xs', ys', zs', rfl, rfl, rfl, rfl⟩ := h'
  exact ⟨xs ++ xs', ys ++ ys', zs ++ zs', by simp, by simp, by simp, by simp⟩

theorem Adds.desc (c : Config) (d : Desc) : Adds c { c with descriptors := c.descriptors ++ [d] } 1 0 0 :=
  ⟨[d], [], [], by simp, rfl, rfl, rfl⟩

theorem Adds.mac (c : Config) (m : Macro) : Adds c { c with macros := c.macros ++ [m] } 0 1 0 :=
  ⟨[], [m], [], by simp, rfl, rfl, rfl⟩

theorem Adds.cmd (c : Config) (m : Str) : Adds c { c with commands := c.commands ++ [m] } 0 0 1 :=
  ⟨[], [], [m], by simp, rfl, rfl, rfl⟩

theorem Adds.layers {c c' : Config} {n m k : Nat} (h : Adds c c' n m k) : c'.layers = c.layers := by
  obtain ⟨xs, ys, zs, rfl, _⟩ := h
  rfl

theorem Adds.lengths {c c' : Config} {n m k : Nat} (h : Adds c c' n m k) : c'.descriptors.length = c.descriptors.length + n ∧
    c'.macros.length = c.macros.length + m ∧ c'.commands.length = c.commands.length + k := by
  obtain ⟨xs, ys, zs, rfl, rfl, rfl, rfl⟩ := h
  simp

theorem getElem?_grow {α : Type} {xs ys : List α} {i : Nat} {x : α} (h : xs[i]? = some x) : (xs ++ ys)[i]? = some x := by
  have hi : i < xs.length := (List.getElem?_eq_some_iff.1 h).1
  rw [List.getElem?_append_left hi, h]

theorem StandsFor.grow {c c' : Config} {n m k : Nat} (h : Adds c c' n m k) {d : Desc} {a : Action} (hs : StandsFor c d a) :
    StandsFor c' d a := by
  obtain ⟨xs, ys, zs, rfl, _⟩ := h
  induction hs with
  | nothing => exact .nothing
  | keys => exact .keys
  | layer h => exact .layer h
  | oneshot h => exact .oneshot h
  | toggle h => exact .toggle h
  | swap h => exact .swap h
  | layout h => exact .layout h
  | clear => exact .clear
  | clearm hm => exact .clearm (getElem?_grow hm)
  | swapm h hm => exact .swapm h (getElem?_grow hm)
  | togglem h hm => exact .togglem h (getElem?_grow hm)
  | layerm h hm => exact .layerm h (getElem?_grow hm)
  | oneshotm h hm => exact .oneshotm h (getElem?_grow hm)
  | overload h hd _ ih => exact .overload h (getElem?_grow hd) ih
  | overloadt h hd _ ih => exact .overloadt h (getElem?_grow hd) ih
  | overloadt2 h hd _ ih => exact .overloadt2 h (getElem?_grow hd) ih
  | overloadi hd _ he _ ih ih' => exact .overloadi (getElem?_grow hd) ih (getElem?_grow he) ih'
  | timeout hd _ he _ ih ih' => exact .timeout (getElem?_grow hd) ih (getElem?_grow he) ih'
  | sequence hm => exact .sequence (getElem?_grow hm)
  | macro2 hm => exact .macro2 (getElem?_grow hm)
  | command hc => exact .command (getElem?_grow hc)
  | scroll => exact .scroll
  | scrollt => exact .scrollt

theorem offersLayer_grow {c c' : Config} {n m k : Nat} (h : Adds c c' n m k) {x : Str} : c'.offersLayer x ↔ c.offersLayer x := by
  unfold Config.offersLayer
  rw [h.layers]

theorem resolves_grow {c c' : Config} {n m k : Nat} (h : Adds c c' n m k) {a : Action} : a.resolves c' ↔ a.resolves c := by
  induction a with
  | overload x a ih => simp only [Action.resolves, offersLayer_grow h, ih]
  | overloadt x a _ ih => simp only [Action.resolves, offersLayer_grow h, ih]
  | overloadt2 x a _ ih => simp only [Action.resolves, offersLayer_grow h, ih]
  | overloadi a b _ iha ihb => simp only [Action.resolves, iha, ihb]
  | timeout a _ b iha ihb => simp only [Action.resolves, iha, ihb]
  | layout x => simp only [Action.resolves, Config.offersLayout, h.layers]
  | _ => simp only [Action.resolves, offersLayer_grow h]

theorem named_grow {c c' : Config} {n m k : Nat} (h : Adds c c' n m k) {i : Nat} {x : Str} : c'.named i x ↔ c.named i x := by
  unfold Config.named
  rw [h.layers]

/-- The text parses to a descriptor standing for the action, given depth enough. -/
def Parses (s : Str) (a : Action) : Prop :=
  ∃ N, ∀ c, a.resolves c → a.fits c → ∃ c' d, (∀ n, N ≤ n → parseDescriptorAux n c s = .ok (c', some d)) ∧
    Adds c c' a.nested a.macros a.commands ∧ StandsFor c' d a

/-- A nested action as an argument. -/
theorem arg_descriptor {s : Str} {a : Action} {N : Nat} {c : Config}
    (h : ∃ c' d, (∀ n, N ≤ n → parseDescriptorAux n c s = .ok (c', some d)) ∧
      Adds c c' a.nested a.macros a.commands ∧ StandsFor c' d a)
    (hfit : c.descriptors.length + a.nested < 1024) :
    ∃ c' j d, (∀ n, N ≤ n → parseArg (parseDescriptorAux n) c .descriptor s = .ok (c', some (j : Nat))) ∧
      Adds c c' (a.nested + 1) a.macros a.commands ∧ c'.descriptors[j]? = some d ∧ StandsFor c' d a := by
  obtain ⟨c', d, hp, ha, hs⟩ := h
  refine ⟨_, c'.descriptors.length, d, ?_, by simpa using ha.trans (Adds.desc c' d), by simp, hs.grow (Adds.desc c' d)⟩
  intro n hn
  unfold parseArg
  dsimp only
  rw [hp n hn, bind_ok]
  dsimp only
  rw [if_neg]
  have := ha.lengths.1
  omega

/-- What a name must be for `call_parses`. -/
def Callable (f : Str) : Prop := (40 : UInt8) ∉ f ∧ f ≠ b!"command" ∧ f ≠ b!"macro" ∧ f ≠ b!"lettermod"

instance (f : Str) : Decidable (Callable f) := inferInstanceAs (Decidable (_ ∧ _))

theorem call_ok {f : Str} {args : List Str} {s : Str} (h : CallText f args s) (hu : Utf8 s) (hf : Callable f) {g : Str} {op : ActOp}
    {types : List ArgType} (hfind : actions.find? (fun a => a.1 = f) = some (g, op, types)) (hlen : args.length = types.length)
    (h5 : args.length ≤ 5) {n N : Nat} (hn : N + 1 ≤ n) {c c' : Config} {vals : List Int}
    (hp : ∀ n, N ≤ n → parseArgs (parseDescriptorAux n) c (types.zip args).reverse [] = .ok (c', some vals)) :
    parseDescriptorAux n c s = .ok (c', some (mkDesc op vals)) := by
  obtain ⟨n, rfl⟩ : ∃ m, n = m + 1 := ⟨n - 1, by omega⟩
  exact call_parses h hu hf.1 hf.2.1 hf.2.2.1 hf.2.2.2 hfind hlen h5 (hp n (by omega))

theorem args_one {pd} {c c1 : Config} {t1 : ArgType} {s1 : Str} {v1 : Int} (h1 : parseArg pd c t1 s1 = .ok (c1, some v1)) :
    parseArgs pd c ([t1].zip [s1]).reverse [] = .ok (c1, some [v1]) := by
  show parseArgs pd c [(t1, s1)] [] = _
  rw [parseArgs, h1, bind_ok]
  rfl

theorem args_two {pd} {c c1 c2 : Config} {t1 t2 : ArgType} {s1 s2 : Str} {v1 v2 : Int}
    (h2 : parseArg pd c t2 s2 = .ok (c2, some v2)) (h1 : parseArg pd c2 t1 s1 = .ok (c1, some v1)) :
    parseArgs pd c ([t1, t2].zip [s1, s2]).reverse [] = .ok (c1, some [v1, v2]) := by
  show parseArgs pd c [(t2, s2), (t1, s1)] [] = _
  rw [parseArgs, h2, bind_ok]
  dsimp only
  rw [parseArgs, h1, bind_ok]
  rfl

theorem args_three {pd} {c c1 c2 c3 : Config} {t1 t2 t3 : ArgType} {s1 s2 s3 : Str} {v1 v2 v3 : Int}
    (h3 : parseArg pd c t3 s3 = .ok (c3, some v3)) (h2 : parseArg pd c3 t2 s2 = .ok (c2, some v2))
    (h1 : parseArg pd c2 t1 s1 = .ok (c1, some v1)) :
    parseArgs pd c ([t1, t2, t3].zip [s1, s2, s3]).reverse [] = .ok (c1, some [v1, v2, v3]) := by
  show parseArgs pd c [(t3, s3), (t2, s2), (t1, s1)] [] = _
  rw [parseArgs, h3, bind_ok]
  dsimp only
  rw [parseArgs, h2, bind_ok]
  dsimp only
  rw [parseArgs, h1, bind_ok]
  rfl

theorem callText_utf8 {f : Str} {args : List Str} {s : Str} (h : CallText f args s) (hu : Utf8 s) : ∀ a ∈ args, Utf8 a := by
  cases h with
  | none k => intro a ha; cases ha
  | some k h => exact Utf8.args h (Utf8.spaces (hu.at (by decide)).2)

theorem callText_length {f : Str} {args : List Str} {s : Str} (h : CallText f args s) (hf : (40 : UInt8) ∉ f) (h5 : args.length ≤ 5) :
    (∀ a ∈ args, IsArg a) ∧ f.length + 1 + (args.map (fun a => a.length + 1)).sum ≤ s.length := by
  obtain ⟨h1, h2, _⟩ := parseFn_some (callText_parseFn h hf h5)
  exact ⟨h1, h2⟩

theorem callText_arg {f : Str} {args : List Str} {s : Str} (h : CallText f args s) (hf : (40 : UInt8) ∉ f) (h5 : args.length ≤ 5)
    (hl : s.length < 512) {a : Str} (ha : a ∈ args) : a.length < 512 := by
  have h1 := (callText_length h hf h5).2
  have h2 := mem_length_le ha
  omega

/-- The one-argument layer actions. -/
theorem parses_layerCall {f n s : Str} (h : CallText f [n] s) (hu : Utf8 s) (hf : Callable f) {g : Str} {op : ActOp}
    (hfind : actions.find? (fun a => a.1 = f) = some (g, op, [.layer])) {act : Action} {mk : Nat → Desc}
    (hmk : ∀ i : Nat, mkDesc op [(i : Int)] = mk i) (hact : ∀ c, act.resolves c → c.offersLayer n)
    (h0 : act.nested = 0 ∧ act.macros = 0 ∧ act.commands = 0) (hs : ∀ c i, c.named i n → StandsFor c (mk i) act) : Parses s act := by
  refine ⟨1, fun c hr _ => ?_⟩
  obtain ⟨i, hi, hp⟩ := arg_layer (hact c hr)
  refine ⟨c, mk i, ?_, by rw [h0.1, h0.2.1, h0.2.2]; exact Adds.refl c, hs c i hi⟩
  intro m hm
  rw [← hmk]
  exact call_ok (N := 0) h hu hf hfind rfl (by simp) hm fun k _ => args_one (hp _)

/-- The actions with a layer and a macro. -/
theorem parses_layerMacro {f n t s : Str} {m : Macro} (h : CallText f [n, t] s) (hu : Utf8 s) (hl : s.length < 512) (hf : Callable f)
    (hm : MacroText t m) {g : Str} {op : ActOp} (hfind : actions.find? (fun a => a.1 = f) = some (g, op, [.layer, .mac]))
    {act : Action} {mk : Nat → Nat → Desc} (hmk : ∀ i j : Nat, mkDesc op [(i : Int), (j : Int)] = mk i j)
    (hact : ∀ c, act.resolves c → c.offersLayer n) (h0 : act.nested = 0 ∧ act.macros = 1 ∧ act.commands = 0)
    (hs : ∀ c i j, c.named i n → c.macros[j]? = some m → StandsFor c (mk i j) act) : Parses s act := by
  refine ⟨1, fun c hr hfit => ?_⟩
  unfold Action.fits at hfit
  rw [h0.1, h0.2.1, h0.2.2] at hfit
  have hadd := Adds.mac c m
  obtain ⟨i, hi, hp⟩ := arg_layer ((offersLayer_grow hadd).2 (hact c hr))
  refine ⟨_, mk i c.macros.length, ?_, by rw [h0.1, h0.2.1, h0.2.2]; exact hadd, hs _ i _ hi (by simp)⟩
  intro k hk
  rw [← hmk]
  have hlt := callText_arg h hf.1 (by simp) hl (a := t) (by simp)
  exact call_ok (N := 0) h hu hf hfind rfl (by simp) hk fun k _ => args_two (arg_mac hm (by omega) (by omega) _) (hp _)

/-- The actions with a layer, a nested action and a time. -/
theorem parses_layerTap {f n t u s : Str} {ms : Nat} (h : CallText f [n, t, u] s) (hu : Utf8 s) (hf : Callable f) {a : Action}
    (ha : Parses t a) (hn : Numeral u ms) (hms : ms < 65536) {g : Str} {op : ActOp}
    (hfind : actions.find? (fun a => a.1 = f) = some (g, op, [.layer, .descriptor, .timeout]))
    {act : Action} {mk : Nat → Nat → Desc} (hmk : ∀ i j : Nat, mkDesc op [(i : Int), (j : Int), (ms : Int)] = mk i j)
    (hact : ∀ c, act.resolves c → c.offersLayer n ∧ a.resolves c)
    (h0 : act.nested = a.nested + 1 ∧ act.macros = a.macros ∧ act.commands = a.commands)
    (hs : ∀ c i j d, c.named i n → c.descriptors[j]? = some d → StandsFor c d a → StandsFor c (mk i j) act) : Parses s act := by
  obtain ⟨N, hN⟩ := ha
  refine ⟨N + 1, fun c hr hfit => ?_⟩
  unfold Action.fits at hfit
  rw [h0.1, h0.2.1, h0.2.2] at hfit
  obtain ⟨c', j, d, hp, hadd, hd, hst⟩ := arg_descriptor (hN c (hact c hr).2 ⟨by omega, hfit.2.1, hfit.2.2⟩) (by omega)
  obtain ⟨i, hi, hpl⟩ := arg_layer ((offersLayer_grow hadd).2 (hact c hr).1)
  refine ⟨c', mk i j, ?_, by rw [h0.1, h0.2.1, h0.2.2]; exact hadd, hs _ i j d hi hd hst⟩
  intro k hk
  rw [← hmk]
  exact call_ok h hu hf hfind rfl (by simp) hk fun k hk => args_three (arg_timeout hn hms _ _) (hp k hk) (hpl _)

theorem parses_keys {s : Str} {code : Code} {mods : UInt8} (h : KeysText s code mods) (hm : ∀ n, (code, n) ∉ bareModifiers) :
    Parses s (.keys code mods) := by
  refine ⟨1, fun c _ _ => ⟨c, .keyseq code mods, ?_, Adds.refl c, .keys⟩⟩
  intro n hn
  obtain ⟨n, rfl⟩ : ∃ m, n = m + 1 := ⟨n - 1, by omega⟩
  have hne : s ≠ [] := by
    rintro rfl
    have := keysText_parses h
    simp [parseKeySequence] at this
  rw [parseDescriptorAux, if_neg hne, keysText_parses h]
  have : modifierLayerName code = none := by
    unfold modifierLayerName
    have h1 := hm b!"shift"
    have h2 := hm b!"control"
    have h3 := hm b!"meta"
    have h4 := hm b!"alt"
    have h5 := hm b!"altgr"
    rw [if_neg (by rintro rfl; exact h1 (by decide)), if_neg (by rintro rfl; exact h2 (by decide)),
      if_neg (by rintro rfl; exact h3 (by decide)), if_neg (by rintro rfl; exact h4 (by decide)),
      if_neg (by rintro rfl; exact h5 (by decide))]
  dsimp only
  rw [this]

theorem parses_modifier {s n : Str} {code : Code} {mods : UInt8} (h : KeysText s code mods) (hm : (code, n) ∈ bareModifiers) :
    Parses s (.layer n) := by
  refine ⟨1, fun c hr _ => ?_⟩
  obtain ⟨_, hl, _⟩ := hr
  obtain ⟨i, hi⟩ := findLayer_mem c.layers 0 hl
  have hi' : c.layerIndex n = some i := hi
  obtain ⟨l, h1, h2⟩ := layerIndex_named hi'
  refine ⟨c, .layer i, ?_, Adds.refl c, .layer (by unfold Config.named; rw [h1]; exact congrArg some h2)⟩
  intro k hk
  obtain ⟨k, rfl⟩ : ∃ m, k = m + 1 := ⟨k - 1, by omega⟩
  have hne : s ≠ [] := by
    rintro rfl
    have := keysText_parses h
    simp [parseKeySequence] at this
  rw [parseDescriptorAux, if_neg hne, keysText_parses h]
  have : modifierLayerName code = some n := by
    simp only [bareModifiers, List.mem_cons, List.not_mem_nil, or_false, Prod.mk.injEq] at hm
    rcases hm with ⟨rfl, rfl⟩ | ⟨rfl, rfl⟩ | ⟨rfl, rfl⟩ | ⟨rfl, rfl⟩ | ⟨rfl, rfl⟩ <;> decide
  dsimp only
  rw [this]
  dsimp only
  rw [hi']

theorem parses_expression {s : Str} {m : Macro} (hne : s ≠ []) (hk : parseKeySequence s = none) (hc : isPrefix b!"command(" s ≠ true)
    (hm : parseMacroExpression s = .ok (.ok m)) : Parses s (.sequence m) := by
  refine ⟨1, fun c _ hfit => ⟨_, .macro c.macros.length, ?_, Adds.mac c m, .sequence (by simp)⟩⟩
  intro n hn
  obtain ⟨n, rfl⟩ : ∃ m, n = m + 1 := ⟨n - 1, by omega⟩
  have e1 : parseCommand s = .notCommand := by
    unfold parseCommand
    rw [if_pos (.inr (.inl hc))]
  have h256 : c.macros.length + 1 ≤ 256 := hfit.2.1
  rw [parseDescriptorAux, if_neg hne, hk]
  dsimp only
  rw [e1]
  dsimp only
  rw [hm, bind_ok]
  dsimp only
  rw [if_neg (by omega)]

theorem parses_command {s body : Str} (h : s = b!"command(" ++ body ++ b!")") (hl : s.length ≤ 256) :
    Parses s (.command (strEscape body)) := by
  refine ⟨1, fun c _ hfit => ⟨_, .command c.commands.length, ?_, Adds.cmd c (strEscape body), .command (by simp)⟩⟩
  intro n hn
  obtain ⟨n, rfl⟩ : ∃ m, n = m + 1 := ⟨n - 1, by omega⟩
  have hk : parseKeySequence s = none := by
    have := not_keys (x := b!"command") (y := body ++ b!")") (by simp) (by decide)
    rw [h]
    simpa using this
  have hpre : isPrefix b!"command(" s = true := by
    unfold isPrefix
    rw [h, List.isPrefixOf_iff_prefix, List.append_assoc]
    exact ⟨_, rfl⟩
  have hlast : s.getLast? = some 41 := by rw [h, List.getLast?_append]; rfl
  have e1 : parseCommand s = .ok (strEscape body) := by
    unfold parseCommand
    rw [if_neg, if_neg (by omega)]
    · congr 2
      rw [h, List.dropLast_concat]
      simp
    · rintro (h' | h' | h')
      · rw [h'] at hlast; cases hlast
      · exact h' hpre
      · exact h' hlast
  have h64 : c.commands.length + 1 ≤ 64 := hfit.2.2
  rw [parseDescriptorAux, if_neg (by rintro rfl; cases hlast), hk]
  dsimp only
  rw [e1]
  dsimp only
  rw [if_neg (by omega)]

/-- The actions with two nested actions and a time: `overloadi`. -/
theorem parses_overloadi_args {t a v b u ms} (ha : Parses t a) (hb : Parses v b) (hn : Numeral u ms) (hms : ms < 65536) :
    ∃ N, ∀ c, (Action.overloadi a b ms).resolves c → (Action.overloadi a b ms).fits c → ∃ (c' : Config) (i j : Nat) (d e : Desc),
      (∀ n, N ≤ n → parseArgs (parseDescriptorAux n) c ([ArgType.descriptor, .descriptor, .timeout].zip [t, v, u]).reverse [] =
        .ok (c', some [(i : Int), (j : Int), (ms : Int)])) ∧
      Adds c c' (a.nested + b.nested + 2) (a.macros + b.macros) (a.commands + b.commands) ∧
      c'.descriptors[i]? = some d ∧ StandsFor c' d a ∧ c'.descriptors[j]? = some e ∧ StandsFor c' e b := by
  obtain ⟨N, hN⟩ := ha
  obtain ⟨M, hM⟩ := hb
  refine ⟨max N M, fun c hr hfit => ?_⟩
  have f1 : c.descriptors.length + (a.nested + b.nested + 2) ≤ 1024 := hfit.1
  have f2 : c.macros.length + (a.macros + b.macros) ≤ 256 := hfit.2.1
  have f3 : c.commands.length + (a.commands + b.commands) ≤ 64 := hfit.2.2
  obtain ⟨c1, j, e, hp1, hadd1, he, hse⟩ := arg_descriptor (hM c hr.2 ⟨by omega, by omega, by omega⟩) (by omega)
  obtain ⟨l1, l2, l3⟩ := hadd1.lengths
  obtain ⟨c2, i, d, hp2, hadd2, hd, hsd⟩ := arg_descriptor (hN c1 ((resolves_grow hadd1).2 hr.1) ⟨by omega, by omega, by omega⟩) (by omega)
  refine ⟨c2, i, j, d, e, ?_, ?_, hd, hsd, ?_, hse.grow hadd2⟩
  · intro n hn'
    exact args_three (arg_timeout hn hms _ _) (hp1 n (by omega)) (hp2 n (by omega))
  · have := hadd1.trans hadd2
    rw [show b.nested + 1 + (a.nested + 1) = a.nested + b.nested + 2 by omega, Nat.add_comm b.macros, Nat.add_comm b.commands] at this
    exact this
  · obtain ⟨xs, ys, zs, rfl, _⟩ := hadd2
    exact getElem?_grow he

theorem parses_timeout {t a v b u s : _} {ms : Nat} (h : CallText b!"timeout" [t, u, v] s) (hu : Utf8 s) (ha : Parses t a)
    (hb : Parses v b) (hn : Numeral u ms) (hms : ms < 65536) : Parses s (.timeout a ms b) := by
  obtain ⟨N, hN⟩ := ha
  obtain ⟨M, hM⟩ := hb
  refine ⟨max N M + 1, fun c hr hfit => ?_⟩
  have f1 : c.descriptors.length + (a.nested + b.nested + 2) ≤ 1024 := hfit.1
  have f2 : c.macros.length + (a.macros + b.macros) ≤ 256 := hfit.2.1
  have f3 : c.commands.length + (a.commands + b.commands) ≤ 64 := hfit.2.2
  obtain ⟨c1, j, e, hp1, hadd1, he, hse⟩ := arg_descriptor (hM c hr.2 ⟨by omega, by omega, by omega⟩) (by omega)
  obtain ⟨l1, l2, l3⟩ := hadd1.lengths
  obtain ⟨c2, i, d, hp2, hadd2, hd, hsd⟩ := arg_descriptor (hN c1 ((resolves_grow hadd1).2 hr.1) ⟨by omega, by omega, by omega⟩) (by omega)
  refine ⟨c2, .timeout i ms j, ?_, ?_, .timeout hd hsd ?_ (hse.grow hadd2)⟩
  · intro n hn'
    exact call_ok (N := max N M) (types := [.descriptor, .timeout, .descriptor]) (vals := [(i : Int), (ms : Int), (j : Int)]) h hu
      (by decide) (op := .timeout) (g := b!"timeout") (by decide) rfl (by simp) hn' fun k hk =>
        args_three (hp1 k (by omega)) (arg_timeout hn hms _ _) (hp2 k (by omega))
  · have := hadd1.trans hadd2
    rw [show b.nested + 1 + (a.nested + 1) = a.nested + b.nested + 2 by omega, Nat.add_comm b.macros, Nat.add_comm b.commands] at this
    exact this
  · obtain ⟨xs, ys, zs, rfl, _⟩ := hadd2
    exact getElem?_grow he

theorem numeral_ascii {t : Str} {n : Nat} (h : Numeral t n) : Utf8 t :=
  Utf8.all_ascii fun b hb => by
    have := (h.2.1 b hb).2
    rw [UInt8.le_iff_toNat_le] at this
    rw [UInt8.lt_iff_toNat_lt]
    have e1 : (57 : UInt8).toNat = 57 := rfl
    have e2 : (128 : UInt8).toNat = 128 := rfl
    omega

theorem parses_lettermod {s n t u v : Str} {a : Action} {idle hold : Nat} (h : CallText b!"lettermod" [n, t, u, v] s) (hu : Utf8 s)
    (hl : s.length < 512) (ha : Parses t a) (hi : Numeral u idle) (hi' : idle < 65536) (hh : Numeral v hold) (hh' : hold < 65536) :
    Parses s (.overloadi a (.overloadt2 n a hold) idle) := by
  obtain ⟨hargs, hlen⟩ := callText_length h (by decide) (by simp)
  have hutf := callText_utf8 h hu
  have h0 := hargs n (by simp)
  have h1 := hargs t (by simp)
  have h2 := hargs u (by simp)
  have h3 := hargs v (by simp)
  have l2 := List.length_pos_iff.2 h2.2.1
  have l0 := List.length_pos_iff.2 h0.2.1
  have l3 := List.length_pos_iff.2 h3.2.1
  have hlen' : 9 + 1 + (n.length + 1 + (t.length + 1 + (u.length + 1 + (v.length + 1)))) ≤ s.length := by simpa using hlen
  obtain ⟨e1, _⟩ := lettermod_some h0 h1 h2 h3 (by omega)
  -- the inner call
  have hcall : CallText b!"overloadt2" [n, t, v] (b!"overloadt2(" ++ n ++ b!", " ++ t ++ b!", " ++ v ++ b!")") := by
    have e : b!"overloadt2(" ++ n ++ b!", " ++ t ++ b!", " ++ v ++ b!")" =
        b!"overloadt2" ++ 40 :: (List.replicate 0 32 ++ (n ++ 44 :: (List.replicate 1 32 ++
          (t ++ 44 :: (List.replicate 1 32 ++ (v ++ 41 :: [])))))) := by simp
    rw [e]
    exact .some 0 (.more 1 h0 (.more 1 h1 (.last h3)))
  have hin : Parses (b!"overloadt2(" ++ n ++ b!", " ++ t ++ b!", " ++ v ++ b!")") (.overloadt2 n a hold) := by
    refine parses_layerTap hcall ?_ (by decide) ha hh hh' (g := b!"overloadt2") (op := .overloadt2) (by decide)
      (mk := fun i j => .overloadTimeoutTap i j hold) (fun i j => by simp [mkDesc]) (fun c h => h) ⟨rfl, rfl, rfl⟩
      (fun c i j d h1 h2 h3 => .overloadt2 h1 h2 h3)
    have ascii : ∀ x : Str, (∀ b ∈ x, b < 128) → Utf8 x := fun x h => Utf8.all_ascii h
    exact (((((ascii _ (by decide)).append (hutf n (by simp))).append (ascii _ (by decide))).append (hutf t (by simp))).append
      (ascii _ (by decide)) |>.append (hutf v (by simp))).append (ascii _ (by decide))
  obtain ⟨N, hN⟩ := parses_overloadi_args ha hin hi hi'
  refine ⟨N + 1, fun c hr hfit => ?_⟩
  obtain ⟨c', i, j, d, e, hp, hadd, hd, hsd, he, hse⟩ := hN c hr hfit
  refine ⟨c', .overloadIdle i j idle, ?_, hadd, .overloadi hd hsd he hse⟩
  intro k hk
  obtain ⟨k, rfl⟩ : ∃ m, k = m + 1 := ⟨k - 1, by omega⟩
  rw [call_action h (by decide) (by decide) (by decide) hu]
  unfold parseAction
  rw [callText_parseFn h (by decide) (by simp), bind_ok]
  dsimp only
  rw [if_pos rfl, e1, bind_ok]
  dsimp only
  rw [show actions.find? (fun a => a.1 = b!"overloadi") = some (b!"overloadi", .overloadi, [.descriptor, .descriptor, .timeout]) from by decide]
  dsimp only
  rw [if_neg (by simp), hp k (by omega), bind_ok]
  simp [mkDesc]

theorem parses_writes {s : Str} {a : Action} (h : Writes s a) : Utf8 s → s.length < 512 → Parses s a := by
  have go : ∀ {f : Str} {args : List Str} {s : Str}, CallText f args s → (40 : UInt8) ∉ f → args.length ≤ 5 → Utf8 s → s.length < 512 →
      ∀ t ∈ args, Utf8 t ∧ t.length < 512 := fun h hf h5 hu hl t ht => ⟨callText_utf8 h hu t ht, callText_arg h hf h5 hl ht⟩
  induction h with
  | nothing =>
    intro _ _
    refine ⟨1, fun c _ _ => ⟨c, .none, ?_, Adds.refl c, .nothing⟩⟩
    intro n hn
    obtain ⟨n, rfl⟩ : ∃ m, n = m + 1 := ⟨n - 1, by omega⟩
    rw [parseDescriptorAux, if_pos rfl]
  | keys h hm => intro _ _; exact parses_keys h hm
  | modifier h hm => intro _ _; exact parses_modifier h hm
  | layer h =>
    intro hu hl
    exact parses_layerCall h hu (by decide) (g := b!"layer") (op := .layer) (by decide) (mk := .layer) (fun i => by simp [mkDesc])
      (fun c h => h) ⟨rfl, rfl, rfl⟩ (fun c i h => .layer h)
  | oneshot h =>
    intro hu hl
    exact parses_layerCall h hu (by decide) (g := b!"oneshot") (op := .oneshot) (by decide) (mk := .oneshot) (fun i => by simp [mkDesc])
      (fun c h => h) ⟨rfl, rfl, rfl⟩ (fun c i h => .oneshot h)
  | toggle h =>
    intro hu hl
    exact parses_layerCall h hu (by decide) (g := b!"toggle") (op := .toggle) (by decide) (mk := .toggle) (fun i => by simp [mkDesc])
      (fun c h => h) ⟨rfl, rfl, rfl⟩ (fun c i h => .toggle h)
  | swap h =>
    intro hu hl
    exact parses_layerCall h hu (by decide) (g := b!"swap") (op := .swap) (by decide) (mk := .swap) (fun i => by simp [mkDesc])
      (fun c h => h) ⟨rfl, rfl, rfl⟩ (fun c i h => .swap h)
  | layout h =>
    intro hu hl
    refine ⟨1, fun c hr _ => ?_⟩
    obtain ⟨i, hi, hp⟩ := arg_layout hr
    refine ⟨c, .layout i, ?_, Adds.refl c, .layout hi⟩
    intro m hm
    rw [show Desc.layout i = mkDesc .setlayout [(i : Int)] by simp [mkDesc]]
    exact call_ok (N := 0) h hu (by decide) (g := b!"setlayout") (types := [.layout]) (by decide) rfl (by simp) hm fun k _ => args_one (hp _)
  | clear h =>
    intro hu hl
    refine ⟨1, fun c hr _ => ⟨c, .clear, ?_, Adds.refl c, .clear⟩⟩
    intro m hm
    rw [show Desc.clear = mkDesc .clear [] from rfl]
    exact call_ok (N := 0) h hu (by decide) (g := b!"clear") (types := []) (by decide) rfl (by simp) hm fun k _ => rfl
  | @clearm s t m h hm =>
    intro hu hl
    refine ⟨1, fun c hr hfit => ?_⟩
    have h256 : c.macros.length + 1 ≤ 256 := hfit.2.1
    refine ⟨_, .clearm c.macros.length, ?_, Adds.mac c m, .clearm (by simp)⟩
    intro k hk
    rw [show Desc.clearm c.macros.length = mkDesc .clearm [(c.macros.length : Int)] by simp [mkDesc]]
    have hlt := callText_arg h (by decide) (by simp) hl (a := t) (by simp)
    exact call_ok (N := 0) h hu (by decide) (g := b!"clearm") (types := [.mac]) (by decide) rfl (by simp) hk fun k _ =>
      args_one (arg_mac hm (by omega) (by omega) _)
  | swapm hf h hm =>
    intro hu hl
    simp only [List.mem_cons, List.not_mem_nil, or_false] at hf
    rcases hf with rfl | rfl
    · exact parses_layerMacro h hu hl (by decide) hm (g := b!"swapm") (op := .swapm) (by decide) (mk := .swapm)
        (fun i j => by simp [mkDesc]) (fun c h => h) ⟨rfl, rfl, rfl⟩ (fun c i j h1 h2 => .swapm h1 h2)
    · exact parses_layerMacro h hu hl (by decide) hm (g := b!"swap2") (op := .swapm) (by decide) (mk := .swapm)
        (fun i j => by simp [mkDesc]) (fun c h => h) ⟨rfl, rfl, rfl⟩ (fun c i j h1 h2 => .swapm h1 h2)
  | togglem hf h hm =>
    intro hu hl
    simp only [List.mem_cons, List.not_mem_nil, or_false] at hf
    rcases hf with rfl | rfl
    · exact parses_layerMacro h hu hl (by decide) hm (g := b!"togglem") (op := .togglem) (by decide) (mk := .togglem)
        (fun i j => by simp [mkDesc]) (fun c h => h) ⟨rfl, rfl, rfl⟩ (fun c i j h1 h2 => .togglem h1 h2)
    · exact parses_layerMacro h hu hl (by decide) hm (g := b!"toggle2") (op := .togglem) (by decide) (mk := .togglem)
        (fun i j => by simp [mkDesc]) (fun c h => h) ⟨rfl, rfl, rfl⟩ (fun c i j h1 h2 => .togglem h1 h2)
  | layerm h hm =>
    intro hu hl
    exact parses_layerMacro h hu hl (by decide) hm (g := b!"layerm") (op := .layerm) (by decide) (mk := .layerm)
      (fun i j => by simp [mkDesc]) (fun c h => h) ⟨rfl, rfl, rfl⟩ (fun c i j h1 h2 => .layerm h1 h2)
  | oneshotm h hm =>
    intro hu hl
    exact parses_layerMacro h hu hl (by decide) hm (g := b!"oneshotm") (op := .oneshotm) (by decide) (mk := .oneshotm)
      (fun i j => by simp [mkDesc]) (fun c h => h) ⟨rfl, rfl, rfl⟩ (fun c i j h1 h2 => .oneshotm h1 h2)
  | @overload s n t a h ha ih =>
    intro hu hl
    obtain ⟨g1, g2⟩ := go h (by decide) (by simp) hu hl t (by simp)
    obtain ⟨N, hN⟩ := ih g1 g2
    refine ⟨N + 1, fun c hr hfit => ?_⟩
    have f1 : c.descriptors.length + (a.nested + 1) ≤ 1024 := hfit.1
    obtain ⟨c', j, d, hp, hadd, hd, hst⟩ := arg_descriptor (hN c hr.2 ⟨by omega, hfit.2.1, hfit.2.2⟩) (by omega)
    obtain ⟨i, hi, hpl⟩ := arg_layer ((offersLayer_grow hadd).2 hr.1)
    refine ⟨c', .overload i j, ?_, hadd, .overload hi hd hst⟩
    intro k hk
    rw [show Desc.overload i j = mkDesc .overload [(i : Int), (j : Int)] by simp [mkDesc]]
    exact call_ok h hu (by decide) (g := b!"overload") (types := [.layer, .descriptor]) (by decide) rfl (by simp) hk fun k hk =>
      args_two (hp k hk) (hpl _)
  | @overloadt s n t a u ms f hf h ha hn hms ih =>
    intro hu hl
    simp only [List.mem_cons, List.not_mem_nil, or_false] at hf
    rcases hf with rfl | rfl
    · obtain ⟨g1, g2⟩ := go h (by decide) (by simp) hu hl t (by simp)
      exact parses_layerTap h hu (by decide) (ih g1 g2) hn hms (g := b!"overloadt") (op := .overloadt) (by decide)
        (mk := fun i j => .overloadTimeout i j ms) (fun i j => by simp [mkDesc]) (fun c h => h) ⟨rfl, rfl, rfl⟩
        (fun c i j d h1 h2 h3 => .overloadt h1 h2 h3)
    · obtain ⟨g1, g2⟩ := go h (by decide) (by simp) hu hl t (by simp)
      exact parses_layerTap h hu (by decide) (ih g1 g2) hn hms (g := b!"overload2") (op := .overloadt) (by decide)
        (mk := fun i j => .overloadTimeout i j ms) (fun i j => by simp [mkDesc]) (fun c h => h) ⟨rfl, rfl, rfl⟩
        (fun c i j d h1 h2 h3 => .overloadt h1 h2 h3)
  | @overloadt2 s n t a u ms f hf h ha hn hms ih =>
    intro hu hl
    simp only [List.mem_cons, List.not_mem_nil, or_false] at hf
    rcases hf with rfl | rfl
    · obtain ⟨g1, g2⟩ := go h (by decide) (by simp) hu hl t (by simp)
      exact parses_layerTap h hu (by decide) (ih g1 g2) hn hms (g := b!"overloadt2") (op := .overloadt2) (by decide)
        (mk := fun i j => .overloadTimeoutTap i j ms) (fun i j => by simp [mkDesc]) (fun c h => h) ⟨rfl, rfl, rfl⟩
        (fun c i j d h1 h2 h3 => .overloadt2 h1 h2 h3)
    · obtain ⟨g1, g2⟩ := go h (by decide) (by simp) hu hl t (by simp)
      exact parses_layerTap h hu (by decide) (ih g1 g2) hn hms (g := b!"overload3") (op := .overloadt2) (by decide)
        (mk := fun i j => .overloadTimeoutTap i j ms) (fun i j => by simp [mkDesc]) (fun c h => h) ⟨rfl, rfl, rfl⟩
        (fun c i j d h1 h2 h3 => .overloadt2 h1 h2 h3)
  | @overloadi s t a v b u ms h ha hb hn hms iha ihb =>
    intro hu hl
    obtain ⟨g1, g2⟩ := go h (by decide) (by simp) hu hl t (by simp)
    obtain ⟨g3, g4⟩ := go h (by decide) (by simp) hu hl v (by simp)
    obtain ⟨N, hN⟩ := parses_overloadi_args (iha g1 g2) (ihb g3 g4) hn hms
    refine ⟨N + 1, fun c hr hfit => ?_⟩
    obtain ⟨c', i, j, d, e, hp, hadd, hd, hsd, he, hse⟩ := hN c hr hfit
    refine ⟨c', .overloadIdle i j ms, ?_, hadd, .overloadi hd hsd he hse⟩
    intro k hk
    rw [show Desc.overloadIdle i j ms = mkDesc .overloadi [(i : Int), (j : Int), (ms : Int)] by simp [mkDesc]]
    exact call_ok h hu (by decide) (g := b!"overloadi") (types := [.descriptor, .descriptor, .timeout]) (by decide) rfl (by simp) hk hp
  | @timeout s t a v b u ms h ha hb hn hms iha ihb =>
    intro hu hl
    obtain ⟨g1, g2⟩ := go h (by decide) (by simp) hu hl t (by simp)
    obtain ⟨g3, g4⟩ := go h (by decide) (by simp) hu hl v (by simp)
    exact parses_timeout h hu (iha g1 g2) (ihb g3 g4) hn hms
  | @lettermod s n t a u idle v hold h ha hn hi hv hh ih =>
    intro hu hl
    obtain ⟨g1, g2⟩ := go h (by decide) (by simp) hu hl t (by simp)
    exact parses_lettermod h hu hl (ih g1 g2) hn hi hv hh
  | sequence h =>
    intro hu hl
    obtain ⟨h1, h2, h3, _⟩ := macroCall_paren h
    refine parses_expression (by rintro rfl; cases h3) h1 ?_ (macroCall_expression h (by omega))
    intro hp
    obtain ⟨body, rfl, _⟩ := h
    unfold isPrefix at hp
    rw [List.isPrefixOf_iff_prefix, List.append_assoc] at hp
    obtain ⟨t, ht⟩ := hp
    simp at ht
  | @char s m h =>
    intro hu hl
    obtain ⟨h1, _⟩ := char_noPrefix h
    refine parses_expression ?_ (char_notKeys h) ?_ (char_expression h)
    · obtain ⟨⟨ch, rfl⟩, _⟩ := h
      intro e
      have := congrArg List.length e
      rw [String.length_utf8EncodeChar] at this
      have := Char.utf8Size_pos ch
      simp at *
    · intro hp
      have := isPrefix_length hp
      simp at this
      omega
  | @macro2 s u ms v again t m h hn hms hv hag hm =>
    intro hu hl
    refine ⟨1, fun c hr hfit => ?_⟩
    have h256 : c.macros.length + 1 ≤ 256 := hfit.2.1
    refine ⟨_, .macro2 ms again c.macros.length, ?_, Adds.mac c m, .macro2 (by simp)⟩
    intro k hk
    rw [show Desc.macro2 ms again c.macros.length = mkDesc .macro2 [(ms : Int), (again : Int), (c.macros.length : Int)] by simp [mkDesc]]
    have hlt := callText_arg h (by decide) (by simp) hl (a := t) (by simp)
    exact call_ok (N := 0) h hu (by decide) (g := b!"macro2") (types := [.timeout, .timeout, .mac]) (by decide) rfl (by simp) hk fun k _ =>
      args_three (arg_mac hm (by omega) (by omega) _) (arg_timeout hv hag _ _) (arg_timeout hn hms _ _)
  | command h hl =>
    intro _ _
    exact parses_command h hl
  | @scroll s t n h hn h1 h2 =>
    intro hu hl
    refine ⟨1, fun c hr _ => ⟨c, .scroll n, ?_, Adds.refl c, .scroll⟩⟩
    intro k hk
    rw [show Desc.scroll n = mkDesc .scroll [n] by simp [mkDesc]]
    exact call_ok (N := 0) h hu (by decide) (g := b!"scroll") (types := [.sensitivity]) (by decide) rfl (by simp) hk fun k _ =>
      args_one (arg_sensitivity hn h1 h2 _ _)
  | @scrollt s t n h hn h1 h2 =>
    intro hu hl
    refine ⟨1, fun c hr _ => ⟨c, .scrollToggle n, ?_, Adds.refl c, .scrollt⟩⟩
    intro k hk
    rw [show Desc.scrollToggle n = mkDesc .scrollt [n] by simp [mkDesc]]
    exact call_ok (N := 0) h hu (by decide) (g := b!"scrollt") (types := [.sensitivity]) (by decide) rfl (by simp) hk fun k _ =>
      args_one (arg_sensitivity hn h1 h2 _ _)

/-- C56. Every way of writing an action (in UTF-8, in at most 511 bytes) whose layers exist and for which the tables have room is
accepted, and the descriptor it is turned into stands for exactly that action: the same keys and modifiers, the same named layers,
the same nested actions in the same places, the same times. Nothing else in the config changes: the tables of nested actions, macros
and commands only grow, by exactly what the action needs. -/
theorem C56_actions (s : Str) (a : Action) (h : Writes s a) (hu : Utf8 s) (hl : s.length < 512) (c : Config) (hr : a.resolves c)
    (hf : a.fits c) : ∃ c' d, parseDescriptor c s = .ok (c', some d) ∧ StandsFor c' d a ∧
      ∃ xs ys zs, c' = { c with descriptors := c.descriptors ++ xs, macros := c.macros ++ ys, commands := c.commands ++ zs } ∧
        xs.length = a.nested ∧ ys.length = a.macros ∧ zs.length = a.commands := by
  obtain ⟨N, hN⟩ := parses_writes h hu hl
  obtain ⟨c', d, hp, hadd, hs⟩ := hN c hr hf
  refine ⟨c', d, ?_, hs, hadd⟩
  rw [← (parseDescriptor_depth c s hl).2 (max N (2 * s.length + 2)) (by omega)]
  exact hp _ (by omega)

/-- A descriptor stands for at most one action. -/
theorem C56_unambiguous {c : Config} {d : Desc} {a b : Action} (ha : StandsFor c d a) (hb : StandsFor c d b) : a = b := by
  have inj : ∀ {α : Type} {o : Option α} {x y : α}, o = some x → o = some y → x = y := by
    intro α o x y h1 h2
    rw [h1] at h2
    exact Option.some.inj h2
  induction ha generalizing b with
  | nothing => cases hb; rfl
  | keys => cases hb; rfl
  | layer h => cases hb with | layer h' => rw [inj h h']
  | oneshot h => cases hb with | oneshot h' => rw [inj h h']
  | toggle h => cases hb with | toggle h' => rw [inj h h']
  | swap h => cases hb with | swap h' => rw [inj h h']
  | layout h => cases hb with | layout h' => rw [inj h h']
  | clear => cases hb; rfl
  | clearm hm => cases hb with | clearm hm' => rw [inj hm hm']
  | swapm h hm => cases hb with | swapm h' hm' => rw [inj h h', inj hm hm']
  | togglem h hm => cases hb with | togglem h' hm' => rw [inj h h', inj hm hm']
  | layerm h hm => cases hb with | layerm h' hm' => rw [inj h h', inj hm hm']
  | oneshotm h hm => cases hb with | oneshotm h' hm' => rw [inj h h', inj hm hm']
  | overload h hd _ ih =>
    cases hb with
    | overload h' hd' ha' =>
      obtain rfl := inj hd hd'
      rw [inj h h', ih ha']
  | overloadt h hd _ ih =>
    cases hb with
    | overloadt h' hd' ha' =>
      obtain rfl := inj hd hd'
      rw [inj h h', ih ha']
  | overloadt2 h hd _ ih =>
    cases hb with
    | overloadt2 h' hd' ha' =>
      obtain rfl := inj hd hd'
      rw [inj h h', ih ha']
  | overloadi hd _ he _ ih ih' =>
    cases hb with
    | overloadi hd' ha' he' hb' =>
      obtain rfl := inj hd hd'
      obtain rfl := inj he he'
      rw [ih ha', ih' hb']
  | timeout hd _ he _ ih ih' =>
    cases hb with
    | timeout hd' ha' he' hb' =>
      obtain rfl := inj hd hd'
      obtain rfl := inj he he'
      rw [ih ha', ih' hb']
  | sequence hm => cases hb with | sequence hm' => rw [inj hm hm']
  | macro2 hm => cases hb with | macro2 hm' => rw [inj hm hm']
  | command hc => cases hb with | command hc' => rw [inj hc hc']
  | scroll => cases hb; rfl
  | scrollt => cases hb; rfl

/-! ### What is rejected -/

theorem find_unknown {f : Str} (h : ∀ k, (f, k) ∉ actionArity) : actions.find? (fun a => a.1 = f) = none := by
  rw [List.find?_eq_none]
  intro a ha e
  have e : a.1 = f := by simpa using e
  have : ∀ a ∈ actions, (a.1, a.2.2.length) ∈ actionArity := by decide
  exact h a.2.2.length (e ▸ this a ha)

theorem find_arity {f g : Str} {op : ActOp} {types : List ArgType} (h : actions.find? (fun a => a.1 = f) = some (g, op, types)) :
    (f, types.length) ∈ actionArity := by
  have hm := List.mem_of_find?_eq_some h
  have hp := List.find?_some h
  have e : g = f := by simpa using hp
  have : ∀ a ∈ actions, (a.1, a.2.2.length) ∈ actionArity := by decide
  have := this _ hm
  rwa [e] at this

theorem arity_unique : ∀ x ∈ actionArity, ∀ y ∈ actionArity, x.1 = y.1 → x.2 = y.2 := by decide

theorem reject_call {f : Str} {args : List Str} {s : Str} (h : CallText f args s) (hf : (40 : UInt8) ∉ f) (hc : f ≠ b!"command")
    (hm : f ≠ b!"macro") (hu : Utf8 s) (h5 : args.length ≤ 5) (hk : (f, args.length) ∉ actionArity) (c : Config) (n : Nat) :
    parseDescriptorAux (n+1) c s = .ok (c, none) := by
  rw [call_action h hf hc hm hu]
  unfold parseAction
  rw [callText_parseFn h hf h5, bind_ok]
  dsimp only
  by_cases hlm : f = b!"lettermod"
  · subst hlm
    rw [if_pos rfl]
    have : lettermod args = .ok none := by
      unfold lettermod
      split
      · exact absurd (show (b!"lettermod", 4) ∈ actionArity by decide) hk
      · rfl
    rw [this, bind_ok]
  · rw [if_neg hlm, bind_ok]
    dsimp only
    cases hfd : actions.find? (fun a => a.1 = f) with
    | none => rfl
    | some r =>
      obtain ⟨g, op, types⟩ := r
      dsimp only
      rw [if_pos]
      intro e
      exact hk (e ▸ find_arity hfd)

/-- C56. A call of anything that is not an action of the manual, or with the wrong number of arguments, is rejected; the config is
unchanged. -/
theorem C56_rejects_call (f : Str) (args : List Str) (s : Str) (h : CallText f args s) (hf : (40 : UInt8) ∉ f) (hc : f ≠ b!"command")
    (hm : f ≠ b!"macro") (hu : Utf8 s) (h5 : args.length ≤ 5) (hk : (f, args.length) ∉ actionArity) (c : Config) :
    parseDescriptor c s = .ok (c, none) :=
  reject_call h hf hc hm hu h5 hk c _

/-- C56. Text without parentheses that is neither a key sequence nor a single character is rejected. -/
theorem C56_rejects_word (s : Str) (hne : s ≠ []) (hp : (40 : UInt8) ∉ s) (hu : Utf8 s) (hk : ∀ code mods, ¬ KeysText s code mods)
    (hpre : ∀ ms, ¬ PrefixText s ms) (hch : ∀ ch : Char, s ≠ String.utf8EncodeChar ch) (c : Config) :
    parseDescriptor c s = .ok (c, none) := by
  have hks : parseKeySequence s = none := by
    cases h : parseKeySequence s with
    | none => rfl
    | some r =>
      exfalso
      obtain ⟨code, mods⟩ := r
      obtain ⟨p, ms, name, hp, e, hn⟩ := C30_only_key_sequences _ _ _ h
      rcases hn with ⟨sh, hn, hm⟩ | ⟨hn, hpe, _⟩
      · exact hk code mods ⟨p, ms, name, sh, hp, hn, e, hm⟩
      · subst hn
        rw [List.append_nil] at e
        exact hpre ms (e ▸ hp)
  have e1 : parseCommand s = .notCommand := by
    unfold parseCommand
    rw [if_pos]
    right; left
    intro h
    unfold isPrefix at h
    rw [List.isPrefixOf_iff_prefix] at h
    obtain ⟨t, rfl⟩ := h
    exact hp (by simp)
  have e2 : parseMacroExpression s = .ok .invalid := by
    unfold parseMacroExpression
    by_cases hl : s.length ≥ 1024
    · rw [if_pos hl]
    · rw [if_neg hl, if_neg]
      · obtain ⟨cs, rfl⟩ := hu
        have hn : cs.length ≠ 1 := by
          intro e
          obtain ⟨ch, rfl⟩ := List.length_eq_one_iff.1 e
          exact hch ch (by simp)
        rw [hks]
        simp [C33_utf8_strlen, hn, bind_ok]
      · rintro ⟨h, _⟩
        unfold isPrefix at h
        rw [List.isPrefixOf_iff_prefix] at h
        obtain ⟨t, rfl⟩ := h
        exact hp (by simp)
  have e3 : parseFn s = .ok none := by
    unfold parseFn
    cases hs : splitAtByte 40 s with
    | none => rfl
    | some r =>
      obtain ⟨x, y⟩ := r
      obtain ⟨rfl, _⟩ := splitAtByte_some hs
      exact absurd (by simp) hp
  unfold parseDescriptor
  rw [parseDescriptorAux, if_neg hne, hks]
  dsimp only
  rw [e1]
  dsimp only
  rw [e2, bind_ok]
  dsimp only
  unfold parseAction
  rw [e3, bind_ok]

theorem parseArgs_each {pd : Config → Str → Res (Config × Option Desc)} (hpd : PdSat pd) :
    ∀ (l : List (ArgType × Str)) (c : Config) (acc : List Int) (c' : Config) (vals : List Int), WF c →
      parseArgs pd c l acc = .ok (c', some vals) →
      ∀ ts ∈ l, ∃ c1 c2 v, c1.layers = c.layers ∧ parseArg pd c1 ts.1 ts.2 = .ok (c2, some v)
  | [], _, _, _, _, _, _ => by intro ts hts; cases hts
  | (t, s) :: rest, c, acc, c', vals, hw, h => by
    rw [parseArgs] at h
    obtain ⟨⟨c1, v⟩, h1, h2⟩ := bind_eq_ok.1 h
    have hx := (parseArg_sat hpd hw t s).of_ok h1
    cases v with
    | none => cases h2
    | some v =>
      intro ts hts
      rcases List.mem_cons.1 hts with rfl | hts
      · exact ⟨c, c1, v, rfl, h1⟩
      · obtain ⟨c2, c3, v', e, hp⟩ := parseArgs_each hpd rest c1 _ c' vals hx.2.1 h2 ts hts
        exact ⟨c2, c3, v', by rw [e]; exact hx.1.layers, hp⟩

theorem arg_layer_inv {pd} {c c' : Config} {n : Str} {v : Int} (hw : (c.layers.map (·.name)).Nodup) (h : parseArg pd c .layer n = .ok (c', some v)) :
    c.offersLayer n := by
  unfold parseArg at h
  dsimp only at h
  split at h
  · cases h
  · rename_i hm
    split at h
    · cases h
    · rename_i i hi
      split at h
      · cases h
      · rename_i ht
        obtain ⟨l, h1, h2⟩ := layerIndex_named hi
        refine ⟨hm, ⟨l, List.mem_of_getElem? h1, h2⟩, ?_⟩
        intro l' hl' hn'
        obtain ⟨j, hj⟩ := List.getElem?_of_mem hl'
        have := layerIndex_of_nodup hw hj
        rw [hn', hi] at this
        injection this with this
        subst this
        rw [layer_of_getElem hj] at ht
        exact ht

theorem arg_layout_inv {pd} {c c' : Config} {n : Str} {v : Int} (hw : (c.layers.map (·.name)).Nodup)
    (h : parseArg pd c .layout n = .ok (c', some v)) : c.offersLayout n := by
  unfold parseArg at h
  dsimp only at h
  split at h
  · cases h
  · rename_i i hi
    split at h
    · cases h
    · rename_i ht
      obtain ⟨l, h1, h2⟩ := layerIndex_named hi
      by_cases h0 : i = 0
      · left
        subst h0
        cases hls : c.layers with
        | nil => rw [hls] at h1; cases h1
        | cons x xs =>
          rw [hls] at h1
          injection h1 with h1
          subst h1
          exact congrArg some h2
      · right
        refine ⟨⟨l, List.mem_of_getElem? h1, h2⟩, ?_⟩
        intro l' hl' hn'
        obtain ⟨j, hj⟩ := List.getElem?_of_mem hl'
        have := layerIndex_of_nodup hw hj
        rw [hn', hi] at this
        injection this with this
        subst this
        rw [layer_of_getElem hj] at ht
        exact Decidable.not_not.1 fun hne => ht ⟨h0, hne⟩

theorem accepted_args {f : Str} {args : List Str} {s : Str} (h : CallText f args s) (hu : Utf8 s) (hf : Callable f)
    (h5 : args.length ≤ 5) {n : Nat} {c c' : Config} {d : Desc} (hp : parseDescriptorAux (n+1) c s = .ok (c', some d)) :
    ∃ g op types vals, actions.find? (fun a => a.1 = f) = some (g, op, types) ∧ args.length = types.length ∧
      parseArgs (parseDescriptorAux n) c (types.zip args).reverse [] = .ok (c', some vals) := by
  rw [call_action h hf.1 hf.2.1 hf.2.2.1 hu] at hp
  unfold parseAction at hp
  rw [callText_parseFn h hf.1 h5, bind_ok] at hp
  dsimp only at hp
  rw [if_neg hf.2.2.2, bind_ok] at hp
  dsimp only at hp
  cases hfd : actions.find? (fun a => a.1 = f) with
  | none => rw [hfd] at hp; cases hp
  | some r =>
    obtain ⟨g, op, types⟩ := r
    rw [hfd] at hp
    dsimp only at hp
    split at hp
    · cases hp
    · rename_i hlen
      obtain ⟨⟨c1, v⟩, h1, h2⟩ := bind_eq_ok.1 hp
      cases v with
      | none => cases h2
      | some vals =>
        injection h2 with h2
        injection h2 with h2 _
        subst h2
        exact ⟨g, op, types, vals, rfl, by omega, h1⟩

/-- C56. An action on a layer that is not there, is a layout or is main is never accepted. -/
theorem C56_rejects_layer (f n : Str) (args : List Str) (s : Str) (h : CallText f (n :: args) s) (hf : f ∈ layerActions) (hu : Utf8 s)
    (h5 : args.length ≤ 4) (c : Config) (hw : WF c) (hn : ¬ c.offersLayer n) :
    ∀ c' d, parseDescriptor c s ≠ .ok (c', some d) := by
  intro c' d hp
  have hcall : ∀ f ∈ layerActions, Callable f := by decide
  obtain ⟨g, op, types, vals, hfd, hlen, ha⟩ := accepted_args h hu (hcall f hf) (by simp; omega) hp
  have htypes : ∀ f ∈ layerActions, ∀ x, actions.find? (fun a => a.1 = f) = some x → x.2.2.head? = some .layer := by
    intro f hf x hx
    have : ∀ f ∈ layerActions, (actions.find? (fun a => a.1 = f)).map (fun x => x.2.2.head?) = some (some .layer) := by decide
    have := this f hf
    rw [hx] at this
    exact Option.some.inj this
  have hh := htypes f hf _ hfd
  dsimp only at hh
  cases types with
  | nil => cases hh
  | cons t ts =>
    injection hh with hh
    subst hh
    obtain ⟨c1, c2, v, e, hpa⟩ := parseArgs_each (parseDescriptorAux_sat _) _ c [] c' vals hw ha (.layer, n) (by simp)
    have := arg_layer_inv (by rw [e]; exact hw.names) hpa
    apply hn
    unfold Config.offersLayer at this ⊢
    rwa [e] at this

/-- C56. Nor is `setlayout` of anything but a layout or main. -/
theorem C56_rejects_layout (n : Str) (s : Str) (h : CallText b!"setlayout" [n] s) (hu : Utf8 s) (c : Config) (hw : WF c)
    (hn : ¬ c.offersLayout n) : ∀ c' d, parseDescriptor c s ≠ .ok (c', some d) := by
  intro c' d hp
  obtain ⟨g, op, types, vals, hfd, hlen, ha⟩ := accepted_args h hu (by decide) (by simp) hp
  rw [show actions.find? (fun a => a.1 = b!"setlayout") = some (b!"setlayout", .setlayout, [.layout]) from by decide] at hfd
  injection hfd with hfd
  injection hfd with _ hfd
  injection hfd with _ hfd
  subst hfd
  obtain ⟨c1, c2, v, e, hpa⟩ := parseArgs_each (parseDescriptorAux_sat _) _ c [] c' vals hw ha (.layout, n) (by simp)
  have := arg_layout_inv (by rw [e]; exact hw.names) hpa
  apply hn
  unfold Config.offersLayout at this ⊢
  rwa [e] at this

/-! ### Whole documents -/

theorem StandsFor.grown {c c' : Config} (h : Grown c c') {d : Desc} {a : Action} (hs : StandsFor c d a) : StandsFor c' d a := by
  have hn : ∀ {i : Nat} {n : Str}, c.named i n → c'.named i n := by
    intro i n hi
    unfold Config.named at hi ⊢
    have := congrArg (fun y => y[i]?) h.names
    simp only [List.getElem?_map] at this
    rw [this]
    exact hi
  have pre : ∀ {α : Type} {xs ys : List α} {i : Nat} {x : α}, xs <+: ys → xs[i]? = some x → ys[i]? = some x := by
    intro α xs ys i x hp hx
    obtain ⟨t, rfl⟩ := hp
    exact getElem?_grow hx
  induction hs with
  | nothing => exact .nothing
  | keys => exact .keys
  | layer h => exact .layer (hn h)
  | oneshot h => exact .oneshot (hn h)
  | toggle h => exact .toggle (hn h)
  | swap h => exact .swap (hn h)
  | layout h => exact .layout (hn h)
  | clear => exact .clear
  | clearm hm => exact .clearm (pre h.macros hm)
  | swapm h' hm => exact .swapm (hn h') (pre h.macros hm)
  | togglem h' hm => exact .togglem (hn h') (pre h.macros hm)
  | layerm h' hm => exact .layerm (hn h') (pre h.macros hm)
  | oneshotm h' hm => exact .oneshotm (hn h') (pre h.macros hm)
  | overload h' hd _ ih => exact .overload (hn h') (pre h.descs hd) ih
  | overloadt h' hd _ ih => exact .overloadt (hn h') (pre h.descs hd) ih
  | overloadt2 h' hd _ ih => exact .overloadt2 (hn h') (pre h.descs hd) ih
  | overloadi hd _ he _ ih ih' => exact .overloadi (pre h.descs hd) ih (pre h.descs he) ih'
  | timeout hd _ he _ ih ih' => exact .timeout (pre h.descs hd) ih (pre h.descs he) ih'
  | sequence hm => exact .sequence (pre h.macros hm)
  | macro2 hm => exact .macro2 (pre h.macros hm)
  | command hc => exact .command (pre h.commands hc)
  | scroll => exact .scroll
  | scrollt => exact .scrollt

theorem offersLayer_shape {c : Config} {n : Str} : c.offersLayer n ↔ n ≠ b!"main" ∧
    (∃ p ∈ c.layers.map (fun l => (l.name, l.type)), p.1 = n) ∧
    ∀ p ∈ c.layers.map (fun l => (l.name, l.type)), p.1 = n → p.2 ≠ .layout := by
  simp [Config.offersLayer]

theorem offersLayout_shape {c : Config} {n : Str} : c.offersLayout n ↔
    (c.layers.map (fun l => (l.name, l.type))).head?.map (·.1) = some n ∨
    ((∃ p ∈ c.layers.map (fun l => (l.name, l.type)), p.1 = n) ∧
    ∀ p ∈ c.layers.map (fun l => (l.name, l.type)), p.1 = n → p.2 = .layout) := by
  unfold Config.offersLayout
  cases c.layers <;> simp

theorem resolves_grown {c c' : Config} (h : Grown c c') {a : Action} : a.resolves c' ↔ a.resolves c := by
  have ho : ∀ n, c'.offersLayer n ↔ c.offersLayer n := fun n => by rw [offersLayer_shape, offersLayer_shape, h.shape]
  have ho' : ∀ n, c'.offersLayout n ↔ c.offersLayout n := fun n => by rw [offersLayout_shape, offersLayout_shape, h.shape]
  induction a with
  | overload x a ih => simp only [Action.resolves, ho, ih]
  | overloadt x a _ ih => simp only [Action.resolves, ho, ih]
  | overloadt2 x a _ ih => simp only [Action.resolves, ho, ih]
  | overloadi a b _ iha ihb => simp only [Action.resolves, iha, ihb]
  | timeout a _ b iha ihb => simp only [Action.resolves, iha, ihb]
  | layout x => simp only [Action.resolves, ho']
  | _ => simp only [Action.resolves, ho]

/-- C56 for whole documents. If the last binding line for a key of a layer writes an action whose layers exist, and the document leaves
room in the tables, then in the config the document gives, that key of that layer does stand for the action. -/
theorem C56_document (c0 : Config) (hw : WF c0) (text : Str) (c : Config)
    (run : configParseString c0 text = .ok (some c)) (ss : List IniSection) (hini : iniParseString text = .ok (some ss))
    (hplain : ∀ b ∈ bindingLines ss, b.Plain)
    (before after : List BindingLine) (b : BindingLine) (hlines : bindingLines ss = before ++ b :: after)
    (hkey : (43 : UInt8) ∉ b.key) (x : Code) (hx : Names c b.key x)
    (hlast : ∀ b' ∈ after, b'.layer = b.layer → ¬ Names c b'.key x)
    (i : Nat) (l : Layer) (hl : c.layers[i]? = some l) (hname : l.name = b.layer)
    (a : Action) (ha : Writes b.action a) (hu : Utf8 b.action) (hr : a.resolves c) (hf : a.fits c) :
    StandsFor c (l.keymap x) a := by
  obtain ⟨cm, r, g1, hp, g2, hd⟩ := C52_last_line_wins c0 hw text c run ss hini hplain before after b hlines hkey x hx hlast i l hl hname
  have hshort : b.action.length < 512 := by
    have := (hplain b (by rw [hlines]; simp)).short
    unfold BindingLine.text at this
    simp at this
    omega
  have hfit : a.fits cm := by
    obtain ⟨f1, f2, f3⟩ := hf
    have l1 := g1.descs.length_le
    have l2 := g1.macros.length_le
    have l3 := g1.commands.length_le
    exact ⟨by omega, by omega, by omega⟩
  obtain ⟨c', d, hpd, hs, _⟩ := C56_actions b.action a ha hu hshort cm ((resolves_grown g1).1 hr) hfit
  rw [hpd] at hp
  injection hp with hp
  subst hp
  rw [hd d rfl]
  exact hs.grown g2

/-! ### Examples -/

/-- The parser on a concrete nested action, checked against what it stands for. -/
theorem C56_example : Writes b!"overload(nav, timeout(a, 200, macro(x y)))"
    (.overload b!"nav" (.timeout (.keys 30 0) 200 (.sequence [⟨.keysequence, 45⟩, ⟨.keysequence, 21⟩]))) := by
  have ka : KeysText b!"a" 30 0 := ⟨[], 0, b!"a", false, .nil, by decide +kernel, rfl, rfl⟩
  have argm : IsArg b!"macro(x y)" := by
    refine ⟨?_, by simp, by simp⟩
    iterate 5 refine .char (by decide) ?_
    exact ArgText.paren (s := b!"x y") (by repeat (first | exact .nil | refine .char (by decide) ?_)) .nil
  have argt : IsArg b!"timeout(a, 200, macro(x y))" := by
    refine ⟨?_, by simp, by simp⟩
    iterate 7 refine .char (by decide) ?_
    refine ArgText.paren (s := b!"a, 200, macro(x y)") ?_ .nil
    iterate 13 refine .char (by decide) ?_
    exact Balanced.paren (s := b!"x y") (by repeat (first | exact .nil | refine .char (by decide) ?_)) .nil
  have plain : ∀ w ∈ [b!"nav", b!"a", b!"200"], IsArg w := by
    intro w hw
    simp only [List.mem_cons, List.not_mem_nil, or_false] at hw
    rcases hw with rfl | rfl | rfl <;>
      exact ⟨by repeat (first | exact .nil | refine .char (by decide) ?_), by simp, by simp⟩
  refine Writes.overload (t := b!"timeout(a, 200, macro(x y))") ?_ ?_
  · exact CallText.some 0 (ArgsText.more (a := b!"nav") 1 (plain _ (by simp)) (ArgsText.last (rest := []) argt))
  · refine Writes.timeout (t := b!"a") (u := b!"200") (v := b!"macro(x y)") ?_ (.keys ka (by
      intro n hn
      simp only [bareModifiers, List.mem_cons, List.not_mem_nil, or_false, Prod.mk.injEq] at hn
      rcases hn with ⟨h, _⟩ | ⟨h, _⟩ | ⟨h, _⟩ | ⟨h, _⟩ | ⟨h, _⟩ <;> revert h <;> decide)) (.sequence ⟨b!"x y", rfl, by decide +kernel⟩)
      ⟨by simp, by decide, by decide⟩ (by omega)
    exact CallText.some 0 (ArgsText.more (a := b!"a") 1 (plain _ (by simp)) (ArgsText.more (a := b!"200") 1 (plain _ (by simp))
      (ArgsText.last (rest := []) argm)))

/-- A prefix on a modifier key is forgotten: `C-leftshift` is the layer shift (config.c:560-577). -/
theorem C56_forgotten_prefix : Writes b!"C-leftshift" (.layer b!"shift") :=
  .modifier (code := 42) (mods := MOD_CTRL ||| 0) ⟨b!"C-", MOD_CTRL ||| 0, b!"leftshift", false, .cons .C .nil, by decide +kernel, rfl, rfl⟩ (by decide)

def offersLayerB (c : Config) (n : Str) : Bool :=
  decide (n ≠ b!"main") && c.layers.any (fun l => l.name == n) && c.layers.all (fun l => l.name != n || l.type != .layout)

theorem offersLayerB_iff {c : Config} {n : Str} (h : offersLayerB c n = true) : c.offersLayer n := by
  simp only [offersLayerB, Bool.and_eq_true, decide_eq_true_eq, List.any_eq_true, List.all_eq_true, beq_iff_eq, Bool.or_eq_true,
    bne_iff_ne] at h
  exact ⟨h.1.1, h.1.2, fun l hl hn => (h.2 l hl).resolve_left fun h => h hn⟩

theorem doc_offers : offersLayerB docConfig b!"nav" = true ∧ docConfig.descriptors.length = 0 ∧ docConfig.macros.length = 0 ∧
    docConfig.commands.length = 0 := by decide +kernel

/-- The hypotheses of `C56_actions` hold of that text and the sample config. -/
example : ∃ s a, Writes s a ∧ Utf8 s ∧ s.length < 512 ∧ a.resolves docConfig ∧ a.fits docConfig ∧ a.nested = 3 := by
  refine ⟨_, _, C56_example, Utf8.all_ascii (by decide), by decide, ⟨offersLayerB_iff doc_offers.1, trivial, trivial⟩, ?_, rfl⟩
  obtain ⟨_, h1, h2, h3⟩ := doc_offers
  refine ⟨?_, ?_, ?_⟩
  · rw [h1]; decide
  · rw [h2]; decide
  · rw [h3]; decide

attribute [local irreducible] configInit

theorem doc_wf : WF docConfig := (configParse_sat docText).of_ok doc_parses _ rfl

/-- The hypotheses of the rejections hold: `nosuch(a)` and `layer(main)` with the sample config. -/
example : (∃ f args s, CallText f args s ∧ (40 : UInt8) ∉ f ∧ f ≠ b!"command" ∧ f ≠ b!"macro" ∧ Utf8 s ∧ args.length ≤ 5 ∧
      (f, args.length) ∉ actionArity) ∧
    ∃ f n s, CallText f [n] s ∧ f ∈ layerActions ∧ Utf8 s ∧ ¬ docConfig.offersLayer n ∧ WF docConfig := by
  have arg : ∀ w ∈ [b!"a", b!"main"], IsArg w := by
    intro w hw
    simp only [List.mem_cons, List.not_mem_nil, or_false] at hw
    rcases hw with rfl | rfl <;>
      exact ⟨by repeat (first | exact .nil | refine .char (by decide) ?_), by simp, by simp⟩
  refine ⟨⟨b!"nosuch", [b!"a"], b!"nosuch(a)", CallText.some 0 (ArgsText.last (a := b!"a") (rest := []) (arg _ (by simp))), by decide, by decide,
    by decide, Utf8.all_ascii (by decide), by decide, by decide⟩, b!"layer", b!"main", b!"layer(main)",
    CallText.some 0 (ArgsText.last (a := b!"main") (rest := []) (arg _ (by simp))), by decide, Utf8.all_ascii (by decide), fun h => h.1 rfl,
    doc_wf⟩

end Keyd
