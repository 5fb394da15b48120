import Verif.Spec.Mapper

/-
  Lemmas on the application mapper: patterns, normalisation, the configuration file.
-/

set_option autoImplicit false

namespace Keyd

/-! ### Patterns -/

theorem takeWhile_split (p rest s : PyStr) (hs : 93 ∉ s) (h : p = s ++ 93 :: rest) :
    p.takeWhile (fun c => decide (c ≠ 93)) = s ∧ p.dropWhile (fun c => decide (c ≠ 93)) = 93 :: rest := by
  subst h
  induction s with
  | nil => simp
  | cons x s ih =>
    have hx : x ≠ 93 := fun e => hs (by simp [e])
    have := ih (fun h => hs (List.mem_cons_of_mem _ h))
    simp [hx] at this ⊢
    exact this

theorem dropWhile_some {p q : PyStr} {x : Nat} (h : p.dropWhile (fun c => decide (c ≠ 93)) = x :: q) :
    93 ∉ p.takeWhile (fun c => decide (c ≠ 93)) ∧ p = p.takeWhile (fun c => decide (c ≠ 93)) ++ 93 :: q := by
  induction p with
  | nil => cases h
  | cons y p ih =>
    by_cases hy : y = 93
    · subst hy
      simp at h ⊢
      exact h.2
    · rw [List.dropWhile_cons_of_pos (by simpa using hy)] at h
      rw [List.takeWhile_cons_of_pos (by simpa using hy)]
      obtain ⟨h1, h2⟩ := ih h
      refine ⟨fun hm => ?_, ?_⟩
      · rcases List.mem_cons.1 hm with e | hm
        · exact hy e.symm
        · exact h1 hm
      · rw [List.cons_append, ← h2]

/-- The common end of all cases of `bracket`. -/
def bracketEnd (pre p : PyStr) : Option (PyStr × PyStr) :=
  match p.dropWhile (fun c => decide (c ≠ 93)) with
  | [] => none
  | _ :: rest => some (pre ++ p.takeWhile (fun c => decide (c ≠ 93)), rest)

theorem bracketEnd_iff (pre p stuff rest : PyStr) :
    bracketEnd pre p = some (stuff, rest) ↔ ∃ s, 93 ∉ s ∧ stuff = pre ++ s ∧ p = s ++ 93 :: rest := by
  constructor
  · intro h
    unfold bracketEnd at h
    cases hd : p.dropWhile (fun c => decide (c ≠ 93)) with
    | nil => rw [hd] at h; cases h
    | cons x q =>
      rw [hd] at h
      injection h with h
      injection h with h1 h2
      obtain ⟨g1, g2⟩ := dropWhile_some hd
      subst h2
      exact ⟨_, g1, h1.symm, g2⟩
  · rintro ⟨s, hs, rfl, hp⟩
    obtain ⟨h1, h2⟩ := takeWhile_split p rest s hs hp
    unfold bracketEnd
    rw [h2, h1]

theorem bracket_nil : bracket [] = none := rfl

theorem bracket_not_close (q : PyStr) : bracket (33 :: 93 :: q) = bracketEnd [33, 93] q := rfl

theorem bracket_not (q : PyStr) (h : ∀ r, q ≠ 93 :: r) : bracket (33 :: q) = bracketEnd [33] q := by
  unfold bracket
  split
  · rename_i e
    cases e
    cases q with
    | nil => rfl
    | cons x q =>
      by_cases hx : x = 93
      · exact absurd (by rw [hx]) (h q)
      · simp only [bracketEnd]
        split <;> rename_i e <;> rw [e]
        rfl

theorem bracket_close (q : PyStr) : bracket (93 :: q) = bracketEnd [93] q := rfl

theorem bracket_other (c : Nat) (q : PyStr) (h1 : c ≠ 33) (h2 : c ≠ 93) : bracket (c :: q) = bracketEnd [] (c :: q) := by
  unfold bracket
  split
  rename_i e
  split at e
  · rename_i e'
    injection e' with e' _
    exact absurd e' h1
  · cases e
    split
    rename_i e
    split at e
    · rename_i e'
      injection e' with e' _
      exact absurd e' h2
    · cases e
      rfl

theorem bracket_iff (p stuff rest : PyStr) :
    bracket p = some (stuff, rest) ↔ Bracketed stuff ∧ p = stuff ++ 93 :: rest := by
  cases p with
  | nil =>
    rw [bracket_nil]
    constructor
    · intro h; cases h
    · rintro ⟨-, h⟩
      exact absurd h.symm (by simp)
  | cons c q =>
    by_cases h1 : c = 33
    · subst h1
      cases q with
      | nil =>
        rw [bracket_not [] (by simp), bracketEnd_iff]
        constructor
        · rintro ⟨s, -, -, h⟩
          exact absurd h.symm (by simp)
        · rintro ⟨hb, h⟩
          cases hb with
          | plain hc hs => injection h with h _; exact absurd h.symm hc
          | not hs => injection h with _ h; cases h
      | cons d q =>
        by_cases h2 : d = 93
        · subst h2
          rw [bracket_not_close, bracketEnd_iff]
          constructor
          · rintro ⟨s, hs, rfl, rfl⟩
            exact ⟨.not hs, rfl⟩
          · rintro ⟨hb, h⟩
            cases hb with
            | plain hc hs => injection h with h _; exact absurd h.symm hc
            | @not c s hs =>
              injection h with _ h
              injection h with h h'
              subst h
              exact ⟨s, hs, rfl, h'⟩
        · rw [bracket_not _ (fun r e => h2 (by injection e)), bracketEnd_iff]
          constructor
          · rintro ⟨s, hs, rfl, e⟩
            cases s with
            | nil => injection e with e _; exact absurd e h2
            | cons x s =>
              injection e with e1 e2
              subst e1 e2
              exact ⟨.not (fun h => hs (List.mem_cons_of_mem _ h)), rfl⟩
          · rintro ⟨hb, h⟩
            cases hb with
            | plain hc hs => injection h with h _; exact absurd h.symm hc
            | @not c s hs =>
              injection h with _ h
              injection h with h h'
              subst h
              refine ⟨d :: s, fun hm => ?_, rfl, by rw [h']; rfl⟩
              rcases List.mem_cons.1 hm with e | hm
              · exact h2 e.symm
              · exact hs hm
    · by_cases h2 : c = 93
      · subst h2
        rw [bracket_close, bracketEnd_iff]
        constructor
        · rintro ⟨s, hs, rfl, rfl⟩
          exact ⟨.plain h1 hs, rfl⟩
        · rintro ⟨hb, h⟩
          cases hb with
          | @plain c s hc hs =>
            injection h with h h'
            subst h
            exact ⟨s, hs, rfl, h'⟩
          | not hs => injection h with h _; exact absurd h h1
      · rw [bracket_other c q h1 h2, bracketEnd_iff]
        constructor
        · rintro ⟨s, hs, e0, e⟩
          rw [List.nil_append] at e0
          subst e0
          cases stuff with
          | nil => injection e with e _; exact absurd e h2
          | cons x s =>
            injection e with e1 e2
            subst e1 e2
            exact ⟨.plain h1 (fun h => hs (List.mem_cons_of_mem _ h)), rfl⟩
        · rintro ⟨hb, h⟩
          cases hb with
          | @plain x s hc hs =>
            injection h with h h'
            subst h
            refine ⟨c :: s, fun hm => ?_, rfl, by rw [h']; rfl⟩
            rcases List.mem_cons.1 hm with e | hm
            · exact h2 e.symm
            · exact hs hm
          | not hs => injection h with h _; exact absurd h h1

theorem any_range {n : Nat} {f : Nat → Bool} : (List.range n).any f = true ↔ ∃ i, i < n ∧ f i = true := by
  simp [List.any_eq_true]

/-- The pieces match what the pattern means. -/
theorem glob_iff (py : Py) : ∀ (n : Nat) (p s : PyStr), p.length ≤ n → (globMatch py (globToks n p) s = true ↔ Glob py p s)
  | n, [], s, _ => by
    have e : globToks n [] = [] := by cases n <;> rfl
    rw [e]
    cases s with
    | nil => exact ⟨fun _ => .nil, fun _ => rfl⟩
    | cons x s => exact ⟨fun h => (by cases h), fun h => (by cases h)⟩
  | 0, c :: p, s, h => absurd h (by simp)
  | n+1, c :: p, s, h => by
    have hp : p.length ≤ n := by simpa using h
    by_cases h1 : c = 42
    · subst h1
      show ((List.range (s.length + 1)).any fun i => globMatch py (globToks n p) (s.drop i)) = true ↔ _
      rw [any_range]
      constructor
      · rintro ⟨i, -, hm⟩
        have := Glob.star (s.take i) ((glob_iff py n p _ hp).1 hm)
        rwa [List.take_append_drop] at this
      · intro hg
        cases hg with
        | @star _ s' t hg =>
          refine ⟨t.length, by simp; omega, ?_⟩
          rw [List.drop_left]
          exact (glob_iff py n p _ hp).2 hg
        | lit h1 _ _ _ => exact absurd rfl h1
    · by_cases h2 : c = 63
      · subst h2
        show (match s with | [] => false | _ :: s => globMatch py (globToks n p) s) = true ↔ _
        cases s with
        | nil => exact ⟨fun h => (by cases h), fun h => (by cases h)⟩
        | cons x s =>
          refine (glob_iff py n p s hp).trans ⟨fun h => .any x h, fun h => ?_⟩
          cases h with
          | any c h => exact h
          | lit _ h2 _ _ => exact absurd rfl h2
      · by_cases h3 : c = 91
        · subst h3
          have e : globToks (n+1) (91 :: p) = match bracket p with
              | none => .lit 91 :: globToks n p
              | some (stuff, rest) => .set stuff :: globToks n rest := rfl
          rw [e]
          cases hb : bracket p with
          | none =>
            have hno : ∀ stuff q, Bracketed stuff → p ≠ stuff ++ 93 :: q := by
              intro stuff q hs he
              rw [(bracket_iff p stuff q).2 ⟨hs, he⟩] at hb
              cases hb
            show (match s with | [] => false | x :: s => x == 91 && globMatch py (globToks n p) s) = true ↔ _
            cases s with
            | nil => exact ⟨fun h => (by cases h), fun h => (by cases h)⟩
            | cons x s =>
              constructor
              · intro hm
                obtain ⟨hx, hm⟩ := Bool.and_eq_true_iff.1 hm
                have hx := beq_iff_eq.1 hx
                subst hx
                exact .open hno ((glob_iff py n p s hp).1 hm)
              · intro hg
                generalize hq : (91 :: p : PyStr) = q at hg
                generalize hy : (x :: s : PyStr) = y at hg
                cases hg with
                | nil => cases hq
                | star _ _ => cases hq
                | any _ _ => cases hq
                | lit _ _ h3 _ => injection hq with hq _; exact absurd hq.symm h3
                | @set p' _ stuff c hb' _ _ =>
                  injection hq with _ hq
                  exact absurd hq (hno _ _ hb')
                | «open» hn hg =>
                  injection hq with _ hq
                  injection hy with hy hy'
                  subst hq hy hy'
                  exact Bool.and_eq_true_iff.2 ⟨rfl, (glob_iff py n p s hp).2 hg⟩
          | some r =>
            obtain ⟨stuff, rest⟩ := r
            obtain ⟨b1, b2⟩ := (bracket_iff p stuff rest).1 hb
            have hr : rest.length ≤ n := by
              rw [b2] at hp
              simp at hp
              omega
            show (match s with | [] => false | x :: s => py.inSet stuff x && globMatch py (globToks n rest) s) = true ↔ _
            cases s with
            | nil =>
              refine ⟨fun h => (by cases h), fun h => ?_⟩
              generalize hq : (91 :: p : PyStr) = q at h
              generalize hy : ([] : PyStr) = y at h
              cases h with
              | nil => cases hq
              | star _ _ => cases hq
              | any _ _ => cases hq
              | lit _ _ _ _ => cases hy
              | set _ _ _ => cases hy
              | «open» _ _ => cases hy
            | cons x s =>
              constructor
              · intro hm
                obtain ⟨hx, hm⟩ := Bool.and_eq_true_iff.1 hm
                rw [b2]
                exact .set b1 hx ((glob_iff py n rest s hr).1 hm)
              · intro hg
                generalize hq : (91 :: p : PyStr) = q at hg
                generalize hy : (x :: s : PyStr) = y at hg
                cases hg with
                | nil => cases hq
                | star _ _ => cases hq
                | any _ _ => cases hq
                | lit _ _ h3 _ => injection hq with hq _; exact absurd hq.symm h3
                | @set p' _ stuff' c hb' hc hg =>
                  injection hy with hy hy'
                  subst hy hy'
                  injection hq with _ hq
                  have h' := (bracket_iff p stuff' p').2 ⟨hb', hq⟩
                  rw [hb] at h'
                  injection h' with h'
                  injection h' with e1 e2
                  subst e1 e2
                  exact Bool.and_eq_true_iff.2 ⟨hc, (glob_iff py n rest s hr).2 hg⟩
                | «open» hn hg =>
                  injection hq with _ hq
                  subst hq
                  exact absurd b2 (hn _ _ b1)
        · have e : globToks (n+1) (c :: p) = .lit c :: globToks n p := by
            show (if c = 42 then _ else if c = 63 then _ else if c = 91 then _ else _) = _
            rw [if_neg h1, if_neg h2, if_neg h3]
          rw [e]
          show (match s with | [] => false | x :: s => x == c && globMatch py (globToks n p) s) = true ↔ _
          cases s with
          | nil =>
            refine ⟨fun h => (by cases h), fun h => ?_⟩
            generalize hq : (c :: p : PyStr) = q at h
            generalize hy : ([] : PyStr) = y at h
            cases h with
            | nil => cases hq
            | star t h => injection hq with hq _; exact absurd hq h1
            | any _ _ => cases hy
            | lit _ _ _ _ => cases hy
            | set _ _ _ => cases hy
            | «open» _ _ => cases hy
          | cons x s =>
            constructor
            · intro hm
              have hm : (x == c && globMatch py (globToks n p) s) = true := hm
              obtain ⟨hx, hm2⟩ := Bool.and_eq_true_iff.1 hm
              have hx := beq_iff_eq.1 hx
              subst hx
              exact .lit h1 h2 h3 ((glob_iff py n p s hp).1 hm2)
            · intro hg
              generalize hq : (c :: p : PyStr) = q at hg
              generalize hy : (x :: s : PyStr) = y at hg
              cases hg with
              | nil => cases hq
              | star t h => injection hq with hq _; exact absurd hq h1
              | any _ _ => injection hq with hq _; exact absurd hq h2
              | lit _ _ _ hg =>
                injection hq with hq hq'
                injection hy with hy hy'
                subst hq hq' hy hy'
                exact Bool.and_eq_true_iff.2 ⟨by simp, (glob_iff py n p s hp).2 hg⟩
              | set _ _ _ => injection hq with hq _; exact absurd hq h3
              | «open» _ _ => injection hq with hq _; exact absurd hq h3

theorem fnmatch_iff (py : Py) (s p : PyStr) : pyFnmatch py s p = true ↔ Glob py p s := glob_iff py _ p s (Nat.le_refl _)

theorem collected_iff (py : Py) (cls title : PyStr) : ∀ (ss : List AppSection) (bs : List PyStr),
    Collected py cls title ss bs ↔ appBindings py ss cls title = bs
  | [], bs => ⟨fun h => (by cases h; rfl), fun h => (by cases h; exact .nil)⟩
  | s :: ss, bs => by
    have e : appBindings py (s :: ss) cls title =
        (if pyFnmatch py cls s.cls && pyFnmatch py title s.title then s.bindings else []) ++ appBindings py ss cls title := by
      unfold appBindings
      rw [List.flatMap_cons]
    have hc : (pyFnmatch py cls s.cls && pyFnmatch py title s.title) = true ↔ Glob py s.cls cls ∧ Glob py s.title title := by
      rw [Bool.and_eq_true_iff, fnmatch_iff, fnmatch_iff]
    rw [e]
    constructor
    · intro h
      cases h with
      | hit h1 h2 h => rw [if_pos (hc.2 ⟨h1, h2⟩), (collected_iff py cls title ss _).1 h]
      | miss h1 h => rw [if_neg (fun h' => h1 (hc.1 h')), (collected_iff py cls title ss _).1 h]; rfl
    · intro h
      by_cases hh : Glob py s.cls cls ∧ Glob py s.title title
      · rw [if_pos (hc.2 hh)] at h
        subst h
        exact .hit hh.1 hh.2 ((collected_iff py cls title ss _).2 rfl)
      · rw [if_neg (fun h' => hh (hc.1 h')), List.nil_append] at h
        exact .miss hh ((collected_iff py cls title ss _).2 h)

/-! ### Names of windows -/

theorem dashed_gap (keep : Nat → Bool) : ∀ (g s : PyStr), (∀ c ∈ g, keep c = false) →
    dashed keep true (g ++ s) = dashed keep true s
  | [], _, _ => rfl
  | c :: g, s, h => by
    show (if keep c = true then _ else if true = true then dashed keep true (g ++ s) else _) = _
    rw [if_neg (by rw [h c (by simp)]; simp), if_pos rfl]
    exact dashed_gap keep g s (fun c hc => h c (List.mem_cons_of_mem _ hc))

theorem dashed_word (keep : Nat → Bool) : ∀ (w s : PyStr) (b : Bool), w ≠ [] → (∀ c ∈ w, keep c = true) →
    dashed keep b (w ++ s) = w ++ dashed keep false s
  | [], _, _, h, _ => absurd rfl h
  | [c], s, b, _, hk => by
    show (if keep c = true then _ else _) = _
    rw [if_pos (hk c (by simp))]
    rfl
  | c :: d :: w, s, b, _, hk => by
    show (if keep c = true then c :: dashed keep false ((d :: w) ++ s) else _) = _
    rw [if_pos (hk c (by simp)), dashed_word keep (d :: w) s false (by simp) (fun c hc => hk c (List.mem_cons_of_mem _ hc))]
    rfl

/-- What a gap at the front becomes. -/
def dashOf (g : PyStr) : PyStr := if g = [] then [] else [45]

theorem dashed_front (keep : Nat → Bool) (g s : PyStr) (h : ∀ c ∈ g, keep c = false) :
    dashed keep false (g ++ s) = dashOf g ++ dashed keep (!g.isEmpty) s := by
  cases g with
  | nil => rfl
  | cons c g =>
    show (if keep c = true then _ else if false = true then _ else 45 :: dashed keep true (g ++ s)) = _
    rw [if_neg (by rw [h c (by simp)]; simp), if_neg (by simp), dashed_gap keep g s (fun c hc => h c (List.mem_cons_of_mem _ hc))]
    rfl

/-- The words with dashes, possibly with a dash at either end. -/
theorem dashed_spaced {keep : Nat → Bool} {ws : List PyStr} {s : PyStr} (h : Spaced keep ws s) :
    (ws = [] ∧ (∃ a, dashed keep false s = a ∧ ∀ c ∈ a, c = 45)) ∨
    (∃ a b, dashed keep false s = a ++ dashJoin ws ++ b ∧ (∀ c ∈ a, c = 45) ∧ (∀ c ∈ b, c = 45) ∧
      ((∀ c, s.head? = some c → keep c = true) → a = []) ∧
      (s ≠ [] → (∀ c, s.head? = some c → keep c = false) → a = [45])) := by
  induction h with
  | @nil g hg =>
    left
    refine ⟨rfl, _, rfl, ?_⟩
    have := dashed_front keep g [] hg
    rw [List.append_nil] at this
    rw [this]
    intro c hc
    unfold dashOf at hc
    cases g <;> simp [dashed] at hc
    exact hc
  | @cons g w s ws hg hw hk hs h ih =>
    right
    rw [List.append_assoc, dashed_front keep g _ hg, dashed_word keep w s _ hw hk]
    have hd : ∀ c ∈ dashOf g, c = 45 := by
      intro c hc
      unfold dashOf at hc
      split at hc
      · cases hc
      · simpa using hc
    have hend : ((∀ c, (g ++ (w ++ s)).head? = some c → keep c = true) → dashOf g = []) ∧
        (g ++ (w ++ s) ≠ [] → (∀ c, (g ++ (w ++ s)).head? = some c → keep c = false) → dashOf g = [45]) := by
      cases g with
      | nil =>
        refine ⟨fun _ => rfl, fun _ h => ?_⟩
        cases w with
        | nil => exact absurd rfl hw
        | cons x w =>
          have := h x rfl
          rw [hk x (by simp)] at this
          cases this
      | cons x g =>
        refine ⟨fun h => ?_, fun _ _ => rfl⟩
        have := h x rfl
        rw [hg x (by simp)] at this
        cases this
    rcases ih with ⟨rfl, a, ha, hall⟩ | ⟨a, b, ha, hall, hb, -, h2⟩
    · rw [ha]
      exact ⟨dashOf g, a, by simp [dashJoin], hd, hall, hend⟩
    · cases ws with
      | nil =>
        rw [ha]
        exact ⟨dashOf g, a ++ dashJoin [] ++ b, by simp [dashJoin], hd,
          (by intro c hc; simp [dashJoin] at hc; rcases hc with hc | hc; exact hall c hc; exact hb c hc), hend⟩
      | cons v ws =>
        have hne : s ≠ [] := by
          cases h with
          | cons _ hv _ _ _ =>
            intro e
            simp at e
            exact hv e.2.1
        rw [ha, h2 hne hs]
        exact ⟨dashOf g, b, by simp [dashJoin], hd, hb, hend⟩

theorem dropWhile_pre (f : Nat → Bool) : ∀ (a s : PyStr), (∀ c ∈ a, f c = true) → (∀ c, s.head? = some c → f c = false) →
    (a ++ s).dropWhile f = s
  | [], [], _, _ => rfl
  | [], c :: s, _, h => by
    rw [List.nil_append, List.dropWhile_cons_of_neg (by rw [h c rfl]; simp)]
  | c :: a, s, ha, h => by
    rw [List.cons_append, List.dropWhile_cons_of_pos (ha c (by simp))]
    exact dropWhile_pre f a s (fun c hc => ha c (List.mem_cons_of_mem _ hc)) h

/-- Stripping takes off what is around a text that neither begins nor ends with it. -/
theorem strip_pad (f : Nat → Bool) (a s b : PyStr) (ha : ∀ c ∈ a, f c = true) (hb : ∀ c ∈ b, f c = true)
    (h1 : ∀ c, s.head? = some c → f c = false) (h2 : ∀ c, s.getLast? = some c → f c = false) : pyStrip f (a ++ s ++ b) = s := by
  unfold pyStrip
  cases s with
  | nil =>
    rw [List.append_nil]
    have : (a ++ b).dropWhile f = [] := by
      have := dropWhile_pre f (a ++ b) [] (by
        intro c hc
        rcases List.mem_append.1 hc with hc | hc
        · exact ha c hc
        · exact hb c hc) (by simp)
      rwa [List.append_nil] at this
    rw [this]
    rfl
  | cons x s =>
    rw [List.append_assoc, dropWhile_pre f a _ ha (by intro c hc; exact h1 c hc), List.reverse_append,
      dropWhile_pre f b.reverse _ (fun c hc => hb c (List.mem_reverse.1 hc)) (by
        intro c hc
        rw [List.head?_reverse] at hc
        exact h2 c hc), List.reverse_reverse]

theorem dashJoin_head {keep : Nat → Bool} : ∀ {ws : List PyStr}, (∀ w ∈ ws, w ≠ [] ∧ ∀ c ∈ w, keep c = true) →
    (∀ c, (dashJoin ws).head? = some c → keep c = true) ∧ (∀ c, (dashJoin ws).getLast? = some c → keep c = true)
  | [], _ => ⟨by simp [dashJoin], by simp [dashJoin]⟩
  | [w], h => by
    obtain ⟨h1, h2⟩ := h w (by simp)
    exact ⟨fun c hc => h2 c (List.mem_of_mem_head? hc), fun c hc => h2 c (List.mem_of_mem_getLast? hc)⟩
  | w :: v :: ws, h => by
    obtain ⟨h1, h2⟩ := h w (by simp)
    obtain ⟨-, i2⟩ := dashJoin_head (keep := keep) (ws := v :: ws) (fun x hx => h x (List.mem_cons_of_mem _ hx))
    have hne : dashJoin (v :: ws) ≠ [] := by
      have := (h v (by simp)).1
      cases ws with
      | nil => exact this
      | cons u ws => exact fun e => this (List.append_eq_nil_iff.1 (show v ++ 45 :: dashJoin (u :: ws) = [] from e)).1
    constructor
    · intro c hc
      apply h2 c
      cases w with
      | nil => exact absurd rfl h1
      | cons x w =>
        have : c = x := by
          have hc : some x = some c := hc
          injection hc with hc
          exact hc.symm
        simp [this]
    · intro c hc
      apply i2 c
      have e : dashJoin (w :: v :: ws) = w ++ 45 :: dashJoin (v :: ws) := rfl
      rw [e] at hc
      rw [List.getLast?_append, List.getLast?_cons] at hc
      cases hl : (dashJoin (v :: ws)).getLast? with
      | none => exact absurd (List.getLast?_eq_none_iff.1 hl) hne
      | some y =>
        rw [hl] at hc
        simpa using hc

theorem spaced_words {keep : Nat → Bool} {ws : List PyStr} {s : PyStr} (h : Spaced keep ws s) :
    ∀ w ∈ ws, w ≠ [] ∧ ∀ c ∈ w, keep c = true := by
  induction h with
  | nil _ => intro w hw; cases hw
  | cons _ hw hk _ _ ih =>
    intro w hm
    rcases List.mem_cons.1 hm with rfl | hm
    · exact ⟨hw, hk⟩
    · exact ih w hm

theorem strip_dashed {keep : Nat → Bool} {ws : List PyStr} {s : PyStr} (h : Spaced keep ws s) (h45 : keep 45 = false) :
    pyStrip (fun c => decide (c = 45)) (dashed keep false s) = dashJoin ws := by
  have hnd : ∀ c, keep c = true → decide (c = 45) = false := by
    intro c hc
    rw [decide_eq_false_iff_not]
    rintro rfl
    rw [h45] at hc
    cases hc
  rcases dashed_spaced h with ⟨rfl, a, ha, hall⟩ | ⟨a, b, ha, hall, hb, -, -⟩
  · rw [ha]
    have := strip_pad (fun c => decide (c = 45)) a [] [] (fun c hc => by simp [hall c hc]) (by simp) (by simp) (by simp)
    simpa [dashJoin] using this
  · rw [ha]
    obtain ⟨j1, j2⟩ := dashJoin_head (keep := keep) (spaced_words h)
    exact strip_pad (fun c => decide (c = 45)) a _ b (fun c hc => by simp [hall c hc]) (fun c hc => by simp [hb c hc])
      (fun c hc => hnd c (j1 c hc)) (fun c hc => hnd c (j2 c hc))

theorem all_takeWhile (f : Nat → Bool) : ∀ (s : PyStr) (c : Nat), c ∈ s.takeWhile f → f c = true
  | [], _, h => by cases h
  | x :: s, c, h => by
    by_cases hx : f x = true
    · rw [List.takeWhile_cons_of_pos hx] at h
      rcases List.mem_cons.1 h with rfl | h
      · exact hx
      · exact all_takeWhile f s c h
    · rw [List.takeWhile_cons_of_neg hx] at h
      cases h

/-- Every text consists of words in this way. -/
theorem spaced_exists (keep : Nat → Bool) (s : PyStr) : ∃ ws, Spaced keep ws s := by
    induction hn : s.length using Nat.strongRecOn generalizing s with
    | _ n ih =>
      have e1 : s = s.takeWhile (fun c => !keep c) ++ s.dropWhile (fun c => !keep c) := List.takeWhile_append_dropWhile.symm
      generalize hg : s.takeWhile (fun c => !keep c) = g at e1
      generalize ht : s.dropWhile (fun c => !keep c) = t at e1
      have hg' : ∀ c ∈ g, keep c = false := by
        intro c hc
        rw [← hg] at hc
        simpa using all_takeWhile _ _ c hc
      cases t with
      | nil =>
        rw [List.append_nil] at e1
        rw [e1]
        exact ⟨[], .nil hg'⟩
      | cons x t =>
        have hx : keep x = true := by
          have := List.head?_dropWhile_not (fun c => !keep c) s
          rw [ht] at this
          simpa using this
        have e2 : (x :: t) = (x :: t).takeWhile keep ++ (x :: t).dropWhile keep := List.takeWhile_append_dropWhile.symm
        rw [List.takeWhile_cons_of_pos hx, List.dropWhile_cons_of_pos hx] at e2
        have hl : (t.dropWhile keep).length < n := by
          have := (List.dropWhile_sublist keep (l := t)).length_le
          have h3 := congrArg List.length e1
          simp at h3
          omega
        obtain ⟨ws, hw⟩ := ih _ hl (t.dropWhile keep) rfl
        refine ⟨(x :: t.takeWhile keep) :: ws, ?_⟩
        rw [e1, e2, ← List.append_assoc]
        refine .cons hg' (by simp) ?_ ?_ hw
        · intro c hc
          rcases List.mem_cons.1 hc with rfl | hc
          · exact hx
          · exact all_takeWhile _ _ c hc
        · intro c hc
          have := List.head?_dropWhile_not keep t
          rw [hc] at this
          simpa using this

/-! ### The configuration file -/

theorem pyLines_line : ∀ (l : PyStr), (∀ c ∈ l, c ≠ 10 ∧ c ≠ 13) → pyLines l = [l]
  | [], _ => rfl
  | c :: l, h => by
    have hc := h c (by simp)
    show (if c = 10 ∨ c = 13 then _ else match pyLines l with | [] => [[c]] | w :: ws => (c :: w) :: ws) = _
    rw [if_neg (by rintro (e | e); exact hc.1 e; exact hc.2 e), pyLines_line l (fun c hc => h c (List.mem_cons_of_mem _ hc))]

theorem pyLines_cons : ∀ (l s : PyStr), (∀ c ∈ l, c ≠ 10 ∧ c ≠ 13) → pyLines (l ++ 10 :: s) = l :: pyLines s
  | [], _, _ => rfl
  | c :: l, s, h => by
    have hc := h c (by simp)
    show (if c = 10 ∨ c = 13 then _ else match pyLines (l ++ 10 :: s) with | [] => [[c]] | w :: ws => (c :: w) :: ws) = _
    rw [if_neg (by rintro (e | e); exact hc.1 e; exact hc.2 e), pyLines_cons l s (fun c hc => h c (List.mem_cons_of_mem _ hc))]

theorem pyLines_textOf : ∀ (ls : List PyStr), ls ≠ [] → (∀ l ∈ ls, ∀ c ∈ l, c ≠ 10 ∧ c ≠ 13) → pyLines (textOf ls) = ls
  | [], h, _ => absurd rfl h
  | [l], _, h => pyLines_line l (h l (by simp))
  | l :: m :: ls, _, h => by
    show pyLines (l ++ 10 :: textOf (m :: ls)) = _
    rw [pyLines_cons l _ (h l (by simp)), pyLines_textOf (m :: ls) (by simp) (fun l hl => h l (List.mem_cons_of_mem _ hl))]

theorem pySplit_one : ∀ (c : PyStr), 124 ∉ c → pySplit 124 c = [c]
  | [], _ => rfl
  | x :: c, h => by
    show (if x = 124 then _ else match pySplit 124 c with | [] => [[x]] | w :: ws => (x :: w) :: ws) = _
    rw [if_neg (fun e => h (by simp [e])), pySplit_one c (fun hc => h (List.mem_cons_of_mem _ hc))]

theorem pySplit_cons : ∀ (c s : PyStr), 124 ∉ c → pySplit 124 (c ++ 124 :: s) = c :: pySplit 124 s
  | [], _, _ => rfl
  | x :: c, s, h => by
    show (if x = 124 then _ else match pySplit 124 (c ++ 124 :: s) with | [] => [[x]] | w :: ws => (x :: w) :: ws) = _
    rw [if_neg (fun e => h (by simp [e])), pySplit_cons c s (fun hc => h (List.mem_cons_of_mem _ hc))]

theorem dropWhile_last (f : Nat → Bool) (x : Nat) (hx : f x = false) : ∀ (l : PyStr), ∃ m, (l ++ [x]).dropWhile f = m ++ [x]
  | [] => ⟨[], by simp [hx]⟩
  | y :: l => by
    by_cases hy : f y = true
    · rw [List.cons_append, List.dropWhile_cons_of_pos hy]
      exact dropWhile_last f x hx l
    · rw [List.cons_append, List.dropWhile_cons_of_neg hy]
      exact ⟨y :: l, rfl⟩

theorem strip_head (f : Nat → Bool) (a s : PyStr) (x : Nat) (ha : ∀ c ∈ a, f c = true) (hx : f x = false) :
    (pyStrip f (a ++ x :: s)).head? = some x := by
  unfold pyStrip
  rw [dropWhile_pre f a _ ha (by intro c hc; cases hc; exact hx), List.reverse_cons]
  obtain ⟨m, hm⟩ := dropWhile_last f x hx s.reverse
  rw [hm, List.reverse_append]
  rfl

theorem appLine_filler {py : Py} {line : PyStr} (h : AppFiller py line) (rev : List AppSection) : appLine py line rev = some rev := by
  rcases h with ⟨a, b, rfl, ha, hb⟩ | ⟨s, a, b, rfl, ha, hb⟩
  · have e := strip_pad py.space a [] b ha hb (by simp) (by simp)
    unfold appLine
    rw [e]
    rfl
  · have e : (pyStrip py.space (a ++ 35 :: s ++ b)).head? = some 35 := by
      have := strip_head py.space a (s ++ b) 35 ha (py.graph 35 (by decide) (by decide))
      simpa using this
    unfold appLine
    generalize pyStrip py.space (a ++ 35 :: s ++ b) = l at e
    dsimp only
    rw [e, if_neg (by simp), if_neg (by rintro rfl; cases e), if_pos rfl]

theorem appLine_binding {py : Py} {line b : PyStr} (h : Padded py b line) (hb : AppBinding py b) (s : AppSection)
    (rev : List AppSection) : appLine py line (s :: rev) = some ({ s with bindings := s.bindings ++ [b] } :: rev) := by
  obtain ⟨x, y, rfl, hx, hy⟩ := h
  obtain ⟨b1, b2, b3, b4⟩ := hb
  have e := strip_pad py.space x b y hx hy (fun c hc => (b2 c hc).1) b3
  unfold appLine
  rw [e]
  dsimp only
  rw [if_neg b4, if_neg b1, if_neg (fun hc => (b2 35 hc).2 rfl)]

theorem appLine_heading {py : Py} {line x c t : PyStr} (h : Padded py x line) (hx : AppHeading c t x) (rev : List AppSection) :
    appLine py line rev = some ({ cls := c, title := t, bindings := [] } :: rev) := by
  obtain ⟨a, b, rfl, ha, hb⟩ := h
  have main : ∀ m : PyStr, x = 91 :: m ++ [93] →
      appLine py (a ++ x ++ b) rev = (match pySplit 124 m with
        | c :: t :: _ => some ({ cls := c, title := t, bindings := [] } :: rev)
        | [c] => some ({ cls := c, title := [42], bindings := [] } :: rev)
        | [] => some rev) := by
    intro m hm
    have e := strip_pad py.space a x b ha hb
      (by intro c hc; rw [hm] at hc; cases hc; exact py.graph 91 (by decide) (by decide))
      (by
        intro c hc
        rw [hm, List.getLast?_append] at hc
        cases hc
        exact py.graph 93 (by decide) (by decide))
    unfold appLine
    rw [e]
    dsimp only
    have e1 : x.head? = some 91 ∧ x.getLast? = some 93 := by
      rw [hm]
      exact ⟨rfl, by rw [List.getLast?_append]; rfl⟩
    have e2 : x.dropLast.tail = m := by
      rw [hm, List.dropLast_concat]
      rfl
    rw [if_pos e1, e2]
    cases pySplit 124 m with
    | nil => rfl
    | cons c r => cases r <;> rfl
  cases hx with
  | cls hc => rw [main c rfl, pySplit_one c hc]
  | both hc ht => rw [main (c ++ 124 :: t) (by simp), pySplit_cons c t hc, pySplit_one t ht]

theorem appBody_fold {py : Py} {ls bs : List PyStr} (h : AppBody py ls bs) : ∀ (s : AppSection) (rev : List AppSection),
    ls.foldlM (fun rev line => appLine py line rev) (s :: rev) = some ({ s with bindings := s.bindings ++ bs } :: rev) := by
  induction h with
  | nil => intro s rev; simp
  | filler h _ ih =>
    intro s rev
    rw [List.foldlM_cons, appLine_filler h]
    exact ih s rev
  | @binding l b ls bs h hb _ ih =>
    intro s rev
    rw [List.foldlM_cons, appLine_binding h hb]
    refine (ih _ rev).trans ?_
    rw [List.append_assoc]
    rfl

theorem appDoc_fold {py : Py} {ls : List PyStr} {ss : List AppSection} (h : AppDoc py ls ss) : ∀ (rev : List AppSection),
    ls.foldlM (fun rev line => appLine py line rev) rev = some (ss.reverse ++ rev) := by
  induction h with
  | nil => intro rev; rfl
  | filler h _ ih =>
    intro rev
    rw [List.foldlM_cons, appLine_filler h]
    exact ih rev
  | @sect l x c t ls ms bs ss h hx hb _ ih =>
    intro rev
    rw [List.cons_append, List.foldlM_cons, appLine_heading h hx]
    show (ls ++ ms).foldlM _ _ = _
    rw [List.foldlM_append, appBody_fold hb]
    refine (ih _).trans ?_
    rw [List.reverse_cons, List.append_assoc]
    rfl

end Keyd
