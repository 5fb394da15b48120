import Verif.Model.Monitor
import Verif.Proofs.ConfigTables
import Verif.Spec.Actions

/-
  C78: what `keyd monitor` prints can be read back: one line for each key event, in order, whose last column is the name of the key as it is
  written in a configuration.
-/

set_option autoImplicit false

namespace Keyd

/-- The pieces of a text between the occurrences of a separator. -/
def fields (sep : UInt8) : Str → List Str
  | [] => [[]]
  | c :: s => if c = sep then [] :: fields sep s else (c :: (fields sep s).headD []) :: (fields sep s).tail

/-- Reading a line of the monitor: device name, device id, the key as understood on the left side of a binding, and whether it went down.
The columns are separated by tabs, the key and its state by a space. -/
def readKeyLine (line : Str) : Option (Str × Str × Code × Bool) :=
  match fields 9 line with
  | [name, id, key] =>
    match fields 32 key with
    | [k, state] => if state = b!"down" then some (name, id, lookupKeycode k, true) else if state = b!"up" then some (name, id, lookupKeycode k, false) else none
    | _ => none
  | _ => none

/-- The key event that an event of the loop is, if it is one. -/
def MonEvent.strike : MonEvent → Option (Str × Str × Code × Bool)
  | .key dev code pressed => some (dev.name, dev.id, code, pressed)
  | _ => none

/-- The texts of a device have no tabs and no newlines. -/
def MonDev.tidy (dev : MonDev) : Prop := ∀ s ∈ [dev.name, dev.id, dev.path], (9 : UInt8) ∉ s ∧ (10 : UInt8) ∉ s

/-- The device of an event is tidy, and its key is not one of the four codes without a name. -/
def MonEvent.tidy : MonEvent → Prop
  | .added dev | .removed dev => dev.tidy
  | .key dev code _ => dev.tidy ∧ code ∉ ([196, 197, 198, 199] : List Code)
  | .other => True

theorem fields_single {sep : UInt8} : ∀ {s : Str}, sep ∉ s → fields sep s = [s]
  | [], _ => rfl
  | c :: s, h => by
    have h1 : c ≠ sep := fun e => h (by rw [e]; exact List.mem_cons_self)
    have h2 : sep ∉ s := fun e => h (List.mem_cons_of_mem _ e)
    rw [fields, if_neg h1, fields_single h2]
    rfl

theorem fields_cons {sep : UInt8} : ∀ {a : Str} (s : Str), sep ∉ a → fields sep (a ++ sep :: s) = a :: fields sep s
  | [], s, _ => by
    show fields sep (sep :: s) = _
    rw [fields, if_pos rfl]
  | c :: a, s, h => by
    have h1 : c ≠ sep := fun e => h (by rw [e]; exact List.mem_cons_self)
    have h2 : sep ∉ a := fun e => h (List.mem_cons_of_mem _ e)
    show fields sep (c :: (a ++ sep :: s)) = _
    rw [fields, if_neg h1, fields_cons s h2]
    rfl

theorem printedName_facts : (allCodes.all fun c => (lookupKeycode (printedName c) == c || [196, 197, 198, 199].contains c) &&
    !(printedName c).contains 9 && !(printedName c).contains 10 && !(printedName c).contains 32) = true := by
  decide +kernel

theorem printedName_clean (c : Code) : (9 : UInt8) ∉ printedName c ∧ (10 : UInt8) ∉ printedName c ∧ (32 : UInt8) ∉ printedName c ∧
    (c ∉ ([196, 197, 198, 199] : List Code) → lookupKeycode (printedName c) = c) := by
  have h := List.all_eq_true.1 printedName_facts c (mem_allCodes c)
  simp only [Bool.and_eq_true, Bool.or_eq_true, Bool.not_eq_true', beq_iff_eq, List.contains_iff_mem, ← Bool.not_eq_true] at h
  exact ⟨h.1.1.2, h.1.2, h.2, fun hc => h.1.1.1.resolve_right hc⟩

/-- The line printed for an event (without its newline), if any. -/
def monitorLine (ev : MonEvent) : Option Str :=
  match ev with
  | .added dev => some (b!"device added: " ++ dev.id ++ b!" " ++ dev.name ++ b!" (" ++ dev.path ++ b!")")
  | .removed dev => some (b!"device removed: " ++ dev.id ++ b!" " ++ dev.name ++ b!" (" ++ dev.path ++ b!")")
  | .key dev code pressed => some (dev.name ++ b!"\t" ++ dev.id ++ b!"\t" ++ printedName code ++ b!" " ++ (if pressed then b!"down" else b!"up"))
  | .other => none

theorem monitorPrints_line (suppress : Bool) (last t : Int) (ev : MonEvent) :
    monitorPrints suppress false last ev t = ((monitorLine ev).map (· ++ [10])).getD [] := by
  cases ev <;> simp [monitorPrints, monitorLine]

theorem monitorLine_clean {ev : MonEvent} (h : ev.tidy) {line : Str} (hl : monitorLine ev = some line) : (10 : UInt8) ∉ line := by
  cases ev with
  | added dev =>
    injection hl with hl; subst hl
    simp only [List.mem_append, not_or]
    exact ⟨⟨⟨⟨⟨⟨by decide, (h dev.id (by simp)).2⟩, by decide⟩, (h dev.name (by simp)).2⟩, by decide⟩, (h dev.path (by simp)).2⟩, by decide⟩
  | removed dev =>
    injection hl with hl; subst hl
    simp only [List.mem_append, not_or]
    exact ⟨⟨⟨⟨⟨⟨by decide, (h dev.id (by simp)).2⟩, by decide⟩, (h dev.name (by simp)).2⟩, by decide⟩, (h dev.path (by simp)).2⟩, by decide⟩
  | key dev code pressed =>
    injection hl with hl; subst hl
    simp only [List.mem_append, not_or]
    exact ⟨⟨⟨⟨⟨⟨(h.1 dev.name (by simp)).2, by decide⟩, (h.1 dev.id (by simp)).2⟩, by decide⟩, (printedName_clean code).2.1⟩, by decide⟩,
      by cases pressed <;> decide⟩
  | other => cases hl

theorem readKeyLine_line {ev : MonEvent} (h : ev.tidy) {line : Str} (hl : monitorLine ev = some line) : readKeyLine line = ev.strike := by
  cases ev with
  | added dev =>
    injection hl with hl; subst hl
    unfold readKeyLine
    rw [fields_single (by
      simp only [List.mem_append, not_or]
      exact ⟨⟨⟨⟨⟨⟨by decide, (h dev.id (by simp)).1⟩, by decide⟩, (h dev.name (by simp)).1⟩, by decide⟩, (h dev.path (by simp)).1⟩, by decide⟩)]
    rfl
  | removed dev =>
    injection hl with hl; subst hl
    unfold readKeyLine
    rw [fields_single (by
      simp only [List.mem_append, not_or]
      exact ⟨⟨⟨⟨⟨⟨by decide, (h dev.id (by simp)).1⟩, by decide⟩, (h dev.name (by simp)).1⟩, by decide⟩, (h dev.path (by simp)).1⟩, by decide⟩)]
    rfl
  | key dev code pressed =>
    injection hl with hl; subst hl
    obtain ⟨c1, c2, c3, c4⟩ := printedName_clean code
    have e : dev.name ++ b!"\t" ++ dev.id ++ b!"\t" ++ printedName code ++ b!" " ++ (if pressed then b!"down" else b!"up") =
        dev.name ++ (9 : UInt8) :: (dev.id ++ (9 : UInt8) :: (printedName code ++ (32 : UInt8) :: (if pressed then b!"down" else b!"up"))) := by
      simp
    unfold readKeyLine
    rw [e, fields_cons _ (h.1 dev.name (by simp)).1, fields_cons _ (h.1 dev.id (by simp)).1, fields_single (by
      simp only [List.mem_append, List.mem_cons, not_or]
      exact ⟨c1, by decide, by cases pressed <;> decide⟩)]
    dsimp only
    rw [fields_cons _ c3, fields_single (by cases pressed <;> decide)]
    dsimp only
    rw [c4 h.2]
    cases pressed <;> rfl
  | other => cases hl

/-- C78. The output of `keyd monitor`, read back line by line, is the key events that happened, in order: the devices they came from, the keys, and
whether they went down; the key as a configuration understands the printed name. -/
theorem C78_read_back (suppress : Bool) : ∀ (evs : List (MonEvent × Int)) (last : Int), (∀ e ∈ evs, e.1.tidy) →
    (fields 10 (monitorRun suppress false last evs)).filterMap readKeyLine = evs.filterMap (fun e => e.1.strike)
  | [], _, _ => rfl
  | (ev, t) :: evs, last, h => by
    have ih := C78_read_back suppress evs t (fun e he => h e (List.mem_cons_of_mem _ he))
    have hev : ev.tidy := h (ev, t) List.mem_cons_self
    rw [monitorRun, monitorPrints_line]
    cases hl : monitorLine ev with
    | none =>
      show (fields 10 ([] ++ _)).filterMap _ = _
      rw [List.nil_append, ih, List.filterMap_cons]
      cases ev <;> first | rfl | cases hl
    | some line =>
      show (fields 10 ((line ++ [10]) ++ _)).filterMap _ = _
      rw [List.append_assoc, List.singleton_append, fields_cons _ (monitorLine_clean hev hl), List.filterMap_cons, List.filterMap_cons, ih,
        readKeyLine_line hev hl]

theorem monitorRun_append (suppress timeFlag : Bool) : ∀ (pre post : List (MonEvent × Int)) (last : Int),
    monitorRun suppress timeFlag last (pre ++ post) =
      monitorRun suppress timeFlag last pre ++ monitorRun suppress timeFlag ((pre.getLast?.map Prod.snd).getD last) post
  | [], post, last => by simp [monitorRun]
  | (ev, t) :: pre, post, last => by
    show monitorPrints _ _ _ _ _ ++ monitorRun _ _ _ (pre ++ post) = (monitorPrints _ _ _ _ _ ++ monitorRun _ _ _ pre) ++ _
    rw [monitorRun_append suppress timeFlag pre post t, List.append_assoc]
    cases pre with
    | nil => rfl
    | cons e pre => rw [List.getLast?_cons_cons, List.getLast?_eq_some_getLast (List.cons_ne_nil _ _)]; rfl

theorem decimalNat_numeral (n : Nat) : Numeral (decimalNat n) n := by
  induction n using Nat.strongRecOn with
  | _ n ih =>
    by_cases h : n < 10
    · unfold decimalNat
      rw [Nat.toDigits_of_lt_base h]
      have : ∀ i : Fin 10, ([Nat.digitChar i].map (fun c => UInt8.ofNat c.toNat) ≠ []) ∧
          (∀ d ∈ [Nat.digitChar i].map (fun c => UInt8.ofNat c.toNat), 48 ≤ d ∧ d ≤ 57) ∧
          ([Nat.digitChar i].map (fun c => UInt8.ofNat c.toNat)).foldl (fun v d => 10 * v + (d.toNat - 48)) 0 = i.val := by decide
      exact this ⟨n, h⟩
    · obtain ⟨a1, a2, a3⟩ := ih (n / 10) (by omega)
      have hd : ∀ i : Fin 10, 48 ≤ UInt8.ofNat (Nat.digitChar i).toNat ∧ UInt8.ofNat (Nat.digitChar i).toNat ≤ 57 ∧ (UInt8.ofNat (Nat.digitChar i).toNat).toNat - 48 = i.val := by decide
      obtain ⟨b1, b2, b3⟩ := hd ⟨n % 10, by omega⟩
      have e : decimalNat n = decimalNat (n / 10) ++ [UInt8.ofNat (Nat.digitChar (n % 10)).toNat] := by
        unfold decimalNat
        rw [Nat.toDigits_of_base_le (by decide) (by omega), List.map_append]
        rfl
      rw [e]
      refine ⟨by simp, ?_, ?_⟩
      · intro d hm
        rcases List.mem_append.1 hm with hm | hm
        · exact a2 d hm
        · rw [List.mem_singleton.1 hm]; exact ⟨b1, b2⟩
      · rw [List.foldl_append, a3]
        show 10 * (n / 10) + _ = n
        rw [b3]
        show 10 * (n / 10) + n % 10 = n
        omega

/-- The time is printed as a decimal numeral, with a minus sign if it is negative. -/
theorem decimal_numeral (n : Int) : SignedNumeral (decimal n) n := by
  cases n with
  | ofNat n => exact .inl ⟨n, decimalNat_numeral n, rfl⟩
  | negSucc n => exact .inr ⟨_, n + 1, rfl, decimalNat_numeral (n + 1), rfl⟩

/-- C78. With `-t`, the line of a key event starts with the time since the event before it, of whatever kind, in decimal. -/
theorem C78_times (suppress : Bool) (pre post : List (MonEvent × Int)) (before ev : MonEvent) (u t last : Int) (dev : MonDev) (code : Code) (pressed : Bool)
    (hk : ev = .key dev code pressed) (hu : u ≠ 0) : ∃ out rest line,
    monitorRun suppress true last (pre ++ (before, u) :: (ev, t) :: post) = out ++ rest ∧ out = monitorRun suppress true last (pre ++ [(before, u)]) ∧
    monitorLine ev = some line ∧
    ∃ red black numeral, (suppress = true → red = [] ∧ black = []) ∧ (∀ c ∈ red ++ black, c ≠ 10) ∧ SignedNumeral numeral (t - u) ∧
    rest = red ++ b!"+" ++ numeral ++ black ++ b!" ms\t" ++ line ++ [10] ++ monitorRun suppress true t post := by
  have e : pre ++ (before, u) :: (ev, t) :: post = (pre ++ [(before, u)]) ++ (ev, t) :: post := by simp
  refine ⟨_, _, (monitorLine ev).getD [], by rw [e, monitorRun_append], rfl, by rw [hk]; rfl, (if suppress then [] else b!"\x1b[31m"),
    (if suppress then [] else b!"\x1b[0m"), decimal (t - u), (by intro h; rw [h]; exact ⟨rfl, rfl⟩), (by cases suppress <;> decide), decimal_numeral _, ?_⟩
  rw [List.getLast?_append, hk]
  show monitorPrints suppress true u _ t ++ _ = _
  unfold monitorPrints monitorLine
  rw [if_pos ⟨rfl, hu⟩]
  simp

/-- C78 fails for the four codes without a name: all of them are printed as `(null)`. -/
theorem C78_fails_unnamed (dev : MonDev) (t : Int) : ∀ a ∈ ([196, 197, 198, 199] : List Code), ∀ b ∈ ([196, 197, 198, 199] : List Code),
    monitorPrints true false 0 (.key dev a true) t = monitorPrints true false 0 (.key dev b true) t := by
  intro a ha b hb
  have h : ∀ x ∈ ([196, 197, 198, 199] : List Code), printedName x = b!"(null)" := by decide +kernel
  unfold monitorPrints
  dsimp only
  rw [h a ha, h b hb]

def monitorSession : List (MonEvent × Int) :=
  let dev : MonDev := ⟨b!"AT keyboard", b!"0001:0001:00c0ffee", b!"/dev/input/event0"⟩
  [(.added dev, 5), (.key dev 30 true, 10), (.other, 14), (.key dev 30 false, 17), (.key dev 100 true, 40), (.removed dev, 50)]

theorem C78_example : (∀ e ∈ monitorSession, e.1.tidy) ∧
    (fields 10 (monitorRun true true 0 monitorSession)).getD 1 [] = b!"+5 ms\tAT keyboard\t0001:0001:00c0ffee\ta down" ∧
    (fields 10 (monitorRun true true 0 monitorSession)).getD 2 [] = b!"+3 ms\tAT keyboard\t0001:0001:00c0ffee\ta up" := by
  refine ⟨?_, by decide +kernel, by decide +kernel⟩
  have hd : MonDev.tidy ⟨b!"AT keyboard", b!"0001:0001:00c0ffee", b!"/dev/input/event0"⟩ := by
    unfold MonDev.tidy
    decide +kernel
  intro e he
  simp only [monitorSession, List.mem_cons, List.not_mem_nil, or_false] at he
  rcases he with rfl | rfl | rfl | rfl | rfl | rfl
  · exact hd
  · exact ⟨hd, by decide⟩
  · exact trivial
  · exact ⟨hd, by decide⟩
  · exact ⟨hd, by decide⟩
  · exact hd

end Keyd
