import Verif.Model.Device
import Verif.Proofs.Sat
import Mathlib.Tactic.ByContra
import Mathlib.Data.List.Nodup
import Mathlib.Data.List.Infix
import Mathlib.Data.List.Perm.Subperm

/-
  C42 (USB gadget reports), C43 (translation of key codes there and back),
  C45 (absolute coordinates).
-/

set_option autoImplicit false

namespace Keyd

/-! ### C43 -/

/-- The mouse buttons evdev reports and keyd supports as such. -/
def mouseButtons : List Nat :=
  [EVDEV.BTN_LEFT, EVDEV.BTN_RIGHT, EVDEV.BTN_MIDDLE, EVDEV.BTN_SIDE, EVDEV.BTN_EXTRA, EVDEV.BTN_FORWARD,
   EVDEV.BTN_BACK]

/-- Codes below 256 which keyd uses for something else than the evdev key of that number:
the seven mouse buttons, and the two keys whose evdev code exceeds 255. -/
def reassigned : List Code :=
  [KEYD.LEFT_MOUSE, KEYD.MIDDLE_MOUSE, KEYD.RIGHT_MOUSE, KEYD.MOUSE_1, KEYD.MOUSE_2, KEYD.MOUSE_BACK,
   KEYD.MOUSE_FORWARD, KEYD.ZOOM, KEYD.VOICECOMMAND]

/-- C43. A mouse button read from any device is written as the same button, with the
same value, to the virtual pointer, followed by a synchronisation event. -/
theorem C43_mouse_buttons (r : AbsRange) (prev : DevEvent) (b : Nat) (hb : b ∈ mouseButtons) (v : Int)
    (hv : v = 0 ∨ v = 1) :
    ∃ d, readEvent r prev ⟨EVDEV.KEY, b, v⟩ = .ok (d, true) ∧ d.type = .key ∧
      writeKeyEvent d.code d.pressed.toNat = [(.pointer, ⟨EVDEV.KEY, b, v⟩), (.pointer, ⟨EVDEV.SYN, 0, 0⟩)] := by
  have key : ∀ b ∈ mouseButtons, ∃ c, translateCode b = some c ∧ uinputTarget c = (.pointer, b) := by decide +kernel
  obtain ⟨c, h1, h2⟩ := key b hb
  have hr : readEvent r prev ⟨EVDEV.KEY, b, v⟩ =
      .ok ({ prev with type := .key, code := c, pressed := UInt8.ofNat (v % 256).toNat }, true) := by
    have hv2 : v ≠ 2 := by omega
    simp only [readEvent, h1, EVDEV.KEY, EVDEV.REL, EVDEV.ABS]
    simp [hv2]
  refine ⟨_, hr, rfl, ?_⟩
  unfold writeKeyEvent
  simp only [h2]
  rcases hv with rfl | rfl <;> rfl

/-- C43. An ordinary key below 256 is written as itself to the virtual keyboard. -/
theorem C43_keys (r : AbsRange) (prev : DevEvent) (b : Nat) (hb : b < 256) (hn : UInt8.ofNat b ∉ reassigned) (v : Int)
    (hv : v = 0 ∨ v = 1) :
    ∃ d, readEvent r prev ⟨EVDEV.KEY, b, v⟩ = .ok (d, true) ∧ d.type = .key ∧ d.code.toNat = b ∧
      writeKeyEvent d.code d.pressed.toNat = [(.keyboard, ⟨EVDEV.KEY, b, v⟩), (.keyboard, ⟨EVDEV.SYN, 0, 0⟩)] := by
  have ht : translateCode b = some (UInt8.ofNat b) := by
    unfold translateCode
    rw [if_neg (by omega)]
  have hb' : (UInt8.ofNat b).toNat = b := by simp; omega
  have htgt : uinputTarget (UInt8.ofNat b) = (.keyboard, b) := by
    unfold uinputTarget
    simp only [reassigned, List.mem_cons, List.not_mem_nil, or_false, not_or] at hn
    obtain ⟨n1, n2, n3, n4, n5, n6, n7, n8, n9⟩ := hn
    rw [if_neg n1, if_neg n2, if_neg n3, if_neg n4, if_neg n5, if_neg n6, if_neg n7, if_neg n8, if_neg n9, hb']
  have hr : readEvent r prev ⟨EVDEV.KEY, b, v⟩ =
      .ok ({ prev with type := .key, code := UInt8.ofNat b, pressed := UInt8.ofNat (v % 256).toNat }, true) := by
    have hv2 : v ≠ 2 := by omega
    simp only [readEvent, ht, EVDEV.KEY, EVDEV.REL, EVDEV.ABS]
    simp [hv2]
  refine ⟨_, hr, rfl, hb', ?_⟩
  unfold writeKeyEvent
  simp only [htgt]
  rcases hv with rfl | rfl <;> rfl

/-- C43. `zoom` and `voicecommand` survive the round trip as well. -/
theorem C43_wide_keys : ∀ b ∈ [EVDEV.KEY_ZOOM, EVDEV.KEY_VOICECOMMAND],
    ∃ c, translateCode b = some c ∧ uinputTarget c = (.keyboard, b) := by decide +kernel

/-- C43. No two different codes are written as the same event, except that the code
for a reassigned key may also be reached from the evdev key with that number. -/
theorem C43_distinct (c c' : Code) (h : uinputTarget c = uinputTarget c') : c = c' := by
  have key : ∀ c : Code, (c ∉ reassigned → uinputTarget c = (.keyboard, c.toNat)) ∧
      (c ∈ reassigned → uinputTarget c = (.pointer, (uinputTarget c).2) ∨ 255 < (uinputTarget c).2) := by
    intro c
    constructor
    · intro hn
      unfold uinputTarget
      simp only [reassigned, List.mem_cons, List.not_mem_nil, or_false, not_or] at hn
      obtain ⟨n1, n2, n3, n4, n5, n6, n7, n8, n9⟩ := hn
      rw [if_neg n1, if_neg n2, if_neg n3, if_neg n4, if_neg n5, if_neg n6, if_neg n7, if_neg n8, if_neg n9]
    · have : ∀ c ∈ reassigned, uinputTarget c = (.pointer, (uinputTarget c).2) ∨ 255 < (uinputTarget c).2 := by
        decide +kernel
      exact this c
  have inj : ∀ c ∈ reassigned, ∀ c' ∈ reassigned, uinputTarget c = uinputTarget c' → c = c' := by decide +kernel
  by_cases h1 : c ∈ reassigned
  · by_cases h2 : c' ∈ reassigned
    · exact inj c h1 c' h2 h
    · rw [(key c').1 h2] at h
      rcases (key c).2 h1 with e | e
      · rw [h] at e; cases e
      · rw [h] at e
        have := c'.toNat_lt
        simp only at e; omega
  · by_cases h2 : c' ∈ reassigned
    · rw [(key c).1 h1] at h
      rcases (key c').2 h2 with e | e
      · rw [← h] at e; cases e
      · rw [← h] at e
        have := c.toNat_lt
        simp only at e; omega
    · rw [(key c).1 h1, (key c').1 h2] at h
      have := congrArg Prod.snd h
      exact UInt8.toNat_inj.1 this

/-- The limit of C43: an evdev key whose number keyd has reassigned comes out as
something else: `KEY_CHANNELUP`-style code 178 (KEY_SCROLLDOWN) becomes the `back`
button of the pointer. -/
theorem C43_fails_for_reassigned (r : AbsRange) (prev : DevEvent) :
    ∃ d, readEvent r prev ⟨EVDEV.KEY, 178, 1⟩ = .ok (d, true) ∧
      writeKeyEvent d.code d.pressed.toNat = [(.pointer, ⟨EVDEV.KEY, EVDEV.BTN_BACK, 1⟩), (.pointer, ⟨EVDEV.SYN, 0, 0⟩)] :=
  ⟨_, rfl, by
    show writeKeyEvent 178 1 = _
    decide +kernel⟩

/-- Finding: an absolute axis keyd does not know (e.g. `ABS_PRESSURE`, 24) is not
dropped: the previous event is delivered once more, whatever it was and whichever
device it came from. -/
theorem unknown_axis_repeats_last_event (r : AbsRange) (prev : DevEvent) (v : Int) :
    readEvent r prev ⟨EVDEV.ABS, 24, v⟩ = .ok (prev, true) := rfl

/-! ### C45 -/

/-- C45. A coordinate of a device whose range starts at zero is scaled into 0..1024,
and the ends of the range go to the ends of the scale. -/
theorem C45_zero_based_partial (value max : Int) (h0 : 0 ≤ value) (h1 : value ≤ max) (hmax : 0 < max)
    (hsz : max < 2097152) :
    ∃ q, absScale value 0 max = .ok q ∧ 0 ≤ q ∧ q ≤ 1024 ∧ (value = 0 → q = 0) ∧ (value = max → q = 1024) := by
  unfold absScale wrapU32
  simp only [Int.sub_zero]
  have e1 : max % 4294967296 = max := by omega
  have e2 : ((value * 1024 + 2147483648) % 4294967296 - 2147483648) % 4294967296 = value * 1024 := by omega
  rw [e1, e2, if_neg (by omega)]
  have hq0 : 0 ≤ value * 1024 / max := Int.ediv_nonneg (by omega) (by omega)
  have hq1 : value * 1024 / max ≤ 1024 := by
    apply Int.ediv_le_of_le_mul hmax
    rw [Int.mul_comm 1024]
    exact Int.mul_le_mul_of_nonneg_right h1 (by omega)
  refine ⟨_, rfl, ?_, ?_, ?_, ?_⟩
  · rw [if_neg (by omega)]; exact hq0
  · rw [if_neg (by omega)]; exact hq1
  · intro h; subst h; simp
  · intro h; subst h
    rw [Int.mul_comm, Int.mul_ediv_cancel _ (by omega)]
    rfl

/-- C45. The scale is monotone in the coordinate. -/
theorem C45_monotone_partial (v v' max : Int) (h0 : 0 ≤ v) (hle : v ≤ v') (h1 : v' ≤ max) (hmax : 0 < max)
    (hsz : max < 2097152) {q q' : Int} (h : absScale v 0 max = .ok q) (h' : absScale v' 0 max = .ok q') : q ≤ q' := by
  have aux : ∀ value : Int, 0 ≤ value → value ≤ max → absScale value 0 max = .ok (value * 1024 / max) := by
    intro value a b
    unfold absScale wrapU32
    simp only [Int.sub_zero]
    have e1 : max % 4294967296 = max := by omega
    have e2 : ((value * 1024 + 2147483648) % 4294967296 - 2147483648) % 4294967296 = value * 1024 := by omega
    rw [e1, e2, if_neg (by omega)]
    have hq1 : value * 1024 / max ≤ 1024 := by
      apply Int.ediv_le_of_le_mul hmax
      rw [Int.mul_comm 1024]
      exact Int.mul_le_mul_of_nonneg_right b (by omega)
    rw [if_neg (by omega)]
  rw [aux v h0 (by omega)] at h
  rw [aux v' (by omega) h1] at h'
  injection h with h
  injection h' with h'
  rw [← h, ← h']
  exact Int.ediv_le_ediv hmax (by omega)

/-- The limit of C45: the lower end of the range is not subtracted, so a device with
range 1000..2000 reports positions between 1024 and 2048, off the virtual screen. -/
theorem C45_fails_for_offset_range : absScale 1500 1000 2000 = .ok 1536 := by decide +kernel

/-- And a negative position becomes a huge one. -/
theorem C45_fails_for_negative : absScale (-1) (-100) 100 = .ok 21474831 := by decide +kernel

/-- A concrete case of C45. -/
theorem C45_example : absScale 20000 0 32767 = .ok 625 := by decide +kernel

/-! ### C42 -/

/-- Key events as sent by the engine to the virtual keyboard: code and direction. -/
def gadgetRun (evs : List (Code × Bool)) : Gadget := evs.foldl (fun g e => gadgetSend g e.1 e.2) {}

/-- A key is held after a history if its last event was a press. -/
def heldAfter (evs : List (Code × Bool)) (c : Code) : Bool :=
  evs.foldl (fun h e => if e.1 = c then e.2 else h) false

/-- The codes with a place in the key array of a report: not modifiers, known to HID. -/
def reportable (c : Code) : Bool := gadgetModifier c = 0 ∧ hidCode c ≠ 0

/-- The reportable keys held after a history. -/
def heldKeys (evs : List (Code × Bool)) : List Code :=
  ((List.range 256).map UInt8.ofNat).filter fun c => reportable c ∧ heldAfter evs c

theorem hid_lookup_inj : ∀ (t : List (Code × UInt8)), (t.map Prod.snd).Nodup → ∀ c c' v,
    t.lookup c = some v → t.lookup c' = some v → c = c'
  | [], _, _, _, _, h, _ => by cases h
  | (a, x) :: t, hn, c, c', v, h, h' => by
    simp only [List.map_cons, List.nodup_cons] at hn
    have mem : ∀ (t : List (Code × UInt8)) c v, t.lookup c = some v → v ∈ t.map Prod.snd := by
      intro t
      induction t with
      | nil => intro c v h; cases h
      | cons a t ih =>
        intro c v h
        rw [List.lookup_cons] at h
        split at h
        · cases h; simp
        · simp only [List.map_cons, List.mem_cons]; exact Or.inr (ih c v h)
    rw [List.lookup_cons] at h h'
    by_cases e : c = a
    · by_cases e' : c' = a
      · rw [e, e']
      · simp only [e, beq_self_eq_true] at h
        simp only [beq_eq_false_iff_ne.2 e'] at h'
        cases h
        exact absurd (mem _ _ _ h') hn.1
    · simp only [beq_eq_false_iff_ne.2 e] at h
      by_cases e' : c' = a
      · simp only [e', beq_self_eq_true] at h'
        cases h'
        exact absurd (mem _ _ _ h) hn.1
      · simp only [beq_eq_false_iff_ne.2 e'] at h'
        exact hid_lookup_inj t hn.2 c c' v h h'

/-- Different keys have different HID usage codes. -/
theorem hidCode_inj {c c' : Code} (h0 : hidCode c ≠ 0) (h : hidCode c = hidCode c') : c = c' := by
  have hn : (hidTable.map Prod.snd).Nodup := by decide +kernel
  unfold hidCode at h h0
  cases e : hidTable.lookup c with
  | none => rw [e] at h0; exact absurd rfl h0
  | some v =>
    rw [e] at h h0
    cases e' : hidTable.lookup c' with
    | none => rw [e'] at h; exact absurd h h0
    | some v' =>
      rw [e'] at h
      simp at h
      exact hid_lookup_inj _ hn c c' v e (by rw [e', h])

/-- The invariant behind C42. -/
structure ReportInv (evs : List (Code × Bool)) (g : Gadget) : Prop where
  len : g.keys.length = 6
  nodup : ∀ x, x ≠ 0 → g.keys.count x ≤ 1
  sound : ∀ x ∈ g.keys, x ≠ 0 → ∃ c, reportable c = true ∧ hidCode c = x ∧ heldAfter evs c = true

theorem heldAfter_snoc (evs : List (Code × Bool)) (c c' : Code) (b : Bool) :
    heldAfter (evs ++ [(c, b)]) c' = if c = c' then b else heldAfter evs c' := by
  unfold heldAfter
  rw [List.foldl_append]
  rfl

theorem gadgetInsert_length (h : UInt8) : ∀ l : List UInt8, (gadgetInsert h l).length = l.length
  | [] => rfl
  | x :: xs => by
    unfold gadgetInsert
    split
    · rfl
    · simp [gadgetInsert_length h xs]

theorem gadgetInsert_count (h : UInt8) : ∀ (l : List UInt8) (x : UInt8), x ≠ 0 →
    (gadgetInsert h l).count x = l.count x + (if x = h ∧ 0 ∈ l then 1 else 0)
  | [], x, _ => by simp [gadgetInsert]
  | y :: ys, x, hx => by
    unfold gadgetInsert
    split
    · rename_i h0
      subst h0
      by_cases hxh : x = h
      · subst hxh; simp [Ne.symm hx]
      · simp [hxh, Ne.symm hx, Ne.symm hxh]
    · rename_i h0
      have ih := gadgetInsert_count h ys x hx
      have : (0 ∈ y :: ys) ↔ (0 ∈ ys) := by simp [Ne.symm h0]
      by_cases hyx : y = x
      · subst hyx; simp only [List.count_cons_self, ih, this]; omega
      · simp only [List.count_cons_of_ne hyx, ih, this]

theorem gadgetInsert_mem (h : UInt8) {l : List UInt8} {x : UInt8} (hx : x ∈ gadgetInsert h l) : x ∈ l ∨ x = h := by
  induction l with
  | nil => cases hx
  | cons y ys ih =>
    unfold gadgetInsert at hx
    split at hx
    · rcases List.mem_cons.1 hx with e | e
      · exact Or.inr e
      · exact Or.inl (by simp [e])
    · rcases List.mem_cons.1 hx with e | e
      · exact Or.inl (by simp [e])
      · rcases ih e with e | e
        · exact Or.inl (by simp [e])
        · exact Or.inr e

theorem gadgetScan_false_count (hid : UInt8) (l : List UInt8) (x : UInt8) (hx : x ≠ 0) :
    (gadgetScan hid false l).count x = if x = hid then 0 else l.count x := by
  unfold gadgetScan
  induction l with
  | nil => simp
  | cons y ys ih =>
    rw [List.map_cons, List.count_cons, ih, List.count_cons]
    by_cases h1 : y = hid
    · subst h1
      simp only [true_and, and_self, if_true]
      by_cases h2 : x = y
      · subst h2; simp [Ne.symm hx]
      · simp [h2, Ne.symm hx, Ne.symm h2]
    · simp only [h1, false_and, if_false]
      by_cases h2 : x = hid
      · subst h2; simp [h1]
      · simp [h2]

theorem gadgetScan_true (hid : UInt8) (l : List UInt8) : gadgetScan hid true l = l := by
  unfold gadgetScan
  simp

theorem reportInv_step {evs : List (Code × Bool)} {g : Gadget} (h : ReportInv evs g) (c : Code) (b : Bool) :
    ReportInv (evs ++ [(c, b)]) (gadgetSend g c b) := by
  unfold gadgetSend
  dsimp only
  by_cases hm : gadgetModifier c = 0
  · rw [if_neg (by simpa using hm)]
    unfold gadgetKey
    dsimp only
    cases b with
    | false =>
      simp only [Bool.false_eq_true, false_and, if_false]
      refine ⟨by simp [gadgetScan, h.len], ?_, ?_⟩
      · intro x hx
        rw [gadgetScan_false_count _ _ _ hx]
        split
        · omega
        · exact h.nodup x hx
      · intro x hx h0
        have hc : 0 < (gadgetScan (hidCode c) false g.keys).count x := List.count_pos_iff.2 hx
        rw [gadgetScan_false_count _ _ _ h0] at hc
        split at hc
        · omega
        · rename_i hne
          obtain ⟨c', h1, h2, h3⟩ := h.sound x (List.count_pos_iff.1 hc) h0
          refine ⟨c', h1, h2, ?_⟩
          rw [heldAfter_snoc, if_neg (by intro e; subst e; exact hne h2.symm)]
          exact h3
    | true =>
      rw [gadgetScan_true]
      simp only [true_and]
      split
      · rename_i hset
        have hset : hidCode c ∉ g.keys := by simpa using hset
        by_cases hz : hidCode c = 0
        · have h0 : (0 : UInt8) ∉ g.keys := by rw [← hz]; exact hset
          have e : gadgetInsert (hidCode c) g.keys = g.keys := by
            have : ∀ l : List UInt8, (0 : UInt8) ∉ l → gadgetInsert (hidCode c) l = l := by
              intro l
              induction l with
              | nil => intro _; rfl
              | cons y ys ih =>
                intro hn
                simp only [List.mem_cons, not_or] at hn
                unfold gadgetInsert
                rw [if_neg (Ne.symm hn.1), ih hn.2]
            exact this _ h0
          rw [e]
          refine ⟨h.len, h.nodup, ?_⟩
          intro x hx hx0
          obtain ⟨c', h1, h2, h3⟩ := h.sound x hx hx0
          refine ⟨c', h1, h2, ?_⟩
          rw [heldAfter_snoc]
          split
          · rfl
          · exact h3
        · refine ⟨by rw [gadgetInsert_length]; exact h.len, ?_, ?_⟩
          · intro x hx
            rw [gadgetInsert_count _ _ _ hx]
            have := h.nodup x hx
            split
            · rename_i e
              have : g.keys.count x = 0 := List.count_eq_zero.2 (by rw [e.1]; exact hset)
              omega
            · omega
          · intro x hx hx0
            rcases gadgetInsert_mem _ hx with hx | hx
            · obtain ⟨c', h1, h2, h3⟩ := h.sound x hx hx0
              refine ⟨c', h1, h2, ?_⟩
              rw [heldAfter_snoc]
              split
              · rfl
              · exact h3
            · refine ⟨c, by simp [reportable, hm, hz], hx.symm, ?_⟩
              rw [heldAfter_snoc, if_pos rfl]
      · refine ⟨h.len, h.nodup, ?_⟩
        intro x hx hx0
        obtain ⟨c', h1, h2, h3⟩ := h.sound x hx hx0
        refine ⟨c', h1, h2, ?_⟩
        rw [heldAfter_snoc]
        split
        · rfl
        · exact h3
  · rw [if_pos (by simpa using hm)]
    refine ⟨h.len, h.nodup, ?_⟩
    intro x hx hx0
    obtain ⟨c', h1, h2, h3⟩ := h.sound x hx hx0
    refine ⟨c', h1, h2, ?_⟩
    rw [heldAfter_snoc, if_neg]
    · exact h3
    · intro e
      subst e
      simp [reportable, hm] at h1

theorem gadgetRun_snoc (evs : List (Code × Bool)) (c : Code) (b : Bool) :
    gadgetRun (evs ++ [(c, b)]) = gadgetSend (gadgetRun evs) c b := by
  unfold gadgetRun
  rw [List.foldl_append]
  rfl

theorem snoc_induction {α : Type} {P : List α → Prop} (h0 : P []) (hs : ∀ l a, P l → P (l ++ [a])) : ∀ l, P l := by
  intro l
  have : ∀ l : List α, P l.reverse := by
    intro l
    induction l with
    | nil => exact h0
    | cons a l ih => rw [List.reverse_cons]; exact hs _ _ ih
  rw [← List.reverse_reverse l]
  exact this _

theorem reportInv_run (evs : List (Code × Bool)) : ReportInv evs (gadgetRun evs) := by
  refine snoc_induction (P := fun evs => ReportInv evs (gadgetRun evs)) ?_ ?_ evs
  · refine ⟨rfl, ?_, ?_⟩
    · intro x hx
      have : ([0, 0, 0, 0, 0, 0] : List UInt8).count x = 0 := List.count_eq_zero.2 (by simp [hx])
      exact Nat.le_trans (Nat.le_of_eq this) (Nat.zero_le _)
    · intro x hx h0
      simp [gadgetRun] at hx
      exact absurd hx h0
  · rintro l ⟨c, b⟩ ih
    rw [gadgetRun_snoc]
    exact reportInv_step ih c b

/-- C42. After every history the report holds no key twice and only keys that are held. -/
theorem C42_report_sound (evs : List (Code × Bool)) :
    (gadgetRun evs).keys.length = 6 ∧
    (∀ c, reportable c = true → (gadgetRun evs).keys.count (hidCode c) ≤ 1) ∧
    (∀ x ∈ (gadgetRun evs).keys, x ≠ 0 → ∃ c, reportable c = true ∧ hidCode c = x ∧ heldAfter evs c = true) := by
  have h := reportInv_run evs
  refine ⟨h.len, fun c hc => h.nodup _ ?_, h.sound⟩
  simp only [reportable, decide_eq_true_eq] at hc
  exact hc.2

/-- Never more than six reportable keys down at once. -/
def NeverMoreThanSix (evs : List (Code × Bool)) : Prop := ∀ p, p <+: evs → (heldKeys p).length ≤ 6

theorem mem_heldKeys {evs : List (Code × Bool)} {c : Code} :
    c ∈ heldKeys evs ↔ reportable c = true ∧ heldAfter evs c = true := by
  unfold heldKeys
  rw [List.mem_filter]
  constructor
  · intro h; simpa using h.2
  · intro h
    refine ⟨?_, by simpa using h⟩
    rw [List.mem_map]
    exact ⟨c.toNat, List.mem_range.2 c.toNat_lt, by simp⟩

/-- A list of six with at most five distinct nonzero entries has a zero. -/
theorem room {l : List UInt8} (hl : l.length = 6) (hn : ∀ x, x ≠ 0 → l.count x ≤ 1) (s : List Code)
    (hs : ∀ x ∈ l, x ≠ 0 → ∃ c ∈ s, hidCode c = x) (h5 : s.length ≤ 5) : (0 : UInt8) ∈ l := by
  by_contra h0
  have hnd : l.Nodup := by
    rw [List.nodup_iff_count]
    intro a
    by_cases e : a = 0
    · subst e; rw [List.count_eq_zero.2 h0]; omega
    · exact hn a e
  have hsub : l ⊆ s.map hidCode := by
    intro x hx
    obtain ⟨c, hc, e⟩ := hs x hx (fun e => h0 (e ▸ hx))
    exact List.mem_map.2 ⟨c, hc, e⟩
  have := (hnd.subperm hsub).length_le
  simp at this
  omega

/-- C42. As long as no more than six keys have been down at once, every held key is in
the report. -/
theorem C42_report_complete (evs : List (Code × Bool)) (h6 : NeverMoreThanSix evs) (c : Code) (hr : reportable c = true)
    (hh : heldAfter evs c = true) : hidCode c ∈ (gadgetRun evs).keys := by
  revert h6 c hr hh
  refine snoc_induction (P := fun evs => NeverMoreThanSix evs → ∀ c, reportable c = true → heldAfter evs c = true → hidCode c ∈ (gadgetRun evs).keys) ?_ ?_ evs
  · intro _ c _ hh; cases hh
  · rintro l ⟨a, b⟩ ih h6 c hr hh
    have ih := ih (fun p hp => h6 p (hp.trans (List.prefix_append _ _)))
    have hinv := reportInv_run l
    rw [gadgetRun_snoc]
    rw [heldAfter_snoc] at hh
    have hc : gadgetModifier c = 0 ∧ hidCode c ≠ 0 := by simpa [reportable] using hr
    unfold gadgetSend
    dsimp only
    by_cases hm : gadgetModifier a = 0
    · rw [if_neg (by simpa using hm)]
      unfold gadgetKey
      dsimp only
      by_cases hac : a = c
      · subst hac
        rw [if_pos rfl] at hh
        subst hh
        rw [gadgetScan_true]
        simp only [true_and]
        split
        · rename_i hset
          have hset : hidCode a ∉ (gadgetRun l).keys := by simpa using hset
          have hnot : heldAfter l a = false := by
            cases e : heldAfter l a
            · rfl
            · exact absurd (ih a hr e) hset
          have hroom : (0 : UInt8) ∈ (gadgetRun l).keys := by
            refine room hinv.len hinv.nodup (heldKeys l) ?_ ?_
            · intro x hx h0
              obtain ⟨c', g1, g2, g3⟩ := hinv.sound x hx h0
              exact ⟨c', mem_heldKeys.2 ⟨g1, g3⟩, g2⟩
            · have h7 := h6 (l ++ [(a, true)]) (List.prefix_refl _)
              have hnd : (heldKeys l).Nodup := by
                unfold heldKeys
                apply List.Nodup.filter
                decide +kernel
              have hnd' : (a :: heldKeys l).Nodup := by
                rw [List.nodup_cons]
                refine ⟨fun h => ?_, hnd⟩
                rw [mem_heldKeys, hnot] at h
                cases h.2
              have hsub : (a :: heldKeys l) ⊆ heldKeys (l ++ [(a, true)]) := by
                intro x hx
                rw [mem_heldKeys, heldAfter_snoc]
                rcases List.mem_cons.1 hx with e | e
                · subst e; exact ⟨hr, by simp⟩
                · rw [mem_heldKeys] at e
                  refine ⟨e.1, ?_⟩
                  split
                  · rfl
                  · exact e.2
              have := (hnd'.subperm hsub).length_le
              simp at this
              omega
          rw [← List.count_pos_iff, gadgetInsert_count _ _ _ hc.2, if_pos ⟨rfl, hroom⟩]
          omega
        · rename_i hset
          simpa using hset
      · rw [if_neg hac] at hh
        have hin := ih c hr hh
        have hne : hidCode c ≠ hidCode a := fun e => hac (hidCode_inj hc.2 e).symm
        cases b with
        | false =>
          simp only [Bool.false_eq_true, false_and, if_false]
          rw [← List.count_pos_iff, gadgetScan_false_count _ _ _ hc.2, if_neg hne]
          exact List.count_pos_iff.2 hin
        | true =>
          rw [gadgetScan_true]
          simp only [true_and]
          split
          · rw [← List.count_pos_iff, gadgetInsert_count _ _ _ hc.2]
            have := List.count_pos_iff.2 hin
            omega
          · exact hin
    · rw [if_pos (by simpa using hm)]
      have hac : a ≠ c := by rintro rfl; exact hm hc.1
      rw [if_neg hac] at hh
      exact ih c hr hh

/-- The modifier keys of HID and their bits. -/
def hidModifiers : List (Code × UInt8) :=
  [(KEYD.LEFTCTRL, 0x1), (KEYD.LEFTSHIFT, 0x2), (KEYD.LEFTALT, 0x4), (KEYD.LEFTMETA, 0x8),
   (KEYD.RIGHTCTRL, 0x10), (KEYD.RIGHTSHIFT, 0x20), (KEYD.RIGHTALT, 0x40), (KEYD.RIGHTMETA, 0x80)]

/-- C42. The modifier byte of the report shows exactly the held modifiers. -/
theorem C42_modifiers (evs : List (Code × Bool)) : ∀ m ∈ hidModifiers,
    ((gadgetRun evs).mods &&& m.2 ≠ 0) ↔ heldAfter evs m.1 = true := by
  refine snoc_induction (P := fun evs => ∀ m ∈ hidModifiers, ((gadgetRun evs).mods &&& m.2 ≠ 0) ↔ heldAfter evs m.1 = true) ?_ ?_ evs
  · intro m hm
    have : (gadgetRun []).mods = 0 := rfl
    rw [this]
    simp [heldAfter]
  · rintro l ⟨a, b⟩ ih m hm
    rw [gadgetRun_snoc, heldAfter_snoc]
    have ih := ih m hm
    unfold gadgetSend
    dsimp only
    by_cases ha : gadgetModifier a = 0
    · rw [if_neg (by simpa using ha)]
      have hne : a ≠ m.1 := by
        rintro rfl
        have : ∀ m ∈ hidModifiers, gadgetModifier m.1 ≠ 0 := by decide +kernel
        exact this m hm ha
      rw [if_neg hne]
      exact ih
    · rw [if_pos (by simpa using ha)]
      have hamem : (a, gadgetModifier a) ∈ hidModifiers := by
        have all : ∀ n < 256, gadgetModifier (UInt8.ofNat n) ≠ 0 →
            (UInt8.ofNat n, gadgetModifier (UInt8.ofNat n)) ∈ hidModifiers := by decide +kernel
        have := all a.toNat a.toNat_lt
        rw [UInt8.ofNat_toNat] at this
        exact this ha
      have hself : ∀ m ∈ hidModifiers, m.2 &&& m.2 = m.2 ∧ m.2 ≠ 0 ∧ (~~~ m.2) &&& m.2 = 0 ∧ gadgetModifier m.1 = m.2 := by
        decide +kernel
      have hdis : ∀ m ∈ hidModifiers, ∀ m' ∈ hidModifiers, m.1 ≠ m'.1 → m.2 &&& m'.2 = 0 ∧ (~~~ m.2) &&& m'.2 = m'.2 := by
        decide +kernel
      by_cases e : a = m.1
      · rw [if_pos e]
        obtain ⟨s1, s2, s3, s4⟩ := hself m hm
        rw [e, s4]
        cases b with
        | true =>
          have : ((gadgetRun l).mods ||| m.2) &&& m.2 = m.2 := by
            apply UInt8.eq_of_toBitVec_eq
            simp only [UInt8.toBitVec_and, UInt8.toBitVec_or]
            ext i hi
            simp only [BitVec.getElem_and, BitVec.getElem_or]
            cases (gadgetRun l).mods.toBitVec[i] <;> cases m.2.toBitVec[i] <;> rfl
          simp [this, s2]
        | false =>
          have : ((gadgetRun l).mods &&& ~~~ m.2) &&& m.2 = 0 := by rw [UInt8.and_assoc, s3]; simp
          simp [this]
      · rw [if_neg e]
        obtain ⟨d1, d2⟩ := hdis (a, gadgetModifier a) hamem m hm e
        dsimp only at d1 d2
        cases b with
        | true =>
          have : ((gadgetRun l).mods ||| gadgetModifier a) &&& m.2 = (gadgetRun l).mods &&& m.2 := by
            have hd := congrArg UInt8.toBitVec d1
            apply UInt8.eq_of_toBitVec_eq
            simp only [UInt8.toBitVec_and, UInt8.toBitVec_or] at hd ⊢
            ext i hi
            have := congrArg (fun b : BitVec 8 => b[i]) hd
            simp only [BitVec.getElem_and, BitVec.getElem_or, UInt8.toBitVec_ofNat, BitVec.getElem_zero] at this ⊢
            revert this
            cases (gadgetRun l).mods.toBitVec[i] <;> cases m.2.toBitVec[i] <;>
              cases (gadgetModifier a).toBitVec[i] <;> simp
          simp only [if_true, this]
          exact ih
        | false =>
          have : ((gadgetRun l).mods &&& ~~~ gadgetModifier a) &&& m.2 = (gadgetRun l).mods &&& m.2 := by
            rw [UInt8.and_assoc, d2]
          simp only [Bool.false_eq_true, if_false, this]
          exact ih

/-- C42, concretely: with seven keys down (q w e r t y u) the report holds the first six. -/
theorem C42_example :
    (gadgetRun [(16, true), (17, true), (18, true), (42, true), (19, true), (20, true), (21, true), (22, true)]).keys =
      [20, 26, 8, 21, 23, 28] ∧
    (gadgetRun [(16, true), (17, true), (18, true), (42, true), (19, true), (20, true), (21, true), (22, true)]).mods = 2 := by
  decide +kernel

/-- A history meeting the hypothesis of `C42_report_complete`. -/
theorem C42_example_six : NeverMoreThanSix [(16, true), (17, true), (16, false), (42, true)] := by
  have : ∀ p ∈ List.inits [((16 : Code), true), (17, true), (16, false), (42, true)], (heldKeys p).length ≤ 6 := by
    decide +kernel
  intro p hp
  exact this p ((List.mem_inits _ _).2 hp)

end Keyd
