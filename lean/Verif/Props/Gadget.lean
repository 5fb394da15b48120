import Verif.Model.Gadget
import Verif.Props.Devices
import Mathlib.Data.List.Induction

/-
  C101: keys reach a USB host.
-/

set_option autoImplicit false

namespace Keyd

/-! ### Specification: what a host makes of a report -/

/-- The keyboard page of the USB HID Usage Tables (section 10), from usage 4 (a) to usage 101 (application), as the codes of the same keys in linux/input-event-codes.h. Usage 50 (non-US # and ~)
is left out: hosts take it for the backslash key. -/
def usageKeys : List Code :=
  [30, 48, 46, 32, 18, 33, 34, 35, 23, 36, 37, 38, 50, 49, 24, 25, 16, 19, 31, 20, 22, 47, 17, 45, 21, 44,  -- a to z
   2, 3, 4, 5, 6, 7, 8, 9, 10, 11,  -- 1 to 0
   28, 1, 14, 15, 57, 12, 13, 26, 27, 43]  -- enter, escape, backspace, tab, space, minus, equal, brackets, backslash

def usageKeys2 : List Code :=
  [39, 40, 41, 51, 52, 53, 58, 59, 60, 61, 62, 63, 64, 65, 66, 67, 68, 87, 88,  -- semicolon, apostrophe, grave, comma, dot, slash, caps lock, F1 to F12
   99, 70, 119, 110, 102, 104, 111, 107, 109, 106, 105, 108, 103,  -- print screen, scroll lock, pause, insert, home, page up, delete, end, page down, right, left, down, up
   69, 98, 55, 74, 78, 96, 79, 80, 81, 75, 76, 77, 71, 72, 73, 82, 83,  -- num lock, the keypad: / * - + enter 1 to 9, 0, .
   86, 127]  -- non-US backslash, application

def usageKey (u : Nat) : Option Code :=
  if u < 4 then none else if u < 50 then usageKeys[u - 4]? else if u = 50 then none else usageKeys2[u - 51]?

/-- The modifiers, usages 224 to 231: a bit each in the first byte. -/
def usageModifiers : List Code := [29, 42, 56, 125, 97, 54, 100, 126]

/-- What a report says to the host, by the descriptor in usb-gadget.sh:11: the first byte has the modifiers, the second byte is padding, and the others are each a usage from 0 to 101; a value out of that range says nothing
(USB HID 1.11, 6.2.2.5). -/
def hostHolds (report : Str) (c : Code) : Prop :=
  (∃ (i : Nat) (mods : UInt8) (rest : Str), usageModifiers[i]? = some c ∧ report = mods :: rest ∧ mods.toNat.testBit i = true) ∨
  (∃ u ∈ report.drop 2, u.toNat ≤ 101 ∧ usageKey u.toNat = some c)

/-- What the host holds after a history: what the last report it fetched says. -/
def hostState (s : GadgetBus) (c : Code) : Prop := ∃ r rs, s.fetched = r :: rs ∧ hostHolds r c

/-- The keys sent in a history. -/
def keysSent (es : List BusEvent) : List (Code × Bool) := es.filterMap fun | .key c d _ => some (c, d) | .poll => none

/-! ### Proofs -/

/-- The keys that a host can be told of. -/
def usbKeys : List Code := usageModifiers ++ usageKeys ++ usageKeys2

theorem hid_usage : ∀ c : Fin 256, let c := UInt8.ofNat c.1
    (c ∈ usageModifiers → gadgetModifier c ≠ 0) ∧
    (c ∈ usageKeys ++ usageKeys2 → reportable c = true ∧ (hidCode c).toNat ≤ 101) ∧
    (reportable c = true → (hidCode c).toNat ≤ 101 → usageKey (hidCode c).toNat = some c) := by
  decide +kernel

theorem usage_mem : ∀ u : Fin 256, (usageKey u.1).all (fun c => (usageKeys ++ usageKeys2).contains c && (hidCode c).toNat == u.1) = true := by
  decide +kernel

theorem hid_usage' (c : Code) : (c ∈ usageModifiers → gadgetModifier c ≠ 0) ∧
    (c ∈ usageKeys ++ usageKeys2 → reportable c = true ∧ (hidCode c).toNat ≤ 101) ∧
    (reportable c = true → (hidCode c).toNat ≤ 101 → usageKey (hidCode c).toNat = some c) := by
  have h := hid_usage ⟨c.toNat, c.toNat_lt⟩
  dsimp only at h
  rw [UInt8.ofNat_toNat] at h
  exact h

theorem bit_of : ∀ (m : Fin 256) (i : Fin 8), (UInt8.ofNat m.1 &&& UInt8.ofNat (2 ^ i.1) ≠ 0) ↔ (UInt8.ofNat m.1).toNat.testBit i.1 = true := by
  decide +kernel

theorem modifier_bits : ∀ i : Fin 8, (usageModifiers[i.1]?).all (fun c => hidModifiers.contains (c, UInt8.ofNat (2 ^ i.1))) = true := by
  decide +kernel

/-- What a report written after a history says. -/
theorem report_says (evs : List (Code × Bool)) (h6 : NeverMoreThanSix evs) (x : UInt8) (c : Code) :
    hostHolds (hidReport (gadgetRun evs) x) c ↔ c ∈ usbKeys ∧ heldAfter evs c = true := by
  have hmod : ∀ i, usageModifiers[i]? = some c → ((gadgetRun evs).mods.toNat.testBit i = true ↔ heldAfter evs c = true) := by
    intro i hi
    have hi8 : i < 8 := by
      have := (List.getElem?_eq_some_iff.1 hi).1
      exact this
    have hb := modifier_bits ⟨i, hi8⟩
    dsimp only at hb
    rw [hi] at hb
    have hm : (c, UInt8.ofNat (2 ^ i)) ∈ hidModifiers := by simpa using hb
    have h1 := C42_modifiers evs _ hm
    dsimp only at h1
    have h2 := bit_of ⟨(gadgetRun evs).mods.toNat, UInt8.toNat_lt _⟩ ⟨i, hi8⟩
    dsimp only at h2
    rw [UInt8.ofNat_toNat] at h2
    rw [← h2, h1]
  constructor
  · rintro (⟨i, mods, rest, hi, hr, hb⟩ | ⟨u, hu, hle, hk⟩)
    · unfold hidReport at hr
      injection hr with hr _
      subst hr
      exact ⟨List.mem_append_left _ (List.mem_append_left _ (List.mem_of_getElem? hi)), (hmod i hi).1 hb⟩
    · have hu : u ∈ (gadgetRun evs).keys := hu
      have hm := usage_mem ⟨u.toNat, u.toNat_lt⟩
      dsimp only at hm
      rw [hk] at hm
      have hm : c ∈ usageKeys ++ usageKeys2 ∧ (hidCode c).toNat = u.toNat := by simpa using hm
      have hne : u ≠ 0 := by
        rintro rfl
        cases hk
      obtain ⟨c', hr, hc', hh⟩ := (C42_report_sound evs).2.2 u hu hne
      have := (hid_usage' c').2.2 hr (by rw [hc']; exact hle)
      rw [hc', hk] at this
      cases this
      refine ⟨?_, hh⟩
      unfold usbKeys
      rw [List.append_assoc]
      exact List.mem_append_right _ hm.1
  · rintro ⟨hc, hh⟩
    unfold usbKeys at hc
    rw [List.append_assoc] at hc
    rcases List.mem_append.1 hc with hc | hc
    · obtain ⟨i, hi⟩ := List.mem_iff_getElem?.1 hc
      exact .inl ⟨i, _, _, hi, rfl, (hmod i hi).2 hh⟩
    · obtain ⟨hr, hle⟩ := (hid_usage' c).2.1 hc
      exact .inr ⟨hidCode c, C42_report_complete evs h6 c hr hh, hle, (hid_usage' c).2.2 hr hle⟩

theorem bus_concat (es : List BusEvent) (e : BusEvent) : busRun (es ++ [e]) = busStep (busRun es) e := by
  unfold busRun
  rw [List.foldl_append]
  rfl

theorem bus_g (es : List BusEvent) : (busRun es).g = gadgetRun (keysSent es) := by
  induction es using List.reverseRecOn with
  | nil => rfl
  | append_singleton es e ih =>
    rw [bus_concat]
    cases e with
    | poll =>
      rw [show keysSent (es ++ [.poll]) = keysSent es by simp [keysSent]]
      unfold busStep
      dsimp only
      cases (busRun es).pending <;> exact ih
    | key c d x =>
      rw [show keysSent (es ++ [.key c d x]) = keysSent es ++ [(c, d)] by simp [keysSent], gadgetRun_snoc, ← ih]
      rfl

/-- A report of the state after some of the keys sent. -/
def ReportOf (es : List BusEvent) (r : Str) : Prop := ∃ p x, p <+: es ∧ r = hidReport (gadgetRun (keysSent p)) x

theorem ReportOf.mono {es fs : List BusEvent} {r : Str} (h : ReportOf es r) : ReportOf (es ++ fs) r := by
  obtain ⟨p, x, hp, hr⟩ := h
  exact ⟨p, x, hp.trans (List.prefix_append _ _), hr⟩

theorem bus_reports (es : List BusEvent) : (∀ r, (busRun es).pending = some r → ReportOf es r) ∧ ∀ r ∈ (busRun es).fetched, ReportOf es r := by
  induction es using List.reverseRecOn with
  | nil => exact ⟨(fun r h => by cases h), (fun r h => by cases h)⟩
  | append_singleton es e ih =>
    obtain ⟨h1, h2⟩ := ih
    rw [bus_concat]
    cases e with
    | poll =>
      unfold busStep
      dsimp only
      cases hp : (busRun es).pending with
      | none => exact ⟨(fun r h => by dsimp only at h; rw [hp] at h; cases h), fun r h => (h2 r h).mono⟩
      | some r0 =>
        refine ⟨(fun r h => by cases h), fun r h => ?_⟩
        rcases List.mem_cons.1 h with rfl | h
        · exact (h1 r hp).mono
        · exact (h2 r h).mono
    | key c d x =>
      refine ⟨fun r h => ?_, fun r h => (h2 r h).mono⟩
      unfold busStep at h
      dsimp only at h
      cases hp : (busRun es).pending with
      | none =>
        rw [hp] at h
        cases h
        refine ⟨es ++ [.key c d x], x, List.prefix_rfl, ?_⟩
        rw [show keysSent (es ++ [.key c d x]) = keysSent es ++ [(c, d)] by simp [keysSent], gadgetRun_snoc, ← bus_g]
      | some r0 =>
        rw [hp] at h
        cases h
        exact (h1 _ hp).mono

/-- C101: if the host fetches each report before the next key is sent, and no more than six ordinary keys are down at once, then after each fetch the host holds exactly the keys that keyd holds, among
the modifiers and the usages up to 101. -/
theorem C101_keys_partial (keys : List (Code × Bool × UInt8)) (h6 : NeverMoreThanSix (keys.map fun k => (k.1, k.2.1))) (hne : keys ≠ []) (c : Code) (hc : c ∈ usbKeys) :
    hostState (busRun (keys.flatMap fun k => [.key k.1 k.2.1 k.2.2, .poll])) c ↔ heldAfter (keys.map fun k => (k.1, k.2.1)) c = true := by
  have hsent : ∀ keys : List (Code × Bool × UInt8), keysSent (keys.flatMap fun k => [.key k.1 k.2.1 k.2.2, .poll]) = keys.map fun k => (k.1, k.2.1) := by
    intro keys
    induction keys with
    | nil => rfl
    | cons k keys ih => rw [List.flatMap_cons, List.map_cons, ← ih]; rfl
  have hfree : ∀ keys : List (Code × Bool × UInt8), (busRun (keys.flatMap fun k => [.key k.1 k.2.1 k.2.2, .poll])).pending = none := by
    intro keys
    induction keys using List.reverseRecOn with
    | nil => rfl
    | append_singleton keys k ih =>
      rw [List.flatMap_append, show ([k].flatMap fun k => [BusEvent.key k.1 k.2.1 k.2.2, .poll]) = [.key k.1 k.2.1 k.2.2] ++ [.poll] from rfl, ← List.append_assoc, bus_concat, bus_concat]
      unfold busStep
      dsimp only
      rw [ih]
  induction keys using List.reverseRecOn with
  | nil => exact absurd rfl hne
  | append_singleton keys k _ =>
    have hf : (busRun ((keys ++ [k]).flatMap fun k => [.key k.1 k.2.1 k.2.2, .poll])).fetched =
        hidReport (gadgetRun ((keys ++ [k]).map fun k => (k.1, k.2.1))) k.2.2 :: (busRun (keys.flatMap fun k => [.key k.1 k.2.1 k.2.2, .poll])).fetched := by
      rw [List.flatMap_append, show ([k].flatMap fun k => [BusEvent.key k.1 k.2.1 k.2.2, .poll]) = [.key k.1 k.2.1 k.2.2] ++ [.poll] from rfl, ← List.append_assoc, bus_concat, bus_concat]
      rw [List.map_append, show [k].map (fun k => (k.1, k.2.1)) = [(k.1, k.2.1)] from rfl, gadgetRun_snoc, ← hsent keys, ← bus_g]
      have hn := hfree keys
      generalize busRun (keys.flatMap fun k => [BusEvent.key k.1 k.2.1 k.2.2, .poll]) = s at hn ⊢
      unfold busStep
      dsimp only
      rw [hn]
    unfold hostState
    rw [hf]
    have hs := report_says _ h6 k.2.2 c
    refine ⟨fun ⟨r, rs, e, h⟩ => ?_, fun h => ⟨_, _, rfl, hs.2 ⟨hc, h⟩⟩⟩
    cases e
    exact (hs.1 h).2

/-- C101: in general, whatever the host fetches tells of the keys as they were at some earlier moment; nothing that was not held then is held at the host. -/
theorem C101_earlier (es : List BusEvent) (h6 : NeverMoreThanSix (keysSent es)) (r : Str) (rs : List Str) (hf : (busRun es).fetched = r :: rs) :
    ∃ p, p <+: es ∧ ∀ c, hostState (busRun es) c ↔ c ∈ usbKeys ∧ heldAfter (keysSent p) c = true := by
  obtain ⟨p, x, hp, hr⟩ := (bus_reports es).2 r (by rw [hf]; exact List.mem_cons_self ..)
  refine ⟨p, hp, fun c => ?_⟩
  have h6' : NeverMoreThanSix (keysSent p) := by
    intro q hq
    refine h6 q (hq.trans ?_)
    obtain ⟨t, rfl⟩ := hp
    exact ⟨keysSent t, by simp [keysSent]⟩
  unfold hostState
  rw [hf]
  have hs := report_says _ h6' x c
  rw [← hr] at hs
  exact ⟨fun ⟨r', rs', e, h⟩ => (by cases e; exact hs.1 h), fun h => ⟨r, rs, rfl, hs.2 h⟩⟩

/-- shift+a, with both reports fetched each time. -/
theorem C101_example : 30 ∈ usbKeys ∧ 42 ∈ usbKeys ∧ NeverMoreThanSix [((42 : Code), true), (30, true), (30, false)] ∧
    (busRun [.key 42 true 0, .poll, .key 30 true 7, .poll, .key 30 false 0, .poll]).fetched =
      [[2, 0, 0, 0, 0, 0, 0, 0], [2, 7, 4, 0, 0, 0, 0, 0], [2, 0, 0, 0, 0, 0, 0, 0]] := by
  refine ⟨by decide, by decide, ?_, by decide +kernel⟩
  have : ∀ p ∈ List.inits [((42 : Code), true), (30, true), (30, false)], (heldKeys p).length ≤ 6 := by decide +kernel
  intro p hp
  exact this p ((List.mem_inits _ _).2 hp)

/-- What is missing: a key released before the host has fetched its press stays down at the host, for as long as no other key is sent … -/
theorem C101_fails_lost (n : Nat) : hostState (busRun (.key 30 true 0 :: .key 30 false 0 :: List.replicate (n + 1) .poll)) 30 := by
  have : ∀ n, busRun (.key 30 true 0 :: .key 30 false 0 :: List.replicate (n + 1) .poll) = busRun [.key 30 true 0, .key 30 false 0, .poll] := by
    intro n
    induction n with
    | zero => rfl
    | succ n ih =>
      rw [List.replicate_succ', show BusEvent.key 30 true 0 :: .key 30 false 0 :: (List.replicate (n + 1) .poll ++ [.poll]) = (.key 30 true 0 :: .key 30 false 0 :: List.replicate (n + 1) .poll) ++ [.poll] from rfl, bus_concat, ih]
      decide +kernel
  rw [this]
  exact ⟨[0, 0, 4, 0, 0, 0, 0, 0], [], by decide +kernel, .inr ⟨4, by decide, by decide, by decide⟩⟩

/-- … and a key whose usage is above 101, such as F13 or volume up, never reaches the host. -/
theorem C101_fails_range (c : Code) (h : c = 183 ∨ c = 115) : reportable c = true ∧
    ∀ es, NeverMoreThanSix (keysSent es) → ¬ hostState (busRun es) c := by
  have hn : c ∉ usbKeys := by rcases h with rfl | rfl <;> decide +kernel
  refine ⟨by rcases h with rfl | rfl <;> decide +kernel, fun es h6 hs => ?_⟩
  obtain ⟨r, rs, hf, _⟩ := id hs
  obtain ⟨p, _, hp⟩ := C101_earlier es h6 r rs hf
  exact hn ((hp c).1 hs).1

end Keyd
