import Verif.Model.Discovery
import Verif.Props.KeyNames
import Verif.Spec.Run

/-
  C55: devices are recognised by their ids and capabilities.
-/

set_option autoImplicit false

namespace Keyd

theorem hex_length : ∀ (w n : Nat), (hex w n).length = w
  | 0, _ => rfl
  | w+1, n => by unfold hex; rw [List.length_append, hex_length]; rfl

theorem hexDigit_inj {a b : Nat} (ha : a < 16) (hb : b < 16) (h : hexDigit a = hexDigit b) : a = b := by
  have : ∀ (x y : Fin 16), hexDigit x = hexDigit y → x = y := by decide
  have := this ⟨a, ha⟩ ⟨b, hb⟩ h
  exact congrArg Fin.val this

theorem hex_inj : ∀ (w a b : Nat), a < 16 ^ w → b < 16 ^ w → hex w a = hex w b → a = b
  | 0, a, b, ha, hb, _ => by
    have h1 : a = 0 := by simpa using ha
    have h2 : b = 0 := by simpa using hb
    rw [h1, h2]
  | w+1, a, b, ha, hb, h => by
    unfold hex at h
    obtain ⟨h1, h2⟩ := List.append_inj' h rfl
    injection h2 with h2
    rw [Nat.pow_succ] at ha hb
    have h3 := hex_inj w _ _ ((Nat.div_lt_iff_lt_mul (by decide)).2 ha) ((Nat.div_lt_iff_lt_mul (by decide)).2 hb) h1
    have h4 := hexDigit_inj (Nat.mod_lt _ (by decide)) (Nat.mod_lt _ (by decide)) h2
    omega

/-- The text `vvvv:pppp`, in lower case hexadecimal. -/
def productText (vendor product : UInt16) : Str := hex 4 vendor.toNat ++ 58 :: hex 4 product.toNat

/-- C55. A line `vvvv:pppp` is a prefix of the id of exactly the devices of this vendor and product. -/
theorem C55_product (vendor product : UInt16) (n : Node) :
    productText vendor product <+: n.id ↔ n.vendor = vendor ∧ n.product = product := by
  unfold productText Node.id
  constructor
  · rintro ⟨t, ht⟩
    rw [List.append_assoc] at ht
    obtain ⟨h1, h2⟩ := List.append_inj ht (by rw [hex_length, hex_length])
    injection h2 with _ h2
    obtain ⟨h3, _⟩ := List.append_inj h2 (by rw [hex_length, hex_length])
    have l1 := vendor.toNat_lt
    have l2 := n.vendor.toNat_lt
    have l3 := product.toNat_lt
    have l4 := n.product.toNat_lt
    exact ⟨UInt16.toNat_inj.1 (hex_inj 4 _ _ l2 l1 h1.symm), UInt16.toNat_inj.1 (hex_inj 4 _ _ l4 l3 h3.symm)⟩
  · rintro ⟨rfl, rfl⟩
    refine ⟨58 :: hex 8 (generateUid (UInt32.ofNat n.numKeys) n.absmask n.relmask n.name).toNat, ?_⟩
    rw [List.append_assoc]
    rfl

theorem capabilities_cases (n : Node) : n.capabilities = 0 ∨ n.capabilities = CAP_MOUSE ∨
    n.capabilities = CAP_MOUSE ||| CAP_MOUSE_ABS ∨ n.capabilities = CAP_KEYBOARD ∨
    n.capabilities = CAP_MOUSE ||| CAP_KEYBOARD ∨ n.capabilities = CAP_MOUSE ||| CAP_MOUSE_ABS ||| CAP_KEYBOARD := by
  unfold Node.capabilities
  dsimp only
  by_cases hk : (keyboardKeys.all n.keys = true ∨ n.keys 225 = true ∨ n.keys 115 = true)
  · rw [if_pos hk]
    by_cases ha : n.absmask ≠ 0
    · rw [if_pos ha, if_pos (Or.inr ha : n.relmask ≠ 0 ∨ n.absmask ≠ 0)]
      right; right; right; right; right; decide
    · rw [if_neg ha]
      split
      · right; right; right; right; left; decide
      · right; right; right; left; decide
  · rw [if_neg hk]
    by_cases ha : n.absmask ≠ 0
    · rw [if_pos ha, if_pos (Or.inr ha : n.relmask ≠ 0 ∨ n.absmask ≠ 0)]
      right; right; left; decide
    · rw [if_neg ha]
      split
      · right; left; decide
      · left; rfl

theorem flags_some (n : Node) (h : n.capabilities ≠ 0) :
    (ID_KEYBOARD ||| ID_MOUSE) &&& deviceFlags { id := n.id, capabilities := n.capabilities, isVirtual := decide (n.vendor = 0x0FAC) } ≠ 0 := by
  have hd : ∀ d : Device, deviceFlags d = deviceFlags { id := [], capabilities := d.capabilities, isVirtual := false } := fun _ => rfl
  rw [hd]
  dsimp only
  rcases capabilities_cases n with e | e | e | e | e | e
  · exact absurd e h
  all_goals rw [e]; decide

/-- C55. A config whose only `[ids]` line is `vvvv:pppp` claims exactly the keyboards and mice of this vendor and
product. -/
theorem C55_claims {c : Config} {vendor product : UInt16} (hi : c.ids = [⟨productText vendor product, ID_KEYBOARD ||| ID_MOUSE⟩])
    (hw : c.wildcard = false) (n : Node) (d : Device) (hd : deviceInit n = some d) :
    configCheckMatch c d.id (deviceFlags d) = if n.vendor = vendor ∧ n.product = product then 2 else 0 := by
  unfold deviceInit at hd
  split at hd
  · rename_i hc
    injection hd with hd
    subst hd
    have hf : (ID_KEYBOARD ||| ID_MOUSE) &&& deviceFlags { id := n.id, capabilities := n.capabilities, isVirtual := decide (n.vendor = 0x0FAC) } ≠ 0 := by
      exact flags_some n hc
    unfold configCheckMatch
    rw [hi]
    unfold checkIds
    dsimp only
    by_cases hp : n.vendor = vendor ∧ n.product = product
    · have : isPrefix (productText vendor product) n.id = true := List.isPrefixOf_iff_prefix.2 ((C55_product vendor product n).2 hp)
      rw [if_pos this, if_neg (by decide), if_pos hf, if_pos hp]
    · have : ¬ isPrefix (productText vendor product) n.id = true := fun h =>
        hp ((C55_product vendor product n).1 (List.isPrefixOf_iff_prefix.1 h))
      rw [if_neg this, if_neg hp]
      unfold checkIds
      dsimp only
      rw [hw]
      rfl
  · cases hd

/-- C55. What counts as a keyboard: everything with the digits and the letters from Q to Y, or a volume or brightness key. -/
theorem C55_keyboard (n : Node) : n.capabilities &&& CAP_KEYBOARD ≠ 0 ↔
    (∀ k, (2 ≤ k ∧ k ≤ 11 ∨ 16 ≤ k ∧ k ≤ 21) → n.keys k = true) ∨ n.keys 225 = true ∨ n.keys 115 = true := by
  have hall : keyboardKeys.all n.keys = true ↔ ∀ k, (2 ≤ k ∧ k ≤ 11 ∨ 16 ≤ k ∧ k ≤ 21) → n.keys k = true := by
    rw [List.all_eq_true]
    constructor
    · intro h k hk
      refine h k ?_
      unfold keyboardKeys
      simp only [List.mem_cons, List.not_mem_nil, or_false]
      omega
    · intro h k hk
      refine h k ?_
      unfold keyboardKeys at hk
      simp only [List.mem_cons, List.not_mem_nil, or_false] at hk
      omega
  rw [← hall]
  unfold Node.capabilities
  dsimp only
  by_cases h : keyboardKeys.all n.keys = true ∨ n.keys 225 = true ∨ n.keys 115 = true
  · rw [if_pos h]
    refine ⟨fun _ => h, fun _ => ?_⟩
    repeat' split
    all_goals decide
  · rw [if_neg h]
    refine ⟨fun h' => ?_, fun h' => absurd h' h⟩
    exfalso
    revert h'
    repeat' split
    all_goals decide

/-- C55. What counts as a mouse: everything with an axis. -/
theorem C55_mouse (n : Node) : n.capabilities &&& (CAP_MOUSE ||| CAP_MOUSE_ABS) ≠ 0 ↔ n.relmask ≠ 0 ∨ n.absmask ≠ 0 := by
  unfold Node.capabilities
  dsimp only
  by_cases h : n.relmask ≠ 0 ∨ n.absmask ≠ 0
  · rw [if_pos h]
    refine ⟨fun _ => h, fun _ => ?_⟩
    repeat' split
    all_goals decide
  · rw [if_neg h]
    refine ⟨fun h' => ?_, fun h' => absurd h' h⟩
    exfalso
    revert h'
    rw [if_neg (fun h' => h (.inr h'))]
    split
    all_goals decide

/-- C55. keyd's own virtual devices (vendor 0FAC) are never taken over, whatever the configs say. -/
theorem C55_own_devices {n : Node} {d : Device} (hd : deviceInit n = some d) (hv : n.vendor = 0x0FAC) (env : Env) (configs : List Ent) :
    (manageDevice env configs d).data = none ∧ (manageDevice env configs d).grabbed = false := by
  unfold deviceInit at hd
  split at hd
  · injection hd with hd
    subst hd
    unfold manageDevice
    rw [if_pos (decide_eq_true hv)]
    exact ⟨rfl, rfl⟩
  · cases hd

/-- Both are what the code creates (uinput.c:85,139). -/
theorem C55_example : productText 0x046d 0xb01d = b!"046d:b01d" ∧ productText 0x0fac 0x0ade = b!"0fac:0ade" ∧
    (deviceInit { name := b!"Mouse", vendor := 0x046d, product := 0xb01d, keys := fun k => k = 272, relmask := 3 }).map
      (fun d => (d.id.take 10, d.capabilities, d.isVirtual)) = some (b!"046d:b01d:", CAP_MOUSE, false) ∧
    (deviceInit { name := b!"Lid", vendor := 1, product := 2, keys := fun _ => false }).isNone = true := by
  decide +kernel

/-- The hypotheses of `C55_claims` are met by a config read from a file. -/
theorem C55_config_example : (textConfig b!"[ids]\n046d:b01d\n[main]\na = b\n").map (fun c => (c.ids.map (fun i => (i.id, i.flags)), c.wildcard)) =
    some ([(productText 0x046d 0xb01d, ID_KEYBOARD ||| ID_MOUSE)], false) := by
  decide +kernel

/-- Ids are matched in lower case only. -/
theorem C55_upper_case (n : Node) : ¬ b!"046D:" <+: n.id := by
  unfold Node.id
  rintro ⟨t, ht⟩
  have h : (hex 4 n.vendor.toNat)[3]? = some 68 := by
    have := congrArg (·[3]?) ht
    change _ = (hex 4 n.vendor.toNat ++ _)[3]? at this
    rw [List.getElem?_append_left (l₁ := hex 4 n.vendor.toNat) (by rw [hex_length]; decide)] at this
    rw [← this]
    rfl
  unfold hex at h
  rw [List.getElem?_append_right (by rw [hex_length]; exact Nat.le_refl 3), hex_length] at h
  injection h with h
  have : ∀ x : Fin 16, hexDigit x ≠ 68 := by decide
  exact this ⟨n.vendor.toNat % 16, Nat.mod_lt _ (by decide)⟩ h

end Keyd
