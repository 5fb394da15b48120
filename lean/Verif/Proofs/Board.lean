import Verif.Spec.Board
import Verif.Proofs.Places
import Verif.Proofs.Shifts
import Verif.Proofs.LayerActs
import Verif.Props.Typewriter

/-
  The engine follows the machine of `Verif.Spec.Board`, action by action.
-/

set_option autoImplicit false

namespace Keyd

/-! ### The host -/

/-- The host has got what the machine says. -/
structure Sent (b : Board) (k : Kbd) : Prop where
  sync : hostAfter (fun _ => false) k.outputs = k.keystate
  out : hostEvents (fun _ => false) k.outputs = b.out
  ran : ranCommands k.outputs = b.ran
  down : ∀ x, isModifierKey x = false → k.keystate x = b.down x
  mods : modKeys.filter k.keystate = b.mods
  unreal : ∀ x, ¬ RealKey x → k.keystate x = false

theorem hostEvents_append : ∀ (a b : List Out) (h : Code → Bool), hostEvents h (a ++ b) = hostEvents h a ++ hostEvents (hostAfter h a) b
  | [], b, h => rfl
  | .key c d :: a, b, h => by
    show _ ++ hostEvents _ (a ++ b) = (_ ++ hostEvents _ a) ++ _
    rw [hostEvents_append a b, List.append_assoc]
    rfl
  | .layer _ _ :: a, b, h => hostEvents_append a b h
  | .command _ :: a, b, h => hostEvents_append a b h
  | .sleep _ :: a, b, h => hostEvents_append a b h

/-- Neither a key nor a command. -/
def Out.mute : Out → Bool
  | .layer _ _ => true
  | .sleep _ => true
  | _ => false

theorem mute_hostAfter : ∀ (os : List Out), (∀ o ∈ os, o.mute = true) → ∀ h, hostAfter h os = h ∧ hostEvents h os = [] ∧ ranCommands os = []
  | [], _, h => ⟨rfl, rfl, rfl⟩
  | .layer i b :: os, hm, h => mute_hostAfter os (fun o ho => hm o (List.mem_cons_of_mem _ ho)) h
  | .sleep n :: os, hm, h => mute_hostAfter os (fun o ho => hm o (List.mem_cons_of_mem _ ho)) h
  | .key c d :: os, hm, h => by have := hm _ (List.mem_cons_self ..); cases this
  | .command c :: os, hm, h => by have := hm _ (List.mem_cons_self ..); cases this

theorem Sent.same {b b' : Board} {k k' : Kbd} (h : Sent b k) (h1 : k'.keystate = k.keystate) (h2 : ∃ os, k'.trace = os ++ k.trace ∧ ∀ o ∈ os, o.mute = true)
    (e1 : b'.out = b.out) (e2 : b'.ran = b.ran) (e3 : b'.down = b.down) (e4 : b'.mods = b.mods) : Sent b' k' := by
  obtain ⟨os, ht, hm⟩ := h2
  have ho : k'.outputs = k.outputs ++ os.reverse := by unfold Kbd.outputs; rw [ht, List.reverse_append]
  obtain ⟨m1, m2, m3⟩ := mute_hostAfter os.reverse (fun o h => hm o (List.mem_reverse.1 h)) (hostAfter (fun _ => false) k.outputs)
  refine ⟨?_, ?_, ?_, ?_, ?_, by rw [h1]; exact h.unreal⟩
  · rw [ho, hostAfter_append, m1, h1]; exact h.sync
  · rw [ho, hostEvents_append, m2, List.append_nil, e1]; exact h.out
  · unfold ranCommands at m3 ⊢
    rw [ho, List.filterMap_append, m3, List.append_nil, e2]; exact h.ran
  · intro x hx; rw [h1, e3]; exact h.down x hx
  · rw [h1, e4]; exact h.mods

/-- Sending any key. -/
theorem sendKey_host (k : Kbd) (x : Code) (p : Bool) (hs : hostAfter (fun _ => false) k.outputs = k.keystate) :
    hostAfter (fun _ => false) (sendKey k x p).outputs = (sendKey k x p).keystate ∧
    ranCommands (sendKey k x p).outputs = ranCommands k.outputs ∧
    hostEvents (fun _ => false) (sendKey k x p).outputs = hostEvents (fun _ => false) k.outputs ++
      (if x = KEYD.NOOP ∨ x = KEYD.EXTERNAL_MOUSE_BUTTON ∨ k.keystate x = p ∨ isModifierKey x = true then [] else [(x, p, modKeys.filter k.keystate)]) := by
  by_cases h0 : x = KEYD.NOOP ∨ x = KEYD.EXTERNAL_MOUSE_BUTTON
  · have : sendKey k x p = k := by unfold sendKey; rw [if_pos h0]
    rw [this, if_pos (by rcases h0 with h | h; exacts [.inl h, .inr (.inl h)]), List.append_nil]
    exact ⟨hs, rfl, rfl⟩
  · by_cases hk : k.keystate x = p
    · have e1 : (sendKey k x p).outputs = k.outputs ∧ (sendKey k x p).keystate = k.keystate := by
        cases p
        · have : sendKey k x false = if k.keystate x ≠ false then { k.emit (.key x false) with keystate := upd k.keystate x false } else k := by
            unfold sendKey; rw [if_neg h0]; rfl
          rw [this, if_neg (fun h => h hk)]; exact ⟨rfl, rfl⟩
        · have : sendKey k x true = if k.keystate x ≠ true then
              { { k with lastPressedOutputCode := x }.emit (.key x true) with keystate := upd k.keystate x true } else { k with lastPressedOutputCode := x } := by
            unfold sendKey; rw [if_neg h0]; rfl
          rw [this, if_neg (fun h => h hk)]; exact ⟨rfl, rfl⟩
      rw [e1.1, e1.2, if_pos (.inr (.inr (.inl hk))), List.append_nil]
      exact ⟨hs, rfl, rfl⟩
    · have e1 : (sendKey k x p).outputs = k.outputs ++ [.key x p] ∧ (sendKey k x p).keystate = upd k.keystate x p := by
        cases p
        · have : sendKey k x false = if k.keystate x ≠ false then { k.emit (.key x false) with keystate := upd k.keystate x false } else k := by
            unfold sendKey; rw [if_neg h0]; rfl
          rw [this, if_pos hk]
          exact ⟨by unfold Kbd.outputs Kbd.emit; exact List.reverse_cons .., rfl⟩
        · have : sendKey k x true = if k.keystate x ≠ true then
              { { k with lastPressedOutputCode := x }.emit (.key x true) with keystate := upd k.keystate x true } else { k with lastPressedOutputCode := x } := by
            unfold sendKey; rw [if_neg h0]; rfl
          rw [this, if_pos hk]
          exact ⟨by unfold Kbd.outputs Kbd.emit; exact List.reverse_cons .., rfl⟩
      rw [e1.1, e1.2]
      refine ⟨?_, ?_, ?_⟩
      · rw [hostAfter_append, hs]; rfl
      · unfold ranCommands; rw [List.filterMap_append]; simp
      · rw [hostEvents_append, hs]
        congr 1
        show (if isModifierKey x = true then [] else [_]) ++ [] = _
        rw [List.append_nil]
        by_cases hm : isModifierKey x = true
        · rw [if_pos hm, if_pos (.inr (.inr (.inr hm)))]
        · rw [if_neg hm, if_neg]
          rintro (h | h | h | h)
          exacts [h0 (.inl h), h0 (.inr h), hk h, hm h]

theorem modKeys_upd {f : Code → Bool} {x : Code} (hx : isModifierKey x = false) (p : Bool) : modKeys.filter (upd f x p) = modKeys.filter f := by
  apply List.filter_congr
  intro y hy
  rw [upd_apply, if_neg]
  rintro rfl
  revert hx
  exact (by decide : ∀ y ∈ modKeys, ¬ isModifierKey y = false) y hy

theorem unreal_plain {x : Code} (h : ¬ RealKey x) : isModifierKey x = false := by
  have hx : x = KEYD.NOOP ∨ x = KEYD.EXTERNAL_MOUSE_BUTTON := by
    unfold RealKey at h
    by_cases h1 : x = KEYD.NOOP
    · exact .inl h1
    · by_cases h2 : x = KEYD.EXTERNAL_MOUSE_BUTTON
      · exact .inr h2
      · exact absurd ⟨h1, h2⟩ h
  rcases hx with rfl | rfl <;> decide

theorem modKeys_real {x : Code} (hx : isModifierKey x = true) : RealKey x := by
  by_cases h : RealKey x
  · exact h
  · rw [unreal_plain h] at hx; cases hx

/-- Sending a modifier. -/
theorem Sent.shift {b : Board} {k : Kbd} (h : Sent b k) {x : Code} (hx : isModifierKey x = true) (p : Bool) : Sent (b.send x p) (sendKey k x p) := by
  obtain ⟨s1, s2, s3⟩ := sendKey_host k x p h.sync
  have hr := modKeys_real hx
  have hks := sendKey_keystate k x p hr.1 hr.2
  unfold Board.send
  rw [if_pos hx]
  refine ⟨s1, ?_, s2.trans h.ran, fun y hy => ?_, ?_, fun y hy => ?_⟩
  · rw [s3, if_pos (.inr (.inr (.inr hx))), List.append_nil]; exact h.out
  · rw [hks, upd_apply, if_neg (by rintro rfl; rw [hx] at hy; cases hy)]; exact h.down y hy
  · dsimp only
    rw [hks]
    apply List.filter_congr
    intro y hy
    rw [upd_apply, ← h.mods]
    split
    · rfl
    · rw [Bool.eq_iff_iff, decide_eq_true_eq, List.mem_filter]
      exact ⟨fun e => ⟨hy, e⟩, fun e => e.2⟩
  · rw [hks, upd_apply, if_neg (by rintro rfl; exact hy hr)]; exact h.unreal y hy

/-- Sending a key. -/
theorem Sent.send {b : Board} {k : Kbd} (h : Sent b k) (x : Code) (p : Bool) : Sent (b.send x p) (sendKey k x p) := by
  by_cases hx : isModifierKey x = true
  · exact h.shift hx p
  have hx' := hx
  rw [Bool.not_eq_true] at hx
  obtain ⟨s1, s2, s3⟩ := sendKey_host k x p h.sync
  by_cases hr : RealKey x
  · have hks := sendKey_keystate k x p hr.1 hr.2
    have hm : modKeys.filter (sendKey k x p).keystate = modKeys.filter k.keystate := by rw [hks, modKeys_upd hx]
    have hu : ∀ y, ¬ RealKey y → (sendKey k x p).keystate y = false := by
      intro y hy
      rw [hks, upd_apply, if_neg (by rintro rfl; exact hy hr)]
      exact h.unreal y hy
    unfold Board.send
    rw [if_neg hx']
    by_cases hb : b.down x = p
    · rw [if_pos (.inr (.inr hb))]
      refine ⟨s1, ?_, s2.trans h.ran, fun y hy => ?_, hm.trans h.mods, hu⟩
      · rw [s3, if_pos (.inr (.inr (.inl (by rw [h.down x hx]; exact hb)))), List.append_nil]; exact h.out
      · rw [hks, upd_apply]
        split
        · rename_i e; rw [e, hb]
        · exact h.down y hy
    · rw [if_neg (by rintro (h1 | h1 | h1); exacts [hr.1 h1, hr.2 h1, hb h1])]
      refine ⟨s1, ?_, s2.trans h.ran, fun y hy => ?_, hm.trans h.mods, hu⟩
      · rw [s3, if_neg, h.out, h.mods]
        rintro (h1 | h1 | h1 | h1)
        · exact hr.1 h1
        · exact hr.2 h1
        · exact hb (by rw [← h.down x hx]; exact h1)
        · rw [hx] at h1; cases h1
      · rw [hks, upd_apply]
        show _ = if y = x then p else b.down y
        split
        · rfl
        · exact h.down y hy
  · have : b.send x p = b := by
      unfold Board.send
      rw [if_neg hx', if_pos]
      unfold RealKey at hr
      by_cases h1 : x = KEYD.NOOP
      · exact .inl h1
      · by_cases h2 : x = KEYD.EXTERNAL_MOUSE_BUTTON
        · exact .inr (.inl h2)
        · exact absurd ⟨h1, h2⟩ hr
    rw [this, sendKey_unreal _ _ _ hr]
    exact h

/-! ### Modifiers -/

/-- Only modifiers changed. -/
structure Shifted (k k' : Kbd) : Prop where
  sync : hostAfter (fun _ => false) k'.outputs = k'.keystate
  out : hostEvents (fun _ => false) k'.outputs = hostEvents (fun _ => false) k.outputs
  ran : ranCommands k'.outputs = ranCommands k.outputs

theorem Shifted.refl {k : Kbd} (h : hostAfter (fun _ => false) k.outputs = k.keystate) : Shifted k k := ⟨h, rfl, rfl⟩

theorem Shifted.trans {a b c : Kbd} (h : Shifted a b) (h' : Shifted b c) : Shifted a c := ⟨h'.sync, h'.out.trans h.out, h'.ran.trans h.ran⟩

theorem Shifted.send {k : Kbd} (h : hostAfter (fun _ => false) k.outputs = k.keystate) {x : Code} (hx : isModifierKey x = true) (p : Bool) :
    Shifted k (sendKey k x p) := by
  obtain ⟨s1, s2, s3⟩ := sendKey_host k x p h
  exact ⟨s1, by rw [s3, if_pos (.inr (.inr (.inr hx))), List.append_nil], s2⟩

theorem Shifted.clearMod {k : Kbd} (h : hostAfter (fun _ => false) k.outputs = k.keystate) {x : Code} (hx : isModifierKey x = true) :
    Shifted k (Keyd.clearMod k x) := by
  unfold Keyd.clearMod
  split
  · have a1 := Shifted.send h (x := KEYD.LEFTCTRL) (by decide) true
    have a2 := Shifted.send a1.sync hx false
    have a3 := Shifted.send a2.sync (x := KEYD.LEFTCTRL) (by decide) false
    exact (a1.trans a2).trans a3
  · exact .send h hx false

theorem Shifted.setMod {k : Kbd} (h : hostAfter (fun _ => false) k.outputs = k.keystate) (mods : UInt8) {m : UInt8 × Code} (hx : isModifierKey m.2 = true) :
    Shifted k (Keyd.setMod mods k m) := by
  unfold Keyd.setMod
  repeat' split
  · exact .refl h
  · exact .send h hx true
  · exact .clearMod h hx
  · exact .refl h

theorem Shifted.setMods {k : Kbd} (h : hostAfter (fun _ => false) k.outputs = k.keystate) (mods : UInt8) : Shifted k (Keyd.setMods k mods) := by
  unfold Keyd.setMods
  have hm : ∀ m ∈ modifiers, isModifierKey m.2 = true := by decide
  revert hm
  generalize modifiers = l
  intro hm
  induction l generalizing k with
  | nil => exact .refl h
  | cons m l ih =>
    have a := Shifted.setMod h mods (hm m (List.mem_cons_self ..))
    exact a.trans (ih a.sync (fun x hx => hm x (List.mem_cons_of_mem _ hx)))

theorem inMods_mask : ∀ p ∈ modifierKeys, ∀ m : UInt8, inMods m p.2 = decide (m &&& p.1 ≠ 0) := by
  intro p hp m
  have : p = (0x1, 56) ∨ p = (0x10, 100) ∨ p = (0x4, 42) ∨ p = (0x2, 125) ∨ p = (0x8, 29) := by
    revert p; decide
  rcases this with rfl | rfl | rfl | rfl | rfl <;> simp [inMods, MOD_CTRL, MOD_SHIFT, MOD_ALT, MOD_ALT_GR, MOD_SUPER]

theorem leftOut_excluded (c : Config) (ex : Option Nat) {i : Nat} (hi : i < c.layers.length) : c.leftOut ex i = true ↔ Excluded c ex i := by
  unfold Config.leftOut Excluded
  cases ex with
  | none => simp
  | some e =>
    simp only [Bool.or_eq_true, Bool.and_eq_true, decide_eq_true_eq, Option.some.injEq]
    constructor
    · intro h
      by_cases he : e < c.layers.length
      · have hl : c.layers[e]? = some c.layers[e] := List.getElem?_eq_getElem he
        refine ⟨e, c.layers[e], rfl, hl, ?_⟩
        rw [config_layer_some hl] at h
        exact h
      · exfalso
        have hd : c.layer e = {} := by
          unfold Config.layer
          rw [List.getD_eq_getElem?_getD, List.getElem?_eq_none (by omega)]
          rfl
        rcases h with h | ⟨h, _⟩
        · omega
        · rw [hd] at h; cases h
    · rintro ⟨e', l, rfl, h2, h3⟩
      rw [config_layer_some h2]
      exact h3

theorem modKeys_mask : ∀ y ∈ modKeys, ∃ mask, (mask, y) ∈ modifierKeys := by
  intro y hy
  have : y = 29 ∨ y = 42 ∨ y = 56 ∨ y = 100 ∨ y = 125 := by
    unfold modKeys at hy
    simpa using hy
  rcases this with rfl | rfl | rfl | rfl | rfl
  · exact ⟨0x8, by decide⟩
  · exact ⟨0x4, by decide⟩
  · exact ⟨0x1, by decide⟩
  · exact ⟨0x10, by decide⟩
  · exact ⟨0x2, by decide⟩

theorem wanted_mods {c : Config} {k : Kbd} (hk : k.config = c) (ex : Option Nat) (m : UInt8):
    modKeys.filter (updateMods k ex m).keystate = k.book.wanted c ex m := by
  unfold LayerBook.wanted
  apply List.filter_congr
  intro y hy
  obtain ⟨mask, hm⟩ := modKeys_mask y hy
  have h1 := C09_modifiers_exact k ex m mask y hm
  rw [Bool.eq_iff_iff, h1]
  unfold Requested
  rw [Bool.or_eq_true, inMods_mask _ hm, decide_eq_true_eq, List.any_eq_true]
  apply or_congr Iff.rfl
  constructor
  · rintro ⟨i, l, g1, g2, g3, g4⟩
    rw [hk] at g1 g3
    have hi : i < c.layers.length := (List.getElem?_eq_some_iff.1 g1).1
    refine ⟨i, List.mem_range.2 hi, ?_⟩
    rw [Bool.and_eq_true, Bool.and_eq_true, inMods_mask _ hm, decide_eq_true_eq]
    refine ⟨⟨decide_eq_true g2, ?_⟩, by rw [config_layer_some g1]; exact g4⟩
    rw [Bool.not_eq_true', ← Bool.not_eq_true, leftOut_excluded c ex hi]
    exact g3
  · rintro ⟨i, hi, h⟩
    rw [Bool.and_eq_true, Bool.and_eq_true, inMods_mask _ hm, decide_eq_true_eq] at h
    obtain ⟨⟨g2, g3⟩, g4⟩ := h
    have hi := List.mem_range.1 hi
    have hl : c.layers[i]? = some c.layers[i] := List.getElem?_eq_getElem hi
    refine ⟨i, c.layers[i], by rw [hk]; exact hl, of_decide_eq_true g2, ?_, by rw [← config_layer_some hl]; exact g4⟩
    rw [Bool.not_eq_true', ← Bool.not_eq_true, leftOut_excluded c ex hi] at g3
    rw [hk]
    exact g3

theorem Sent.update {c : Config} {b : Board} {k : Kbd} (h : Sent b k) (hk : k.config = c) (hb : k.book = b.book) (ex : Option Nat) (m : UInt8) :
    Sent (b.modify c ex m) (updateMods k ex m) := by
  have s : Shifted k (updateMods k ex m) := .setMods h.sync _
  refine ⟨s.sync, s.out.trans h.out, s.ran.trans h.ran, fun x hx => ?_, ?_, fun x hx => ?_⟩
  · rw [C09_other_keys_unchanged _ _ _ _ (not_modifier hx)]; exact h.down x hx
  · rw [wanted_mods hk ex m, hb]; rfl
  · rw [C09_other_keys_unchanged _ _ _ _ (not_modifier (unreal_plain hx))]; exact h.unreal x hx

/-! ### Letting go -/

/-- What `reset_keystate` does for one key. -/
def dropKey (k : Kbd) (c : Code) : Kbd :=
  if k.keystate c then { k.emit (.key c false) with keystate := upd k.keystate c false } else k

theorem dropKey_send {k : Kbd} {x : Code} (h : ¬ RealKey x → k.keystate x = false) : dropKey k x = sendKey k x false := by
  by_cases hr : RealKey x
  · have : sendKey k x false = if k.keystate x ≠ false then { k.emit (.key x false) with keystate := upd k.keystate x false } else k := by
      unfold sendKey; rw [if_neg (by rintro (h | h); exacts [hr.1 h, hr.2 h])]; rfl
    rw [this]
    unfold dropKey
    cases k.keystate x <;> rfl
  · rw [sendKey_unreal _ _ _ hr]
    unfold dropKey
    rw [h hr]; rfl

theorem Sent.letGo {b : Board} {k : Kbd} (h : Sent b k) : Sent b.letGo (resetKeystate k) := by
  show Sent (allCodes.foldl (fun b x => b.send x false) b) (allCodes.foldl dropKey k)
  generalize allCodes = l
  induction l generalizing b k with
  | nil => exact h
  | cons x l ih =>
    have h' := h.send x false
    rw [← dropKey_send (h.unreal x)] at h'
    exact ih h'

/-! ### The state besides the host -/

/-- What no action of the machine changes. -/
structure Hush (k k' : Kbd) : Prop where
  pending : k'.pending = k.pending
  chord : k'.chord = k.chord
  activeChords : k'.activeChords = k.activeChords
  scroll : k'.scroll = k.scroll
  last : k'.lastPressedCode = k.lastPressedCode
  since : k'.overloadStartTime = k.overloadStartTime

theorem Hush.refl (k : Kbd) : Hush k k := ⟨rfl, rfl, rfl, rfl, rfl, rfl⟩

theorem Hush.trans {a b c : Kbd} (h : Hush a b) (h' : Hush b c) : Hush a c :=
  ⟨h'.pending.trans h.pending, h'.chord.trans h.chord, h'.activeChords.trans h.activeChords,
   h'.scroll.trans h.scroll, h'.last.trans h.last, h'.since.trans h.since⟩

theorem Hush.of_frame {k k' : Kbd} (h : KeyFrame k k') : Hush k k' := by
  obtain ⟨ks, lp, os, rfl, _⟩ := h
  exact ⟨rfl, rfl, rfl, rfl, rfl, rfl⟩

/-- The engine is where the machine is, as far as layers and host go. -/
structure At (c : Config) (b : Board) (k : Kbd) : Prop where
  config : k.config = c
  book : k.book = b.book
  sent : Sent b k
  timer : k.oneshotTimeout = b.deadline
  idle : k.activeMacro = none
  grip : Grip k.cache b.held
  nodup : (codesIn b.held).Nodup
  typed : k.lastSimpleKeyTime = b.typed

theorem At.board {c : Config} {b b' : Board} {k : Kbd} (h : At c b k) (h0 : b'.book = b.book) (e1 : b'.out = b.out) (e2 : b'.ran = b.ran) (e3 : b'.down = b.down)
    (e4 : b'.mods = b.mods) (e5 : b'.held = b.held) (e6 : b'.deadline = b.deadline) (e7 : b'.typed = b.typed) : At c b' k :=
  ⟨h.config, h.book.trans h0.symm, h.sent.same rfl ⟨[], rfl, by simp⟩ e1 e2 e3 e4, h.timer.trans e6.symm, h.idle, by rw [e5]; exact h.grip,
   by rw [e5]; exact h.nodup, h.typed.trans e7.symm⟩

theorem At.kbd {c : Config} {b : Board} {k k' : Kbd} (h : At c b k) (h1 : k'.config = k.config) (h2 : k'.book = k.book) (h3 : k'.keystate = k.keystate)
    (h4 : k'.trace = k.trace) (h5 : k'.oneshotTimeout = k.oneshotTimeout) (h6 : k'.activeMacro = k.activeMacro) (h7 : k'.cache = k.cache)
    (h8 : k'.lastSimpleKeyTime = k.lastSimpleKeyTime) : At c b k' :=
  ⟨h1.trans h.config, h2.trans h.book, h.sent.same h3 ⟨[], h4, by simp⟩ rfl rfl rfl rfl, h5.trans h.timer, h6.trans h.idle,
   by rw [h7]; exact h.grip, h.nodup, h8.trans h.typed⟩

theorem frame_timer {k k' : Kbd} (h : KeyFrame k k') : k'.oneshotTimeout = k.oneshotTimeout ∧ k'.activeMacro = k.activeMacro ∧
    k'.lastSimpleKeyTime = k.lastSimpleKeyTime := by
  obtain ⟨ks, lp, os, rfl, _⟩ := h
  exact ⟨rfl, rfl, rfl⟩

theorem frame_cache {k k' : Kbd} (h : KeyFrame k k') : k'.cache = k.cache := by
  obtain ⟨ks, lp, os, rfl, _⟩ := h
  rfl

/-- What sending a key does not touch. -/
theorem send_rest (b : Board) (x : Code) (p : Bool) :
    (b.send x p).book = b.book ∧ (b.send x p).held = b.held ∧ (b.send x p).last = b.last ∧ (b.send x p).deadline = b.deadline ∧ (b.send x p).typed = b.typed := by
  unfold Board.send; repeat' split
  all_goals exact ⟨rfl, rfl, rfl, rfl, rfl⟩

theorem send_book (b : Board) (x : Code) (p : Bool) : (b.send x p).book = b.book := (send_rest b x p).1

theorem sent_held (b : Board) (x : Code) (p : Bool) : (b.send x p).held = b.held := (send_rest b x p).2.1

theorem At.send {c : Config} {b : Board} {k : Kbd} (h : At c b k) (x : Code) (p : Bool) :
    At c (b.send x p) (sendKey k x p) :=
  have f := KeyFrame.send k x p
  have r := send_rest b x p
  ⟨f.config.trans h.config, (Unbooked.of_frame f).book.trans (h.book.trans (send_book b x p).symm), h.sent.send x p,
   (frame_timer f).1.trans (h.timer.trans r.2.2.2.1.symm), (frame_timer f).2.1.trans h.idle, by rw [frame_cache f, sent_held]; exact h.grip, by rw [sent_held]; exact h.nodup,
   (frame_timer f).2.2.trans (h.typed.trans r.2.2.2.2.symm)⟩

theorem At.mods {c : Config} {b : Board} {k : Kbd} (h : At c b k) (ex : Option Nat) (m : UInt8) :
    At c (b.modify c ex m) (updateMods k ex m) :=
  have f := KeyFrame.updateMods k ex m
  ⟨f.config.trans h.config, (Unbooked.of_frame f).book.trans h.book, h.sent.update h.config h.book ex m,
   (frame_timer f).1.trans h.timer, (frame_timer f).2.1.trans h.idle, by rw [frame_cache f]; exact h.grip, h.nodup, (frame_timer f).2.2.trans h.typed⟩

theorem activateLayer_cache {k k' : Kbd} {code : Code} {i : Nat} (h : activateLayer k code i = .ok k') :
    k'.cache = modifyFirst (fun e => decide (e.code = code)) (fun e => { e with layer := i }) k.cache := by
  unfold activateLayer at h
  dsimp only at h
  split at h
  · cases h
  · rw [← Except.ok.inj h]; rfl

theorem At.activate {c : Config} {b : Board} {k k' : Kbd} (h : At c b k) {x : Code} (hx : x ≠ 0) {l : Nat} (e : activateLayer k x l = .ok k') :
    At c { b.hold x l with book := b.book.enter l } k' ∧ Hush k k' := by
  have hb := Sat.of_ok (rebook_activate k x l) e
  have hc := activateLayer_cache e
  obtain ⟨cache', rfl⟩ := activateLayer_ok e
  refine ⟨⟨h.config, by rw [hb.book, h.book], ?_, h.timer, h.idle, ?_, ?_, h.typed⟩, rfl, rfl, rfl, rfl, rfl, rfl⟩
  · exact h.sent.same rfl ⟨[.layer l true], rfl, by simp [Out.mute]⟩ rfl rfl rfl rfl
  · rw [hc]; exact h.grip.hold hx l
  · show (codesIn (holdIn x l b.held)).Nodup
    rw [codesIn_hold]; exact h.nodup

/-- A layer activated by no key. -/
theorem At.turnOn {c : Config} {b : Board} {k k' : Kbd} (h : At c b k) {l : Nat} (e : activateLayer k 0 l = .ok k') :
    At c { b with book := b.book.enter l } k' ∧ Hush k k' := by
  have hb := Sat.of_ok (rebook_activate k 0 l) e
  have hc := activateLayer_cache e
  obtain ⟨cache', rfl⟩ := activateLayer_ok e
  refine ⟨⟨h.config, by rw [hb.book, h.book], ?_, h.timer, h.idle, ?_, h.nodup, h.typed⟩, rfl, rfl, rfl, rfl, rfl, rfl⟩
  · exact h.sent.same rfl ⟨[.layer l true], rfl, by simp [Out.mute]⟩ rfl rfl rfl rfl
  · rw [hc]; exact h.grip.blank l

theorem At.deactivate {c : Config} {b : Board} {k k' : Kbd} (h : At c b k) {l : Nat} (e : deactivateLayer k l = .ok k') :
    At c { b with book := b.book.leave l } k' ∧ Hush k k' := by
  have hb := Sat.of_ok (rebook_deactivate k l) e
  obtain ⟨_, rfl⟩ := deactivateLayer_ok.1 e
  refine ⟨⟨h.config, by rw [hb.book, h.book], ?_, h.timer, h.idle, h.grip, h.nodup, h.typed⟩, rfl, rfl, rfl, rfl, rfl, rfl⟩
  exact h.sent.same rfl ⟨[.layer l false], rfl, by simp [Out.mute]⟩ rfl rfl rfl rfl

theorem off_mute {o : Out} (h : o.isLayerOff = true) : o.mute = true := by
  cases o with
  | layer i b => rfl
  | _ => cases h

theorem At.spend {c : Config} {b : Board} {k k' : Kbd} (h : At c b k) (e : clearOneshot k = .ok k') :
    At c (b.spend c) k' ∧ Hush k k' := by
  have hb := Sat.of_ok (rebook_clearOneshot k) e
  obtain ⟨ls, os, rfl, ho, _, _⟩ := clearOneshot_spec e
  refine ⟨⟨h.config, by rw [hb.book, h.book, h.config]; rfl, ?_, rfl, h.idle, h.grip, h.nodup, h.typed⟩, rfl, rfl, rfl, rfl, rfl, rfl⟩
  exact h.sent.same rfl ⟨os, rfl, fun o h => off_mute (ho o h)⟩ rfl rfl rfl rfl

/-- What letting go does not touch. -/
theorem letGo_rest (b : Board) :
    b.letGo.book = b.book ∧ b.letGo.held = b.held ∧ b.letGo.last = b.last ∧ b.letGo.deadline = b.deadline ∧ b.letGo.typed = b.typed := by
  unfold Board.letGo
  generalize allCodes = l
  induction l generalizing b with
  | nil => exact ⟨rfl, rfl, rfl, rfl, rfl⟩
  | cons x l ih =>
    obtain ⟨i1, i2, i3, i4, i5⟩ := ih (b.send x false)
    obtain ⟨j1, j2, j3, j4, j5⟩ := send_rest b x false
    exact ⟨i1.trans j1, i2.trans j2, i3.trans j3, i4.trans j4, i5.trans j5⟩

attribute [local irreducible] Board.letGo

theorem letGo_book (b : Board) : b.letGo.book = b.book := (letGo_rest b).1

theorem letGo_held (b : Board) : b.letGo.held = b.held := (letGo_rest b).2.1

theorem clear_held (c : Config) (b : Board) : (b.clear c).held = b.held := letGo_held _

theorem clear_book (c : Config) (b : Board) : (b.clear c).book = happen c b.book (.act .clear true) := letGo_book _

theorem At.clear {c : Config} {b : Board} {k k' : Kbd} (h : At c b k) (e : Keyd.clear k = .ok k') :
    At c (b.clear c) k' ∧ Hush k k' := by
  have hb := Sat.of_ok (rebook_clear k) e
  unfold Keyd.clear at e
  obtain ⟨k1, e1, e⟩ := bind_eq_ok.1 e
  obtain ⟨k2, e2, e⟩ := bind_eq_ok.1 e
  have e := Except.ok.inj e
  obtain ⟨h1, f1⟩ := h.spend e1
  have hn : (nonMainLayers k1).Nodup := by
    unfold nonMainLayers
    exact (List.drop_sublist _ _).nodup List.nodup_range
  obtain ⟨ls, os, rfl, ho, _, _⟩ := clearToggled_spec _ hn _ _ e2
  obtain ⟨k3, hk3⟩ : ∃ k3, k3 = ({ { k1 with layerState := ls, trace := os ++ k1.trace } with activeMacro := none } : Kbd) := ⟨_, rfl⟩
  rw [← hk3] at e
  have s3 : Sent ({ b with book := happen c b.book (.act .clear true) } : Board) k3 := by
    rw [hk3]
    exact h1.sent.same rfl ⟨os, rfl, fun o h => off_mute (ho o h)⟩ rfl rfl rfl rfl
  have f3 : Hush k1 k3 := by rw [hk3]; exact ⟨rfl, rfl, rfl, rfl, rfl, rfl⟩
  have f4 : KeyFrame k3 k' := by rw [← e]; exact .resetKeystate k3
  refine ⟨⟨?_, ?_, ?_, ?_, ?_, ?_, ?_, ?_⟩, (f1.trans f3).trans (.of_frame f4)⟩
  · rw [f4.config, hk3]; exact h1.config
  · rw [hb.book, clear_book, h.book, h.config]; rfl
  · have hs := s3.letGo
    rw [e] at hs
    exact hs.same rfl ⟨[], rfl, by simp⟩ rfl rfl rfl rfl
  · rw [(frame_timer f4).1, hk3]; exact h1.timer
  · rw [(frame_timer f4).2.1, hk3]
  · rw [frame_cache f4, clear_held, hk3]; exact h1.grip
  · rw [clear_held]; exact h.nodup
  · rw [(frame_timer f4).2.2, hk3]
    exact h1.typed.trans (letGo_rest { b with book := happen c b.book (.act .clear true) }).2.2.2.2.symm

theorem Hush.layoutStep (k : Kbd) (l : Nat) : Hush k (layoutStep k l) ∧ (layoutStep k l).keystate = k.keystate ∧
    (layoutStep k l).trace = [.layer l true] ++ k.trace ∧ (layoutStep k l).oneshotTimeout = k.oneshotTimeout ∧ (layoutStep k l).activeMacro = k.activeMacro ∧
    (layoutStep k l).cache = k.cache ∧ (layoutStep k l).lastSimpleKeyTime = k.lastSimpleKeyTime := by
  obtain ⟨ls, g1, g2⟩ := layoutFold_spec (nonMainLayers k) k
  unfold Keyd.layoutStep
  rw [g1]
  dsimp only
  split
  · exact ⟨⟨rfl, rfl, rfl, rfl, rfl, rfl⟩, rfl, rfl, rfl, rfl, rfl, rfl⟩
  · exact ⟨⟨rfl, rfl, rfl, rfl, rfl, rfl⟩, rfl, rfl, rfl, rfl, rfl, rfl⟩

theorem At.setlayout {c : Config} {b : Board} {k k' : Kbd} {l : Nat} (h : At c b k) (e : Keyd.setlayout k l = .ok k') :
    At c { b.clear c with book := happen c b.book (.act (.layout l) true) } k' ∧ Hush k k' := by
  have hb := Sat.of_ok (rebook_setlayout k l) e
  unfold Keyd.setlayout at e
  obtain ⟨k1, e1, e⟩ := bind_eq_ok.1 e
  have e := Except.ok.inj e
  change layoutStep k1 l = k' at e
  obtain ⟨h1, f1⟩ := h.clear e1
  obtain ⟨f2, g1, g2, g3, g4, g5, g6⟩ := Hush.layoutStep k1 l
  rw [e] at f2 g1 g2 g3 g4 g5 g6
  refine ⟨⟨hb.config.trans h.config, ?_, ?_, g3.trans h1.timer, g4.trans h1.idle, ?_, h1.nodup, g6.trans h1.typed⟩, f1.trans f2⟩
  · rw [hb.book, h.book, h.config]; rfl
  · exact h1.sent.same g1 ⟨_, g2, by simp [Out.mute]⟩ rfl rfl rfl rfl
  · rw [g5]; exact h1.grip

end Keyd
