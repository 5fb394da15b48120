import Verif.Proofs.Board

/-
  The engine follows the machine of `Verif.Spec.Board`: the actions.
-/

set_option autoImplicit false

namespace Keyd

attribute [local irreducible] Board.letGo

/-- The time of the key is noted. -/
theorem At.note {c : Config} {b : Board} {k : Kbd} (h : At c b k) (m : UInt8) (t : Int) :
    At c (b.note m t) (if m = 0 ∨ m = MOD_SHIFT then { k with lastSimpleKeyTime := t } else k) ∧
      Hush k (if m = 0 ∨ m = MOD_SHIFT then { k with lastSimpleKeyTime := t } else k) := by
  unfold Board.note
  split
  · exact ⟨⟨h.config, h.book, h.sent.same rfl ⟨[], rfl, by simp⟩ rfl rfl rfl rfl, h.timer, h.idle, h.grip, h.nodup, rfl⟩, rfl, rfl, rfl, rfl, rfl, rfl⟩
  · exact ⟨h, .refl k⟩

theorem sendKey_idle {k : Kbd} {x : Code} (h : k.keystate x = false) : sendKey k x false = k := by
  by_cases hr : RealKey x
  · have : sendKey k x false = if k.keystate x ≠ false then { k.emit (.key x false) with keystate := upd k.keystate x false } else k := by
      unfold sendKey; rw [if_neg (by rintro (h | h); exacts [hr.1 h, hr.2 h])]; rfl
    rw [this, if_neg (fun e => e h)]
  · exact sendKey_unreal _ _ _ hr

theorem At.strike {c : Config} {b : Board} {k k' : Kbd} (h : At c b k) {x : Code} {m : UInt8} {dl : Nat} {t : Int}
    (e : pdKeyseq k x m dl true t = .ok k') : At c (b.strike c x m dl t) k' ∧ Hush k k' := by
  unfold pdKeyseq at e
  obtain ⟨k3, e3, e⟩ := bind_eq_ok.1 e
  rw [if_pos rfl] at e3
  dsimp only at e3
  have e := Except.ok.inj e
  have hk0 : (if k.keystate x = true then sendKey k x false else k) = sendKey k x false := by
    split
    · rfl
    · rename_i hf
      exact (sendKey_idle (by simpa using hf)).symm
  rw [hk0] at e3
  have f := ((KeyFrame.send k x false).trans (KeyFrame.updateMods _ (some dl) m)).trans (KeyFrame.send (updateMods (sendKey k x false) (some dl) m) x true)
  obtain ⟨h3, f3⟩ := (((h.send x false).mods (some dl) m).send x true).spend e3
  obtain ⟨h4, f4⟩ := h3.note m t
  rw [e] at h4 f4
  exact ⟨h4, ((Hush.of_frame f).trans f3).trans f4⟩

theorem At.lift {c : Config} {b : Board} {k k' : Kbd} (h : At c b k) {x : Code} {m : UInt8} {dl : Nat} {t : Int}
    (e : pdKeyseq k x m dl false t = .ok k') : At c ((b.lift c x).note m t) k' ∧ Hush k k' := by
  unfold pdKeyseq at e
  obtain ⟨k3, e3, e⟩ := bind_eq_ok.1 e
  rw [if_neg (by decide)] at e3
  have e3 := Except.ok.inj e3
  have e := Except.ok.inj e
  have f := (KeyFrame.send k x false).trans (KeyFrame.updateMods (sendKey k x false) none 0)
  rw [e3] at f
  have h3 : At c (b.lift c x) k3 := by rw [← e3]; exact (h.send x false).mods none 0
  obtain ⟨h4, f4⟩ := h3.note m t
  rw [e] at h4 f4
  exact ⟨h4, (Hush.of_frame f).trans f4⟩

/-- The tail of `OP_LAYER`. -/
theorem At.guarded {c : Config} {b : Board} {k k' : Kbd} (h : At c b k) (code : Code)
    (e : (if k.lastPressedCode = code then
        let k := updateMods { k with inhibitModifierGuard := true } none 0
        Except.ok { k with inhibitModifierGuard := false }
      else .ok (updateMods k none 0) : Res Kbd) = .ok k') : At c (b.modify c none 0) k' ∧ Hush k k' := by
  split at e
  · have e := Except.ok.inj e
    have f := KeyFrame.updateMods { k with inhibitModifierGuard := true } none 0
    have h1 : At c b { k with inhibitModifierGuard := true } := h.kbd rfl rfl rfl rfl rfl rfl rfl rfl
    have h2 := h1.mods none 0
    generalize updateMods { k with inhibitModifierGuard := true } none 0 = k2 at e f h2
    rw [← e]
    refine ⟨h2.kbd rfl rfl rfl rfl rfl rfl rfl rfl, ?_⟩
    have f1 : Hush k { k with inhibitModifierGuard := true } := ⟨rfl, rfl, rfl, rfl, rfl, rfl⟩
    exact (f1.trans (.of_frame f)).trans ⟨rfl, rfl, rfl, rfl, rfl, rfl⟩
  · have e := Except.ok.inj e
    rw [← e]
    exact ⟨h.mods none 0, .of_frame (.updateMods k none 0)⟩

theorem At.layerPress {c : Config} {b : Board} {k k' : Kbd} (h : At c b k) {code : Code} (h0 : code ≠ 0) {l : Nat} (e : pdLayer k code l true = .ok k') :
    At c (((b.hold code l).layers c (.layer l) true).modify c none 0) k' ∧ Hush k k' := by
  unfold pdLayer at e
  obtain ⟨k1, e1, e2⟩ := bind_eq_ok.1 e
  clear e
  obtain ⟨h1, f1⟩ := h.activate h0 (show activateLayer k code l = .ok k1 from e1)
  obtain ⟨h2, f2⟩ := At.guarded (b := (b.hold code l).layers c (.layer l) true) h1 code e2
  exact ⟨h2, f1.trans f2⟩

theorem At.layerRelease {c : Config} {b : Board} {k k' : Kbd} (h : At c b k) {code : Code} {l : Nat} (e : pdLayer k code l false = .ok k') :
    At c ((b.layers c (.layer l) false).modify c none 0) k' ∧ Hush k k' := by
  unfold pdLayer at e
  obtain ⟨k1, e1, e2⟩ := bind_eq_ok.1 e
  clear e
  obtain ⟨h1, f1⟩ := h.deactivate (show deactivateLayer k l = .ok k1 from e1)
  obtain ⟨h2, f2⟩ := At.guarded (b := b.layers c (.layer l) false) h1 code e2
  exact ⟨h2, f1.trans f2⟩

/-- The macro of a single key. -/
theorem At.tap {c : Config} {b : Board} {k : Kbd} (h : At c b k) {m : Nat} (hm : c.taps m) (dl : Nat) :
    At c (b.tap c m dl) (executeMacro k dl (k.config.mac m)) ∧ Hush k (executeMacro k dl (k.config.mac m)) := by
  refine ⟨?_, .of_frame (.executeMacro k dl _)⟩
  obtain ⟨en, e1, e2⟩ := hm
  rw [h.config, e1]
  unfold Board.tap executeMacro
  rw [e1]
  dsimp only
  rw [if_pos e2]
  exact ((h.mods (some dl) en.mods).send _ true).send _ false

theorem At.oneshotPress {c : Config} {b : Board} {k k' : Kbd} (h : At c b k) {code : Code} (h0 : code ≠ 0) {l dl : Nat} {t : Int}
    (e : pdOneshot k code l dl true t = .ok k') : At c (((b.hold code l).layers c (.oneshot l) true).modify c (some dl) 0) k' ∧ Hush k k' := by
  unfold pdOneshot at e
  rw [if_pos rfl] at e
  obtain ⟨k1, e1, e⟩ := bind_eq_ok.1 e
  obtain ⟨h1, f1⟩ := h.activate h0 e1
  have h2 := h1.mods (some dl) 0
  have f := KeyFrame.updateMods k1 (some dl) 0
  have e := Except.ok.inj e
  generalize updateMods k1 (some dl) 0 = k2 at e f h2
  rw [← e]
  refine ⟨⟨h2.config, ?_, ?_, h2.timer, h2.idle, h2.grip, h2.nodup, h2.typed⟩, (f1.trans (.of_frame f)).trans ⟨rfl, rfl, rfl, rfl, rfl, rfl⟩⟩
  · have hb := h2.book
    unfold Kbd.book at hb ⊢
    dsimp only
    have a1 := congrArg LayerBook.state hb
    have a2 := congrArg LayerBook.clock hb
    dsimp only at a1 a2
    rw [a1, a2]
    rfl
  · exact h2.sent.same rfl ⟨[], rfl, by simp⟩ rfl rfl rfl rfl

theorem At.oneshotRelease {c : Config} {b : Board} {k k' : Kbd} (h : At c b k) {code : Code} {l dl : Nat} {t : Int}
    (e : pdOneshot k code l dl false t = .ok k') : At c (b.untap c l t) k' ∧ Hush k k' := by
  unfold pdOneshot at e
  rw [if_neg (by decide)] at e
  have hl : k.oneshotLatch = b.book.latch := by rw [← h.book]; rfl
  unfold Board.untap
  dsimp only
  by_cases hk : k.oneshotLatch = true
  · rw [if_pos hk] at e
    rw [← hl, if_pos hk]
    dsimp only at e
    split at e
    · cases e
    · obtain ⟨k1, hk1⟩ : ∃ k1, k1 = k.modLayer l fun s => { s with oneshotDepth := s.oneshotDepth + 1 } := ⟨_, rfl⟩
      rw [← hk1] at e
      have h1 : At c (b.layers c (.oneshot l) false) k1 := by
        rw [hk1]
        refine ⟨h.config, ?_, h.sent.same rfl ⟨[], rfl, by simp⟩ rfl rfl rfl rfl, h.timer, h.idle, h.grip, h.nodup, h.typed⟩
        show _ = happen c b.book (.act (.oneshot l) false)
        rw [happen_untap, ← hl, if_pos hk, ← h.book]
        rfl
      have f1 : Hush k k1 := by rw [hk1]; exact ⟨rfl, rfl, rfl, rfl, rfl, rfl⟩
      have hcc := h1.config
      by_cases hz : c.oneshotTimeout ≠ 0
      · rw [if_pos (by rw [hcc]; exact hz)] at e
        rw [if_pos hz]
        unfold scheduleTimeout at e
        split at e
        · have e := Except.ok.inj e
          rw [← e]
          exact ⟨⟨h1.config, h1.book, h1.sent.same rfl ⟨[], rfl, by simp⟩ rfl rfl rfl rfl, by rw [← hcc], h1.idle, h1.grip, h1.nodup, h1.typed⟩,
            f1.trans ⟨rfl, rfl, rfl, rfl, rfl, rfl⟩⟩
        · cases e
      · rw [if_neg (by rw [hcc]; exact hz)] at e
        rw [if_neg hz, ← Except.ok.inj e]
        exact ⟨h1, f1⟩
  · rw [if_neg hk] at e
    rw [← hl, if_neg hk]
    obtain ⟨k1, e1, e⟩ := bind_eq_ok.1 e
    obtain ⟨h1, f1⟩ := h.deactivate e1
    have e := Except.ok.inj e
    have hb : ({ b with book := b.book.leave l } : Board) = b.layers c (.oneshot l) false := by
      unfold Board.layers
      rw [happen_untap, ← hl, if_neg hk]
    rw [hb] at h1
    rw [← e]
    exact ⟨h1.mods none 0, f1.trans (.of_frame (.updateMods k1 none 0))⟩

/-- A flag of a layer changes. -/
theorem At.mod {c : Config} {b : Board} {k : Kbd} (h : At c b k) {l : Nat} {f : LayerSt → LayerSt} {g : LayerBook → LayerBook}
    (e : (k.modLayer l f).book = g k.book) : At c { b with book := g b.book } (k.modLayer l f) ∧ Hush k (k.modLayer l f) :=
  ⟨⟨h.config, by rw [e, h.book], h.sent.same rfl ⟨[], rfl, by simp⟩ rfl rfl rfl rfl, h.timer, h.idle, h.grip, h.nodup, h.typed⟩, rfl, rfl, rfl, rfl, rfl, rfl⟩

theorem At.toggle {c : Config} {b : Board} {k k' : Kbd} (h : At c b k) {code : Code} (h0 : code ≠ 0) {l : Nat}
    (e : pdToggle k code l = .ok k') : At c (b.switch c code l) k' ∧ Hush k k' := by
  unfold pdToggle at e
  dsimp only at e
  obtain ⟨k1, e1, e⟩ := bind_eq_ok.1 e
  obtain ⟨hm, fm⟩ := h.mod (l := l) (f := fun s => { s with toggled := !s.toggled }) (g := fun b => b.flip l) rfl
  have ht : ((k.modLayer l fun s => { s with toggled := !s.toggled }).layerState l).toggled = !(k.layerState l).toggled := by
    unfold Kbd.modLayer
    dsimp only
    rw [upd_same]
  have hk : (k.layerState l).toggled = (b.book.state l).toggled := by rw [← h.book]; rfl
  have h1 : At c (if (b.book.state l).toggled then { b with book := (b.book.flip l).leave l }
    else { b.hold code l with book := (b.book.flip l).enter l }) k1 ∧ Hush k k1 := by
    by_cases hb : (b.book.state l).toggled = true
    · rw [if_neg (by rw [ht, hk, hb]; decide)] at e1
      rw [if_pos hb]
      obtain ⟨a, f⟩ := hm.deactivate e1
      exact ⟨a, fm.trans f⟩
    · rw [if_pos (by rw [ht, hk]; simpa using hb)] at e1
      rw [if_neg hb]
      obtain ⟨a, f⟩ := hm.activate h0 e1
      exact ⟨a, fm.trans f⟩
  obtain ⟨h2, f2⟩ := (h1.1.mods none 0).spend e
  exact ⟨h2, (h1.2.trans (.of_frame (.updateMods k1 none 0))).trans f2⟩

theorem At.swap {c : Config} {b : Board} {k k' : Kbd} (h : At c b k) {l dl : Nat} (e : pdSwapLayer k l dl = .ok k') :
    At c (b.swap c dl l) k' ∧ Hush k k' := by
  have h1 : (k.layerState dl).toggled = (b.book.state dl).toggled := by rw [← h.book]; rfl
  have h2 : (k.layerState dl).oneshotDepth = (b.book.state dl).oneshotDepth := by rw [← h.book]; rfl
  unfold pdSwapLayer at e
  unfold Board.swap
  by_cases ht : (b.book.state dl).toggled = true
  · rw [if_pos (by rw [h1]; exact ht)] at e
    rw [if_pos (.inl ht)]
    obtain ⟨k1, e1, e⟩ := bind_eq_ok.1 e
    dsimp only at e
    obtain ⟨k2, e2, e⟩ := bind_eq_ok.1 e
    have e := Except.ok.inj e
    obtain ⟨g1, f1⟩ := h.deactivate e1
    obtain ⟨g2, f2⟩ := g1.mod (l := dl) (f := fun s => { s with toggled := false })
      (g := fun b => { b with state := upd b.state dl { b.state dl with toggled := false } }) rfl
    obtain ⟨g3, f3⟩ := g2.turnOn e2
    obtain ⟨g4, f4⟩ := g3.mod (l := l) (f := fun s => { s with toggled := true }) (g := fun b => b.on l) rfl
    have eb : (b.book.leave dl).flip dl = { (b.book.leave dl) with state := upd (b.book.leave dl).state dl { (b.book.leave dl).state dl with toggled := false } } := by
      unfold LayerBook.flip
      have : ((b.book.leave dl).state dl).toggled = true := by
        unfold LayerBook.leave
        dsimp only
        rw [upd_same]
        exact ht
      rw [this]
      rfl
    rw [happen_swap, if_pos ht, eb, ← e]
    exact ⟨g4.mods none 0, (((f1.trans f2).trans f3).trans f4).trans (.of_frame (.updateMods _ none 0))⟩
  · rw [if_neg (by rw [h1]; exact ht)] at e
    by_cases hz : (b.book.state dl).oneshotDepth ≠ 0
    · rw [if_pos (by rw [h2]; exact hz)] at e
      rw [if_pos (.inr hz)]
      obtain ⟨k1, e1, e⟩ := bind_eq_ok.1 e
      dsimp only at e
      obtain ⟨k2, e2, e⟩ := bind_eq_ok.1 e
      have e := Except.ok.inj e
      obtain ⟨g1, f1⟩ := h.deactivate e1
      obtain ⟨g2, f2⟩ := g1.mod (l := dl) (f := fun s => { s with oneshotDepth := s.oneshotDepth - 1 }) (g := fun b => b.depth dl (· - 1)) rfl
      obtain ⟨g3, f3⟩ := g2.turnOn e2
      obtain ⟨g4, f4⟩ := g3.mod (l := l) (f := fun s => { s with oneshotDepth := s.oneshotDepth + 1 }) (g := fun b => b.depth l (· + 1)) rfl
      rw [happen_swap, if_neg ht, if_pos hz, ← e]
      exact ⟨g4.mods none 0, (((f1.trans f2).trans f3).trans f4).trans (.of_frame (.updateMods _ none 0))⟩
    · rw [if_neg (by rw [h2]; exact hz)] at e
      rw [if_neg (fun hh => hh.elim ht hz)]
      by_cases hd : dl ≠ 0 ∧ (c.layer dl).type = .normal
      · rw [if_pos hd]
        obtain ⟨r1, r2⟩ := Grip.reassign (k := k) h.config (l := l) hd h.grip h.nodup
        cases hr : reassign dl l b.held with
        | none =>
          rw [r1 hr] at e
          rw [← Except.ok.inj e]
          exact ⟨h, .refl k⟩
        | some held =>
          obtain ⟨ce, c1, c2, c3, c4⟩ := r2 held hr
          rw [c1] at e
          dsimp only at e
          obtain ⟨k1, e1, e⟩ := bind_eq_ok.1 e
          obtain ⟨k2, e2, e⟩ := bind_eq_ok.1 e
          have e := Except.ok.inj e
          have a1 := Sat.of_ok (rebook_deactivate _ dl) e1
          have a2 := Sat.of_ok (rebook_activate k1 ce.code l) e2
          have a3 := activateLayer_cache e2
          obtain ⟨_, rfl⟩ := deactivateLayer_ok.1 e1
          obtain ⟨cache', rfl⟩ := activateLayer_ok e2
          rw [← e]
          refine ⟨At.mods (b := { b with held := held, book := happen c b.book (.swap dl l true) }) ?_ none 0, ?_⟩
          · refine ⟨h.config, ?_, h.sent.same rfl ⟨[.layer l true, .layer dl false], rfl, by simp [Out.mute]⟩ rfl rfl rfl rfl, h.timer, h.idle, ?_, ?_, h.typed⟩
            · rw [happen_swap, if_neg ht, if_neg hz, if_pos rfl, a2.book, a1.book]
              show (k.book.leave dl).enter l = _
              rw [h.book]
            · rw [a3]; exact c4
            · show (codesIn held).Nodup
              rw [codesIn_reassign dl l hr]; exact h.nodup
          · refine Hush.trans ?_ (.of_frame (.updateMods _ none 0))
            exact ⟨rfl, rfl, rfl, rfl, rfl, rfl⟩
      · rw [if_neg hd]
        have hn : k.cache.find? (swapHolder k dl) = none := by
          rw [List.find?_eq_none]
          intro x _ hx
          unfold swapHolder at hx
          rw [decide_eq_true_eq, h.config] at hx
          obtain ⟨_, x2, x3, x4⟩ := hx
          rw [x2] at x3 x4
          exact hd ⟨x4, x3⟩
        rw [hn] at e
        rw [← Except.ok.inj e]
        exact ⟨h, .refl k⟩

theorem Sent.command {b : Board} {k : Kbd} (h : Sent b k) (s : Str) : Sent { b with ran := b.ran ++ [s] } (k.emit (.command s)) := by
  have ho : (k.emit (.command s)).outputs = k.outputs ++ [.command s] := List.reverse_cons ..
  refine ⟨?_, ?_, ?_, h.down, h.mods, h.unreal⟩
  · rw [ho, hostAfter_append]; exact h.sync
  · rw [ho, hostEvents_append]; rw [h.out]; exact List.append_nil _
  · have := h.ran
    unfold ranCommands at this ⊢
    rw [ho, List.filterMap_append, this]; rfl

theorem At.command {c : Config} {b : Board} {k k' : Kbd} (h : At c b k) {hit : Hit} {n : Nat} (ha : hit.act = .command n)
    {t : Int} (e : pdCommand k n = .ok k') : At c (b.act c hit t) k' ∧ Hush k k' := by
  unfold Board.act
  rw [ha]
  unfold pdCommand at e
  dsimp only at e
  obtain ⟨k1, e1, e⟩ := bind_eq_ok.1 e
  have e := Except.ok.inj e
  have h0 : At c { b with ran := b.ran ++ [c.commands.getD n []] } (k.emit (.command (k.config.commands.getD n []))) := by
    rw [h.config]
    exact ⟨h.config, h.book, h.sent.command _, h.timer, h.idle, h.grip, h.nodup, h.typed⟩
  have f0 : Hush k (k.emit (.command (k.config.commands.getD n []))) := ⟨rfl, rfl, rfl, rfl, rfl, rfl⟩
  obtain ⟨h1, f1⟩ := h0.spend e1
  rw [← e]
  exact ⟨h1.mods none 0, (f0.trans f1).trans (.of_frame (.updateMods k1 none 0))⟩

theorem At.overloadPress {c : Config} {b : Board} {k k' : Kbd} (h : At c b k) {hit : Hit} (h00 : hit.code ≠ 0) {l a : Nat} {t : Int} (ha : hit.act = .overload l a)
    (e : pdOverloadPress k hit.code l t = .ok k') :
    At c (b.act c hit t) k' ∧ Hush { k with overloadStartTime := t } k' := by
  unfold Board.act
  rw [ha]
  unfold pdOverloadPress at e
  dsimp only at e
  obtain ⟨k1, e1, e⟩ := bind_eq_ok.1 e
  have e := Except.ok.inj e
  have h0 : At c b { k with overloadStartTime := t } := h.kbd rfl rfl rfl rfl rfl rfl rfl rfl
  obtain ⟨h1, f1⟩ := h0.activate h00 e1
  rw [← e]
  exact ⟨h1.mods none 0, f1.trans (.of_frame (.updateMods k1 none 0))⟩

/-- The descriptor is an overload. -/
def Desc.isOverload : Desc → Bool
  | .overload _ _ => true
  | _ => false

/-- The remembered state after a press. -/
def Kbd.noted (k : Kbd) (code : Code) (d : Desc) (t : Int) : Kbd :=
  { k with lastPressedCode := code, overloadStartTime := if d.isOverload then t else k.overloadStartTime }

theorem act_at {c : Config} {b : Board} {k k' : Kbd} (h : At c b k) {hit : Hit} {n : Nat} {t : Int} (h0 : hit.code ≠ 0) (hd : c.acts hit.act)
    (e : processDescriptor (n+1) k hit.code hit.act hit.layer true t = .ok k') : At c (b.act c hit t) k' ∧ Hush (k.noted hit.code hit.act t) k' := by
  obtain ⟨code, d, dl, time, holds⟩ := hit
  dsimp only at h0 hd e ⊢
  unfold processDescriptor at e
  have key : ∀ (k1 k2 : Kbd) (b' : Board), At c b' k1 → Hush { k with overloadStartTime := if d.isOverload then t else k.overloadStartTime } k1 →
      { k1 with lastPressedCode := code } = k2 → At c b' k2 ∧ Hush (k.noted code d t) k2 := by
    intro k1 k2 b' h1 f1 e
    rw [← e]
    exact ⟨h1.kbd rfl rfl rfl rfl rfl rfl rfl rfl, f1.pending, f1.chord, f1.activeChords, f1.scroll, rfl, f1.since⟩
  have plain : d.isOverload = false → ∀ k1 : Kbd, Hush k k1 → Hush { k with overloadStartTime := if d.isOverload then t else k.overloadStartTime } k1 := by
    intro ho k1 f
    rw [ho]
    exact f
  cases d with
  | none =>
    exact key k k' _ (h.board rfl rfl rfl rfl rfl rfl rfl rfl) (plain rfl _ (.refl k)) (Except.ok.inj e)
  | keyseq x m =>
    change (pdKeyseq k x m dl true t >>= fun k => (.ok { k with lastPressedCode := code } : Res Kbd)) = .ok k' at e
    obtain ⟨k1, e1, e⟩ := bind_eq_ok.1 e
    obtain ⟨h1, f1⟩ := h.strike e1
    exact key k1 k' _ h1 (plain rfl _ f1) (Except.ok.inj e)
  | layer l =>
    change (pdLayer k code l true >>= fun k => (.ok { k with lastPressedCode := code } : Res Kbd)) = .ok k' at e
    obtain ⟨k1, e1, e⟩ := bind_eq_ok.1 e
    obtain ⟨h1, f1⟩ := h.layerPress h0 e1
    exact key k1 k' _ h1 (plain rfl _ f1) (Except.ok.inj e)
  | layerm l m =>
    obtain ⟨ht, ft⟩ := h.tap hd dl
    change (pdLayer (executeMacro k dl (k.config.mac m)) code l true >>= fun k => (.ok { k with lastPressedCode := code } : Res Kbd)) = .ok k' at e
    obtain ⟨k1, e1, e⟩ := bind_eq_ok.1 e
    obtain ⟨h1, f1⟩ := ht.layerPress h0 e1
    exact key k1 k' _ h1 (plain rfl _ (ft.trans f1)) (Except.ok.inj e)
  | oneshot l =>
    change (pdOneshot k code l dl true t >>= fun k => (.ok { k with lastPressedCode := code } : Res Kbd)) = .ok k' at e
    obtain ⟨k1, e1, e⟩ := bind_eq_ok.1 e
    obtain ⟨h1, f1⟩ := h.oneshotPress h0 e1
    exact key k1 k' _ h1 (plain rfl _ f1) (Except.ok.inj e)
  | oneshotm l m =>
    obtain ⟨ht, ft⟩ := h.tap hd dl
    change (pdOneshot (executeMacro k dl (k.config.mac m)) code l dl true t >>= fun k => (.ok { k with lastPressedCode := code } : Res Kbd)) = .ok k' at e
    obtain ⟨k1, e1, e⟩ := bind_eq_ok.1 e
    obtain ⟨h1, f1⟩ := ht.oneshotPress h0 e1
    exact key k1 k' _ h1 (plain rfl _ (ft.trans f1)) (Except.ok.inj e)
  | toggle l =>
    change (pdToggle k code l >>= fun k => (.ok { k with lastPressedCode := code } : Res Kbd)) = .ok k' at e
    obtain ⟨k1, e1, e⟩ := bind_eq_ok.1 e
    obtain ⟨h1, f1⟩ := h.toggle h0 e1
    exact key k1 k' _ h1 (plain rfl _ f1) (Except.ok.inj e)
  | togglem l m =>
    obtain ⟨ht, ft⟩ := h.tap hd dl
    change (pdToggle (executeMacro k dl (k.config.mac m)) code l >>= fun k => (.ok { k with lastPressedCode := code } : Res Kbd)) = .ok k' at e
    obtain ⟨k1, e1, e⟩ := bind_eq_ok.1 e
    obtain ⟨h1, f1⟩ := ht.toggle h0 e1
    exact key k1 k' _ h1 (plain rfl _ (ft.trans f1)) (Except.ok.inj e)
  | swap l =>
    change (pdSwap k l none dl true >>= fun k => (.ok { k with lastPressedCode := code } : Res Kbd)) = .ok k' at e
    obtain ⟨k1, e1, e⟩ := bind_eq_ok.1 e
    unfold pdSwap at e1
    rw [if_pos rfl] at e1
    obtain ⟨k2, e2, e1⟩ := bind_eq_ok.1 e1
    have e1 := Except.ok.inj e1
    obtain ⟨h1, f1⟩ := h.swap e2
    rw [← e1] at e
    exact key k2 k' _ h1 (plain rfl _ f1) (Except.ok.inj e)
  | swapm l m =>
    change (pdSwap k l (some (k.config.mac m)) dl true >>= fun k => (.ok { k with lastPressedCode := code } : Res Kbd)) = .ok k' at e
    obtain ⟨k1, e1, e⟩ := bind_eq_ok.1 e
    unfold pdSwap at e1
    rw [if_pos rfl] at e1
    obtain ⟨k2, e2, e1⟩ := bind_eq_ok.1 e1
    have e1 := Except.ok.inj e1
    obtain ⟨h1, f1⟩ := h.swap e2
    obtain ⟨h2, f2⟩ := h1.tap hd dl
    have ek : executeMacro k2 dl (k2.config.mac m) = k1 := by
      rw [← e1, h1.config, h.config]
    rw [ek] at h2 f2
    exact key k1 k' _ h2 (plain rfl _ (f1.trans f2)) (Except.ok.inj e)
  | overload l a =>
    change (pdOverloadPress k code l t >>= fun k => (.ok { k with lastPressedCode := code } : Res Kbd)) = .ok k' at e
    obtain ⟨k1, e1, e⟩ := bind_eq_ok.1 e
    obtain ⟨h1, f1⟩ := h.overloadPress (hit := ⟨code, .overload l a, dl, time, holds⟩) h0 (a := a) rfl e1
    exact key k1 k' _ h1 f1 (Except.ok.inj e)
  | command m =>
    change (pdCommand k m >>= fun k => (.ok { k with lastPressedCode := code } : Res Kbd)) = .ok k' at e
    obtain ⟨k1, e1, e⟩ := bind_eq_ok.1 e
    obtain ⟨h1, f1⟩ := h.command (hit := ⟨code, .command m, dl, time, holds⟩) rfl e1
    exact key k1 k' _ h1 (plain rfl _ f1) (Except.ok.inj e)
  | clear =>
    change (clear k >>= fun k => (.ok { k with lastPressedCode := code } : Res Kbd)) = .ok k' at e
    obtain ⟨k1, e1, e⟩ := bind_eq_ok.1 e
    obtain ⟨h1, f1⟩ := h.clear e1
    exact key k1 k' _ h1 (plain rfl _ f1) (Except.ok.inj e)
  | clearm m =>
    change ((Keyd.clear k >>= fun k => (.ok (executeMacro k dl (k.config.mac m)) : Res Kbd)) >>= fun k => (.ok { k with lastPressedCode := code } : Res Kbd)) = .ok k' at e
    obtain ⟨k1, e1, e⟩ := bind_eq_ok.1 e
    obtain ⟨k2, e2, e1⟩ := bind_eq_ok.1 e1
    have e1 := Except.ok.inj e1
    obtain ⟨h1, f1⟩ := h.clear e2
    obtain ⟨h2, f2⟩ := h1.tap hd dl
    rw [e1] at h2 f2
    exact key k1 k' _ h2 (plain rfl _ (f1.trans f2)) (Except.ok.inj e)
  | layout l =>
    change (setlayout k l >>= fun k => (.ok { k with lastPressedCode := code } : Res Kbd)) = .ok k' at e
    obtain ⟨k1, e1, e⟩ := bind_eq_ok.1 e
    obtain ⟨h1, f1⟩ := h.setlayout e1
    exact key k1 k' _ h1 (plain rfl _ f1) (Except.ok.inj e)
  | _ => exact absurd hd (fun h => h)

theorem pd_release {n : Nat} {k k' : Kbd} {code : Code} {d : Desc} {dl : Nat} {t : Int} (e : processDescriptor (n+1) k code d dl false t = .ok k') :
    pdSwitch (processDescriptor n) k code d dl false t = .ok k' := by
  unfold processDescriptor at e
  change (pdSwitch (processDescriptor n) k code d dl false t >>= fun k => (.ok k : Res Kbd)) = .ok k' at e
  obtain ⟨k1, e1, e⟩ := bind_eq_ok.1 e
  rw [← Except.ok.inj e]; exact e1

/-- Any action but `overload` is one of the machine. -/
theorem acts_does {c : Config} {d : Desc} (h : c.does d) : c.acts d := by
  cases d with
  | overload l a => cases h
  | _ => exact h

theorem letUp_at {c : Config} {b : Board} {k k' : Kbd} (h : At c b k) {hit : Hit} {n : Nat} {t : Int} (hd : c.does hit.act)
    (e : processDescriptor (n+1) k hit.code hit.act hit.layer false t = .ok k') : At c (b.letUp c hit t) k' ∧ Hush k k' := by
  have e := pd_release e
  obtain ⟨code, d, dl, time, holds⟩ := hit
  dsimp only at hd e
  cases d with
  | none =>
    have e := Except.ok.inj e
    rw [← e]; exact ⟨h.board rfl rfl rfl rfl rfl rfl rfl rfl, .refl k⟩
  | keyseq x m => exact h.lift e
  | layer l => exact h.layerRelease e
  | layerm l m => exact h.layerRelease e
  | oneshot l => exact h.oneshotRelease e
  | oneshotm l m => exact h.oneshotRelease e
  | togglem l m =>
    have e := Except.ok.inj e
    rw [← e]; exact ⟨h.board rfl rfl rfl rfl rfl rfl rfl rfl, .refl k⟩
  | clearm m =>
    have e := Except.ok.inj e
    rw [← e]; exact ⟨h.board rfl rfl rfl rfl rfl rfl rfl rfl, .refl k⟩
  | swap l =>
    have e := Except.ok.inj e
    rw [← e]; exact ⟨h.board rfl rfl rfl rfl rfl rfl rfl rfl, .refl k⟩
  | swapm l m =>
    have e := Except.ok.inj e
    obtain ⟨en, e1, e2⟩ := hd
    rw [h.config, e1] at e
    dsimp only at e
    rw [if_pos e2] at e
    unfold Board.letUp
    dsimp only
    rw [e1, ← e]
    exact ⟨(h.send _ false).mods none 0, .of_frame ((KeyFrame.send k en.code false).trans (.updateMods _ none 0))⟩
  | toggle l =>
    have e := Except.ok.inj e
    rw [← e]; exact ⟨h.board rfl rfl rfl rfl rfl rfl rfl rfl, .refl k⟩
  | command l =>
    have e := Except.ok.inj e
    rw [← e]; exact ⟨h.board rfl rfl rfl rfl rfl rfl rfl rfl, .refl k⟩
  | clear =>
    have e := Except.ok.inj e
    rw [← e]; exact ⟨h.board rfl rfl rfl rfl rfl rfl rfl rfl, .refl k⟩
  | layout l =>
    have e := Except.ok.inj e
    rw [← e]; exact ⟨h.board rfl rfl rfl rfl rfl rfl rfl rfl, .refl k⟩
  | _ => exact absurd hd (fun h => h)

theorem release_at {c : Config} {b : Board} {k k' : Kbd} (h : At c b k) {hit : Hit} {n : Nat} {t : Int} (hd : c.acts hit.act)
    (hl : k.lastPressedCode = b.last) (h0 : hit.code ≠ 0) (hs : hit.code = b.last → hit.act.isOverload = true → k.overloadStartTime = hit.time)
    (e : processDescriptor (n+1) k hit.code hit.act hit.layer false t = .ok k') : At c (b.release c hit t) k' ∧ Hush k k' := by
  cases ha : hit.act with
  | overload l a =>
    have e := pd_release e
    obtain ⟨code, d, dl, time, holds⟩ := hit
    dsimp only at ha
    subst ha
    dsimp only at hd hs e h0
    change pdOverloadRelease (processDescriptor n) k code l a dl t = .ok k' at e
    unfold pdOverloadRelease at e
    dsimp only at e
    obtain ⟨k1, e1, e⟩ := bind_eq_ok.1 e
    obtain ⟨h1, f1⟩ := h.deactivate e1
    obtain ⟨h2, f2⟩ : At c ((b.layers c (.overload l a) false).modify c none 0) (updateMods k1 none 0) ∧ Hush k (updateMods k1 none 0) :=
      ⟨At.mods (b := b.layers c (.overload l a) false) h1 none 0, f1.trans (.of_frame (.updateMods k1 none 0))⟩
    generalize updateMods k1 none 0 = k2 at e h2 f2
    unfold Board.release
    dsimp only
    have htap : isTap k2 code t = true ↔ (b.last = code ∧ (c.overloadTapTimeout = 0 ∨ t - time < c.overloadTapTimeout)) := by
      unfold isTap
      rw [h2.config, f2.last, f2.since, hl, decide_eq_true_eq]
      constructor
      · rintro ⟨g1, g2⟩
        rw [hs g1.symm rfl] at g2
        exact ⟨g1, g2⟩
      · rintro ⟨g1, g2⟩
        rw [hs g1.symm rfl]
        exact ⟨g1, g2⟩
    by_cases hb : isTap k2 code t = true
    · rw [if_pos hb, h.config] at e
      obtain ⟨hb1, hb2⟩ := htap.1 hb
      have hcond : ((b.layers c (.overload l a) false).modify c none 0).last = code ∧ (c.overloadTapTimeout = 0 ∨ t - time < c.overloadTapTimeout) := ⟨hb1, hb2⟩
      rw [if_pos hcond]
      rcases hd with hdo | ⟨m, hx, hm⟩
      · have hne : ∀ m, c.desc a ≠ .macro m := by intro m hm; rw [hm] at hdo; cases hdo
        have e' : (processDescriptor n k2 code (c.desc a) dl true t >>= fun k => processDescriptor n k code (c.desc a) dl false t) = .ok k' := by
          revert e hne
          cases c.desc a <;> intro e hne <;> first | exact e | exact absurd rfl (hne _)
        suffices hh : At c ((Board.act c ((b.layers c (.overload l a) false).modify c none 0) ⟨code, c.desc a, dl, time, holds⟩ t).letUp c
            ⟨code, c.desc a, dl, time, holds⟩ t) k' ∧ Hush k k' by
          clear e e' hdo
          revert hh hne
          cases c.desc a <;> intro hne hh <;> first | exact hh | exact absurd rfl (hne _)
        obtain ⟨k3, e3, e4⟩ := bind_eq_ok.1 e'
        cases n with
        | zero => cases e3
        | succ n =>
          obtain ⟨h3, f3⟩ := act_at h2 (hit := ⟨code, c.desc a, dl, time, holds⟩) h0 (acts_does hdo) e3
          obtain ⟨h4, f4⟩ := letUp_at h3 (hit := ⟨code, c.desc a, dl, time, holds⟩) hdo e4
          refine ⟨h4, f2.trans (Hush.trans ?_ f4)⟩
          refine ⟨f3.pending, f3.chord, f3.activeChords, f3.scroll, ?_, ?_⟩
          · rw [f3.last, f2.last, hl, hb1]
            rfl
          · rw [f3.since]
            have : (c.desc a).isOverload = false := by revert hdo; cases c.desc a <;> intro hdo <;> first | rfl | cases hdo
            show (if (c.desc a).isOverload then t else k2.overloadStartTime) = _
            rw [this]; rfl
      · rw [hx] at e ⊢
        dsimp only at e ⊢
        obtain ⟨h3, f3⟩ := h2.tap hm dl
        have e := Except.ok.inj e
        rw [e] at h3 f3
        exact ⟨h3, f2.trans f3⟩
    · rw [if_neg hb] at e
      have hcond : ¬ (((b.layers c (.overload l a) false).modify c none 0).last = code ∧ (c.overloadTapTimeout = 0 ∨ t - time < c.overloadTapTimeout)) :=
        fun h => hb (htap.2 h)
      rw [if_neg hcond]
      have e := Except.ok.inj e
      rw [← e]
      exact ⟨h2, f2⟩
  | _ =>
    have hdo : c.does hit.act := by rw [ha] at hd ⊢; exact hd
    have eb : b.release c hit t = b.letUp c hit t := by unfold Board.release; rw [ha]
    rw [eb]
    exact letUp_at h hdo e

/-- The action that a key has after it was pressed. -/
def Board.chosen (c : Config) (b : Board) (d : Desc) (t : Int) : Desc :=
  match d with
  | .overloadIdle d1 d2 timeout => c.desc (if t - b.typed ≥ timeout then d2 else d1)
  | d => d

theorem plays_chosen {c : Config} (b : Board) {d : Desc} (h : c.plays d) (t : Int) : c.acts (b.chosen c d t) := by
  cases d with
  | overloadIdle d1 d2 timeout =>
    unfold Board.chosen
    dsimp only
    split
    · exact h.2
    · exact h.1
  | _ => exact h

/-- A key pressed. -/
theorem press_at {c : Config} {b : Board} {k k' : Kbd} (h : At c b k) {hit : Hit} {n : Nat} {t : Int} (h0 : hit.code ≠ 0) (hd : c.plays hit.act)
    (e : processDescriptor (n+1) k hit.code hit.act hit.layer true t = .ok k') :
    At c (b.press c hit t) k' ∧ Hush (k.noted hit.code (b.chosen c hit.act t) t) k' := by
  cases ha : hit.act with
  | overloadIdle d1 d2 timeout =>
    have hacts := plays_chosen b hd t
    rw [ha] at e hacts
    unfold processDescriptor at e
    change (pdOverloadIdle (processDescriptor n) k hit.code d1 d2 timeout hit.layer t >>= fun k => (.ok { k with lastPressedCode := hit.code } : Res Kbd)) = .ok k' at e
    obtain ⟨k1, e1, e4⟩ := bind_eq_ok.1 e
    clear e
    unfold pdOverloadIdle at e1
    dsimp only at e1
    have hact : idleAction k d1 d2 timeout t = b.chosen c (.overloadIdle d1 d2 timeout) t := by
      unfold idleAction Board.chosen
      rw [h.config, h.typed]
      dsimp only
      split <;> rfl
    rw [hact] at e1
    have epr : b.press c hit t = { b.act c { hit with act := b.chosen c (.overloadIdle d1 d2 timeout) t } t with
        held := rebindIn hit.code (b.chosen c (.overloadIdle d1 d2 timeout) t) (b.act c { hit with act := b.chosen c (.overloadIdle d1 d2 timeout) t } t).held } := by
      unfold Board.press
      rw [ha]
      rfl
    rw [epr]
    generalize b.chosen c (.overloadIdle d1 d2 timeout) t = d at e1 hacts ⊢
    obtain ⟨k2, e2, e3⟩ := bind_eq_ok.1 e1
    clear e1
    cases n with
    | zero => cases e2
    | succ n =>
      obtain ⟨h2, f2⟩ := act_at h (hit := { hit with act := d }) h0 hacts e2
      have e3 := Except.ok.inj e3
      have e4 := Except.ok.inj e4
      rw [← e4, ← e3]
      refine ⟨⟨h2.config, h2.book, h2.sent.same rfl ⟨[], rfl, by simp⟩ rfl rfl rfl rfl, h2.timer, h2.idle, ?_, ?_, h2.typed⟩, ?_⟩
      · exact h2.grip.rebind h0 d
      · show (codesIn (rebindIn _ _ _)).Nodup
        rw [codesIn_rebind]; exact h2.nodup
      · exact ⟨f2.pending, f2.chord, f2.activeChords, f2.scroll, rfl, f2.since⟩
  | _ =>
    have epr : b.press c hit t = b.act c hit t := by unfold Board.press; rw [ha]
    rw [epr, ← ha]
    have hacts := plays_chosen b hd t
    have hch : b.chosen c hit.act t = hit.act := by rw [ha]; rfl
    rw [hch] at hacts ⊢
    exact act_at h h0 hacts e

end Keyd
