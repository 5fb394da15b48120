import Verif.Spec.Neat
import Verif.Props.Modifiers
import Verif.Props.Clear
import Verif.Props.Release
import Verif.Proofs.Balance

/-
  The invariant behind C81: unless a key is held down or a macro is being repeated, the modifiers that are down are those of the active
  layers.
-/

set_option autoImplicit false

namespace Keyd

/-- Every modifier that is down is asked for by an active layer. -/
def Tidy (k : Kbd) : Prop := ∀ mask key, (mask, key) ∈ modifierKeys → k.keystate key = true → Requested k none 0 mask

def Desc.isKey : Desc → Bool
  | .keyseq _ _ => true
  | _ => false

/-- `Tidy`, or a macro is being repeated. -/
def Trim (k : Kbd) : Prop := Tidy k ∨ k.activeMacro ≠ none

theorem Requested.congr {k k' : Kbd} {ex : Option Nat} {mods mask : UInt8} (h : Requested k ex mods mask) (h1 : k'.config = k.config)
    (h2 : k'.layerState = k.layerState) : Requested k' ex mods mask := by
  unfold Requested at h ⊢
  rw [h1, h2]; exact h

theorem Tidy.frame {k k' : Kbd} (h : Tidy k) (h1 : k'.keystate = k.keystate) (h2 : k'.config = k.config)
    (h3 : k'.layerState = k.layerState) : Tidy k' := by
  intro mask key hm hd
  exact (h mask key hm (by rw [← h1]; exact hd)).congr h2 h3

theorem Trim.frame {k k' : Kbd} (h : Trim k) (h1 : k'.keystate = k.keystate) (h2 : k'.config = k.config)
    (h3 : k'.layerState = k.layerState) (h4 : k'.activeMacro = k.activeMacro) : Trim k' := by
  rcases h with h | h
  · exact .inl (h.frame h1 h2 h3)
  · exact .inr (by rw [h4]; exact h)

theorem tidy_updateMods (k : Kbd) (ex : Option Nat) : Tidy (updateMods k ex 0) := by
  intro mask key hm hd
  have h := (C09_modifiers_exact k ex 0 mask key hm).1 hd
  have f := KeyFrame.updateMods k ex 0
  refine Requested.congr (k := k) ?_ f.config f.layerState
  rcases h with h | ⟨i, l, h1, h2, h3, h4⟩
  · exact absurd (by simp) h
  · refine .inr ⟨i, l, h1, h2, ?_, h4⟩
    rintro ⟨e, _, h, _⟩
    cases h

theorem tidy_up (k : Kbd) (h : ∀ c, k.keystate c = false) : Tidy k := by
  intro mask key _ hd
  rw [h key] at hd
  cases hd

/-- A key pressed and let go at once. -/
theorem Tidy.tap {k : Kbd} (h : Tidy k) (c : Code) : Tidy (sendKey (sendKey k c true) c false) := by
  have f : KeyFrame k (sendKey (sendKey k c true) c false) := (KeyFrame.send _ _ _).trans (.send _ _ _)
  intro mask key hm hd
  refine Requested.congr (k := k) (h mask key hm ?_) f.config f.layerState
  by_cases hr : c = KEYD.NOOP ∨ c = KEYD.EXTERNAL_MOUSE_BUTTON
  · have e : ∀ (k : Kbd) b, sendKey k c b = k := by
      intro k b
      unfold sendKey
      rw [if_pos hr]
    rw [e, e] at hd
    exact hd
  · rw [not_or] at hr
    rw [sendKey_keystate _ _ _ hr.1 hr.2, sendKey_keystate _ _ _ hr.1 hr.2, upd_upd, upd_apply] at hd
    split at hd
    · cases hd
    · exact hd

theorem tidy_emit : ∀ (l : List MacroOut) (k : Kbd), Tidy k → Tidy (emitMacro k l)
  | [], k, h => h
  | .key c d :: l, k, h => tidy_emit l _ (h.frame rfl rfl rfl)
  | .sleep us :: l, k, h => tidy_emit l _ (h.frame rfl rfl rfl)

theorem tidy_macro (k : Kbd) (dl : Nat) (m : Macro) (hq : ∀ e, m = [e] → e.type = .keysequence → e.mods = 0) :
    Tidy (executeMacro k dl m) := by
  unfold executeMacro
  dsimp only
  split
  · rename_i e
    split
    · rename_i ht
      rw [hq e rfl ht]
      exact (tidy_updateMods k (some dl)).tap _
    · exact tidy_emit _ _ (tidy_updateMods _ _)
  · exact tidy_emit _ _ (tidy_updateMods _ _)

theorem clear_up {k k' : Kbd} (h : clear k = .ok k') : (∀ c, k'.keystate c = false) ∧ k'.config = k.config := by
  unfold clear at h
  obtain ⟨k1, h1, h⟩ := bind_eq_ok.1 h
  obtain ⟨k2, h2, h⟩ := bind_eq_ok.1 h
  obtain ⟨_, _, e1, _⟩ := clearOneshot_spec h1
  obtain ⟨_, _, e2, _⟩ := clearToggled_spec _ (List.Nodup.sublist (List.drop_sublist _ _) List.nodup_range) _ _ h2
  have h := Except.ok.inj h
  rw [resetKeystate_spec] at h
  rw [← h, e2, e1]
  exact ⟨fun c => rfl, rfl⟩

theorem setlayout_up {k k' : Kbd} {i : Nat} (h : setlayout k i = .ok k') : ∀ c, k'.keystate c = false := by
  unfold setlayout at h
  obtain ⟨k1, h1, h⟩ := bind_eq_ok.1 h
  have h := Except.ok.inj h
  have e1 := (clear_up h1).1
  have key : ∀ (l : List Nat) (k : Kbd), (l.foldl (fun k i => if (k.config.layer i).type = .layout then
      k.modLayer i fun s => { s with active := 0 } else k) k).keystate = k.keystate := by
    intro l
    induction l with
    | nil => intro k; rfl
    | cons i l ih =>
      intro k
      rw [List.foldl_cons, ih]
      split <;> rfl
  intro c
  rw [← h]
  show (if i ≠ 0 then _ else _ : Kbd).keystate c = false
  split
  · show (List.foldl _ k1 _).keystate c = false
    rw [key]; exact e1 c
  · rw [key]; exact e1 c

/-- One-shot activations are of layers with no modifiers, if `toggle` is used. -/
def Depths (os : Nat → Prop) (tg : Prop) (k : Kbd) : Prop := tg → ∀ i, (k.layerState i).oneshotDepth ≠ 0 → os i

theorem Tidy.clearOneshot {k k' : Kbd} (h : Tidy k) (ho : ∀ i, (k.layerState i).oneshotDepth ≠ 0 → (k.config.layer i).mods = 0)
    (e : clearOneshot k = .ok k') : Tidy k' := by
  obtain ⟨ls, os, e1, _, _, e2⟩ := clearOneshot_spec e
  intro mask key hm hd
  rw [e1] at hd ⊢
  rcases h mask key hm hd with h | ⟨i, l, h1, h2, h3, h4⟩
  · exact absurd (by simp) h
  · refine .inr ⟨i, l, h1, ?_, h3, h4⟩
    show (ls i).active ≠ 0
    rw [e2]
    split
    · show (k.layerState i).active - (k.layerState i).oneshotDepth ≠ 0
      have h0 : (k.layerState i).oneshotDepth = 0 := by
        by_contra hn
        have := ho i hn
        unfold Config.layer at this
        rw [List.getD_eq_getElem?_getD, h1] at this
        exact h4 (by rw [show l.mods = 0 from this]; simp)
      rw [h0]; exact h2
    · exact h2

/-! ### Actions -/

/-- The facts about the tables that are used. -/
structure Clean (tap alt quiet os : Nat → Prop) (tg : Prop) (c : Config) : Prop where
  descs : ∀ a, Sober tap alt (c.desc a) ∧ Tidying quiet os tg (c.desc a)
  deferred : ∀ a, tap a → (c.desc a).deferred = false
  taps : ∀ a m, tap a → c.desc a = .macro m → quiet m
  macros : ∀ m e, quiet m → c.mac m = [e] → e.type = .keysequence → e.mods = 0
  oneshots : tg → ∀ i, os i → (c.layer i).mods = 0

theorem Depths.frame {os : Nat → Prop} {tg : Prop} {k k' : Kbd} (h : Depths os tg k) (e : k'.layerState = k.layerState) : Depths os tg k' := by
  unfold Depths at h ⊢
  rw [e]; exact h

theorem Depths.same {os : Nat → Prop} {tg : Prop} {k k' : Kbd} (h : Depths os tg k)
    (e : ∀ i, (k'.layerState i).oneshotDepth = (k.layerState i).oneshotDepth ∨ (k'.layerState i).oneshotDepth = 0) : Depths os tg k' := by
  intro ht i hi
  rcases e i with e | e
  · exact h ht i (by rw [← e]; exact hi)
  · exact absurd e hi

theorem depth_deactivate {k k' : Kbd} {i : Nat} (h : deactivateLayer k i = .ok k') :
    k'.config = k.config ∧ ∀ j, (k'.layerState j).oneshotDepth = (k.layerState j).oneshotDepth ∨ (k'.layerState j).oneshotDepth = 0 := by
  obtain ⟨_, rfl⟩ := deactivateLayer_ok.1 h
  refine ⟨rfl, fun j => .inl ?_⟩
  show (upd k.layerState i _ j).oneshotDepth = _
  rw [upd_apply]
  split
  · rename_i e; rw [e]
  · rfl

theorem depth_activate {k k' : Kbd} {c : Code} {i : Nat} (h : activateLayer k c i = .ok k') :
    k'.config = k.config ∧ ∀ j, (k'.layerState j).oneshotDepth = (k.layerState j).oneshotDepth ∨ (k'.layerState j).oneshotDepth = 0 := by
  obtain ⟨_, rfl⟩ := activateLayer_ok h
  refine ⟨rfl, fun j => .inl ?_⟩
  show (upd k.layerState i _ j).oneshotDepth = _
  rw [upd_apply]
  split
  · rename_i e; rw [e]
  · rfl

theorem depth_clearOneshot {k k' : Kbd} (h : clearOneshot k = .ok k') :
    k'.config = k.config ∧ ∀ j, (k'.layerState j).oneshotDepth = (k.layerState j).oneshotDepth ∨ (k'.layerState j).oneshotDepth = 0 := by
  obtain ⟨ls, _, rfl, _, _, e⟩ := clearOneshot_spec h
  refine ⟨rfl, fun j => ?_⟩
  show (ls j).oneshotDepth = _ ∨ (ls j).oneshotDepth = 0
  rw [e]
  split
  · exact .inr rfl
  · exact .inl rfl

theorem depth_clear {k k' : Kbd} (h : clear k = .ok k') :
    k'.config = k.config ∧ ∀ j, (k'.layerState j).oneshotDepth = (k.layerState j).oneshotDepth ∨ (k'.layerState j).oneshotDepth = 0 := by
  refine ⟨(clear_up h).2, ?_⟩
  unfold clear at h
  obtain ⟨k1, h1, h⟩ := bind_eq_ok.1 h
  obtain ⟨k2, h2, h⟩ := bind_eq_ok.1 h
  obtain ⟨_, e1⟩ := depth_clearOneshot h1
  obtain ⟨ls, _, e2, _, _, e3⟩ := clearToggled_spec _ (List.Nodup.sublist (List.drop_sublist _ _) List.nodup_range) _ _ h2
  have h := Except.ok.inj h
  rw [resetKeystate_spec] at h
  intro j
  rw [← h]
  show (k2.layerState j).oneshotDepth = _ ∨ (k2.layerState j).oneshotDepth = 0
  have : (k2.layerState j).oneshotDepth = (k1.layerState j).oneshotDepth := by
    rw [e2]
    show (ls j).oneshotDepth = _
    rw [e3]
    split <;> rfl
  rw [this]
  exact e1 j

theorem depth_setlayout {k k' : Kbd} {i : Nat} (h : setlayout k i = .ok k') :
    k'.config = k.config ∧ ∀ j, (k'.layerState j).oneshotDepth = (k.layerState j).oneshotDepth ∨ (k'.layerState j).oneshotDepth = 0 := by
  unfold setlayout at h
  obtain ⟨k1, h1, h⟩ := bind_eq_ok.1 h
  have h := Except.ok.inj h
  have e1 := depth_clear h1
  have mod : ∀ (k : Kbd) (i j : Nat) (f : LayerSt → LayerSt), (∀ s, (f s).oneshotDepth = s.oneshotDepth) →
      ((k.modLayer i f).layerState j).oneshotDepth = (k.layerState j).oneshotDepth := by
    intro k i j f hf
    show (upd k.layerState i _ j).oneshotDepth = _
    rw [upd_apply]
    split
    · rename_i e; rw [e, hf]
    · rfl
  have key : ∀ (l : List Nat) (k : Kbd), (l.foldl (fun k i => if (k.config.layer i).type = .layout then
      k.modLayer i fun s => { s with active := 0 } else k) k).config = k.config ∧ ∀ j, ((l.foldl (fun k i => if (k.config.layer i).type = .layout then
      k.modLayer i fun s => { s with active := 0 } else k) k).layerState j).oneshotDepth = (k.layerState j).oneshotDepth := by
    intro l
    induction l with
    | nil => intro k; exact ⟨rfl, fun _ => rfl⟩
    | cons i l ih =>
      intro k
      rw [List.foldl_cons]
      refine ⟨(ih _).1.trans ?_, fun j => ((ih _).2 j).trans ?_⟩
      · split <;> rfl
      · split
        · exact mod _ _ _ _ (fun _ => rfl)
        · rfl
  have e2 := key (nonMainLayers k1) k1
  revert h e2
  generalize List.foldl _ k1 _ = k2
  intro h e2
  have e3 : k'.config = k2.config ∧ ∀ j, (k'.layerState j).oneshotDepth = (k2.layerState j).oneshotDepth := by
    rw [← h]
    refine ⟨?_, fun j => ?_⟩
    · show (if i ≠ 0 then _ else _ : Kbd).config = _
      split <;> rfl
    · show ((if i ≠ 0 then _ else _ : Kbd).layerState j).oneshotDepth = _
      split
      · exact mod _ _ _ _ (fun _ => rfl)
      · rfl
  refine ⟨e3.1.trans (e2.1.trans e1.1), fun j => ?_⟩
  rw [e3.2, e2.2]
  exact e1.2 j

/-- What is known after an action. -/
structure After (os : Nat → Prop) (tg : Prop) (c : Config) (q : Prop) (k : Kbd) : Prop where
  config : k.config = c
  depths : Depths os tg k
  trim : q → Trim k

variable {tap alt quiet os : Nat → Prop} {tg : Prop} {c : Config}

theorem After.frame {q : Prop} {k k' : Kbd} (h : After os tg c q k) (h1 : k'.keystate = k.keystate) (h2 : k'.config = k.config)
    (h3 : k'.layerState = k.layerState) (h4 : k'.activeMacro = k.activeMacro) : After os tg c q k' :=
  ⟨h2.trans h.config, h.depths.frame h3, fun hq => (h.trim hq).frame h1 h2 h3 h4⟩

theorem schedule_frame {k k' : Kbd} {t : Int} (h : scheduleTimeout k t = .ok k') : ∃ ts, k' = { k with timeouts := ts } := by
  unfold scheduleTimeout at h
  split at h
  · exact ⟨_, (Except.ok.inj h).symm⟩
  · cases h

theorem After.schedule {q : Prop} {k k' : Kbd} {t : Int} (h : After os tg c q k) (e : scheduleTimeout k t = .ok k') : After os tg c q k' := by
  obtain ⟨ts, rfl⟩ := schedule_frame e
  exact h.frame rfl rfl rfl rfl

/-- The modifiers were just set. -/
theorem After.mods {q : Prop} {k : Kbd} (h1 : k.config = c) (h2 : Depths os tg k) (ex : Option Nat) : After os tg c q (updateMods k ex 0) :=
  have f := KeyFrame.updateMods k ex 0
  ⟨f.config.trans h1, h2.frame f.layerState, fun _ => .inl (tidy_updateMods k ex)⟩

theorem after_layer {q : Prop} {k k' : Kbd} {code : Code} {l : Nat} {p : Bool} (h1 : k.config = c) (h2 : Depths os tg k)
    (e : pdLayer k code l p = .ok k') : After os tg c q k' := by
  unfold pdLayer at e
  obtain ⟨k1, e1, e⟩ := bind_eq_ok.1 e
  have h3 : k1.config = k.config ∧ ∀ j, (k1.layerState j).oneshotDepth = (k.layerState j).oneshotDepth ∨ (k1.layerState j).oneshotDepth = 0 := by
    cases p with
    | true => exact depth_activate e1
    | false => exact depth_deactivate e1
  have d1 := h2.same h3.2
  split at e
  · rw [← Except.ok.inj e]
    exact (After.mods (k := { k1 with inhibitModifierGuard := true }) (h3.1.trans h1) (d1.frame rfl) none).frame rfl rfl rfl rfl
  · rw [← Except.ok.inj e]
    exact After.mods (h3.1.trans h1) d1 none

theorem after_overload {q : Prop} {k k' : Kbd} {code : Code} {l : Nat} {t : Int} (h1 : k.config = c) (h2 : Depths os tg k)
    (e : pdOverloadPress k code l t = .ok k') : After os tg c q k' := by
  unfold pdOverloadPress at e
  obtain ⟨k1, e1, e⟩ := bind_eq_ok.1 e
  have h3 := depth_activate e1
  rw [← Except.ok.inj e]
  exact After.mods (h3.1.trans h1) (Depths.same (k := { k with overloadStartTime := t }) h2 h3.2) none

theorem after_oneshot {q : Prop} {k k' : Kbd} {code : Code} {l dl : Nat} {p : Bool} {t : Int} (h : After os tg c q k) (hl : os l)
    (e : pdOneshot k code l dl p t = .ok k') : After os tg c q k' := by
  unfold pdOneshot at e
  split at e
  · obtain ⟨k1, e1, e⟩ := bind_eq_ok.1 e
    have h3 := depth_activate e1
    rw [← Except.ok.inj e]
    exact (After.mods (h3.1.trans h.config) (h.depths.same h3.2) _).frame rfl rfl rfl rfl
  · split at e
    · dsimp only at e
      split at e
      · cases e
      · have h0 : After os tg c q (k.modLayer l fun s => { s with oneshotDepth := s.oneshotDepth + 1 }) := by
          refine ⟨h.config, ?_, fun hq => ?_⟩
          · intro ht i hi
            by_cases hil : i = l
            · rw [hil]; exact hl
            · refine h.depths ht i ?_
              have : ((k.modLayer l fun s => { s with oneshotDepth := s.oneshotDepth + 1 }).layerState i) = k.layerState i := upd_other _ _ hil
              rw [this] at hi
              exact hi
          · rcases h.trim hq with h | h
            · refine .inl ?_
              intro mask key hm hd
              rcases h mask key hm hd with h | ⟨i, y, h1, h2, h3, h4⟩
              · exact .inl h
              · refine .inr ⟨i, y, h1, ?_, h3, h4⟩
                show (upd k.layerState l _ i).active ≠ 0
                rw [upd_apply]
                split
                · rename_i e; rw [← e]; exact h2
                · exact h2
            · exact .inr h
        split at e
        · refine After.schedule ?_ e
          exact h0.frame rfl rfl rfl rfl
        · rw [← Except.ok.inj e]; exact h0
    · obtain ⟨k1, e1, e⟩ := bind_eq_ok.1 e
      have h3 := depth_deactivate e1
      rw [← Except.ok.inj e]
      exact After.mods (h3.1.trans h.config) (h.depths.same h3.2) _

theorem after_macro {q : Prop} {k k' : Kbd} {m dl : Nat} {a b : Int} {t : Int} (h1 : k.config = c) (h2 : Depths os tg k)
    (e : pdMacro k m a b dl t = .ok k') : After os tg c q k' := by
  unfold pdMacro at e
  obtain ⟨k1, e1, e⟩ := bind_eq_ok.1 e
  have h3 := depth_clearOneshot e1
  have f := KeyFrame.executeMacro k1 dl (k1.config.mac m)
  refine After.schedule ?_ e
  refine ⟨f.config.trans (h3.1.trans h1), Depths.frame (k := k1) (Depths.same (k := { k with macroRepeatInterval := b }) h2 h3.2) f.layerState, fun _ => .inr (by simp)⟩

theorem after_toggle {q : Prop} {k k' : Kbd} {code : Code} {l : Nat} (hc : Clean tap alt quiet os tg c) (ht : tg) (h1 : k.config = c)
    (h2 : Depths os tg k) (e : pdToggle k code l = .ok k') : After os tg c q k' := by
  unfold pdToggle at e
  dsimp only at e
  obtain ⟨k1, e1, e⟩ := bind_eq_ok.1 e
  have h0 : Depths os tg (k.modLayer l fun s => { s with toggled := !s.toggled }) := by
    refine h2.same (fun j => .inl ?_)
    show (upd k.layerState l _ j).oneshotDepth = _
    rw [upd_apply]
    split
    · rename_i e; rw [e]
    · rfl
  have h3 : k1.config = k.config ∧ Depths os tg k1 := by
    split at e1
    · exact ⟨(depth_activate e1).1, h0.same (depth_activate e1).2⟩
    · exact ⟨(depth_deactivate e1).1, h0.same (depth_deactivate e1).2⟩
  have h4 : After os tg c True (updateMods k1 none 0) := After.mods (h3.1.trans h1) h3.2 none
  have h5 := depth_clearOneshot e
  refine ⟨h5.1.trans h4.config, h4.depths.same h5.2, fun _ => .inl ?_⟩
  refine (tidy_updateMods k1 none).clearOneshot (fun i hi => ?_) e
  rw [h4.config]
  exact hc.oneshots ht i (h4.depths ht i hi)

theorem after_command {q : Prop} {k k' : Kbd} {m : Nat} (h1 : k.config = c) (h2 : Depths os tg k)
    (e : pdCommand k m = .ok k') : After os tg c q k' := by
  unfold pdCommand at e
  obtain ⟨k1, e1, e⟩ := bind_eq_ok.1 e
  have h3 := depth_clearOneshot e1
  rw [← Except.ok.inj e]
  exact After.mods (h3.1.trans h1) (Depths.same (k := k.emit (.command (k.config.commands.getD m []))) h2 h3.2) none

theorem after_keyseq {k k' : Kbd} {code : Code} {m : UInt8} {dl : Nat} {p : Bool} {t : Int} (h1 : k.config = c) (h2 : Depths os tg k)
    (e : pdKeyseq k code m dl p t = .ok k') : After os tg c (p = false) k' := by
  unfold pdKeyseq at e
  obtain ⟨k1, e1, e⟩ := bind_eq_ok.1 e
  suffices After os tg c (p = false) k1 by
    rw [← Except.ok.inj e]
    split
    · exact this.frame rfl rfl rfl rfl
    · exact this
  split at e1
  · rename_i hp
    have h3 := depth_clearOneshot e1
    have f : KeyFrame k (sendKey (updateMods (if k.keystate code then sendKey k code false else k) (some dl) m) code true) := by
      refine KeyFrame.trans ?_ ((KeyFrame.updateMods _ _ _).trans (.send _ _ _))
      split
      · exact KeyFrame.send _ _ _
      · exact KeyFrame.refl _
    refine ⟨h3.1.trans (f.config.trans h1), (h2.frame f.layerState).same h3.2, fun hq => ?_⟩
    rw [hq] at hp; cases hp
  · rw [← Except.ok.inj e1]
    have f := KeyFrame.send k code false
    exact After.mods (f.config.trans h1) (h2.frame f.layerState) none

/-- Actions that play a macro first. -/
def Desc.prefixed : Desc → Prop
  | .layerm _ _ => True
  | .oneshotm _ _ => True
  | .togglem _ _ => True
  | _ => False

theorem prefix_frame (k : Kbd) (d : Desc) (dl : Nat) (p : Bool) : KeyFrame k (pdMacroPrefix k d dl p) := by
  unfold pdMacroPrefix
  split
  · split
    · exact KeyFrame.executeMacro _ _ _
    · exact KeyFrame.executeMacro _ _ _
    · exact KeyFrame.executeMacro _ _ _
    · exact KeyFrame.refl _
  · exact KeyFrame.refl _

/-- After an action no modifier is left down, except that a key may hold its own. -/
theorem after_act (hc : Clean tap alt quiet os tg c) : ∀ (n : Nat) (k k' : Kbd) (code : Code) (d : Desc) (dl : Nat) (p : Bool) (t : Int),
    k.config = c → Depths os tg k → Sober tap alt d → Tidying quiet os tg d → (p = true → d.idle = false) →
    processDescriptor n k code d dl p t = .ok k' →
    k'.config = c ∧ Depths os tg k' ∧ (Trim k ∨ (p = false ∧ d.isKey = true) → Trim k' ∨ (p = true ∧ d.isKey = true))
  | 0, _, _, _, _, _, _, _, _, _, _, _, _, e => by cases e
  | n + 1, k, k', code, d, dl, p, t, h1, h2, hs, hd, hi, e => by
    unfold processDescriptor at e
    obtain ⟨k1, e1, e⟩ := bind_eq_ok.1 e
    have f := prefix_frame k d dl p
    have g1 := f.config.trans h1
    have g2 := h2.frame f.layerState
    have ht : Trim k → (pdMacroPrefix k d dl p = k) → Trim (pdMacroPrefix k d dl p) := by
      intro h e; rw [e]; exact h
    -- the trimmed state is the one before the prefix unless the prefix plays a macro
    suffices hk : k1.config = c ∧ Depths os tg k1 ∧ (Trim k ∨ (p = false ∧ d.isKey = true) → Trim k1 ∨ (p = true ∧ d.isKey = true)) by
      rw [← Except.ok.inj e]
      split
      · exact ⟨hk.1, hk.2.1.frame rfl, fun h => (hk.2.2 h).imp (fun h => h.frame rfl rfl rfl rfl) id⟩
      · exact hk
    have done : After os tg c True k1 → k1.config = c ∧ Depths os tg k1 ∧ (Trim k ∨ (p = false ∧ d.isKey = true) → Trim k1 ∨ (p = true ∧ d.isKey = true)) :=
      fun h => ⟨h.config, h.depths, fun _ => .inl (h.trim trivial)⟩
    have keep : d.isKey = false → After os tg c (Trim k) k1 → k1.config = c ∧ Depths os tg k1 ∧ (Trim k ∨ (p = false ∧ d.isKey = true) → Trim k1 ∨ (p = true ∧ d.isKey = true)) := by
      intro hk h
      refine ⟨h.config, h.depths, fun ha => ?_⟩
      rcases ha with ha | ⟨_, ha⟩
      · exact .inl (h.trim ha)
      · rw [hk] at ha; cases ha
    have stay : pdMacroPrefix k d dl p = k → After os tg c (Trim k) (pdMacroPrefix k d dl p) := fun e => ⟨g1, g2, fun h => ht h e⟩
    clear e
    revert e1 stay g1 g2
    have hrel : p = false → pdMacroPrefix k d dl p = k := by rintro rfl; rfl
    have hpre : d.prefixed ∨ pdMacroPrefix k d dl p = k := by
      unfold pdMacroPrefix
      cases p with
      | false => exact .inr rfl
      | true => cases d <;> first | exact .inl trivial | exact .inr rfl
    revert hpre hrel
    generalize pdMacroPrefix k d dl p = k0
    intro hrel hpre e1 g1 g2 stay
    unfold pdSwitch at e1
    cases d with
    | none => cases e1; exact keep rfl (stay (hpre.resolve_left id))
    | keyseq x m =>
      have h := after_keyseq g1 g2 e1
      refine ⟨h.config, h.depths, fun _ => ?_⟩
      cases p with
      | false => exact .inl (h.trim rfl)
      | true => exact .inr ⟨rfl, rfl⟩
    | scroll s => cases e1; exact keep rfl ((stay (hpre.resolve_left id)).frame rfl rfl rfl rfl)
    | scrollToggle s => cases e1; exact keep rfl ((stay (hpre.resolve_left id)).frame rfl rfl rfl rfl)
    | overloadIdle a b tm =>
      dsimp only at e1
      split at e1
      · rename_i hp; exact absurd (hi hp) (fun h => by cases h)
      · cases e1; exact keep rfl (stay (hpre.resolve_left id))
    | overloadTimeout l a tm =>
      dsimp only at e1
      split at e1
      · refine keep rfl (After.schedule ?_ (by exact e1))
        exact (stay (hpre.resolve_left id)).frame rfl rfl rfl rfl
      · cases e1; exact keep rfl (stay (hpre.resolve_left id))
    | overloadTimeoutTap l a tm =>
      dsimp only at e1
      split at e1
      · refine keep rfl (After.schedule ?_ (by exact e1))
        exact (stay (hpre.resolve_left id)).frame rfl rfl rfl rfl
      · cases e1; exact keep rfl (stay (hpre.resolve_left id))
    | timeout a tm b =>
      dsimp only at e1
      split at e1
      · refine keep rfl (After.schedule ?_ (by exact e1))
        exact (stay (hpre.resolve_left id)).frame rfl rfl rfl rfl
      · cases e1; exact keep rfl (stay (hpre.resolve_left id))
    | layout l =>
      dsimp only at e1
      split at e1
      · have h := depth_setlayout e1
        exact done ⟨h.1.trans g1, g2.same h.2, fun _ => .inl (tidy_up _ (setlayout_up e1))⟩
      · cases e1; exact keep rfl (stay (hpre.resolve_left id))
    | layer l => exact done (after_layer g1 g2 e1)
    | layerm l m => exact done (after_layer g1 g2 e1)
    | clear =>
      dsimp only at e1
      split at e1
      · have h := depth_clear e1
        exact done ⟨h.1.trans g1, g2.same h.2, fun _ => .inl (tidy_up _ (clear_up e1).1)⟩
      · cases e1; exact keep rfl (stay (hpre.resolve_left id))
    | clearm m =>
      dsimp only at e1
      split at e1
      · obtain ⟨k2, e2, e1⟩ := bind_eq_ok.1 e1
        have h := depth_clear e2
        have f := KeyFrame.executeMacro k2 dl (k2.config.mac m)
        refine done ?_
        rw [← Except.ok.inj e1]
        refine ⟨f.config.trans (h.1.trans g1), (g2.same h.2).frame f.layerState, fun _ => .inl (tidy_macro _ _ _ ?_)⟩
        rw [h.1.trans g1]
        exact fun e => hc.macros m e hd
      · cases e1; exact keep rfl (stay (hpre.resolve_left id))
    | overload l a =>
      dsimp only at e1
      split at e1
      · exact done (after_overload g1 g2 e1)
      · unfold pdOverloadRelease at e1
        dsimp only at e1
        obtain ⟨k2, e2, e1⟩ := bind_eq_ok.1 e1
        have h := depth_deactivate e2
        have h3 : After os tg c True (updateMods k2 none 0) := After.mods (h.1.trans g1) (g2.same h.2) none
        have hta : tap a := hs
        rw [g1] at e1
        have hda := hc.deferred a hta
        have hma := fun m => hc.taps a m hta
        have hsa := hc.descs a
        revert h3 e1 hda hma hsa
        generalize updateMods k2 none 0 = k3
        generalize c.desc a = act
        intro e1 h3 hda hma hsa
        split at e1
        · split at e1
          · rename_i m
            have f := KeyFrame.executeMacro k3 dl (k3.config.mac m)
            refine done ?_
            rw [← Except.ok.inj e1]
            refine ⟨f.config.trans h3.config, h3.depths.frame f.layerState, fun _ => .inl (tidy_macro _ _ _ ?_)⟩
            rw [h3.config]
            exact fun e => hc.macros m e (hma m rfl)
          · obtain ⟨k4, e4, e1⟩ := bind_eq_ok.1 e1
            have hidle : act.idle = false := by
              revert hda
              cases act <;> first | (intro _; rfl) | (intro h; cases h)
            have r1 := after_act hc n _ _ _ _ _ _ _ h3.config h3.depths hsa.1 hsa.2 (fun _ => hidle) e4
            have r2 := after_act hc n _ _ _ _ _ _ _ r1.1 r1.2.1 hsa.1 hsa.2 (fun _ => hidle) e1
            refine done ⟨r2.1, r2.2.1, fun _ => ?_⟩
            have r3 := r1.2.2 (.inl (h3.trim trivial))
            rcases r2.2.2 (r3.imp id (fun h => ⟨rfl, h.2⟩)) with r | ⟨r, _⟩
            · exact r
            · cases r
        · refine done ?_
          rw [← Except.ok.inj e1]; exact h3
    | oneshot l => exact keep rfl (after_oneshot (stay (hpre.resolve_left id)) hd e1)
    | oneshotm l m =>
      cases p with
      | true =>
        unfold pdOneshot at e1
        rw [if_pos rfl] at e1
        obtain ⟨k2, e2, e1⟩ := bind_eq_ok.1 e1
        have h3 := depth_activate e2
        refine done ?_
        rw [← Except.ok.inj e1]
        exact (After.mods (h3.1.trans g1) (g2.same h3.2) _).frame rfl rfl rfl rfl
      | false => 
        exact keep rfl (after_oneshot (stay (hrel rfl)) hd e1)
    | «macro» m =>
      dsimp only at e1
      split at e1
      · exact done (after_macro g1 g2 e1)
      · cases e1; exact keep rfl (stay (hpre.resolve_left id))
    | macro2 tm r m =>
      dsimp only at e1
      split at e1
      · exact done (after_macro g1 g2 e1)
      · cases e1; exact keep rfl (stay (hpre.resolve_left id))
    | toggle l =>
      dsimp only at e1
      split at e1
      · exact done (after_toggle hc hd g1 g2 e1)
      · cases e1; exact keep rfl (stay (hpre.resolve_left id))
    | togglem l m =>
      dsimp only at e1
      split at e1
      · exact done (after_toggle hc hd g1 g2 e1)
      · rename_i hp
        cases e1; exact keep rfl (stay (hrel (by simpa using hp)))
    | command m =>
      dsimp only at e1
      split at e1
      · exact done (after_command g1 g2 e1)
      · cases e1; exact keep rfl (stay (hpre.resolve_left id))
    | swap l => exact hs.elim
    | swapm l m => exact hs.elim

/-- Actions other than `overloadi` and `swap` leave the bindings of the held keys alone. -/
theorem held_act (hc : Clean tap alt quiet os tg c) : ∀ (n : Nat) (k : Kbd) (code : Code) (d : Desc) (dl : Nat) (p : Bool) (t : Int),
    k.config = c → Sober tap alt d → (p = true → d.idle = false) →
    Sat (processDescriptor n k code d dl p t) (fun k' => k'.held = k.held ∧ k'.config = k.config) AnyErr
  | 0, _, _, _, _, _, _, _, _, _ => trivial
  | n + 1, k, code, d, dl, p, t, h1', hs, hi => by
    unfold processDescriptor
    have f : Calm k (pdMacroPrefix k d dl p) := .of_frame (Calm.pdMacroPrefix k d dl p)
    refine Sat.bind (Q := fun k' => k'.held = k.held ∧ k'.config = k.config) ?_ (fun k1 h => ?_)
    rotate_left
    · show (if p = true then _ else _ : Kbd).held = _ ∧ (if p = true then _ else _ : Kbd).config = _
      split
      · exact h
      · exact h
    have g1 : (pdMacroPrefix k d dl p).held = k.held ∧ (pdMacroPrefix k d dl p).config = k.config := ⟨f.held, f.config⟩
    revert g1
    generalize pdMacroPrefix k d dl p = k0
    intro g1
    have calm : ∀ {r : Res Kbd}, Sat r (Calm k0) AnyErr → Sat r (fun k' => k'.held = k.held ∧ k'.config = k.config) AnyErr :=
      fun hr => hr.imp (fun _ hc => ⟨hc.held.trans g1.1, hc.config.trans g1.2⟩)
    unfold pdSwitch
    cases d with
    | none => exact g1
    | keyseq c' m => exact calm (Calm.pdKeyseq _ _ _ _ _ _)
    | scroll s => exact g1
    | scrollToggle s => exact g1
    | overloadIdle d1 d2 tm =>
      dsimp only
      split
      · rename_i hp; exact absurd (hi hp) (fun h => by cases h)
      · exact g1
    | overloadTimeout l a tm =>
      dsimp only
      split
      · refine (Calm.schedule _ _).imp (fun k1 h1 => ?_)
        exact ⟨h1.held.trans g1.1, h1.config.trans g1.2⟩
      · exact g1
    | overloadTimeoutTap l a tm =>
      dsimp only
      split
      · refine (Calm.schedule _ _).imp (fun k1 h1 => ?_)
        exact ⟨h1.held.trans g1.1, h1.config.trans g1.2⟩
      · exact g1
    | timeout d1 tm d2 =>
      dsimp only
      split
      · refine (Calm.schedule _ _).imp (fun k1 h1 => ?_)
        exact ⟨h1.held.trans g1.1, h1.config.trans g1.2⟩
      · exact g1
    | layout l =>
      dsimp only
      split
      · exact calm (Calm.setlayout _ _)
      · exact g1
    | layer l => exact calm (Calm.pdLayer _ _ _ _)
    | layerm l m => exact calm (Calm.pdLayer _ _ _ _)
    | clear =>
      dsimp only
      split
      · exact calm (Calm.clear _)
      · exact g1
    | clearm m =>
      dsimp only
      split
      · refine (calm (Calm.clear _)).bind (fun k1 h1 => ?_)
        have f : Calm k1 (executeMacro k1 dl (k1.config.mac m)) := .of_frame (.executeMacro _ _ _)
        exact ⟨f.held.trans h1.1, f.config.trans h1.2⟩
      · exact g1
    | overload l a =>
      dsimp only
      split
      · exact calm (Calm.pdOverloadPress _ _ _ _)
      · unfold pdOverloadRelease
        refine (calm (Calm.deactivate _ _)).bind (fun k1 h1 => ?_)
        dsimp only
        have f : Calm k1 (updateMods k1 none 0) := .of_frame (.updateMods _ _ _)
        have h2 : (updateMods k1 none 0).held = k.held ∧ (updateMods k1 none 0).config = k.config := ⟨f.held.trans h1.1, f.config.trans h1.2⟩
        revert h2
        generalize updateMods k1 none 0 = k2
        intro h2
        refine Sat.ite (fun _ => ?_) (fun _ => h2)
        have hda : (k0.config.desc a).deferred = false := by rw [g1.2, h1']; exact hc.deferred a hs
        have hsa : Sober tap alt (k0.config.desc a) := by rw [g1.2, h1']; exact (hc.descs a).1
        revert hda hsa
        generalize k0.config.desc a = act
        intro hda hsa
        have hidle : act.idle = false := by
          revert hda
          cases act <;> first | (intro _; rfl) | (intro h; cases h)
        split
        · rename_i m
          have f : Calm k2 (executeMacro k2 dl (k2.config.mac m)) := .of_frame (.executeMacro _ _ _)
          exact ⟨f.held.trans h2.1, f.config.trans h2.2⟩
        · refine (held_act hc n _ _ _ _ _ _ (h2.2.trans h1') hsa (fun _ => hidle)).bind (fun k3 h3 => ?_)
          refine (held_act hc n _ _ _ _ _ _ (h3.2.trans (h2.2.trans h1')) hsa (fun _ => hidle)).imp (fun k4 h4 => ?_)
          exact ⟨h4.1.trans (h3.1.trans h2.1), h4.2.trans (h3.2.trans h2.2)⟩
    | oneshot l => exact calm (Calm.pdOneshot _ _ _ _ _ _)
    | oneshotm l m => exact calm (Calm.pdOneshot _ _ _ _ _ _)
    | «macro» m =>
      dsimp only
      split
      · exact calm (Calm.pdMacro _ _ _ _ _ _)
      · exact g1
    | macro2 tm r m =>
      dsimp only
      split
      · exact calm (Calm.pdMacro _ _ _ _ _ _)
      · exact g1
    | toggle l =>
      dsimp only
      split
      · exact calm (Calm.pdToggle _ _ _)
      · exact g1
    | togglem l m =>
      dsimp only
      split
      · exact calm (Calm.pdToggle _ _ _)
      · exact g1
    | command cm =>
      dsimp only
      split
      · exact calm (Calm.pdCommand _ _)
      · exact g1
    | swap l => exact hs.elim
    | swapm l m => exact hs.elim

/-! ### The invariant -/

theorem isKey_deferred {d : Desc} (h : d.deferred = true) : d.isKey = false := by
  cases d <;> first | rfl | cases h

/-- A key that is sent while it is held is among these. -/
def KeyHeld (l : List (Code × Desc)) : Prop := ∃ q ∈ l, q.1 ≠ 0 ∧ q.2.isKey = true

theorem press_loose {n : Nat} {k k' : Kbd} {code : Code} {d : Desc} {dl : Nat} {t : Int} {pre post : List (Code × Desc)}
    (hc : Clean tap alt quiet os tg c) (h1 : k.config = c) (h2 : Depths os tg k) (halt : ∀ a, alt a → (c.desc a).idle = false)
    (hs : Sober tap alt d) (hd : Tidying quiet os tg d) (hheld : k.held = pre ++ (code, d) :: post) (h0 : code ≠ 0)
    (hpre : ∀ p ∈ pre, p.1 ≠ code) (hl : Trim k ∨ KeyHeld (pre ++ post)) (e : processDescriptor n k code d dl true t = .ok k') :
    k'.config = c ∧ Depths os tg k' ∧ (Trim k' ∨ KeyHeld k'.held) := by
  have others : ∀ d', KeyHeld (pre ++ post) → KeyHeld (pre ++ (code, d') :: post) := by
    rintro d' ⟨q, hq, hx⟩
    refine ⟨q, ?_, hx⟩
    rw [List.mem_append] at hq ⊢
    exact hq.imp id (List.mem_cons_of_mem _)
  -- one action that is not `overloadi`
  have one : ∀ (m : Nat) (d' : Desc) (k1 : Kbd), Sober tap alt d' → Tidying quiet os tg d' → d'.idle = false →
      processDescriptor m k code d' dl true t = .ok k1 →
      k1.config = c ∧ Depths os tg k1 ∧ k1.held = pre ++ (code, d) :: post ∧ (Trim k1 ∨ KeyHeld (pre ++ (code, d') :: post)) := by
    intro m d' k1 hs hd hi e
    have a := after_act hc m k k1 code d' dl true t h1 h2 hs hd (fun _ => hi) e
    have b := (held_act hc m k code d' dl true t h1 hs (fun _ => hi)).of_ok e
    refine ⟨a.1, a.2.1, b.1.trans hheld, ?_⟩
    rcases hl with hl | hl
    · rcases a.2.2 (.inl hl) with h | ⟨_, h⟩
      · exact .inl h
      · exact .inr ⟨(code, d'), by simp, h0, h⟩
    · exact .inr (others d' hl)
  cases hi : d.idle with
  | false =>
    obtain ⟨a1, a2, a3, a4⟩ := one n d k' hs hd hi e
    exact ⟨a1, a2, by rw [a3]; exact a4⟩
  | true =>
    cases n with
    | zero => cases e
    | succ n =>
      cases d with
      | overloadIdle a b tm =>
        unfold processDescriptor at e
        change (pdOverloadIdle (processDescriptor n) k code a b tm dl t >>= fun k => (.ok { k with lastPressedCode := code } : Res Kbd)) = .ok k' at e
        obtain ⟨k2, e2, e⟩ := bind_eq_ok.1 e
        unfold pdOverloadIdle at e2
        dsimp only at e2
        have hact : Sober tap alt (idleAction k a b tm t) ∧ Tidying quiet os tg (idleAction k a b tm t) ∧ (idleAction k a b tm t).idle = false := by
          unfold idleAction
          rw [h1]
          split
          · exact ⟨(hc.descs _).1, (hc.descs _).2, halt _ hs.2⟩
          · exact ⟨(hc.descs _).1, (hc.descs _).2, halt _ hs.1⟩
        revert hact e2
        generalize idleAction k a b tm t = act
        rintro e2 ⟨x1, x2, x3⟩
        obtain ⟨k1, e1, e2⟩ := bind_eq_ok.1 e2
        obtain ⟨a1, a2, a3, a4⟩ := one n act k1 x1 x2 x3 e1
        have hh : (cacheModify k1 code fun e => { e with d := act }).held = pre ++ (code, act) :: post :=
          modifyFirst_held k1.cache (by rw [← a3]; rfl) hpre
        rw [← Except.ok.inj e, ← Except.ok.inj e2]
        refine ⟨a1, a2.frame rfl, ?_⟩
        rcases a4 with h | h
        · exact .inl (h.frame rfl rfl rfl rfl)
        · right
          show KeyHeld (cacheModify k1 code fun e => { e with d := act }).held
          rw [hh]; exact h
      | _ => cases hi

/-- Bindings covered by C81. -/
def NeatT (L Y tap alt quiet os : Nat → Prop) (tg : Prop) (d : Desc) : Prop := SoberT L Y tap alt d ∧ Tidying quiet os tg d

theorem neatT_closed {L Y : Nat → Prop} : TClosed (NeatT L Y tap alt quiet os tg) where
  none := ⟨soberT_closed.none, trivial⟩
  keyseq := fun c m => ⟨soberT_closed.keyseq c m, trivial⟩
  ot := fun l a t h => ⟨soberT_closed.ot l a t h.1, trivial⟩
  ott := fun l a t h => ⟨soberT_closed.ott l a t h.1, trivial⟩
  swap := fun l h => ⟨soberT_closed.swap l h.1, trivial⟩
  swapm := fun l m h => ⟨soberT_closed.swapm l m h.1, trivial⟩

theorem Stored.mono {T T' : Desc → Prop} (hT : ∀ d, T d → T' d) {k : Kbd} (h : Stored T k) : Stored T' k :=
  ⟨fun e he => hT _ (h.cache e he), hT _ h.a1, hT _ h.a2, fun a ha => hT _ (h.chords a ha),
    ⟨fun i => hT _ (h.table.descs i), fun i c => hT _ (h.table.keys i c), fun i ch hc => hT _ (h.table.chords i ch hc)⟩⟩

structure Kempt (L Y tap alt quiet os : Nat → Prop) (tg : Prop) (k : Kbd) : Prop where
  bal : InBalance L Y tap alt k
  clean : Clean tap alt quiet os tg k.config
  depths : Depths os tg k
  loose : Trim k ∨ KeyHeld k.held

variable {L Y : Nat → Prop}

theorem Kempt.frame {k k' : Kbd} (h : Kempt L Y tap alt quiet os tg k) (hb : InBalance L Y tap alt k') (h1 : k'.cache = k.cache) (h2 : k'.config = k.config)
    (h3 : k'.layerState = k.layerState) (h4 : k'.keystate = k.keystate) (h5 : k'.activeMacro = k.activeMacro) : Kempt L Y tap alt quiet os tg k' := by
  refine ⟨hb, by rw [h2]; exact h.clean, h.depths.frame h3, ?_⟩
  rcases h.loose with x | x
  · exact .inl (x.frame h4 h2 h3 h5)
  · right
    unfold Kbd.held
    rw [h1]; exact x

theorem kempt_key {k k' : Kbd} {code : Code} {p : Bool} {t : Int} (hs : Stored (NeatT L Y tap alt quiet os tg) k) (h : Kempt L Y tap alt quiet os tg k)
    (e : stepKey k code p t = .ok k') (hb : InBalance L Y tap alt k') : Kempt L Y tap alt quiet os tg k' := by
  have finish : (k'.config = k.config ∧ Depths os tg k' ∧ (Trim k' ∨ KeyHeld k'.held)) → Kempt L Y tap alt quiet os tg k' :=
    fun x => ⟨hb, by rw [x.1]; exact h.clean, x.2.1, x.2.2⟩
  unfold stepKey at e
  split at e
  · rw [← Except.ok.inj e]; exact h
  rename_i hc0
  split at e
  · split at e
    · rw [← Except.ok.inj e] at hb ⊢
      exact h.frame hb rfl rfl rfl rfl rfl
    · rename_i hget
      have hl := hs.lookup neatT_closed code
      revert hl e
      generalize lookupDescriptor k code = r
      obtain ⟨d, dl⟩ := r
      intro e hl
      dsimp only at hl e
      split at e
      · rw [← Except.ok.inj e] at hb ⊢
        exact h.frame hb rfl rfl rfl rfl rfl
      · rename_i k1 hk1
        obtain ⟨pre, x, post, h1, h2, h3⟩ := cacheSet_some_split hk1
        have hno : ∀ e ∈ k.cache, e.code ≠ code := by
          intro e he hec
          apply hget
          unfold cacheGet
          rw [List.find?_isSome]
          exact ⟨e, he, by simpa using hec⟩
        have hx0 : x.code = 0 := by
          rcases h3 with h3 | h3
          · exact absurd h3 (hno x (by rw [h1]; simp))
          · exact h3.1
        subst h2
        refine finish (press_loose (pre := pre.map fun e => (e.code, e.d)) (post := post.map fun e => (e.code, e.d)) h.clean ?_
          ?_ h.bal.ctx.alts hl.1.2 hl.2 ?_ hc0 ?_ ?_ e)
        · rfl
        · exact h.depths.frame rfl
        · simp [Kbd.held, Kbd.log]
        · intro q hq
          obtain ⟨y, hy, rfl⟩ := List.mem_map.1 hq
          exact hno y (by rw [h1, List.mem_append]; exact .inl hy)
        · rcases h.loose with y | ⟨q, hq, hq0, hqk⟩
          · exact .inl (y.frame rfl rfl rfl rfl)
          · refine .inr ⟨q, ?_, hq0, hqk⟩
            unfold Kbd.held at hq
            rw [h1, List.map_append, List.map_cons, List.mem_append, List.mem_cons] at hq
            rw [List.mem_append]
            rcases hq with hq | rfl | hq
            · exact .inl hq
            · exact absurd hx0 hq0
            · exact .inr hq
  · split at e
    · rw [← Except.ok.inj e] at hb ⊢
      exact h.frame hb rfl rfl rfl rfl rfl
    · rename_i ce hce
      dsimp only at e
      obtain ⟨pre, post, h1, h2, h3, h4⟩ := cacheSet_none_split hce
      have hT : NeatT L Y tap alt quiet os tg ce.d := hs.cache ce (List.mem_of_find?_eq_some hce)
      rw [h4] at e
      simp only [Option.getD_some] at e
      have a := after_act h.clean _ _ _ _ _ _ _ _ (by rfl) (h.depths.frame (by rfl)) hT.1.2 hT.2 (fun h => by cases h) e
      have b := (held_act h.clean _ _ _ _ _ _ _ (by rfl) hT.1.2 (fun h => by cases h)).of_ok e
      refine finish ⟨a.1, a.2.1, ?_⟩
      have hb1 : k'.held = pre.map (fun e => (e.code, e.d)) ++ (0, ce.d) :: post.map (fun e => (e.code, e.d)) := by
        rw [b.1]; simp [Kbd.held, Kbd.log]
      have give : Trim k ∨ ce.d.isKey = true → Trim k' := by
        intro y
        rcases a.2.2 (y.imp (fun y => y.frame rfl rfl rfl rfl) (fun y => ⟨rfl, y⟩)) with z | ⟨z, _⟩
        · exact z
        · cases z
      rcases h.loose with y | ⟨q, hq, hq0, hqk⟩
      · exact .inl (give (.inl y))
      · unfold Kbd.held at hq
        rw [h1, List.map_append, List.map_cons, List.mem_append, List.mem_cons] at hq
        rcases hq with hq | hq | hq
        · exact .inr ⟨q, by rw [hb1]; simp [hq], hq0, hqk⟩
        · exact .inl (give (.inr (by rw [hq] at hqk; exact hqk)))
        · exact .inr ⟨q, by rw [hb1, List.mem_append]; exact .inr (List.mem_cons_of_mem _ hq), hq0, hqk⟩

theorem kempt_resolve {k : Kbd} {a : Desc} {t : Int} {r : Kbd × List KeyEvent} (h : Kempt L Y tap alt quiet os tg k)
    (hc : k.pending.code ≠ 0) (hT : NeatT L Y tap alt quiet os tg a) (e : resolvePendingStep k a t = .ok r) (hb : InBalance L Y tap alt r.1) :
    Kempt L Y tap alt quiet os tg r.1 := by
  unfold resolvePendingStep at e
  dsimp only at e
  obtain ⟨k1, e1, e⟩ := bind_eq_ok.1 e
  have er := Except.ok.inj e
  subst er
  dsimp only at hb ⊢
  obtain ⟨q, hq, hq1, hq2⟩ := h.bal.pend hc
  obtain ⟨y, he, rfl⟩ := List.mem_map.1 hq
  cases hset : cacheSet { k with pending := { k.pending with code := 0, queue := [], tapExpiry := 0 } } k.pending.code
      (some { d := a, dl := k.pending.dl, layer := 0 }) with
  | none =>
    exfalso
    unfold cacheSet at hset
    split at hset
    · rename_i hslot
      have hg : (cacheGet k k.pending.code).isSome := by
        unfold cacheGet
        rw [List.find?_isSome]
        exact ⟨y, he, by simpa using hq1⟩
      obtain ⟨ce, hce⟩ := Option.isSome_iff_exists.1 hg
      obtain ⟨_, _, _, _, _, h4⟩ := cacheSet_none_split hce
      unfold cacheSet at h4
      rw [show cacheSlot k.pending.code k.cache 0 none = none from hslot] at h4
      cases h4
    · cases hset
  | some k2 =>
    rw [hset] at e1
    simp only [Option.getD_some] at e1
    obtain ⟨pre, x, post, h1, h2, h3⟩ := cacheSet_some_split hset
    have h1 : k.cache = pre ++ x :: post := h1
    have hxc : x.code = k.pending.code := by
      rcases h3 with h3 | ⟨_, h3⟩
      · exact h3
      · exact absurd hq1 (h3 y he)
    have hheld : k.held = pre.map (fun e => (e.code, e.d)) ++ (x.code, x.d) :: post.map (fun e => (e.code, e.d)) := by
      unfold Kbd.held; rw [h1]; simp
    have ho := apart_others (p := (x.code, x.d)) (by rw [← hheld]; exact h.bal.apart) (by simpa [hxc] using hc)
    have hxd : x.d.deferred = true := by
      rw [hheld, List.mem_append, List.mem_cons] at hq
      rcases hq with hq | hq | hq
      · exact absurd (hq1.trans hxc.symm) (ho _ (List.mem_append.2 (.inl hq)))
      · have : y.d = x.d := by injection hq
        rw [← this]; exact hq2
      · exact absurd (hq1.trans hxc.symm) (ho _ (List.mem_append.2 (.inr hq)))
    subst h2
    have fin := press_loose (pre := pre.map fun e => (e.code, e.d)) (post := post.map fun e => (e.code, e.d)) h.clean ?_
      ?_ h.bal.ctx.alts hT.1.2 hT.2 ?_ hc (fun p hp => by rw [← hxc]; exact ho p (List.mem_append.2 (.inl hp))) (?_) e1
    rotate_left
    · rfl
    · exact h.depths.frame rfl
    · simp [Kbd.held, Kbd.log]
    rotate_left
    · exact ⟨hb, by rw [fin.1]; exact h.clean, fin.2.1, fin.2.2⟩
    · rcases h.loose with z | ⟨q, hq, hq0, hqk⟩
      · exact .inl (z.frame rfl rfl rfl rfl)
      · refine .inr ⟨q, ?_, hq0, hqk⟩
        rw [hheld, List.mem_append, List.mem_cons] at hq
        rw [List.mem_append]
        rcases hq with hq | rfl | hq
        · exact .inl hq
        · dsimp only at hqk
          rw [isKey_deferred hxd] at hqk
          cases hqk
        · exact .inr hq

theorem kempt_timers {k k' : Kbd} {code : Code} {t : Int} (h : Kempt L Y tap alt quiet os tg k) (e : stepTimers k code t = .ok k')
    (hb : InBalance L Y tap alt k') : Kempt L Y tap alt quiet os tg k' := by
  have cm := (Calm.stepTimers k code t).of_ok e
  unfold stepTimers at e
  obtain ⟨k1, e1, e⟩ := bind_eq_ok.1 e
  have s1 : Depths os tg k1 ∧ (Trim k1 ∨ KeyHeld k.held) := by
    split at e1
    · obtain ⟨k0, e0, e1⟩ := bind_eq_ok.1 e1
      have hd := depth_clearOneshot e0
      rw [← Except.ok.inj e1]
      exact ⟨(h.depths.same hd.2).frame (KeyFrame.updateMods k0 none 0).layerState, .inl (.inl (tidy_updateMods _ _))⟩
    · rw [← Except.ok.inj e1]; exact ⟨h.depths, h.loose⟩
  refine ⟨hb, by rw [cm.config]; exact h.clean, ?_, ?_⟩
  all_goals
    revert e
    cases hm : k1.activeMacro with
    | none =>
      intro e
      have e := Except.ok.inj e
      rw [e] at s1
      first | exact s1.1 | (rw [cm.held]; exact s1.2)
    | some m =>
      intro e
      dsimp only at e
      split at e
      · have e := Except.ok.inj e
        rw [← e]
        first | exact Depths.frame s1.1 (KeyFrame.updateMods { k1 with activeMacro := none } none 0).layerState | exact .inl (.inl (tidy_updateMods _ _))
      · split at e
        · obtain ⟨ts, e⟩ := schedule_frame e
          have f := KeyFrame.executeMacro k1 k1.activeMacroLayer (k1.config.mac m)
          have fa : (executeMacro k1 k1.activeMacroLayer (k1.config.mac m)).activeMacro = k1.activeMacro := by
            obtain ⟨_, _, _, g, _⟩ := f; rw [g]
          rw [e]
          first
          | exact Depths.frame (k := k1) s1.1 f.layerState
          | (refine .inl (.inr ?_)
             show (executeMacro k1 k1.activeMacroLayer (k1.config.mac m)).activeMacro ≠ none
             rw [fa, hm]; simp)
        · have e := Except.ok.inj e
          rw [e] at s1
          first | exact s1.1 | (rw [cm.held]; exact s1.2)

theorem kempt_tInv : TInv (NeatT L Y tap alt quiet os tg) (Kempt L Y tap alt quiet os tg) AnyErr where
  errs _ _ := trivial
  chord k ch h := h.frame (balance_tInv.chord k ch h.bal) rfl rfl rfl rfl rfl
  timeouts k ts h := h.frame (balance_tInv.timeouts k ts h.bal) rfl rfl rfl rfl rfl
  passed k ev h := h.frame (balance_tInv.passed k ev h.bal) rfl rfl rfl rfl rfl
  swallowed k evs h := h.frame (balance_tInv.swallowed k evs h.bal) rfl rfl rfl rfl rfl
  activeChords k ac h := h.frame (balance_tInv.activeChords k ac h.bal) rfl rfl rfl rfl rfl
  enqueue k q h := h.frame (balance_tInv.enqueue k q h.bal) rfl rfl rfl rfl rfl
  resolve k a t hs h hp h0 hT ha := Sat.intro (fun r hr =>
    kempt_resolve h hp hT hr ((balance_tInv.resolve k a t (hs.mono (fun _ h => h.1)) h.bal hp h0 hT.1 ha).of_ok hr))
  timers k c t hs h := Sat.intro (fun r hr => kempt_timers h hr ((balance_tInv.timers k c t (hs.mono (fun _ h => h.1)) h.bal).of_ok hr))
  key k c p t hs h hp := Sat.intro (fun r hr => kempt_key hs h hr ((balance_tInv.key k c p t (hs.mono (fun _ h => h.1)) h.bal hp).of_ok hr))

end Keyd
