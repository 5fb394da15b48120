import Verif.Proofs.Stored
import Verif.Props.Bindings

/-
  An invariant principle for predicates about layer activations only.
-/

set_option autoImplicit false

namespace Keyd

attribute [local irreducible] configInit

def Out.isLayer : Out → Bool
  | .layer _ _ => true
  | _ => false

/-- The layer changes announced, newest first. -/
def Kbd.layerTrace (k : Kbd) : List Out := k.trace.filter Out.isLayer

/-- Same layers, clock, announced layer changes and tables. -/
structure LayerView (k k' : Kbd) : Prop where
  layerState : k'.layerState = k.layerState
  clock : k'.clock = k.clock
  trace : k'.layerTrace = k.layerTrace
  config : k'.config = k.config

theorem LayerView.trans {a b c : Kbd} (h : LayerView a b) (h' : LayerView b c) : LayerView a c :=
  ⟨h'.1.trans h.1, h'.2.trans h.2, h'.3.trans h.3, h'.4.trans h.4⟩

theorem LayerView.refl (k : Kbd) : LayerView k k := ⟨rfl, rfl, rfl, rfl⟩

theorem LayerView.of_frame {k k' : Kbd} (h : KeyFrame k k') : LayerView k k' := by
  obtain ⟨ks, lp, os, rfl, ho⟩ := h
  refine ⟨rfl, rfl, ?_, rfl⟩
  show (os ++ k.trace).filter Out.isLayer = k.trace.filter Out.isLayer
  rw [List.filter_append, List.filter_eq_nil_iff.2, List.nil_append]
  intro o hm
  have := ho o hm
  cases o <;> simp_all [Out.isKeyOrSleep, Out.isLayer]

/-- The layers an action can activate satisfy `L`, the layouts it can select `Y`. -/
def TargetsIn (L Y : Nat → Prop) : Desc → Prop
  | .oneshot l => L l
  | .layer l => L l
  | .swap l => L l
  | .toggle l => L l
  | .oneshotm l _ => L l
  | .layerm l _ => L l
  | .swapm l _ => L l
  | .togglem l _ => L l
  | .overload l _ => L l
  | .overloadTimeout l _ _ => L l
  | .overloadTimeoutTap l _ _ => L l
  | .layout l => Y l
  | _ => True

theorem targetsIn_closed (L Y : Nat → Prop) : TClosed (TargetsIn L Y) :=
  ⟨trivial, fun _ _ => trivial, fun _ _ _ h => h, fun _ _ _ h => h, fun _ h => h, fun _ _ h => h⟩

/-- The layer part of `deactivate_layer`. -/
def deactStep (k : Kbd) (i : Nat) : Kbd :=
  (k.modLayer i fun s => { s with active := s.active - 1 }).emit (.layer i false)

/-- The layer part of `activate_layer`. -/
def actStep (k : Kbd) (i : Nat) : Kbd :=
  (({ k with clock := k.clock + 1 } : Kbd).modLayer i fun s =>
    { s with active := s.active + 1, activationTime := k.clock }).emit (.layer i true)

/-- The part of `setlayout` after `clear`. -/
def layoutStep (k : Kbd) (idx : Nat) : Kbd :=
  let k := (nonMainLayers k).foldl (fun k i =>
    if (k.config.layer i).type = .layout then
      k.modLayer i fun s => { s with active := 0 }
    else k) k
  let k := if idx ≠ 0 then
      k.modLayer idx fun s => { s with active := 1, activationTime := 1 }
    else k
  k.emit (.layer idx true)

theorem cacheSetD_view (k : Kbd) (c : Code) (e : Option CacheEntry) : LayerView k ((cacheSet k c e).getD k) := by
  cases hs : cacheSet k c e with
  | none => exact .refl k
  | some k' =>
    unfold cacheSet at hs
    split at hs
    · cases hs
    · split at hs <;> (cases hs; exact ⟨rfl, rfl, rfl, rfl⟩)

/-- The tables do not change while processing events. -/
theorem config_outInv (c : Config) : OutInv (fun k => k.config = c) := by
  refine ⟨?_, ?_, ?_, ?_, ?_⟩
  · intro k k' _ hc _ _ h; rw [hc]; exact h
  · intro k x b h; rw [sendKey_config]; exact h
  · intro k x h _; exact h
  · intro k o _ h; exact h
  · intro k i t _ h; rw [(KeyFrame.emitMacro _ k).config]; exact h

structure LayerInv (L Y : Nat → Prop) (P : Kbd → Prop) : Prop where
  view : ∀ k k', LayerView k k' → P k → P k'
  deact : ∀ k i, L i → (k.layerState i).active ≠ 0 → P k → P (deactStep k i)
  act : ∀ k i, L i → P k → P (actStep k i)
  flags : ∀ k i f, L i → (∀ s : LayerSt, (f s).active = s.active ∧ (f s).activationTime = s.activationTime) →
    P k → P (k.modLayer i f)
  layout : ∀ k i, Y i → P k → P (layoutStep k i)

/-- Only layers satisfying `L` are ever toggled, latched or held. -/
structure OnlyL (L : Nat → Prop) (k : Kbd) : Prop where
  flags : ∀ i, ¬ L i → (k.layerState i).toggled = false ∧ (k.layerState i).oneshotDepth = 0
  cache : ∀ e ∈ k.cache, e.layer = 0 ∨ L e.layer

/-- The predicate together with `OnlyL`. -/
abbrev WithL (L : Nat → Prop) (P : Kbd → Prop) (k : Kbd) : Prop := P k ∧ OnlyL L k

theorem OnlyL.toggled {L : Nat → Prop} {k : Kbd} (h : OnlyL L k) {i : Nat}
    (ht : (k.layerState i).toggled = true) : L i := by
  by_contra hn
  rw [(h.flags i hn).1] at ht
  cases ht

theorem OnlyL.oneshot {L : Nat → Prop} {k : Kbd} (h : OnlyL L k) {i : Nat}
    (ht : (k.layerState i).oneshotDepth ≠ 0) : L i := by
  by_contra hn
  exact ht (h.flags i hn).2

theorem OnlyL.modL {L : Nat → Prop} {k : Kbd} (h : OnlyL L k) (i : Nat) (f : LayerSt → LayerSt)
    (hf : L i ∨ ∀ s : LayerSt, (f s).toggled = s.toggled ∧ (f s).oneshotDepth = s.oneshotDepth) :
    OnlyL L (k.modLayer i f) := by
  refine ⟨?_, h.cache⟩
  intro j hj
  unfold Kbd.modLayer upd
  dsimp only
  split
  · rename_i hji
    subst hji
    rcases hf with hf | hf
    · exact absurd hf hj
    · rw [(hf _).1, (hf _).2]; exact h.flags _ hj
  · exact h.flags j hj

theorem layoutFold_spec : ∀ (l : List Nat) (k : Kbd), ∃ ls : Nat → LayerSt,
    l.foldl (fun (k : Kbd) i => if (k.config.layer i).type = .layout then
      k.modLayer i fun s => { s with active := 0 } else k) k = { k with layerState := ls } ∧
    ∀ i, ls i = if i ∈ l ∧ (k.config.layer i).type = .layout then { k.layerState i with active := 0 }
      else k.layerState i
  | [], k => ⟨k.layerState, rfl, fun i => by simp⟩
  | a :: l, k => by
    by_cases ha : (k.config.layer a).type = .layout
    · obtain ⟨ls, h1, h2⟩ := layoutFold_spec l (k.modLayer a fun s => { s with active := 0 })
      refine ⟨ls, ?_, ?_⟩
      · rw [List.foldl_cons, if_pos ha, h1]; rfl
      · intro i
        rw [h2 i]
        show (if i ∈ l ∧ (k.config.layer i).type = .layout then _ else _) = _
        unfold Kbd.modLayer upd
        dsimp only
        by_cases hia : i = a
        · subst hia
          simp [ha]
        · simp [hia]
    · obtain ⟨ls, h1, h2⟩ := layoutFold_spec l k
      refine ⟨ls, ?_, ?_⟩
      · rw [List.foldl_cons, if_neg ha, h1]
      · intro i
        rw [h2 i]
        by_cases hia : i = a
        · subst hia; simp [ha]
        · simp [hia]

/-- The layers after `setlayout`'s last part. -/
theorem layoutStep_spec (k : Kbd) (idx : Nat) : ∃ ls : Nat → LayerSt,
    layoutStep k idx = ({ k with layerState := ls } : Kbd).emit (.layer idx true) ∧
    ∀ i, ls i = if i = idx ∧ idx ≠ 0 then { ls i with active := 1, activationTime := 1 }
      else if i ∈ nonMainLayers k ∧ (k.config.layer i).type = .layout then { k.layerState i with active := 0 }
      else k.layerState i := by
  obtain ⟨ls, h1, h2⟩ := layoutFold_spec (nonMainLayers k) k
  unfold layoutStep
  rw [h1]
  by_cases h0 : idx = 0
  · refine ⟨ls, by simp [h0], ?_⟩
    intro i
    rw [if_neg (by simp [h0])]
    exact h2 i
  · refine ⟨upd ls idx { ls idx with active := 1, activationTime := 1 }, by simp [h0, Kbd.modLayer], ?_⟩
    intro i
    unfold upd
    by_cases hi : i = idx
    · subst hi; simp [h0]
    · simp [hi, h2 i]

theorem layoutStep_flags (k : Kbd) (idx i : Nat) :
    ((layoutStep k idx).layerState i).toggled = (k.layerState i).toggled ∧
    ((layoutStep k idx).layerState i).oneshotDepth = (k.layerState i).oneshotDepth := by
  obtain ⟨ls, h1, h2⟩ := layoutFold_spec (nonMainLayers k) k
  unfold layoutStep
  rw [h1]
  have : ∀ i, (ls i).toggled = (k.layerState i).toggled ∧ (ls i).oneshotDepth = (k.layerState i).oneshotDepth := by
    intro i
    rw [h2 i]
    split <;> exact ⟨rfl, rfl⟩
  dsimp only
  split
  · unfold Kbd.emit Kbd.modLayer upd
    dsimp only
    split
    · rename_i h; subst h; exact this _
    · exact this i
  · exact this i

theorem OnlyL.layoutStep {L : Nat → Prop} {k : Kbd} (h : OnlyL L k) (idx : Nat) : OnlyL L (layoutStep k idx) := by
  refine ⟨?_, ?_⟩
  · intro i hi
    rw [(layoutStep_flags k idx i).1, (layoutStep_flags k idx i).2]
    exact h.flags i hi
  · obtain ⟨ls, h1, _⟩ := layoutStep_spec k idx
    rw [h1]
    exact h.cache

namespace LayerInv

variable {L Y : Nat → Prop} {P : Kbd → Prop} (I : LayerInv L Y P)
include I

theorem frame {k k' : Kbd} (hf : KeyFrame k k') (h : WithL L P k) : WithL L P k' :=
  ⟨I.view _ _ (.of_frame hf) h.1, ⟨by rw [hf.layerState]; exact h.2.flags, by rw [hf.cache]; exact h.2.cache⟩⟩

theorem set {k k' : Kbd} (h : WithL L P k) (h1 : k'.layerState = k.layerState) (h2 : k'.clock = k.clock)
    (h3 : k'.layerTrace = k.layerTrace) (h4 : k'.config = k.config) (h5 : k'.cache = k.cache) : WithL L P k' :=
  ⟨I.view _ _ ⟨h1, h2, h3, h4⟩ h.1, ⟨by rw [h1]; exact h.2.flags, by rw [h5]; exact h.2.cache⟩⟩

theorem modFlags {k : Kbd} (i : Nat) (f : LayerSt → LayerSt) (hi : L i)
    (hf : ∀ s : LayerSt, (f s).active = s.active ∧ (f s).activationTime = s.activationTime) (h : WithL L P k) :
    WithL L P (k.modLayer i f) :=
  ⟨I.flags k i f hi hf h.1, h.2.modL i f (.inl hi)⟩

theorem deactivate {k : Kbd} (i : Nat) (hi : L i) (h : WithL L P k) :
    Sat (deactivateLayer k i) (WithL L P) AnyErr := by
  unfold deactivateLayer
  dsimp only
  split
  · trivial
  · refine ⟨I.deact k i hi (by assumption) h.1, ?_⟩
    have := h.2.modL i (fun s => { s with active := s.active - 1 }) (.inl hi)
    exact ⟨this.flags, this.cache⟩

theorem activate {k : Kbd} (c : Code) (i : Nat) (hi : L i) (h : WithL L P k) :
    Sat (activateLayer k c i) (WithL L P) AnyErr := by
  unfold activateLayer
  dsimp only
  split
  · trivial
  · refine ⟨I.view (actStep k i) _ ⟨rfl, rfl, rfl, rfl⟩ (I.act k i hi h.1), ?_⟩
    have := h.2.modL i (fun s => { s with active := s.active + 1, activationTime := k.clock }) (.inl hi)
    refine ⟨this.flags, ?_⟩
    intro e he
    rcases modifyFirst_mem he with he | ⟨y, _, _, rfl⟩
    · exact h.2.cache e he
    · exact .inr hi

theorem clearOneshotLayer (i : Nat) : ∀ (n : Nat) (k : Kbd), (n = 0 ∨ L i) → WithL L P k →
    Sat (clearOneshotLayer i n k) (WithL L P) AnyErr
  | 0, _, _, h => h
  | n+1, k, hi, h => by
    have hi : L i := by rcases hi with hi | hi; · cases hi
                        · exact hi
    unfold Keyd.clearOneshotLayer
    exact (I.deactivate i hi h).bind (fun k1 h1 => clearOneshotLayer i n _ (.inr hi)
      (I.modFlags i _ hi (fun _ => ⟨rfl, rfl⟩) h1))

theorem clearOneshotLayers : ∀ (l : List Nat) (k : Kbd), WithL L P k →
    Sat (clearOneshotLayers l k) (WithL L P) AnyErr
  | [], _, h => h
  | i :: is, k, h => by
    unfold Keyd.clearOneshotLayers
    refine (I.clearOneshotLayer i _ k ?_ h).bind (fun k1 h1 => clearOneshotLayers is k1 h1)
    by_cases h0 : (k.layerState i).oneshotDepth = 0
    · exact .inl h0
    · exact .inr (h.2.oneshot h0)

theorem clearOneshot {k : Kbd} (h : WithL L P k) : Sat (clearOneshot k) (WithL L P) AnyErr := by
  unfold Keyd.clearOneshot
  exact (I.clearOneshotLayers _ k h).bind (fun k1 h1 => I.set h1 rfl rfl rfl rfl rfl)

theorem clearToggled : ∀ (l : List Nat) (k : Kbd), WithL L P k → Sat (clearToggled l k) (WithL L P) AnyErr
  | [], _, h => h
  | i :: is, k, h => by
    unfold Keyd.clearToggled
    split
    · rename_i ht
      have hi := h.2.toggled ht.2
      refine (I.deactivate i hi (I.modFlags i (fun s => { s with toggled := false }) hi (fun _ => ⟨rfl, rfl⟩) h)).bind
        (fun k1 h1 => clearToggled is k1 h1)
    · exact clearToggled is k h

theorem clear {k : Kbd} (h : WithL L P k) : Sat (clear k) (WithL L P) AnyErr := by
  unfold Keyd.clear
  refine (I.clearOneshot h).bind (fun k1 h1 => ?_)
  refine (I.clearToggled _ k1 h1).bind (fun k2 h2 => ?_)
  exact I.frame (.resetKeystate _) (I.set h2 rfl rfl rfl rfl rfl)

theorem setlayout {k : Kbd} (i : Nat) (hi : Y i) (h : WithL L P k) : Sat (setlayout k i) (WithL L P) AnyErr := by
  unfold Keyd.setlayout
  refine (I.clear h).bind (fun k1 h1 => ?_)
  exact ⟨I.layout k1 i hi h1.1, h1.2.layoutStep i⟩

theorem schedule {k : Kbd} (t : Int) (h : WithL L P k) : Sat (scheduleTimeout k t) (WithL L P) AnyErr := by
  unfold scheduleTimeout
  split
  · exact I.set h rfl rfl rfl rfl rfl
  · trivial

theorem pdKeyseq {k : Kbd} (c : Code) (m : UInt8) (dl : Nat) (p : Bool) (t : Int) (h : WithL L P k) :
    Sat (pdKeyseq k c m dl p t) (WithL L P) AnyErr := by
  unfold Keyd.pdKeyseq
  refine Sat.bind (Q := WithL L P) ?_ (fun k1 h1 => ?_)
  · split
    · dsimp only
      refine I.clearOneshot (I.frame (KeyFrame.trans ?_ ((KeyFrame.updateMods _ _ _).trans (.send _ _ _))) h)
      split
      · exact .send _ _ _
      · exact .refl _
    · exact I.frame ((KeyFrame.send _ _ _).trans (.updateMods _ _ _)) h
  · show WithL L P _
    split
    · exact I.set h1 rfl rfl rfl rfl rfl
    · exact h1

theorem pdLayer {k : Kbd} (c : Code) (l : Nat) (p : Bool) (hl : L l) (h : WithL L P k) :
    Sat (pdLayer k c l p) (WithL L P) AnyErr := by
  unfold Keyd.pdLayer
  refine Sat.bind (Q := WithL L P) ?_ (fun k1 h1 => ?_)
  · split
    · exact I.activate _ _ hl h
    · exact I.deactivate _ hl h
  · split
    · have h2 : WithL L P (updateMods { k1 with inhibitModifierGuard := true } none 0) :=
        I.frame (.updateMods _ _ _) (I.set h1 rfl rfl rfl rfl rfl)
      exact I.set h2 rfl rfl rfl rfl rfl
    · exact I.frame (.updateMods _ _ _) h1

theorem pdOneshot {k : Kbd} (c : Code) (l dl : Nat) (p : Bool) (t : Int) (hl : L l) (h : WithL L P k) :
    Sat (pdOneshot k c l dl p t) (WithL L P) AnyErr := by
  unfold Keyd.pdOneshot
  split
  · refine (I.activate _ _ hl h).bind (fun k1 h1 => ?_)
    exact I.set (I.frame (.updateMods k1 (some dl) 0) h1) rfl rfl rfl rfl rfl
  · split
    · dsimp only
      split
      · trivial
      · have h1 := I.modFlags l (fun s => { s with oneshotDepth := s.oneshotDepth + 1 }) hl (fun _ => ⟨rfl, rfl⟩) h
        split
        · exact I.schedule _ (I.set h1 rfl rfl rfl rfl rfl)
        · exact h1
    · exact (I.deactivate _ hl h).bind (fun k1 h1 => I.frame (.updateMods _ _ _) h1)

theorem pdMacro {k : Kbd} (m : Nat) (tm iv : Int) (dl : Nat) (t : Int) (h : WithL L P k) :
    Sat (pdMacro k m tm iv dl t) (WithL L P) AnyErr := by
  unfold Keyd.pdMacro
  dsimp only
  refine Sat.bind (Q := WithL L P) (I.clearOneshot ?_) (fun k1 h1 => ?_)
  · exact I.set h rfl rfl rfl rfl rfl
  exact I.schedule _ (I.set (I.frame (.executeMacro k1 dl (k1.config.mac m)) h1) rfl rfl rfl rfl rfl)

theorem pdToggle {k : Kbd} (c : Code) (l : Nat) (hl : L l) (h : WithL L P k) : Sat (pdToggle k c l) (WithL L P) AnyErr := by
  unfold Keyd.pdToggle
  dsimp only
  have h0 := I.modFlags l (fun s => { s with toggled := !s.toggled }) hl (fun _ => ⟨rfl, rfl⟩) h
  refine Sat.bind (Q := WithL L P) ?_ (fun k1 h1 => I.clearOneshot (I.frame (.updateMods k1 none 0) h1))
  split
  · exact I.activate _ _ hl h0
  · exact I.deactivate _ hl h0

theorem pdCommand {k : Kbd} (c : Nat) (h : WithL L P k) : Sat (pdCommand k c) (WithL L P) AnyErr := by
  unfold Keyd.pdCommand
  dsimp only
  refine Sat.bind (Q := WithL L P) (I.clearOneshot ?_) (fun k1 h1 => ?_)
  · exact I.set h rfl rfl rfl rfl rfl
  exact I.frame (.updateMods _ _ _) h1

theorem pdOverloadPress {k : Kbd} (c : Code) (l : Nat) (t : Int) (hl : L l) (h : WithL L P k) :
    Sat (pdOverloadPress k c l t) (WithL L P) AnyErr := by
  unfold Keyd.pdOverloadPress
  dsimp only
  refine Sat.bind (Q := WithL L P) (I.activate c l hl ?_) (fun k1 h1 => ?_)
  · exact I.set h rfl rfl rfl rfl rfl
  exact I.frame (.updateMods _ _ _) h1

theorem stepTimers {k : Kbd} (c : Code) (t : Int) (h : WithL L P k) : Sat (stepTimers k c t) (WithL L P) AnyErr := by
  unfold Keyd.stepTimers
  refine Sat.bind (Q := WithL L P) ?_ (fun k1 h1 => ?_)
  · split
    · exact (I.clearOneshot h).bind (fun k1 h1 => I.frame (.updateMods _ _ _) h1)
    · exact h
  · split
    · exact h1
    · rename_i m _
      split
      · exact I.frame (.updateMods _ _ _) (I.set h1 rfl rfl rfl rfl rfl)
      · split
        · exact I.schedule _ (I.set
            (I.frame (.executeMacro k1 k1.activeMacroLayer (k1.config.mac m)) h1) rfl rfl rfl rfl rfl)
        · exact h1

theorem pdSwap {k : Kbd} (l : Nat) (m : Option Macro) (dl : Nat) (p : Bool) (hl : L l) (h : WithL L P k) :
    Sat (pdSwap k l m dl p) (WithL L P) AnyErr := by
  unfold Keyd.pdSwap
  split
  · refine Sat.bind (Q := WithL L P) ?_ (fun k1 h1 => ?_)
    · unfold pdSwapLayer
      split
      · rename_i ht
        have hdl := h.2.toggled ht
        refine (I.deactivate dl hdl h).bind (fun k1 h1 => ?_)
        refine Sat.bind (Q := WithL L P) (I.activate 0 l hl ?_) (fun k2 h2 => ?_)
        · exact I.modFlags dl _ hdl (fun _ => ⟨rfl, rfl⟩) h1
        exact I.frame (.updateMods _ _ _) (I.modFlags l _ hl (fun _ => ⟨rfl, rfl⟩) h2)
      · split
        · rename_i ht
          have hdl := h.2.oneshot ht
          refine (I.deactivate dl hdl h).bind (fun k1 h1 => ?_)
          refine Sat.bind (Q := WithL L P) (I.activate 0 l hl ?_) (fun k2 h2 => ?_)
          · exact I.modFlags dl _ hdl (fun _ => ⟨rfl, rfl⟩) h1
          exact I.frame (.updateMods _ _ _) (I.modFlags l _ hl (fun _ => ⟨rfl, rfl⟩) h2)
        · split
          · exact h
          · rename_i ce hce
            dsimp only
            have hsw := List.find?_some hce
            have hmem := List.mem_of_find?_eq_some hce
            unfold swapHolder at hsw
            simp only [ne_eq, decide_eq_true_eq] at hsw
            have hdl : L dl := by
              rcases h.2.cache ce hmem with h0 | h0
              · exact absurd h0 hsw.2.2.2
              · rw [← hsw.2.1]; exact h0
            refine Sat.bind (Q := WithL L P) (I.deactivate dl hdl ?_) (fun k1 h1 => ?_)
            · refine ⟨I.view k _ ⟨rfl, rfl, rfl, rfl⟩ h.1, h.2.flags, ?_⟩
              intro e he
              rcases modifyFirst_mem he with he | ⟨y, hy, _, rfl⟩
              · exact h.2.cache e he
              · exact h.2.cache y hy
            refine (I.activate _ l hl h1).bind (fun k2 h2 => ?_)
            exact I.frame (.updateMods _ _ _) h2
    · show WithL L P _
      split
      · exact I.frame (.executeMacro _ _ _) h1
      · exact h1
  · show WithL L P _
    split
    · split
      · exact I.frame ((KeyFrame.send _ _ _).trans (.updateMods _ _ _)) h
      · exact h
    · exact h

theorem pdSwitch {pd : Kbd → Code → Desc → Nat → Bool → Int → Res Kbd}
    (hpd : ∀ k c d dl p t, TargetsIn L Y d → TableT (TargetsIn L Y) k.config → WithL L P k →
      Sat (pd k c d dl p t) (fun k' => WithL L P k' ∧ k'.config = k.config) AnyErr)
    {k : Kbd} (c : Code) (d : Desc) (dl : Nat) (p : Bool) (t : Int) (hd : TargetsIn L Y d)
    (hT : TableT (TargetsIn L Y) k.config) (h : WithL L P k) :
    Sat (pdSwitch pd k c d dl p t) (WithL L P) AnyErr := by
  unfold Keyd.pdSwitch
  cases d with
  | none => exact h
  | keyseq c' m => exact I.pdKeyseq _ _ _ _ _ h
  | scroll s => exact I.set h rfl rfl rfl rfl rfl
  | scrollToggle s => exact I.set h rfl rfl rfl rfl rfl
  | overloadIdle d1 d2 tm =>
    dsimp only
    split
    · unfold pdOverloadIdle
      have ha : TargetsIn L Y (idleAction k d1 d2 tm t) := by
        unfold idleAction
        split <;> exact hT.descs _
      refine (hpd _ _ _ _ _ _ ha hT h).bind (fun k1 h1 => ?_)
      refine ⟨I.view k1 _ ⟨rfl, rfl, rfl, rfl⟩ h1.1.1, h1.1.2.flags, ?_⟩
      intro e he
      rcases modifyFirst_mem he with he | ⟨y, hy, _, rfl⟩
      · exact h1.1.2.cache e he
      · exact h1.1.2.cache y hy
    · exact h
  | overloadTimeout l a tm =>
    dsimp only
    split
    · exact I.schedule _ (I.set h rfl rfl rfl rfl rfl)
    · exact h
  | overloadTimeoutTap l a tm =>
    dsimp only
    split
    · exact I.schedule _ (I.set h rfl rfl rfl rfl rfl)
    · exact h
  | layout l =>
    dsimp only
    split
    · exact I.setlayout _ hd h
    · exact h
  | layer l => exact I.pdLayer _ _ _ hd h
  | layerm l m => exact I.pdLayer _ _ _ hd h
  | clear =>
    dsimp only
    split
    · exact I.clear h
    · exact h
  | clearm m =>
    dsimp only
    split
    · exact (I.clear h).bind (fun k1 h1 => I.frame (.executeMacro _ _ _) h1)
    · exact h
  | overload l a =>
    dsimp only
    split
    · exact I.pdOverloadPress _ _ _ hd h
    · unfold pdOverloadRelease
      refine ((I.deactivate l hd h).and (Calm.deactivate k l)).bind (fun k1 h1 => ?_)
      dsimp only
      have h2 : WithL L P (updateMods k1 none 0) := I.frame (.updateMods _ _ _) h1.1
      have hc : (updateMods k1 none 0).config = k.config := by
        rw [(KeyFrame.updateMods k1 none 0).config, h1.2.config]
      refine Sat.ite (fun _ => ?_) (fun _ => h2)
      have ha : TargetsIn L Y (k.config.desc a) := hT.descs _
      revert ha
      generalize k.config.desc a = act
      intro ha
      split
      · exact I.frame (.executeMacro _ _ _) h2
      · refine (hpd _ _ _ _ _ _ ha (by rw [hc]; exact hT) h2).bind (fun k2 h3 => ?_)
        exact (hpd _ _ _ _ _ _ ha (by rw [h3.2, hc]; exact hT) h3.1).imp (fun _ h => h.1)
  | oneshot l => exact I.pdOneshot _ _ _ _ _ hd h
  | oneshotm l m => exact I.pdOneshot _ _ _ _ _ hd h
  | «macro» m =>
    dsimp only
    split
    · exact I.pdMacro _ _ _ _ _ h
    · exact h
  | macro2 tm r m =>
    dsimp only
    split
    · exact I.pdMacro _ _ _ _ _ h
    · exact h
  | toggle l =>
    dsimp only
    split
    · exact I.pdToggle _ _ hd h
    · exact h
  | togglem l m =>
    dsimp only
    split
    · exact I.pdToggle _ _ hd h
    · exact h
  | timeout d1 tm d2 =>
    dsimp only
    split
    · exact I.schedule _ (I.set h rfl rfl rfl rfl rfl)
    · exact h
  | command cm =>
    dsimp only
    split
    · exact I.pdCommand _ h
    · exact h
  | swap l => exact I.pdSwap _ _ _ _ hd h
  | swapm l m => exact I.pdSwap _ _ _ _ hd h

theorem processDescriptor : ∀ (n : Nat) (k : Kbd) (c : Code) (d : Desc) (dl : Nat) (p : Bool) (t : Int),
    TargetsIn L Y d → TableT (TargetsIn L Y) k.config → WithL L P k →
    Sat (processDescriptor n k c d dl p t) (fun k' => WithL L P k' ∧ k'.config = k.config) AnyErr
  | 0, _, _, _, _, _, _, _, _, _ => trivial
  | n+1, k, c, d, dl, p, t, hd, hT, h => by
    refine Sat.and ?_ ((config_outInv k.config).processDescriptor _ k c d dl p t rfl)
    unfold Keyd.processDescriptor
    have hf := Calm.pdMacroPrefix k d dl p
    refine Sat.bind (Q := WithL L P) (I.pdSwitch (fun k c d dl p t hd hT hk => processDescriptor n k c d dl p t hd hT hk)
      c d dl p t hd (by rw [hf.config]; exact hT) (I.frame hf h)) (fun k1 h1 => ?_)
    show WithL L P _
    split
    · exact I.set h1 rfl rfl rfl rfl rfl
    · exact h1

theorem cacheSet {k : Kbd} (h : WithL L P k) (c : Code) (e : Option CacheEntry)
    (he : ∀ x, e = some x → x.layer = 0) : WithL L P ((Keyd.cacheSet k c e).getD k) := by
  refine ⟨I.view _ _ (cacheSetD_view k c e) h.1, ?_⟩
  cases hs : Keyd.cacheSet k c e with
  | none => exact h.2
  | some k' =>
    unfold Keyd.cacheSet at hs
    split at hs
    · cases hs
    · split at hs
      · cases hs
        refine ⟨h.2.flags, ?_⟩
        intro x hx
        rcases List.mem_modify' hx with hx | ⟨y, hy, rfl⟩
        · exact h.2.cache x hx
        · exact h.2.cache y hy
      · rename_i ent
        cases hs
        refine ⟨h.2.flags, ?_⟩
        intro x hx
        rcases List.mem_or_eq_of_mem_set hx with hx | rfl
        · exact h.2.cache x hx
        · exact .inl (he ent rfl)

theorem tInv : TInv (TargetsIn L Y) (WithL L P) AnyErr where
  errs := fun _ _ => trivial
  chord := fun k ch h => I.set h rfl rfl rfl rfl rfl
  timeouts := fun k ts h => I.set h rfl rfl rfl rfl rfl
  passed := fun k ev h => I.set h rfl rfl rfl rfl rfl
  swallowed := fun k evs h => I.set h rfl rfl rfl rfl rfl
  activeChords := fun k ac h => I.set h rfl rfl rfl rfl rfl
  enqueue := fun k q h => I.set h rfl rfl rfl rfl rfl
  resolve := by
    intro k a t hs h _ _ ha _
    unfold resolvePendingStep
    dsimp only
    refine Sat.bind (Q := WithL L P) ?_ (fun k1 h1 => h1)
    refine (I.processDescriptor _ _ _ _ _ _ _ ha ?_ ?_).imp (fun _ h => h.1)
    · have : ∀ (k : Kbd) (c : Code) (e : Option CacheEntry), ((Keyd.cacheSet k c e).getD k).config = k.config := by
        intro k c e; exact (cacheSetD_view k c e).config
      show TableT _ ((Keyd.cacheSet _ _ _).getD _).config
      rw [this]; exact hs.table
    · have h0 : WithL L P { k with pending := { k.pending with code := 0, queue := [], tapExpiry := 0 } } :=
        I.set h rfl rfl rfl rfl rfl
      exact I.set (I.cacheSet h0 _ _ (by rintro x ⟨⟩; rfl)) rfl rfl rfl rfl rfl
  timers := fun k c t _ h => I.stepTimers c t h
  key := by
    intro k c p t hs h _
    unfold stepKey
    refine Sat.ite (fun _ => h) (fun _ => Sat.ite (fun _ => Sat.ite (fun _ => ?_) (fun _ => ?_)) (fun _ => ?_))
    · exact I.set h rfl rfl rfl rfl rfl
    · have hl := hs.lookup (targetsIn_closed L Y) c
      revert hl
      generalize lookupDescriptor k c = r
      obtain ⟨d, dl⟩ := r
      intro hl
      dsimp only at hl ⊢
      split
      · exact I.set h rfl rfl rfl rfl rfl
      · rename_i k' hk'
        have hv : LayerView k k' := by
          have := cacheSetD_view k c (some { d := d, dl := dl, layer := 0 })
          rw [hk'] at this
          exact this
        have hk : WithL L P (k'.log (.key c true t (some (d, dl)))) := by
          have := I.cacheSet h c (some { d := d, dl := dl, layer := 0 }) (by rintro x ⟨⟩; rfl)
          rw [hk'] at this
          exact I.set this rfl rfl rfl rfl rfl
        have hv' : LayerView k (k'.log (.key c true t (some (d, dl)))) := hv.trans ⟨rfl, rfl, rfl, rfl⟩
        refine (I.processDescriptor _ _ _ _ _ _ _ hl ?_ hk).imp (fun _ h => h.1)
        rw [hv'.config]; exact hs.table
    · split
      · exact I.set h rfl rfl rfl rfl rfl
      · rename_i ce hce
        dsimp only
        have : ce ∈ k.cache := List.mem_of_find?_eq_some hce
        have hv : LayerView k (((Keyd.cacheSet k c none).getD k).log (.key c false t (some (ce.d, ce.dl)))) :=
          (cacheSetD_view _ _ _).trans ⟨rfl, rfl, rfl, rfl⟩
        refine (I.processDescriptor _ _ _ _ _ _ _ (hs.cache ce this) ?_ ?_).imp (fun _ h => h.1)
        · rw [hv.config]; exact hs.table
        · exact I.set (I.cacheSet h c none (by simp)) rfl rfl rfl rfl rfl

end LayerInv

/-! ### Histories -/

/-- Same number of layers, each with the same name, type, modifiers and
constituents. -/
def SameShape (c c' : Config) : Prop := c'.layers.length = c.layers.length ∧ SameLayers c c'

theorem SameShape.refl (c : Config) : SameShape c c := ⟨rfl, .refl c⟩

theorem SameShape.trans {a b c : Config} (h : SameShape a b) (h' : SameShape b c) : SameShape a c :=
  ⟨h'.1.trans h.1, h.2.trans h'.2⟩

theorem SameShape.symm {a b : Config} (h : SameShape a b) : SameShape b a := by
  refine ⟨h.1.symm, ?_⟩
  intro i l hl
  have hlt : i < a.layers.length := by
    rw [← h.1]
    by_contra hge
    rw [List.getElem?_eq_none (by omega)] at hl
    cases hl
  obtain ⟨l', h1, h2, h3, h4, h5⟩ := h.2 i (a.layers[i]) (List.getElem?_eq_getElem hlt)
  rw [hl] at h1
  cases h1
  exact ⟨a.layers[i], List.getElem?_eq_getElem hlt, h2.symm, h3.symm, h4.symm, h5.symm⟩

theorem SameShape.target {a b : Config} (h : SameShape a b) {i : Nat} (ht : LayerTarget a i) : LayerTarget b i := by
  obtain ⟨l, hl, hty⟩ := ht
  obtain ⟨l', h1, _, h3, _⟩ := h.2 i l hl
  exact ⟨l', h1, by rw [h3]; exact hty⟩

theorem SameShape.layoutTarget {a b : Config} (h : SameShape a b) {i : Nat} (ht : LayoutTarget a i) :
    LayoutTarget b i := by
  obtain ⟨l, hl, hty⟩ := ht
  obtain ⟨l', h1, _, h3, _⟩ := h.2 i l hl
  exact ⟨l', h1, by rw [h3]; exact hty⟩

theorem SameShape.type {a b : Config} (h : SameShape a b) (i : Nat) : (b.layer i).type = (a.layer i).type := by
  unfold Config.layer
  rw [List.getD_eq_getElem?_getD, List.getD_eq_getElem?_getD]
  cases hl : a.layers[i]? with
  | none =>
    have : b.layers[i]? = none := by
      rw [List.getElem?_eq_none_iff] at hl ⊢
      rw [h.1]; exact hl
    rw [this]
  | some l =>
    obtain ⟨l', h1, _, h3, _⟩ := h.2 i l hl
    rw [h1]; exact h3

theorem configAddEntry_shape {c c' : Config} (hw : WF c) {exp : Str} {ok : Bool}
    (run : configAddEntry c exp = .ok (c', ok)) : WF c' ∧ SameShape c c' := by
  have h := (configAddEntry_same hw exp).of_ok run
  refine ⟨h.1, ?_, h.2⟩
  rcases configAddEntry_cases hw run with ⟨_, h1, _⟩ | ⟨_, _, idx, l, l', c1, d, h1, h2, h3, h4, h5, h6⟩
  · rw [h1]
  · rw [h5]; exact List.length_set

/-- Well-formed tables only name existing layers, of the right kind. -/
theorem WF.targets {c : Config} (hw : WF c) : TableT (TargetsIn (LayerTarget c) (LayoutTarget c)) c := by
  have hd : ∀ b d, DescOK c b d → TargetsIn (LayerTarget c) (LayoutTarget c) d := by
    intro b d h
    cases d <;> simp only [DescOK, TargetsIn] at * <;> first | exact h | exact h.1
  refine ⟨?_, ?_, ?_⟩
  · intro i
    unfold Config.desc
    rcases getD_mem_or c.descriptors i .none with hm | hm
    · obtain ⟨j, hj⟩ := List.getElem?_of_mem hm
      exact hd _ _ (hw.nested j _ hj)
    · rw [hm]; trivial
  · intro i code
    unfold Config.layer
    rcases getD_mem_or c.layers i {} with hm | hm
    · exact hd _ _ (hw.keymaps _ hm code)
    · rw [hm]; trivial
  · intro i ch hch
    unfold Config.layer at hch
    rcases getD_mem_or c.layers i {} with hm | hm
    · exact hd _ _ (hw.chords _ hm ch hch).1
    · rw [hm] at hch; cases hch

theorem TargetsIn.imp {L Y L' Y' : Nat → Prop} (hL : ∀ i, L i → L' i) (hY : ∀ i, Y i → Y' i) {d : Desc}
    (h : TargetsIn L Y d) : TargetsIn L' Y' d := by
  cases d <;> simp only [TargetsIn] at * <;> first | exact hL _ h | exact hY _ h

/-- What holds of the tables throughout the history of a keyboard created from `c`. -/
structure Lineage (c : Config) (k : Kbd) : Prop where
  wf : WF k.config
  shape : SameShape c k.config
  original : k.originalConfig = c
  stored : Stored (TargetsIn (LayerTarget c) (LayoutTarget c)) k

theorem OnlyL.new (L : Nat → Prop) (c : Config) : OnlyL L (newKeyboard c) := by
  have h0 : ∀ i, (upd (fun _ => ({} : LayerSt)) 0 { active := 1, activationTime := 0 } i).toggled = false ∧
      (upd (fun _ => ({} : LayerSt)) 0 { active := 1, activationTime := 0 } i).oneshotDepth = 0 := by
    intro i; unfold upd; by_cases h : i = 0 <;> simp [h]
  refine ⟨?_, ?_⟩
  · intro i _
    unfold newKeyboard
    dsimp only
    split
    · split
      · rename_i j _
        by_cases h : i = j
        · rw [h, upd_same]; exact h0 j
        · rw [upd_other _ _ h]; exact h0 i
      · exact h0 i
    · exact h0 i
  · intro e he
    have : e = {} := List.eq_of_mem_replicate he
    rw [this]; exact .inl rfl

/-- Invariant principle for histories: a layer predicate that also survives a
change of the tables to ones with the same layers. -/
theorem LayerInv.history {c : Config} (hw : WF c) {P : Kbd → Prop}
    (I : LayerInv (LayerTarget c) (LayoutTarget c) P)
    (start : P (newKeyboard c))
    (bind : ∀ k c', SameShape k.config c' → P k → P { k with config := c' })
    {k : Kbd} (h : HistoryOf c k) : Lineage c k ∧ WithL (LayerTarget c) P k := by
  induction h with
  | start => exact ⟨⟨hw, .refl c, rfl, .new (targetsIn_closed _ _) hw.targets⟩, start, OnlyL.new _ c⟩
  | events n k evs k' w _ run ih =>
    obtain ⟨⟨h1, h2, h3, h4⟩, h5⟩ := ih
    have e1 := (kbdProcessEvents_sat (I.tInv.engineInv (targetsIn_closed _ _)) n k evs ⟨h4, h5⟩).of_ok run
    have e2 : k'.config = k.config := (kbdProcessEvents_sat (config_outInv k.config).engineInv n k evs rfl).of_ok run
    have e3 := (kbdProcessEvents_sat (original_outInv c).engineInv n k evs h3).of_ok run
    exact ⟨⟨by rw [e2]; exact h1, by rw [e2]; exact h2, e3, e1.1⟩, e1.2⟩
  | bind k e k' ok _ run ih =>
    obtain ⟨⟨h1, h2, h3, h4⟩, h5⟩ := ih
    have hf := kbdEval_frame run
    have hs : WF k'.config ∧ SameShape k.config k'.config := by
      unfold kbdEval at run
      split at run
      · cases run
        rw [h3]
        exact ⟨hw, h2.symm⟩
      · rw [bind_eq_ok] at run
        obtain ⟨⟨c1, ok1⟩, r1, r2⟩ := run
        cases r2
        exact configAddEntry_shape h1 r1
    refine ⟨⟨hs.1, h2.trans hs.2, by rw [hf]; exact h3, ?_⟩, by rw [hf]; exact ⟨bind _ _ hs.2 h5.1, h5.2.flags, h5.2.cache⟩⟩
    have hsym : SameShape k'.config c := (h2.trans hs.2).symm
    have htab := hs.1.targets
    rw [hf]
    exact ⟨h4.cache, h4.a1, h4.a2, h4.chords,
      ⟨fun i => (htab.descs i).imp (fun _ h => hsym.target h) (fun _ h => hsym.layoutTarget h),
       fun i code => (htab.keys i code).imp (fun _ h => hsym.target h) (fun _ h => hsym.layoutTarget h),
       fun i ch hch => (htab.chords i ch hch).imp (fun _ h => hsym.target h) (fun _ h => hsym.layoutTarget h)⟩⟩
  | scroll k s _ ih =>
    exact ⟨⟨ih.1.wf, ih.1.shape, ih.1.original, ih.1.stored.frame rfl rfl rfl rfl⟩, I.set ih.2 rfl rfl rfl rfl rfl⟩

end Keyd
