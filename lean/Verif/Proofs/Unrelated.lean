import Verif.Proofs.Uptime
import Verif.Props.Termination

/-
  A binding of a key that is not pressed has no effect (C110): the simulation, through every function of keyboard.c, of a keyboard
  by one with more bindings.
-/

set_option autoImplicit false

namespace Keyd

/-- What a binding can add to a configuration: other bindings of some keys in some layers, and more table entries. -/
structure Added where
  keys : Nat → Code → Option Desc
  ds : List Desc
  ms : List Macro
  cs : List Str

/-- The layer `i` with the other bindings. -/
def Added.layer (au : Added) (i : Nat) (l : Layer) : Layer := { l with keymap := fun c => (au.keys i c).getD (l.keymap c) }

/-- The configuration with the additions. -/
def Config.aug (au : Added) (c : Config) : Config :=
  { c with layers := c.layers.mapIdx au.layer, descriptors := c.descriptors ++ au.ds, macros := c.macros ++ au.ms, commands := c.commands ++ au.cs }

/-- The same keyboard with the additions. -/
def Kbd.aug (au : Added) (k : Kbd) : Kbd := { k with config := k.config.aug au }

variable {au : Added} {k : Kbd}

theorem aug_length (c : Config) : (c.aug au).layers.length = c.layers.length := by
  unfold Config.aug
  rw [List.length_mapIdx]

theorem aug_layer_cases (c : Config) (i : Nat) : (c.aug au).layer i = au.layer i (c.layer i) ∨ (c.aug au).layer i = c.layer i := by
  unfold Config.layer Config.aug
  rw [List.getD_eq_getElem?_getD, List.getElem?_mapIdx, List.getD_eq_getElem?_getD]
  cases c.layers[i]? with
  | none => exact .inr rfl
  | some l => exact .inl rfl

theorem aug_type (c : Config) (i : Nat) : ((c.aug au).layer i).type = (c.layer i).type := by
  rcases aug_layer_cases (au := au) c i with h | h <;> rw [h] <;> rfl

theorem aug_mods (c : Config) (i : Nat) : ((c.aug au).layer i).mods = (c.layer i).mods := by
  rcases aug_layer_cases (au := au) c i with h | h <;> rw [h] <;> rfl

theorem aug_constituents (c : Config) (i : Nat) : ((c.aug au).layer i).constituents = (c.layer i).constituents := by
  rcases aug_layer_cases (au := au) c i with h | h <;> rw [h] <;> rfl

theorem aug_chords (c : Config) (i : Nat) : ((c.aug au).layer i).chords = (c.layer i).chords := by
  rcases aug_layer_cases (au := au) c i with h | h <;> rw [h] <;> rfl

theorem aug_keymap (c : Config) (i : Nat) {x : Code} (h : ∀ i, au.keys i x = none) : ((c.aug au).layer i).keymap x = (c.layer i).keymap x := by
  rcases aug_layer_cases (au := au) c i with e | e <;> rw [e]
  unfold Added.layer
  dsimp only
  rw [h]
  rfl

theorem getD_prefix {α : Type} (l m : List α) (i : Nat) (d : α) (h : i < l.length) : (l ++ m).getD i d = l.getD i d := by
  rw [List.getD_eq_getElem?_getD, List.getElem?_append_left h, List.getD_eq_getElem?_getD]

theorem aug_mac (c : Config) {m : Nat} (h : m < c.macros.length) : (c.aug au).mac m = c.mac m := getD_prefix _ _ _ _ h

theorem aug_desc (c : Config) {m : Nat} (h : m < c.descriptors.length) : (c.aug au).desc m = c.desc m := getD_prefix _ _ _ _ h

theorem aug_layerMods (ex : Option Nat) (mods : UInt8) : layerMods (k.aug au) ex mods = layerMods k ex mods := by
  unfold layerMods
  rw [show (k.aug au).config = k.config.aug au from rfl, aug_length]
  congr 1
  funext m i
  have e : modExcluded (k.config.aug au) ex i = modExcluded k.config ex i := by
    unfold modExcluded
    cases ex with
    | none => rfl
    | some e => dsimp only; rw [aug_type, aug_constituents]
  rw [e, aug_mods]
  rfl

theorem aug_nonMain : nonMainLayers (k.aug au) = nonMainLayers k := by
  unfold nonMainLayers
  rw [show (k.aug au).config = k.config.aug au from rfl, aug_length]

theorem aug_swapHolder (dl : Nat) : swapHolder (k.aug au) dl = swapHolder k dl := by
  funext e
  unfold swapHolder
  rw [show (k.aug au).config = k.config.aug au from rfl, aug_type]

/-- A continuation that is told what holds of the intermediate result. -/
theorem map_bindS {α β : Type} {g : α → α} {h : β → β} {P : α → Prop} {x x' : Res α} {f f' : α → Res β} (hx : x' = x.map g) (hs : Sat x P AnyErr)
    (e : ∀ a, P a → f' (g a) = (f a).map h) : (x' >>= f') = (x >>= f).map h := by
  rw [hx]
  cases x with
  | error _ => rfl
  | ok a => exact e a hs

theorem aug_sendKey (c : Code) (p : Bool) : sendKey (k.aug au) c p = (sendKey k c p).aug au := by
  unfold sendKey
  by_cases h : c = KEYD.NOOP ∨ c = KEYD.EXTERNAL_MOUSE_BUTTON
  · rw [if_pos h, if_pos h]
  · rw [if_neg h, if_neg h]
    cases p
    · show (if k.keystate c ≠ false then _ else _) = Kbd.aug au (if k.keystate c ≠ false then _ else _)
      split <;> rfl
    · show (if k.keystate c ≠ true then _ else _) = Kbd.aug au (if k.keystate c ≠ true then _ else _)
      split <;> rfl

theorem aug_clearMod (c : Code) : clearMod (k.aug au) c = (clearMod k c).aug au := by
  unfold clearMod
  have hg : guardApplies (k.aug au) c = guardApplies k c := rfl
  have hk : (k.aug au).keystate = k.keystate := rfl
  rw [hg, hk]
  split <;> simp only [aug_sendKey]

theorem aug_setMod (mods : UInt8) (m : UInt8 × Code) : setMod mods (k.aug au) m = (setMod mods k m).aug au := by
  unfold setMod
  have hk : (k.aug au).keystate = k.keystate := rfl
  rw [hk]
  split <;> split <;> first | rfl | exact aug_sendKey _ _ | exact aug_clearMod _

theorem aug_foldl {α : Type} {f : Kbd → α → Kbd} (h : ∀ k a, f (k.aug au) a = (f k a).aug au) :
    ∀ (l : List α) (k : Kbd), l.foldl f (k.aug au) = (l.foldl f k).aug au
  | [], _ => rfl
  | a :: l, k => by
    rw [List.foldl_cons, List.foldl_cons, h]
    exact aug_foldl h l _

theorem aug_setMods (mods : UInt8) : setMods (k.aug au) mods = (setMods k mods).aug au :=
  aug_foldl (fun _ _ => aug_setMod _ _) _ _

theorem aug_updateMods (ex : Option Nat) (mods : UInt8) : updateMods (k.aug au) ex mods = (updateMods k ex mods).aug au := by
  unfold updateMods
  rw [aug_layerMods]
  exact aug_setMods _

theorem aug_resetKeystate : resetKeystate (k.aug au) = (resetKeystate k).aug au := by
  unfold resetKeystate
  refine aug_foldl (fun k c => ?_) _ _
  dsimp only
  have hk : (k.aug au).keystate = k.keystate := rfl
  rw [hk]
  split <;> rfl

theorem aug_emitMacro : ∀ (l : List MacroOut) (k : Kbd), emitMacro (k.aug au) l = (emitMacro k l).aug au
  | [], _ => rfl
  | .key c d :: l, k => aug_emitMacro l (k.emit (.key c d))
  | .sleep us :: l, k => aug_emitMacro l (k.emit (.sleep us))

theorem aug_executeMacro (dl : Nat) (m : Macro) : executeMacro (k.aug au) dl m = (executeMacro k dl m).aug au := by
  have slow : ∀ n, emitMacro (updateMods (k.aug au) (some dl) 0) (macroExecute m n) =
      (emitMacro (updateMods k (some dl) 0) (macroExecute m n)).aug au := fun n => by
    rw [aug_updateMods]; exact aug_emitMacro _ _
  unfold executeMacro
  dsimp only
  split
  · split
    · rw [aug_updateMods, aug_sendKey, aug_sendKey]
    · exact slow _
  · exact slow _

theorem aug_deactivateLayer (i : Nat) : deactivateLayer (k.aug au) i = (deactivateLayer k i).map (Kbd.aug au) := by
  unfold deactivateLayer
  have hk : (k.aug au).layerState = k.layerState := rfl
  rw [hk]
  dsimp only
  split <;> rfl

theorem aug_activateLayer (c : Code) (i : Nat) : activateLayer (k.aug au) c i = (activateLayer k c i).map (Kbd.aug au) := by
  unfold activateLayer
  have hk : (k.aug au).layerState = k.layerState := rfl
  rw [hk]
  dsimp only
  split <;> rfl

theorem aug_clearOneshotLayer (i : Nat) : ∀ (n : Nat) (k : Kbd),
    clearOneshotLayer i n (k.aug au) = (clearOneshotLayer i n k).map (Kbd.aug au)
  | 0, _ => rfl
  | n+1, k => map_bind' (aug_deactivateLayer i) (fun a =>
      aug_clearOneshotLayer i n (a.modLayer i fun s => { s with oneshotDepth := s.oneshotDepth - 1 }))

theorem aug_clearOneshotLayers : ∀ (l : List Nat) (k : Kbd),
    clearOneshotLayers l (k.aug au) = (clearOneshotLayers l k).map (Kbd.aug au)
  | [], _ => rfl
  | i :: l, k => map_bind' (aug_clearOneshotLayer i _ k) (fun a => aug_clearOneshotLayers l a)

theorem aug_clearOneshot : clearOneshot (k.aug au) = (clearOneshot k).map (Kbd.aug au) :=
  by
  unfold clearOneshot
  rw [show (k.aug au).config = k.config.aug au from rfl, aug_length]
  rw [aug_clearOneshotLayers]
  cases clearOneshotLayers (List.range k.config.layers.length) k <;> rfl

theorem aug_clearToggled : ∀ (l : List Nat) (k : Kbd),
    clearToggled l (k.aug au) = (clearToggled l k).map (Kbd.aug au)
  | [], _ => rfl
  | i :: l, k => by
    unfold clearToggled
    have h2 : (k.aug au).layerState = k.layerState := rfl
    rw [show (k.aug au).config = k.config.aug au from rfl, aug_type, h2]
    split
    · exact map_bind' (aug_deactivateLayer (k := k.modLayer i fun s => { s with toggled := false }) i)
        (fun a => aug_clearToggled l a)
    · exact aug_clearToggled l k

theorem aug_clear : clear (k.aug au) = (clear k).map (Kbd.aug au) := by
  unfold clear
  rw [aug_clearOneshot]
  refine map_bind (fun a => ?_)
  rw [aug_nonMain, aug_clearToggled]
  refine map_bind (fun b => ?_)
  show Except.ok (resetKeystate (({ b with activeMacro := none } : Kbd).aug au)) = _
  rw [aug_resetKeystate]
  rfl

theorem aug_setlayout (i : Nat) : setlayout (k.aug au) i = (setlayout k i).map (Kbd.aug au) := by
  unfold setlayout
  rw [aug_clear]
  refine map_bind (fun a => ?_)
  dsimp only
  have h : ∀ l : List Nat, l.foldl (fun (k : Kbd) i => if (k.config.layer i).type = .layout then
        k.modLayer i fun s => { s with active := 0 } else k) (a.aug au) =
      (l.foldl (fun (k : Kbd) i => if (k.config.layer i).type = .layout then
        k.modLayer i fun s => { s with active := 0 } else k) a).aug au := fun l => by
    refine aug_foldl (fun k c => ?_) l a
    rw [show (k.aug au).config = k.config.aug au from rfl, aug_type]
    split <;> rfl
  have h2 : nonMainLayers (a.aug au) = nonMainLayers a := aug_nonMain
  rw [h2, h]
  split <;> rfl

theorem aug_cacheSet (c : Code) (e : Option CacheEntry) : cacheSet (k.aug au) c e = (cacheSet k c e).map (Kbd.aug au) := by
  unfold cacheSet
  have h2 : (k.aug au).cache = k.cache := rfl
  rw [h2]
  split
  · rfl
  · split <;> rfl

/-- A code whose binding is looked up in the same place: that of a chord, or a key without additions. -/
def Added.spares (au : Added) (c : Code) : Prop := (KEYD.CHORD_1 ≤ c ∧ c ≤ KEYD.CHORD_MAX) ∨ ∀ i, au.keys i c = none

theorem aug_lookup {c : Code} (h : au.spares c) : lookupDescriptor (k.aug au) c = lookupDescriptor k c := by
  unfold lookupDescriptor
  by_cases hc : KEYD.CHORD_1 ≤ c ∧ c ≤ KEYD.CHORD_MAX
  · rw [if_pos hc, if_pos hc]; rfl
  · rw [if_neg hc, if_neg hc]
    have hk := h.resolve_left hc
    have e1 : lookupActive (k.aug au) c = lookupActive k c := by
      unfold lookupActive
      rw [show (k.aug au).config = k.config.aug au from rfl, aug_length]
      congr 1
      funext acc i
      rw [aug_keymap _ _ hk]
      rfl
    have e2 : ∀ s, lookupComposite (k.aug au) c s = lookupComposite k c s := by
      intro s
      unfold lookupComposite
      rw [show (k.aug au).config = k.config.aug au from rfl, aug_length]
      congr 1
      funext acc i
      dsimp only
      rw [aug_keymap _ _ hk, aug_type, aug_constituents]
      rfl
    rw [e1, e2]

theorem aug_pdLayer (c : Code) (i : Nat) (p : Bool) : pdLayer (k.aug au) c i p = (pdLayer k c i p).map (Kbd.aug au) := by
  unfold pdLayer
  refine map_bind' (by split <;> first | exact aug_activateLayer _ _ | exact aug_deactivateLayer _) (fun a => ?_)
  have h2 : (a.aug au).lastPressedCode = a.lastPressedCode := rfl
  rw [h2]
  split
  · have h3 := aug_updateMods (au := au) (k := ({ a with inhibitModifierGuard := true } : Kbd)) none 0
    show Except.ok ({ updateMods (({ a with inhibitModifierGuard := true } : Kbd).aug au) none 0 with inhibitModifierGuard := false } : Kbd) = _
    rw [h3]
    rfl
  · rw [aug_updateMods]; rfl

theorem aug_pdToggle (c : Code) (i : Nat) : pdToggle (k.aug au) c i = (pdToggle k c i).map (Kbd.aug au) := by
  unfold pdToggle
  dsimp only
  generalize hm : k.modLayer i (fun s => { s with toggled := !s.toggled }) = k1
  have hm' : (k.aug au).modLayer i (fun s => { s with toggled := !s.toggled }) = k1.aug au := by rw [← hm]; rfl
  rw [hm']
  have h2 : (k1.aug au).layerState = k1.layerState := rfl
  rw [h2]
  refine map_bind' (g := Kbd.aug au) (by split <;> first | exact aug_activateLayer _ _ | exact aug_deactivateLayer _) (fun a => ?_)
  rw [aug_updateMods]
  exact aug_clearOneshot

theorem aug_pdCommand {c : Nat} (hc : c < k.config.commands.length) : pdCommand (k.aug au) c = (pdCommand k c).map (Kbd.aug au) := by
  unfold pdCommand
  dsimp only
  rw [show (k.aug au).config.commands = k.config.commands ++ au.cs from rfl, getD_prefix _ _ _ _ hc]
  refine map_bind' (aug_clearOneshot (k := k.emit (.command (k.config.commands.getD c [])))) (fun a => ?_)
  rw [aug_updateMods]; rfl

theorem aug_pdSwapLayer (i dl : Nat) : pdSwapLayer (k.aug au) i dl = (pdSwapLayer k i dl).map (Kbd.aug au) := by
  unfold pdSwapLayer
  have h2 : (k.aug au).layerState = k.layerState := rfl
  have h3 : (k.aug au).cache = k.cache := rfl
  have h4 : swapHolder (k.aug au) dl = swapHolder k dl := aug_swapHolder dl
  rw [h2, h3, h4]
  split
  · refine map_bind' (aug_deactivateLayer dl) (fun a => ?_)
    refine map_bind' (aug_activateLayer (au := au) (k := a.modLayer dl fun s => { s with toggled := false }) 0 i) (fun b => ?_)
    dsimp only
    have : (b.aug au).modLayer i (fun s => { s with toggled := true }) =
      (b.modLayer i (fun s => { s with toggled := true })).aug au := rfl
    rw [this, aug_updateMods]; rfl
  · split
    · refine map_bind' (aug_deactivateLayer dl) (fun a => ?_)
      refine map_bind' (aug_activateLayer (au := au) (k := a.modLayer dl fun s => { s with oneshotDepth := s.oneshotDepth - 1 }) 0 i) (fun b => ?_)
      dsimp only
      have : (b.aug au).modLayer i (fun s => { s with oneshotDepth := s.oneshotDepth + 1 }) =
        (b.modLayer i (fun s => { s with oneshotDepth := s.oneshotDepth + 1 })).aug au := rfl
      rw [this, aug_updateMods]; rfl
    · split
      · rfl
      · dsimp only
        refine map_bind' (aug_deactivateLayer (k := { k with cache := modifyFirst (swapHolder k dl) (fun e => { e with d := .layer i }) k.cache }) dl) (fun a => ?_)
        refine map_bind' (aug_activateLayer (au := au) _ i) (fun b => ?_)
        rw [aug_updateMods]; rfl

theorem aug_pdSwap (i : Nat) (m : Option Macro) (dl : Nat) (p : Bool) :
    pdSwap (k.aug au) i m dl p = (pdSwap k i m dl p).map (Kbd.aug au) := by
  unfold pdSwap
  split
  · refine map_bind' (aug_pdSwapLayer i dl) (fun a => ?_)
    cases m with
    | none => rfl
    | some m => dsimp only; rw [aug_executeMacro]; rfl
  · split
    · split
      · rw [aug_sendKey, aug_updateMods]; rfl
      · rfl
    · rfl

/-- The macros of an action. -/
def macrosOf : Desc → List Nat
  | .layerm _ m => [m]
  | .oneshotm _ m => [m]
  | .togglem _ m => [m]
  | .swapm _ m => [m]
  | .clearm m => [m]
  | .macro m => [m]
  | .macro2 _ _ m => [m]
  | _ => []

theorem aug_pdMacroPrefix {d : Desc} (hd : ∀ m ∈ macrosOf d, m < k.config.macros.length) (dl : Nat) (p : Bool) :
    pdMacroPrefix (k.aug au) d dl p = (pdMacroPrefix k d dl p).aug au := by
  unfold pdMacroPrefix
  split
  · cases d <;> first
      | rfl
      | (dsimp only; rw [show (k.aug au).config = k.config.aug au from rfl, aug_mac _ (hd _ List.mem_cons_self)]; exact aug_executeMacro _ _)
  · rfl

theorem aug_schedule (t : Int) : scheduleTimeout (k.aug au) t = (scheduleTimeout k t).map (Kbd.aug au) := by
  unfold scheduleTimeout
  rw [show (k.aug au).timeouts = k.timeouts from rfl]
  split <;> rfl

theorem aug_pdKeyseq (c : Code) (m : UInt8) (dl : Nat) (p : Bool) (t : Int) : pdKeyseq (k.aug au) c m dl p t = (pdKeyseq k c m dl p t).map (Kbd.aug au) := by
  unfold pdKeyseq
  refine map_bind' (g := Kbd.aug au) ?_ (fun a => by split <;> rfl)
  cases p with
  | true =>
    rw [if_pos rfl, if_pos rfl]
    dsimp only
    have e : (if (k.aug au).keystate c then sendKey (k.aug au) c false else k.aug au) = (if k.keystate c then sendKey k c false else k).aug au := by
      rw [show (k.aug au).keystate = k.keystate from rfl]
      split
      · exact aug_sendKey _ _
      · rfl
    rw [e, aug_updateMods, aug_sendKey]
    exact aug_clearOneshot
  | false =>
    rw [if_neg (by decide), if_neg (by decide), aug_sendKey, aug_updateMods]
    rfl

theorem aug_pdOverloadTimeout (c : Code) (tap : Bool) (l : Nat) {d : Nat} (hd : d < k.config.descriptors.length) (x dl : Nat) (t : Int) :
    pdOverloadTimeout (k.aug au) c tap l d x dl t = (pdOverloadTimeout k c tap l d x dl t).map (Kbd.aug au) := by
  unfold pdOverloadTimeout
  rw [show (k.aug au).config.desc d = (k.config.aug au).desc d from rfl, aug_desc _ hd]
  exact aug_schedule (k := { k with pending := { k.pending with
    code := c, behaviour := if tap then .uninterruptibleTapAction2 else .uninterruptible, dl := dl, action1 := k.config.desc d, action2 := .layer l, expire := t + x } }) _

theorem aug_pdTimeout (c : Code) {d1 d2 : Nat} (h1 : d1 < k.config.descriptors.length) (h2 : d2 < k.config.descriptors.length) (x dl : Nat) (t : Int) :
    pdTimeout (k.aug au) c d1 x d2 dl t = (pdTimeout k c d1 x d2 dl t).map (Kbd.aug au) := by
  unfold pdTimeout
  rw [show (k.aug au).config.desc d1 = (k.config.aug au).desc d1 from rfl, aug_desc _ h1, show (k.aug au).config.desc d2 = (k.config.aug au).desc d2 from rfl, aug_desc _ h2]
  exact aug_schedule (k := { k with pending := { k.pending with
    action1 := k.config.desc d1, action2 := k.config.desc d2, code := c, dl := dl, expire := t + x, behaviour := .interruptAction1 } }) _

theorem aug_pdOneshot (c : Code) (i dl : Nat) (p : Bool) (t : Int) : pdOneshot (k.aug au) c i dl p t = (pdOneshot k c i dl p t).map (Kbd.aug au) := by
  unfold pdOneshot
  cases p with
  | true =>
    rw [if_pos rfl, if_pos rfl]
    refine map_bind' (aug_activateLayer c i) (fun a => ?_)
    dsimp only
    rw [aug_updateMods]
    rfl
  | false =>
    rw [if_neg (show ¬ (false = true) by decide), if_neg (show ¬ (false = true) by decide), show (k.aug au).oneshotLatch = k.oneshotLatch from rfl, show (k.aug au).layerState = k.layerState from rfl]
    split
    · dsimp only
      split
      · rfl
      · show (if k.config.oneshotTimeout ≠ 0 then _ else _) = Except.map _ (if k.config.oneshotTimeout ≠ 0 then _ else _)
        split
        · exact aug_schedule (k := { (k.modLayer i fun s => { s with oneshotDepth := s.oneshotDepth + 1 }) with oneshotTimeout := t + k.config.oneshotTimeout }) _
        · rfl
    · refine map_bind' (aug_deactivateLayer i) (fun a => ?_)
      rw [aug_updateMods]
      rfl

theorem aug_pdMacro {m : Nat} (hm : m < k.config.macros.length) (x iv : Int) (dl : Nat) (t : Int) : pdMacro (k.aug au) m x iv dl t = (pdMacro k m x iv dl t).map (Kbd.aug au) := by
  unfold pdMacro
  refine map_bindS (aug_clearOneshot (k := { k with macroRepeatInterval := iv })) (Calm.clearOneshot _) (fun a ha => ?_)
  have hm : m < a.config.macros.length := by rw [ha.config]; exact hm
  dsimp only
  rw [show (a.aug au).config.mac m = (a.config.aug au).mac m from rfl, aug_mac _ hm, aug_executeMacro]
  exact aug_schedule (k := { executeMacro a dl (a.config.mac m) with activeMacro := some m, activeMacroLayer := dl, macroTimeout := t + x }) _

theorem aug_cacheModify (c : Code) (f : CacheEntry → CacheEntry) : cacheModify (k.aug au) c f = (cacheModify k c f).aug au := rfl


/-- All references of an action are to existing table entries. -/
def InTables (c : Config) (d : Desc) : Prop := DescOK c c.descriptors.length d

theorem InTables.macros {c : Config} {d : Desc} (h : InTables c d) : ∀ m ∈ macrosOf d, m < c.macros.length := by
  intro m hm
  cases d <;> first
    | exact absurd hm (List.not_mem_nil)
    | (rw [List.mem_singleton.1 hm]; first | exact h | exact h.2 | exact h.2.2)

theorem InTables.nested {c : Config} {d : Desc} (h : InTables c d) : ∀ j ∈ nestedOf d, j < c.descriptors.length := by
  intro j hj
  cases d <;> first
    | exact absurd hj (List.not_mem_nil)
    | (rw [List.mem_singleton.1 hj]; first | exact h.2 | exact h.2.1)
    | (rcases List.mem_cons.1 hj with e | e
       · rw [e]; exact h.1
       · rw [List.mem_singleton.1 e]; first | exact h.2.1 | exact h.2.2)

theorem WF.inTables {c : Config} (hw : WF c) : TableT (InTables c) c where
  descs := fun i => by
    unfold Config.desc
    rw [List.getD_eq_getElem?_getD]
    cases h : c.descriptors[i]? with
    | none => exact trivial
    | some d =>
      have hi : i < c.descriptors.length := by
        rw [List.getElem?_eq_some_iff] at h
        exact h.1
      exact (hw.nested i d h).ext (Extends.refl c) (Nat.le_of_lt hi)
  keys := fun i code => by
    unfold Config.layer
    rw [List.getD_eq_getElem?_getD]
    cases h : c.layers[i]? with
    | none => exact trivial
    | some l => exact hw.keymaps l (List.mem_of_getElem? h) code
  chords := fun i ch hch => by
    unfold Config.layer at hch
    rw [List.getD_eq_getElem?_getD] at hch
    cases h : c.layers[i]? with
    | none => rw [h] at hch; exact absurd hch List.not_mem_nil
    | some l => rw [h] at hch; exact (hw.chords l (List.mem_of_getElem? h) ch hch).1

theorem inTables_closed (c : Config) : TClosed (InTables c) where
  none := trivial
  keyseq := fun _ _ => trivial
  ot := fun _ _ _ h => h.1
  ott := fun _ _ _ h => h.1
  swap := fun _ h => h
  swapm := fun _ _ h => h.1

theorem aug_pdSwitch {c : Config} (hw : WF c) (hn : NestWF c) {pd pd' : Kbd → Code → Desc → Nat → Bool → Int → Res Kbd} {r : Nat} (y : Code)
    (hpd : ∀ k d dl p t, k.config = c → InTables c d → nestRank c d < r → pd' (Kbd.aug au k) y d dl p t = (pd k y d dl p t).map (Kbd.aug au))
    (hcf : ∀ k d dl p t, k.config = c → nestRank c d < r → Sat (pd k y d dl p t) (fun k' => k'.config = c) AnyErr)
    (hk : k.config = c) {d : Desc} (hd : InTables c d) (hr : nestRank c d ≤ r) (dl : Nat) (p : Bool) (t : Int) :
    pdSwitch pd' (k.aug au) y d dl p t = (pdSwitch pd k y d dl p t).map (Kbd.aug au) := by
  have hm := hd.macros
  have hj := hd.nested
  have rank : ∀ {j}, j ∈ nestedOf d → nestRank c (c.desc j) < r := by
    intro j h
    have := hn.nested h
    omega
  have fit : ∀ j, InTables c (c.desc j) := hw.inTables.descs
  rw [← hk] at hm hj
  unfold pdSwitch
  cases d with
  | none => rfl
  | keyseq x m => exact aug_pdKeyseq x m dl p t
  | scroll s => rfl
  | scrollToggle s => rfl
  | overloadIdle d1 d2 x =>
    dsimp only
    split
    · unfold pdOverloadIdle
      dsimp only
      have e : idleAction (k.aug au) d1 d2 x t = idleAction k d1 d2 x t := by
        unfold idleAction
        rw [show (k.aug au).config = k.config.aug au from rfl, aug_desc _ (hj d1 List.mem_cons_self), aug_desc _ (hj d2 (List.mem_cons_of_mem _ List.mem_cons_self))]
        rfl
      rw [e]
      have f : InTables c (idleAction k d1 d2 x t) ∧ nestRank c (idleAction k d1 d2 x t) < r := by
        unfold idleAction
        rw [hk]
        split
        · exact ⟨fit _, rank (List.mem_cons_of_mem _ List.mem_cons_self)⟩
        · exact ⟨fit _, rank List.mem_cons_self⟩
      exact map_bind' (hpd k _ dl true t hk f.1 f.2) (fun a => rfl)
    · rfl
  | overloadTimeout l a x =>
    dsimp only
    split
    · exact aug_pdOverloadTimeout y false l (hj a List.mem_cons_self) x dl t
    · rfl
  | overloadTimeoutTap l a x =>
    dsimp only
    split
    · exact aug_pdOverloadTimeout y true l (hj a List.mem_cons_self) x dl t
    · rfl
  | layout l =>
    dsimp only
    split
    · exact aug_setlayout l
    · rfl
  | layer l => exact aug_pdLayer y l p
  | layerm l m => exact aug_pdLayer y l p
  | clear =>
    dsimp only
    split
    · exact aug_clear
    · rfl
  | clearm m =>
    dsimp only
    split
    · refine map_bindS aug_clear (Calm.clear k) (fun a ha => ?_)
      rw [show (a.aug au).config = a.config.aug au from rfl, aug_mac _ (by rw [ha.config]; exact hm m List.mem_cons_self), aug_executeMacro]
      rfl
    · rfl
  | overload l a =>
    dsimp only
    split
    · unfold pdOverloadPress
      dsimp only
      refine map_bind' (aug_activateLayer (k := { k with overloadStartTime := t }) y l) (fun a => ?_)
      rw [aug_updateMods]
      rfl
    · unfold pdOverloadRelease
      dsimp only
      refine map_bindS (aug_deactivateLayer l) (Calm.deactivate k l) (fun b hb => ?_)
      rw [aug_updateMods, show (k.aug au).config = k.config.aug au from rfl, aug_desc _ (hj a List.mem_cons_self),
        show isTap ((updateMods b none 0).aug au) y t = isTap (updateMods b none 0) y t from rfl]
      have hb2 : (updateMods b none 0).config = c := by rw [(KeyFrame.updateMods b none 0).config, hb.config, hk]
      have fa : InTables c (k.config.desc a) := by rw [hk]; exact fit a
      have ra : nestRank c (k.config.desc a) < r := by rw [hk]; exact rank List.mem_cons_self
      split
      · have nested : (pd' ((updateMods b none 0).aug au) y (k.config.desc a) dl true t >>= fun k' => pd' k' y (k.config.desc a) dl false t) =
            (pd (updateMods b none 0) y (k.config.desc a) dl true t >>= fun k' => pd k' y (k.config.desc a) dl false t).map (Kbd.aug au) :=
          map_bindS (hpd _ _ dl true t hb2 fa ra) (hcf _ _ dl true t hb2 ra) (fun e he => hpd e _ dl false t he fa ra)
        split
        · rename_i m heq
          rw [show ((updateMods b none 0).aug au).config = (updateMods b none 0).config.aug au from rfl,
            aug_mac _ (by rw [hb2]; rw [heq] at fa; exact fa), aug_executeMacro]
          rfl
        · exact nested
      · rfl
  | oneshot l => exact aug_pdOneshot y l dl p t
  | oneshotm l m => exact aug_pdOneshot y l dl p t
  | «macro» m =>
    dsimp only
    split
    · exact aug_pdMacro (hm m List.mem_cons_self) _ _ dl t
    · rfl
  | macro2 x r m =>
    dsimp only
    split
    · exact aug_pdMacro (hm m List.mem_cons_self) _ _ dl t
    · rfl
  | toggle l =>
    dsimp only
    split
    · exact aug_pdToggle y l
    · rfl
  | togglem l m =>
    dsimp only
    split
    · exact aug_pdToggle y l
    · rfl
  | timeout d1 x d2 =>
    dsimp only
    split
    · exact aug_pdTimeout y (hj d1 List.mem_cons_self) (hj d2 (List.mem_cons_of_mem _ List.mem_cons_self)) x dl t
    · rfl
  | command x =>
    dsimp only
    split
    · exact aug_pdCommand (by rw [hk]; exact hd)
    · rfl
  | swap l => exact aug_pdSwap l none dl p
  | swapm l m =>
    dsimp only
    rw [show (k.aug au).config = k.config.aug au from rfl, aug_mac _ (hm m List.mem_cons_self)]
    exact aug_pdSwap l (some (k.config.mac m)) dl p

theorem aug_descriptor {c : Config} (hw : WF c) (hn : NestWF c) : ∀ (n n' : Nat) (k : Kbd) (y : Code) (d : Desc) (dl : Nat) (p : Bool) (t : Int), k.config = c → InTables c d →
    nestRank c d < n → nestRank c d < n' → processDescriptor n' (k.aug au) y d dl p t = (processDescriptor n k y d dl p t).map (Kbd.aug au)
  | 0, _, _, _, _, _, _, _, _, _, h, _ => absurd h (Nat.not_lt_zero _)
  | _ + 1, 0, _, _, _, _, _, _, _, _, _, h => absurd h (Nat.not_lt_zero _)
  | n + 1, n' + 1, k, y, d, dl, p, t, hk, hd, h, h' => by
    unfold processDescriptor
    dsimp only
    rw [aug_pdMacroPrefix (by rw [hk]; exact hd.macros)]
    have hk2 : (pdMacroPrefix k d dl p).config = c := by rw [(Calm.pdMacroPrefix k d dl p).config, hk]
    refine map_bind' (aug_pdSwitch hw hn (r := nestRank c d) y (fun k d dl p t e1 e2 e3 => aug_descriptor hw hn n n' k y d dl p t e1 e2 (by omega) (by omega))
      (fun k d dl p t e1 e2 => (((mild_descriptor hn n k y d dl p t e1 (by omega)).imp (fun k1 hm => hm.config.trans e1))).mono (fun _ h => h) (fun _ _ => trivial))
      hk2 hd (Nat.le_refl _) dl p t) (fun a => ?_)
    split <;> rfl

end Keyd
