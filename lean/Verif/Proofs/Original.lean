import Verif.Proofs.Uptime

/-
  Handling events neither reads nor changes the saved configuration that `bind reset` returns to (C109).
-/

set_option autoImplicit false

namespace Keyd

/-- The same keyboard with another saved configuration. -/
def Kbd.orig (o : Config) (k : Kbd) : Kbd := { k with originalConfig := o }

variable {o : Config} {k : Kbd}

theorem orig_layer (i : Nat) : (k.orig o).config.layer i = k.config.layer i := rfl

theorem orig_sendKey (c : Code) (p : Bool) : sendKey (k.orig o) c p = (sendKey k c p).orig o := by
  unfold sendKey
  by_cases h : c = KEYD.NOOP ∨ c = KEYD.EXTERNAL_MOUSE_BUTTON
  · rw [if_pos h, if_pos h]
  · rw [if_neg h, if_neg h]
    cases p
    · show (if k.keystate c ≠ false then _ else _) = Kbd.orig o (if k.keystate c ≠ false then _ else _)
      split <;> rfl
    · show (if k.keystate c ≠ true then _ else _) = Kbd.orig o (if k.keystate c ≠ true then _ else _)
      split <;> rfl

theorem orig_clearMod (c : Code) : clearMod (k.orig o) c = (clearMod k c).orig o := by
  unfold clearMod
  have hg : guardApplies (k.orig o) c = guardApplies k c := rfl
  have hk : (k.orig o).keystate = k.keystate := rfl
  rw [hg, hk]
  split <;> simp only [orig_sendKey]

theorem orig_setMod (mods : UInt8) (m : UInt8 × Code) : setMod mods (k.orig o) m = (setMod mods k m).orig o := by
  unfold setMod
  have hk : (k.orig o).keystate = k.keystate := rfl
  rw [hk]
  split <;> split <;> first | rfl | exact orig_sendKey _ _ | exact orig_clearMod _

theorem orig_foldl {α : Type} {f : Kbd → α → Kbd} (h : ∀ k a, f (k.orig o) a = (f k a).orig o) :
    ∀ (l : List α) (k : Kbd), l.foldl f (k.orig o) = (l.foldl f k).orig o
  | [], _ => rfl
  | a :: l, k => by
    rw [List.foldl_cons, List.foldl_cons, h]
    exact orig_foldl h l _

theorem orig_setMods (mods : UInt8) : setMods (k.orig o) mods = (setMods k mods).orig o :=
  orig_foldl (fun _ _ => orig_setMod _ _) _ _

theorem orig_updateMods (ex : Option Nat) (mods : UInt8) : updateMods (k.orig o) ex mods = (updateMods k ex mods).orig o := by
  unfold updateMods
  have : layerMods (k.orig o) ex mods = layerMods k ex mods := rfl
  rw [this]
  exact orig_setMods _

theorem orig_resetKeystate : resetKeystate (k.orig o) = (resetKeystate k).orig o := by
  unfold resetKeystate
  refine orig_foldl (fun k c => ?_) _ _
  dsimp only
  have hk : (k.orig o).keystate = k.keystate := rfl
  rw [hk]
  split <;> rfl

theorem orig_emitMacro : ∀ (l : List MacroOut) (k : Kbd), emitMacro (k.orig o) l = (emitMacro k l).orig o
  | [], _ => rfl
  | .key c d :: l, k => orig_emitMacro l (k.emit (.key c d))
  | .sleep us :: l, k => orig_emitMacro l (k.emit (.sleep us))

theorem orig_executeMacro (dl : Nat) (m : Macro) : executeMacro (k.orig o) dl m = (executeMacro k dl m).orig o := by
  have slow : ∀ n, emitMacro (updateMods (k.orig o) (some dl) 0) (macroExecute m n) =
      (emitMacro (updateMods k (some dl) 0) (macroExecute m n)).orig o := fun n => by
    rw [orig_updateMods]; exact orig_emitMacro _ _
  unfold executeMacro
  dsimp only
  split
  · split
    · rw [orig_updateMods, orig_sendKey, orig_sendKey]
    · exact slow _
  · exact slow _

theorem orig_deactivateLayer (i : Nat) : deactivateLayer (k.orig o) i = (deactivateLayer k i).map (Kbd.orig o) := by
  unfold deactivateLayer
  have hk : (k.orig o).layerState = k.layerState := rfl
  rw [hk]
  dsimp only
  split <;> rfl

theorem orig_activateLayer (c : Code) (i : Nat) : activateLayer (k.orig o) c i = (activateLayer k c i).map (Kbd.orig o) := by
  unfold activateLayer
  have hk : (k.orig o).layerState = k.layerState := rfl
  rw [hk]
  dsimp only
  split <;> rfl

theorem orig_clearOneshotLayer (i : Nat) : ∀ (n : Nat) (k : Kbd),
    clearOneshotLayer i n (k.orig o) = (clearOneshotLayer i n k).map (Kbd.orig o)
  | 0, _ => rfl
  | n+1, k => map_bind' (orig_deactivateLayer i) (fun a =>
      orig_clearOneshotLayer i n (a.modLayer i fun s => { s with oneshotDepth := s.oneshotDepth - 1 }))

theorem orig_clearOneshotLayers : ∀ (l : List Nat) (k : Kbd),
    clearOneshotLayers l (k.orig o) = (clearOneshotLayers l k).map (Kbd.orig o)
  | [], _ => rfl
  | i :: l, k => map_bind' (orig_clearOneshotLayer i _ k) (fun a => orig_clearOneshotLayers l a)

theorem orig_clearOneshot : clearOneshot (k.orig o) = (clearOneshot k).map (Kbd.orig o) :=
  by
  unfold clearOneshot
  show (clearOneshotLayers (List.range k.config.layers.length) (k.orig o) >>= _) = _
  rw [orig_clearOneshotLayers]
  cases clearOneshotLayers (List.range k.config.layers.length) k <;> rfl

theorem orig_clearToggled : ∀ (l : List Nat) (k : Kbd),
    clearToggled l (k.orig o) = (clearToggled l k).map (Kbd.orig o)
  | [], _ => rfl
  | i :: l, k => by
    unfold clearToggled
    have h1 : (k.orig o).config.layer = k.config.layer := rfl
    have h2 : (k.orig o).layerState = k.layerState := rfl
    rw [h1, h2]
    split
    · exact map_bind' (orig_deactivateLayer (k := k.modLayer i fun s => { s with toggled := false }) i)
        (fun a => orig_clearToggled l a)
    · exact orig_clearToggled l k

theorem orig_clear : clear (k.orig o) = (clear k).map (Kbd.orig o) := by
  unfold clear
  rw [orig_clearOneshot]
  refine map_bind (fun a => ?_)
  show (clearToggled (nonMainLayers a) (a.orig o) >>= _) = _
  rw [orig_clearToggled]
  refine map_bind (fun b => ?_)
  show Except.ok (resetKeystate (({ b with activeMacro := none } : Kbd).orig o)) = _
  rw [orig_resetKeystate]
  rfl

theorem orig_setlayout (i : Nat) : setlayout (k.orig o) i = (setlayout k i).map (Kbd.orig o) := by
  unfold setlayout
  rw [orig_clear]
  refine map_bind (fun a => ?_)
  dsimp only
  have h : ∀ l : List Nat, l.foldl (fun (k : Kbd) i => if (k.config.layer i).type = .layout then
        k.modLayer i fun s => { s with active := 0 } else k) (a.orig o) =
      (l.foldl (fun (k : Kbd) i => if (k.config.layer i).type = .layout then
        k.modLayer i fun s => { s with active := 0 } else k) a).orig o := fun l => by
    refine orig_foldl (fun k c => ?_) l a
    rw [orig_layer]
    split <;> rfl
  have h2 : nonMainLayers (a.orig o) = nonMainLayers a := rfl
  rw [h2, h]
  split <;> rfl

theorem orig_cacheSet (c : Code) (e : Option CacheEntry) : cacheSet (k.orig o) c e = (cacheSet k c e).map (Kbd.orig o) := by
  unfold cacheSet
  have h2 : (k.orig o).cache = k.cache := rfl
  rw [h2]
  split
  · rfl
  · split <;> rfl

theorem orig_lookup (c : Code) : lookupDescriptor (k.orig o) c = lookupDescriptor k c := rfl

theorem orig_pdLayer (c : Code) (i : Nat) (p : Bool) : pdLayer (k.orig o) c i p = (pdLayer k c i p).map (Kbd.orig o) := by
  unfold pdLayer
  refine map_bind' (by split <;> first | exact orig_activateLayer _ _ | exact orig_deactivateLayer _) (fun a => ?_)
  have h2 : (a.orig o).lastPressedCode = a.lastPressedCode := rfl
  rw [h2]
  split
  · have h3 := orig_updateMods (o := o) (k := ({ a with inhibitModifierGuard := true } : Kbd)) none 0
    show Except.ok ({ updateMods (({ a with inhibitModifierGuard := true } : Kbd).orig o) none 0 with inhibitModifierGuard := false } : Kbd) = _
    rw [h3]
    rfl
  · rw [orig_updateMods]; rfl

theorem orig_pdToggle (c : Code) (i : Nat) : pdToggle (k.orig o) c i = (pdToggle k c i).map (Kbd.orig o) := by
  unfold pdToggle
  dsimp only
  generalize hm : k.modLayer i (fun s => { s with toggled := !s.toggled }) = k1
  have hm' : (k.orig o).modLayer i (fun s => { s with toggled := !s.toggled }) = k1.orig o := by rw [← hm]; rfl
  rw [hm']
  have h2 : (k1.orig o).layerState = k1.layerState := rfl
  rw [h2]
  refine map_bind' (g := Kbd.orig o) (by split <;> first | exact orig_activateLayer _ _ | exact orig_deactivateLayer _) (fun a => ?_)
  rw [orig_updateMods]
  exact orig_clearOneshot

theorem orig_pdCommand (c : Nat) : pdCommand (k.orig o) c = (pdCommand k c).map (Kbd.orig o) := by
  unfold pdCommand
  dsimp only
  refine map_bind' (orig_clearOneshot (k := k.emit (.command (k.config.commands.getD c [])))) (fun a => ?_)
  rw [orig_updateMods]; rfl

theorem orig_pdSwapLayer (i dl : Nat) : pdSwapLayer (k.orig o) i dl = (pdSwapLayer k i dl).map (Kbd.orig o) := by
  unfold pdSwapLayer
  have h2 : (k.orig o).layerState = k.layerState := rfl
  have h3 : (k.orig o).cache = k.cache := rfl
  have h4 : swapHolder (k.orig o) dl = swapHolder k dl := rfl
  rw [h2, h3, h4]
  split
  · refine map_bind' (orig_deactivateLayer dl) (fun a => ?_)
    refine map_bind' (orig_activateLayer (o := o) (k := a.modLayer dl fun s => { s with toggled := false }) 0 i) (fun b => ?_)
    dsimp only
    have : (b.orig o).modLayer i (fun s => { s with toggled := true }) =
      (b.modLayer i (fun s => { s with toggled := true })).orig o := rfl
    rw [this, orig_updateMods]; rfl
  · split
    · refine map_bind' (orig_deactivateLayer dl) (fun a => ?_)
      refine map_bind' (orig_activateLayer (o := o) (k := a.modLayer dl fun s => { s with oneshotDepth := s.oneshotDepth - 1 }) 0 i) (fun b => ?_)
      dsimp only
      have : (b.orig o).modLayer i (fun s => { s with oneshotDepth := s.oneshotDepth + 1 }) =
        (b.modLayer i (fun s => { s with oneshotDepth := s.oneshotDepth + 1 })).orig o := rfl
      rw [this, orig_updateMods]; rfl
    · split
      · rfl
      · dsimp only
        refine map_bind' (orig_deactivateLayer (k := { k with cache := modifyFirst (swapHolder k dl) (fun e => { e with d := .layer i }) k.cache }) dl) (fun a => ?_)
        refine map_bind' (orig_activateLayer (o := o) _ i) (fun b => ?_)
        rw [orig_updateMods]; rfl

theorem orig_pdSwap (i : Nat) (m : Option Macro) (dl : Nat) (p : Bool) :
    pdSwap (k.orig o) i m dl p = (pdSwap k i m dl p).map (Kbd.orig o) := by
  unfold pdSwap
  split
  · refine map_bind' (orig_pdSwapLayer i dl) (fun a => ?_)
    cases m with
    | none => rfl
    | some m => dsimp only; rw [orig_executeMacro]; rfl
  · split
    · split
      · rw [orig_sendKey, orig_updateMods]; rfl
      · rfl
    · rfl

theorem orig_pdMacroPrefix (d : Desc) (dl : Nat) (p : Bool) :
    pdMacroPrefix (k.orig o) d dl p = (pdMacroPrefix k d dl p).orig o := by
  unfold pdMacroPrefix
  split
  · cases d <;> first | rfl | exact orig_executeMacro _ _
  · rfl


theorem orig_schedule (t : Int) : scheduleTimeout (k.orig o) t = (scheduleTimeout k t).map (Kbd.orig o) := by
  unfold scheduleTimeout
  rw [show (k.orig o).timeouts = k.timeouts from rfl]
  split <;> rfl

theorem orig_pdKeyseq (c : Code) (m : UInt8) (dl : Nat) (p : Bool) (t : Int) : pdKeyseq (k.orig o) c m dl p t = (pdKeyseq k c m dl p t).map (Kbd.orig o) := by
  unfold pdKeyseq
  refine map_bind' (g := Kbd.orig o) ?_ (fun a => by split <;> rfl)
  cases p with
  | true =>
    rw [if_pos rfl, if_pos rfl]
    dsimp only
    have e : (if (k.orig o).keystate c then sendKey (k.orig o) c false else k.orig o) = (if k.keystate c then sendKey k c false else k).orig o := by
      rw [show (k.orig o).keystate = k.keystate from rfl]
      split
      · exact orig_sendKey _ _
      · rfl
    rw [e, orig_updateMods, orig_sendKey]
    exact orig_clearOneshot
  | false =>
    rw [if_neg (by decide), if_neg (by decide), orig_sendKey, orig_updateMods]
    rfl

theorem orig_pdOverloadTimeout (c : Code) (tap : Bool) (l d x dl : Nat) (t : Int) :
    pdOverloadTimeout (k.orig o) c tap l d x dl t = (pdOverloadTimeout k c tap l d x dl t).map (Kbd.orig o) :=
  orig_schedule (k := { k with pending := { k.pending with
    code := c, behaviour := if tap then .uninterruptibleTapAction2 else .uninterruptible, dl := dl, action1 := k.config.desc d, action2 := .layer l, expire := t + x } }) _

theorem orig_pdTimeout (c : Code) (d1 x d2 dl : Nat) (t : Int) : pdTimeout (k.orig o) c d1 x d2 dl t = (pdTimeout k c d1 x d2 dl t).map (Kbd.orig o) :=
  orig_schedule (k := { k with pending := { k.pending with
    action1 := k.config.desc d1, action2 := k.config.desc d2, code := c, dl := dl, expire := t + x, behaviour := .interruptAction1 } }) _

theorem orig_pdOneshot (c : Code) (i dl : Nat) (p : Bool) (t : Int) : pdOneshot (k.orig o) c i dl p t = (pdOneshot k c i dl p t).map (Kbd.orig o) := by
  unfold pdOneshot
  cases p with
  | true =>
    rw [if_pos rfl, if_pos rfl]
    refine map_bind' (orig_activateLayer c i) (fun a => ?_)
    dsimp only
    rw [orig_updateMods]
    rfl
  | false =>
    rw [if_neg (show ¬ (false = true) by decide), if_neg (show ¬ (false = true) by decide), show (k.orig o).oneshotLatch = k.oneshotLatch from rfl, show (k.orig o).layerState = k.layerState from rfl]
    split
    · dsimp only
      split
      · rfl
      · show (if k.config.oneshotTimeout ≠ 0 then _ else _) = Except.map _ (if k.config.oneshotTimeout ≠ 0 then _ else _)
        split
        · exact orig_schedule (k := { (k.modLayer i fun s => { s with oneshotDepth := s.oneshotDepth + 1 }) with oneshotTimeout := t + k.config.oneshotTimeout }) _
        · rfl
    · refine map_bind' (orig_deactivateLayer i) (fun a => ?_)
      rw [orig_updateMods]
      rfl

theorem orig_pdMacro (m : Nat) (x iv : Int) (dl : Nat) (t : Int) : pdMacro (k.orig o) m x iv dl t = (pdMacro k m x iv dl t).map (Kbd.orig o) := by
  unfold pdMacro
  refine map_bind' (orig_clearOneshot (k := { k with macroRepeatInterval := iv })) (fun a => ?_)
  dsimp only
  rw [orig_executeMacro]
  exact orig_schedule (k := { executeMacro a dl (a.config.mac m) with activeMacro := some m, activeMacroLayer := dl, macroTimeout := t + x }) _

theorem orig_cacheModify (c : Code) (f : CacheEntry → CacheEntry) : cacheModify (k.orig o) c f = (cacheModify k c f).orig o := rfl

/-- What is needed of the processing of nested actions. -/
def PDOrig (o : Config) (pd : Kbd → Code → Desc → Nat → Bool → Int → Res Kbd) : Prop :=
  ∀ k c d dl p t, pd (Kbd.orig o k) c d dl p t = (pd k c d dl p t).map (Kbd.orig o)

theorem orig_pdSwitch {pd : Kbd → Code → Desc → Nat → Bool → Int → Res Kbd} (hpd : PDOrig o pd) (c : Code) (d : Desc) (dl : Nat) (p : Bool) (t : Int) :
    pdSwitch pd (k.orig o) c d dl p t = (pdSwitch pd k c d dl p t).map (Kbd.orig o) := by
  unfold pdSwitch
  cases d with
  | none => rfl
  | keyseq x m => exact orig_pdKeyseq x m dl p t
  | scroll s => rfl
  | scrollToggle s => rfl
  | overloadIdle d1 d2 x =>
    dsimp only
    split
    · unfold pdOverloadIdle
      dsimp only
      rw [show idleAction (k.orig o) d1 d2 x t = idleAction k d1 d2 x t from rfl]
      exact map_bind' (hpd k c _ dl true t) (fun a => rfl)
    · rfl
  | overloadTimeout l a x =>
    dsimp only
    split
    · exact orig_pdOverloadTimeout c false l a x dl t
    · rfl
  | overloadTimeoutTap l a x =>
    dsimp only
    split
    · exact orig_pdOverloadTimeout c true l a x dl t
    · rfl
  | layout l =>
    dsimp only
    split
    · exact orig_setlayout l
    · rfl
  | layer l => exact orig_pdLayer c l p
  | layerm l m => exact orig_pdLayer c l p
  | clear =>
    dsimp only
    split
    · exact orig_clear
    · rfl
  | clearm m =>
    dsimp only
    split
    · refine map_bind' orig_clear (fun a => ?_)
      rw [orig_executeMacro]
      rfl
    · rfl
  | overload l a =>
    dsimp only
    split
    · unfold pdOverloadPress
      dsimp only
      refine map_bind' (orig_activateLayer (k := { k with overloadStartTime := t }) c l) (fun a => ?_)
      rw [orig_updateMods]
      rfl
    · unfold pdOverloadRelease
      dsimp only
      refine map_bind' (orig_deactivateLayer l) (fun b => ?_)
      rw [orig_updateMods, show (k.orig o).config = k.config from rfl, show isTap ((updateMods b none 0).orig o) c t = isTap (updateMods b none 0) c t from rfl]
      split
      · have nested : ∀ x : Desc, (pd ((updateMods b none 0).orig o) c x dl true t >>= fun k => pd k c x dl false t) =
            (pd (updateMods b none 0) c x dl true t >>= fun k => pd k c x dl false t).map (Kbd.orig o) := fun x =>
          map_bind' (hpd _ c x dl true t) (fun a => hpd a c x dl false t)
        split
        · rw [orig_executeMacro]
          rfl
        · exact nested _
      · rfl
  | oneshot l => exact orig_pdOneshot c l dl p t
  | oneshotm l m => exact orig_pdOneshot c l dl p t
  | «macro» m =>
    dsimp only
    split
    · exact orig_pdMacro m _ _ dl t
    · rfl
  | macro2 x r m =>
    dsimp only
    split
    · exact orig_pdMacro m _ _ dl t
    · rfl
  | toggle l =>
    dsimp only
    split
    · exact orig_pdToggle c l
    · rfl
  | togglem l m =>
    dsimp only
    split
    · exact orig_pdToggle c l
    · rfl
  | timeout d1 x d2 =>
    dsimp only
    split
    · exact orig_pdTimeout c d1 x d2 dl t
    · rfl
  | command x =>
    dsimp only
    split
    · exact orig_pdCommand x
    · rfl
  | swap l => exact orig_pdSwap l none dl p
  | swapm l m => exact orig_pdSwap l (some (k.config.mac m)) dl p

theorem orig_descriptor : ∀ n, PDOrig o (processDescriptor n)
  | 0 => fun _ _ _ _ _ _ => rfl
  | n + 1 => fun k c d dl p t => by
    unfold processDescriptor
    dsimp only
    rw [orig_pdMacroPrefix]
    refine map_bind' (orig_pdSwitch (orig_descriptor n) c d dl p t) (fun a => ?_)
    split <;> rfl

/-! ### Events -/

/-- Replacing the saved configuration in a result with something else beside the keyboard. -/
def origP {α : Type} (o : Config) (r : Kbd × α) : Kbd × α := (r.1.orig o, r.2)

def PEOrig (o : Config) (pe : PE) : Prop := ∀ k c p t, pe (Kbd.orig o k) c p t = (pe k c p t).map (origP o)

theorem map_bindP {α β : Type} {h : β → β} {x x' : Res (Kbd × α)} {f f' : Kbd × α → Res β} (hx : x' = x.map (origP o))
    (e : ∀ k a, f' (k.orig o, a) = (f (k, a)).map h) : (x' >>= f') = (x >>= f).map h := by
  rw [hx]
  cases x with
  | error _ => rfl
  | ok r => exact e r.1 r.2

theorem orig_catchUp {pe : PE} (hpe : PEOrig o pe) : ∀ (n : Nat) (k : Kbd) (w ts lim : Int), catchUp pe n (k.orig o) w ts lim = (catchUp pe n k w ts lim).map (origP o)
  | 0, _, _, _, _ => rfl
  | n + 1, k, w, ts, lim => by
    unfold catchUp
    split
    · exact map_bindP (hpe k 0 false ts) (fun a t => orig_catchUp hpe n a t (ts + t) lim)
    · rfl

theorem orig_loop {pe : PE} (hpe : PEOrig o pe) : ∀ (evs : List KeyEvent) (k : Kbd) (w ts : Int), processEventsLoop pe evs (k.orig o) w ts = (processEventsLoop pe evs k w ts).map (origP o)
  | [], _, _, _ => rfl
  | e :: evs, k, w, ts => by
    unfold processEventsLoop
    refine map_bindP (orig_catchUp hpe _ k w ts e.ts) (fun a x => ?_)
    exact map_bindP (hpe a e.code e.pressed e.ts) (fun b t => orig_loop hpe evs b t (e.ts + t))

theorem orig_install (q : Nat × Nat) : installChord (k.orig o) q = (installChord k q).map (origP o) := by
  unfold installChord
  dsimp only
  rw [show (k.orig o).activeChords = k.activeChords from rfl]
  split <;> rfl

theorem orig_resolveChord {pe : PE} (hpe : PEOrig o pe) (k : Kbd) : resolveChord pe (k.orig o) = (resolveChord pe k).map (Kbd.orig o) := by
  unfold resolveChord
  dsimp only
  refine map_bindP (o := o) ?_ (fun a n => ?_)
  · rw [show (k.orig o).chord = k.chord from rfl]
    split
    · rfl
    · refine map_bindP (orig_install (k := { k with chord := { k.chord with state := .resolving } }) _) (fun b r => ?_)
      exact map_bindP (hpe (b.logSwallowed (b.chord.queue.take r.2)) r.1 true b.chord.lastCodeTime) (fun _ _ => rfl)
  · dsimp only
    rw [show (a.orig o).chord = a.chord from rfl]
    split
    · rfl
    · exact map_bindP (orig_loop hpe _ a 0 0) (fun _ _ => rfl)

theorem orig_abortChord {pe : PE} (hpe : PEOrig o pe) (k : Kbd) : abortChord pe (k.orig o) = (abortChord pe k).map (Kbd.orig o) :=
  orig_resolveChord hpe { k with chord := { k.chord with «match» := none } }

theorem orig_strikeChord {pe : PE} (hpe : PEOrig o pe) (i : Nat) (c : Code) (t : Int) : strikeChord pe (k.orig o) i c t = (strikeChord pe k i c t).map (Kbd.orig o) := by
  unfold strikeChord
  dsimp only
  rw [show (k.orig o).activeChords = k.activeChords from rfl]
  split
  · exact map_bindP (hpe { (k.logSwallowed [⟨c, false, t⟩]) with activeChords := _ } _ false t) (fun _ _ => rfl)
  · rfl

theorem handled_map {x x' : Res Kbd} (b : Bool) (h : x' = x.map (Kbd.orig o)) :
    (x' >>= fun k => .ok (k, b)) = (x >>= fun k => Except.ok (ε := Err) (k, b)).map (origP o) := map_bind' h (fun _ => rfl)

theorem orig_enqueueChord (c : Code) (p : Bool) (t : Int) : enqueueChordEvent (k.orig o) c p t = (enqueueChordEvent k c p t).map (Kbd.orig o) := by
  unfold enqueueChordEvent
  rw [show (k.orig o).chord = k.chord from rfl]
  split
  · rfl
  · split <;> rfl

theorem orig_checkChord : checkChordMatch (k.orig o) = ((checkChordMatch k).1, (checkChordMatch k).2.orig o) := by
  unfold checkChordMatch
  rw [show chordScan (k.orig o) = chordScan k from rfl]
  dsimp only
  cases (chordScan k).full <;> rfl

theorem orig_chordDecide {pe : PE} (hpe : PEOrig o pe) (t : Int) {f f' : Kbd → Res (Kbd × Bool)}
    (hf : ∀ k, f' (Kbd.orig o k) = (f k).map (origP o)) :
    chordDecide pe (k.orig o) t f' = (chordDecide pe k t f).map (origP o) := by
  unfold chordDecide
  rw [orig_checkChord]
  obtain ⟨n, a⟩ := checkChordMatch k
  match n with
  | 0 => exact hf a
  | 2 =>
    show (if a.config.chordHoldTimeout ≠ 0 then _ else _) = Except.map _ (if a.config.chordHoldTimeout ≠ 0 then _ else _)
    split
    · exact handled_map true (orig_schedule (k := { a with chord := { a.chord with lastCodeTime := t, state := .pendingHoldTimeout } }) _)
    · exact handled_map true (orig_resolveChord hpe { a with chord := { a.chord with lastCodeTime := t } })
  | 1 => exact handled_map true (orig_schedule (k := { a with chord := { a.chord with state := .pendingDisambiguation, lastCodeTime := t } }) _)
  | n + 3 => exact handled_map true (orig_schedule (k := { a with chord := { a.chord with state := .pendingDisambiguation, lastCodeTime := t } }) _)

theorem orig_chordMachine {pe : PE} (hpe : PEOrig o pe) (c : Code) (p : Bool) (t : Int) :
    chordMachine pe (k.orig o) c p t = (chordMachine pe k c p t).map (origP o) := by
  unfold chordMachine
  rw [show (k.orig o).chord = k.chord from rfl, show (k.orig o).config = k.config from rfl]
  cases k.chord.state with
  | resolving => rfl
  | inactive =>
    refine map_bind' (orig_enqueueChord (k := { k with chord := { k.chord with queue := [], «match» := none, startCode := c } }) c p t) (fun a => ?_)
    exact orig_chordDecide hpe t (fun _ => rfl)
  | pendingDisambiguation =>
    dsimp only
    split
    · split
      · split
        · split
          · exact map_bind' (orig_schedule _) (fun a => rfl)
          · exact handled_map true (orig_resolveChord hpe k)
        · exact handled_map true (orig_abortChord hpe k)
      · rfl
    · refine map_bind' (orig_enqueueChord c p t) (fun a => ?_)
      split
      · exact handled_map true (orig_abortChord hpe a)
      · exact orig_chordDecide hpe t (fun b => handled_map true (orig_abortChord hpe b))
  | pendingHoldTimeout =>
    dsimp only
    split
    · split
      · exact handled_map true (orig_resolveChord hpe k)
      · rfl
    · refine map_bind' (orig_enqueueChord c p t) (fun a => ?_)
      split
      · rw [show (a.orig o).chord = a.chord from rfl]
        cases a.chord.match with
        | none => rfl
        | some q =>
          show (if c ∈ (derefChord a q).keys then _ else _) = Except.map _ (if c ∈ (derefChord a q).keys then _ else _)
          split
          · exact handled_map true (orig_abortChord hpe a)
          · rfl
      · rfl

theorem orig_handleChord {pe : PE} (hpe : PEOrig o pe) (c : Code) (p : Bool) (t : Int) :
    handleChord pe (k.orig o) c p t = (handleChord pe k c p t).map (origP o) := by
  unfold handleChord
  rw [show (k.orig o).activeChords = k.activeChords from rfl]
  cases (if c ≠ 0 ∧ !p then findActiveChord c k.activeChords 0 else none) with
  | some i => exact handled_map true (orig_strikeChord hpe i c t)
  | none => exact orig_chordMachine hpe c p t

theorem orig_pendingEnqueue (c : Code) (p : Bool) (t : Int) :
    pendingEnqueue (k.orig o) c p t = (pendingEnqueue k c p t).map (Option.map (Kbd.orig o)) := by
  unfold pendingEnqueue
  rw [show (k.orig o).pending = k.pending from rfl]
  split
  · rfl
  · split
    · rfl
    · split <;> rfl

theorem orig_cacheSetD (c : Code) (e : Option CacheEntry) :
    (cacheSet (k.orig o) c e).getD (k.orig o) = ((cacheSet k c e).getD k).orig o := by
  rw [orig_cacheSet]
  cases cacheSet k c e <;> rfl

theorem orig_resolvePending (a : Desc) (t : Int) :
    resolvePendingStep (k.orig o) a t = (resolvePendingStep k a t).map (origP o) := by
  unfold resolvePendingStep
  dsimp only
  have h := orig_cacheSetD (o := o) (k := { k with pending := { k.pending with code := 0, queue := [], tapExpiry := 0 } })
    k.pending.code (some { d := a, dl := k.pending.dl, layer := 0 })
  have h' : ∀ x y : Kbd, x = y.orig o → (do
      let r ← processDescriptor (descBudget (x.log (.resolve k.pending.code a k.pending.dl t)))
        (x.log (.resolve k.pending.code a k.pending.dl t)) k.pending.code a k.pending.dl true t
      Except.ok (ε := Err) (r, k.pending.queue)) = (do
      let r ← processDescriptor (descBudget (y.log (.resolve k.pending.code a k.pending.dl t)))
        (y.log (.resolve k.pending.code a k.pending.dl t)) k.pending.code a k.pending.dl true t
      Except.ok (ε := Err) (r, k.pending.queue)).map (origP o) := by
    rintro x y rfl
    exact map_bind' (orig_descriptor _ (y.log (.resolve k.pending.code a k.pending.dl t)) _ _ _ _ _) (fun _ => rfl)
  exact h' _ _ h

theorem orig_handlePending {pe : PE} (hpe : PEOrig o pe) (c : Code) (p : Bool) (t : Int) :
    handlePendingKey pe (k.orig o) c p t = (handlePendingKey pe k c p t).map (origP o) := by
  unfold handlePendingKey
  rw [show (k.orig o).pending = k.pending from rfl]
  split
  · rfl
  · rw [orig_pendingEnqueue]
    cases pendingEnqueue k c p t with
    | error _ => rfl
    | ok r =>
      cases r with
      | none => rfl
      | some a =>
        show (if pendingDecision a.pending c p t = .none then _ else _) =
          Except.map _ (if pendingDecision a.pending c p t = .none then _ else _)
        split
        · rfl
        · refine map_bindP (orig_resolvePending (k := a) _ t) (fun b q => ?_)
          exact map_bindP (orig_loop hpe q b 0 0) (fun _ _ => rfl)

theorem orig_timers (c : Code) (t : Int) : stepTimers (k.orig o) c t = (stepTimers k c t).map (Kbd.orig o) := by
  unfold stepTimers
  refine map_bind' (g := Kbd.orig o) (h := Kbd.orig o) ?_ (fun a => ?_)
  · rw [show (k.orig o).oneshotTimeout = k.oneshotTimeout from rfl]
    split
    · refine map_bind' orig_clearOneshot (fun a => ?_)
      rw [orig_updateMods]; rfl
    · rfl
  · rw [show (a.orig o).activeMacro = a.activeMacro from rfl]
    cases a.activeMacro with
    | none => rfl
    | some m =>
      dsimp only
      rw [show (a.orig o).macroTimeout = a.macroTimeout from rfl]
      split
      · have := orig_updateMods (o := o) (k := { a with activeMacro := none }) none 0
        exact congrArg Except.ok this
      · split
        · rw [show (a.orig o).activeMacroLayer = a.activeMacroLayer from rfl, show (a.orig o).config = a.config from rfl, orig_executeMacro]
          exact orig_schedule (k := { executeMacro a a.activeMacroLayer (a.config.mac m) with
            macroTimeout := t + (executeMacro a a.activeMacroLayer (a.config.mac m)).macroRepeatInterval }) _
        · rfl

theorem orig_key (c : Code) (p : Bool) (t : Int) : stepKey (k.orig o) c p t = (stepKey k c p t).map (Kbd.orig o) := by
  unfold stepKey
  rw [show cacheGet (k.orig o) c = cacheGet k c from rfl, show lookupDescriptor (k.orig o) c = lookupDescriptor k c from rfl]
  split
  · rfl
  · split
    · split
      · rfl
      · dsimp only
        rw [orig_cacheSet]
        cases cacheSet k c (some { d := (lookupDescriptor k c).1, dl := (lookupDescriptor k c).2, layer := 0 }) with
        | none => rfl
        | some a => exact orig_descriptor _ (a.log _) _ _ _ _ _
    · cases cacheGet k c with
      | none => rfl
      | some ce =>
        dsimp only
        rw [orig_cacheSetD]
        exact orig_descriptor _ (((cacheSet k c none).getD k).log _) _ _ _ _ _

theorem orig_wakeup (t : Int) : calculateMainLoopTimeout (k.orig o) t = origP o (calculateMainLoopTimeout k t) := rfl

theorem orig_body {pe : PE} (hpe : PEOrig o pe) : PEOrig o (processEventBody pe) := by
  intro k c p t
  unfold processEventBody
  refine map_bindP (orig_handleChord hpe c p t) (fun a h => ?_)
  dsimp only
  refine map_bind' (g := Kbd.orig o) (h := origP o) ?_ (fun b => congrArg Except.ok (orig_wakeup t))
  cases h with
  | true => rfl
  | false =>
    rw [if_neg (show ¬ (false = true) by decide), if_neg (show ¬ (false = true) by decide)]
    have hl : (if c = 0 then a.orig o else (a.orig o).log (.passed ⟨c, p, t⟩)) = (if c = 0 then a else a.log (.passed ⟨c, p, t⟩)).orig o := by
      split <;> rfl
    rw [hl]
    refine map_bindP (orig_handlePending hpe c p t) (fun b h => ?_)
    cases h with
    | true => rfl
    | false => exact map_bind' (orig_timers c t) (fun d => orig_key c p t)

/-- One event. -/
theorem orig_processEvent : ∀ n, PEOrig o (processEvent n)
  | 0 => fun _ _ _ _ => rfl
  | n + 1 => orig_body (orig_processEvent n)

/-- A batch of events. -/
theorem orig_events (n : Nat) (k : Kbd) (evs : List KeyEvent) :
    kbdProcessEvents n (k.orig o) evs = (kbdProcessEvents n k evs).map (origP o) := orig_loop (orig_processEvent n) evs k 0 0

end Keyd
