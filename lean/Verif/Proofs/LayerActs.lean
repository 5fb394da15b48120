import Verif.Spec.LayerActs
import Verif.Proofs.Frames
import Verif.Proofs.Engine
import Verif.Proofs.LayerOps
import Verif.Proofs.LayerInv
import Verif.Proofs.Potential
import Verif.Proofs.Idle

/-
  The layers of a keyboard change as the actions performed say.
-/

set_option autoImplicit false

namespace Keyd

/-- Between the two states the layers went through what happened. -/
structure Booked (k : Kbd) (hs : List Happening) (k' : Kbd) : Prop where
  steps : k'.steps = k.steps
  config : k'.config = k.config
  book : k'.book = hs.foldl (happen k.config) k.book
  timer : k'.oneshotTimeout ≠ 0 → k.oneshotTimeout ≠ 0 ∨ k.config.oneshotTimeout ≠ 0

/-- The layers are left alone. -/
structure Unbooked (k k' : Kbd) : Prop where
  steps : k'.steps = k.steps
  config : k'.config = k.config
  layers : k'.layerState = k.layerState
  clock : k'.clock = k.clock
  latch : k'.oneshotLatch = k.oneshotLatch
  timer : k'.oneshotTimeout ≠ 0 → k.oneshotTimeout ≠ 0 ∨ k.config.oneshotTimeout ≠ 0

theorem Booked.append {a b c : Kbd} {hs hs' : List Happening} (h : Booked a hs b) (h' : Booked b hs' c) : Booked a (hs ++ hs') c :=
  ⟨h'.steps.trans h.steps, h'.config.trans h.config, by rw [h'.book, h.book, h.config, List.foldl_append], fun ht => by
    rcases h'.timer ht with h1 | h1
    · exact h.timer h1
    · rw [h.config] at h1; exact .inr h1⟩

namespace Unbooked

theorem same {k k' : Kbd} (h1 : k'.steps = k.steps) (h2 : k'.config = k.config) (h3 : k'.layerState = k.layerState)
    (h4 : k'.clock = k.clock) (h5 : k'.oneshotLatch = k.oneshotLatch) (h6 : k'.oneshotTimeout = k.oneshotTimeout) : Unbooked k k' :=
  ⟨h1, h2, h3, h4, h5, fun h => .inl (by rw [← h6]; exact h)⟩

theorem refl (k : Kbd) : Unbooked k k := same rfl rfl rfl rfl rfl rfl

theorem book {k k' : Kbd} (h : Unbooked k k') : k'.book = k.book := by
  unfold Kbd.book; rw [h.layers, h.clock, h.latch]

theorem booked {k k' : Kbd} (h : Unbooked k k') : Booked k [] k' := ⟨h.steps, h.config, h.book, h.timer⟩

theorem of_frame {k k' : Kbd} (h : KeyFrame k k') : Unbooked k k' := by
  obtain ⟨ks, lp, os, rfl, _⟩ := h
  exact same rfl rfl rfl rfl rfl rfl

theorem trans {a b c : Kbd} (h : Unbooked a b) (h' : Unbooked b c) : Unbooked a c :=
  ⟨h'.steps.trans h.steps, h'.config.trans h.config, h'.layers.trans h.layers, h'.clock.trans h.clock, h'.latch.trans h.latch, fun ht => by
    rcases h'.timer ht with h1 | h1
    · exact h.timer h1
    · rw [h.config] at h1; exact .inr h1⟩

theorem schedule (k : Kbd) (t : Int) : Sat (scheduleTimeout k t) (Unbooked k) AnyErr := by
  unfold scheduleTimeout
  split
  · exact same rfl rfl rfl rfl rfl rfl
  · trivial

end Unbooked

theorem Booked.un {a b c : Kbd} {hs : List Happening} (h : Booked a hs b) (h' : Unbooked b c) : Booked a hs c := by
  simpa using h.append h'.booked

theorem Unbooked.then {a b c : Kbd} {hs : List Happening} (h : Unbooked a b) (h' : Booked b hs c) : Booked a hs c := by
  simpa using h.booked.append h'

/-- The layers change by a function on the books. -/
structure Rebooked (f : LayerBook → LayerBook) (k k' : Kbd) : Prop where
  steps : k'.steps = k.steps
  config : k'.config = k.config
  book : k'.book = f k.book
  timer : k'.oneshotTimeout ≠ 0 → k.oneshotTimeout ≠ 0 ∨ k.config.oneshotTimeout ≠ 0

theorem Rebooked.trans {a b c : Kbd} {f g : LayerBook → LayerBook} (h : Rebooked f a b) (h' : Rebooked g b c) : Rebooked (fun x => g (f x)) a c :=
  ⟨h'.steps.trans h.steps, h'.config.trans h.config, by rw [h'.book, h.book], fun ht => by
    rcases h'.timer ht with h1 | h1
    · exact h.timer h1
    · rw [h.config] at h1; exact .inr h1⟩

theorem Rebooked.un {a b c : Kbd} {f : LayerBook → LayerBook} (h : Rebooked f a b) (h' : Unbooked b c) : Rebooked f a c :=
  ⟨h'.steps.trans h.steps, h'.config.trans h.config, by rw [h'.book, h.book], fun ht => by
    rcases h'.timer ht with h1 | h1
    · exact h.timer h1
    · rw [h.config] at h1; exact .inr h1⟩

theorem Unbooked.re {a b c : Kbd} {f : LayerBook → LayerBook} (h : Unbooked a b) (h' : Rebooked f b c) : Rebooked f a c :=
  ⟨h'.steps.trans h.steps, h'.config.trans h.config, by rw [h'.book, h.book], fun ht => by
    rcases h'.timer ht with h1 | h1
    · exact h.timer h1
    · rw [h.config] at h1; exact .inr h1⟩

theorem Rebooked.booked {k k' : Kbd} {f : LayerBook → LayerBook} (h : Rebooked f k k') (x : Happening) (e : f k.book = happen k.config k.book x) :
    Booked k [x] k' := ⟨h.steps, h.config, by rw [h.book, e]; rfl, h.timer⟩

theorem Rebooked.of {k k' : Kbd} {f g : LayerBook → LayerBook} (h : Rebooked f k k') (e : f k.book = g k.book) : Rebooked g k k' :=
  ⟨h.steps, h.config, by rw [h.book, e], h.timer⟩

theorem rebook_activate (k : Kbd) (x : Code) (l : Nat) : Sat (activateLayer k x l) (Rebooked (·.enter l) k) AnyErr := by
  unfold activateLayer
  dsimp only
  split
  · trivial
  · exact ⟨rfl, rfl, rfl, fun h => .inl h⟩

theorem rebook_deactivate (k : Kbd) (l : Nat) : Sat (deactivateLayer k l) (Rebooked (·.leave l) k) AnyErr := by
  unfold deactivateLayer
  dsimp only
  split
  · trivial
  · exact ⟨rfl, rfl, rfl, fun h => .inl h⟩

theorem rebook_clearOneshot (k : Kbd) : Sat (clearOneshot k) (Rebooked (·.spend k.config) k) AnyErr := by
  refine Sat.intro (fun k' h => ?_)
  obtain ⟨ls, os, rfl, _, _, hls⟩ := clearOneshot_spec h
  refine ⟨rfl, rfl, ?_, fun h => absurd rfl h⟩
  unfold Kbd.book LayerBook.spend
  dsimp only
  congr 1
  funext i
  exact hls i

theorem rebook_clear (k : Kbd) : Sat (clear k) (Rebooked (fun b => (b.spend k.config).untoggle k.config) k) AnyErr := by
  unfold clear
  refine Sat.bind (rebook_clearOneshot k) (fun k1 h1 => ?_)
  refine Sat.bind (Q := Rebooked (·.untoggle k.config) k1) ?_ (fun k2 h2 => ?_)
  · refine Sat.intro (fun k2 h => ?_)
    have hn : (nonMainLayers k1).Nodup := by
      unfold nonMainLayers
      exact (List.drop_sublist _ _).nodup List.nodup_range
    obtain ⟨ls, os, rfl, _, _, hls⟩ := clearToggled_spec _ hn _ _ h
    refine ⟨rfl, rfl, ?_, fun h => .inl h⟩
    unfold Kbd.book LayerBook.untoggle
    dsimp only
    congr 1
    funext i
    rw [hls i, ← h1.config]
    have hm : i ∈ nonMainLayers k1 ↔ 0 < i ∧ i < k1.config.layers.length := by
      rw [mem_nonMainLayers]; omega
    by_cases hc : i ∈ nonMainLayers k1 ∧ (k1.config.layer i).type ≠ .layout
    · rw [if_pos hc, if_pos ⟨(hm.1 hc.1).1, (hm.1 hc.1).2, hc.2⟩]
      unfold toggleCount
      simp [hc.2]
    · rw [if_neg hc, if_neg (fun h => hc ⟨hm.2 ⟨h.1, h.2.1⟩, h.2.2⟩)]
  · have h3 : Unbooked k2 { k2 with activeMacro := none } := .same rfl rfl rfl rfl rfl rfl
    exact (h1.trans h2).un (h3.trans (.of_frame (.resetKeystate _)))

theorem rebook_layoutStep (k : Kbd) (l : Nat) : Rebooked (fun b => b.choose k.config l) k (layoutStep k l) := by
  obtain ⟨ls, g1, g2⟩ := layoutFold_spec (nonMainLayers k) k
  have hls : ∀ i, ls i = if 0 < i ∧ i < k.config.layers.length ∧ (k.config.layer i).type = .layout then { k.layerState i with active := 0 }
      else k.layerState i := by
    intro i
    rw [g2 i]
    have hm : i ∈ nonMainLayers k ↔ 0 < i ∧ i < k.config.layers.length := by
      rw [mem_nonMainLayers]; omega
    by_cases hc : i ∈ nonMainLayers k ∧ (k.config.layer i).type = .layout
    · rw [if_pos hc, if_pos ⟨(hm.1 hc.1).1, (hm.1 hc.1).2, hc.2⟩]
    · rw [if_neg hc, if_neg (fun h => hc ⟨hm.2 ⟨h.1, h.2.1⟩, h.2.2⟩)]
  unfold layoutStep
  rw [g1]
  by_cases h0 : l = 0
  · subst h0
    refine ⟨rfl, rfl, ?_, fun h => .inl h⟩
    show (⟨ls, k.clock, k.oneshotLatch⟩ : LayerBook) = LayerBook.choose k.config k.book 0
    unfold LayerBook.choose
    congr 1
    funext i
    rw [if_neg (fun h => h.2 rfl)]
    exact hls i
  · dsimp only
    rw [if_pos h0]
    refine ⟨rfl, rfl, ?_, fun h => .inl h⟩
    show (⟨upd ls l { ls l with active := 1, activationTime := 1 }, k.clock, k.oneshotLatch⟩ : LayerBook) = LayerBook.choose k.config k.book l
    unfold LayerBook.choose
    congr 1
    funext i
    by_cases hi : i = l
    · subst hi
      rw [upd_same, if_pos ⟨rfl, h0⟩, hls i]
      split <;> rfl
    · rw [upd_other _ _ hi, if_neg (fun h => hi h.1)]
      exact hls i

theorem rebook_setlayout (k : Kbd) (l : Nat) :
    Sat (setlayout k l) (Rebooked (fun b => ((b.spend k.config).untoggle k.config).choose k.config l) k) AnyErr := by
  unfold setlayout
  refine Sat.bind (rebook_clear k) (fun k1 h1 => ?_)
  have h2 := rebook_layoutStep k1 l
  rw [h1.config] at h2
  exact h1.trans h2

theorem rebook_mod {k : Kbd} {l : Nat} {g : LayerSt → LayerSt} {f : LayerBook → LayerBook}
    (h : ⟨upd k.layerState l (g (k.layerState l)), k.clock, k.oneshotLatch⟩ = f k.book) : Rebooked f k (k.modLayer l g) :=
  ⟨rfl, rfl, h, fun h => .inl h⟩

theorem happen_untap (c : Config) (b : LayerBook) (l : Nat) :
    happen c b (.act (.oneshot l) false) = if b.latch then b.depth l (· + 1) else b.leave l := rfl

theorem happen_swap (c : Config) (b : LayerBook) (dl l : Nat) (held : Bool) : happen c b (.swap dl l held) =
    if (b.state dl).toggled then (((b.leave dl).flip dl).enter l).on l
    else if (b.state dl).oneshotDepth ≠ 0 then (((b.leave dl).depth dl (· - 1)).enter l).depth l (· + 1)
    else if held then (b.leave dl).enter l
    else b := rfl

theorem rebook_keyseq (k : Kbd) (c : Code) (m : UInt8) (dl : Nat) (p : Bool) (t : Int) :
    Sat (pdKeyseq k c m dl p t) (Booked k [.act (.keyseq c m) p]) AnyErr := by
  unfold pdKeyseq
  refine Sat.bind (Q := Booked k [.act (.keyseq c m) p]) ?_ (fun k1 h1 => ?_)
  · cases p with
    | true =>
      dsimp only
      rw [if_pos rfl]
      have hf : Unbooked k (sendKey (updateMods (if k.keystate c = true then sendKey k c false else k) (some dl) m) c true) := by
        refine .of_frame (KeyFrame.trans ?_ ((KeyFrame.updateMods _ _ _).trans (.send _ _ _)))
        split
        · exact .send _ _ _
        · exact .refl _
      refine (rebook_clearOneshot _).imp (fun k1 h1 => ?_)
      rw [hf.config] at h1
      exact (hf.re h1).booked _ rfl
    | false =>
      dsimp only
      rw [if_neg (by decide)]
      exact (Unbooked.of_frame ((KeyFrame.send _ _ _).trans (.updateMods _ _ _))).booked.append (hs' := [.act (.keyseq c m) false]) ⟨rfl, rfl, rfl, fun h => .inl h⟩
  · show Booked _ _ (ite _ _ _)
    split
    · exact h1.un (.same rfl rfl rfl rfl rfl rfl)
    · exact h1

theorem rebook_layer (x : Code) (k : Kbd) (l : Nat) (p : Bool) :
    Sat (pdLayer k x l p) (Rebooked (fun b => if p then b.enter l else b.leave l) k) AnyErr := by
  unfold pdLayer
  refine Sat.bind (Q := Rebooked (fun b => if p then b.enter l else b.leave l) k) ?_ (fun k1 h1 => ?_)
  · cases p with
    | true => rw [if_pos rfl]; exact (rebook_activate k x l).imp (fun _ h => h.of rfl)
    | false => rw [if_neg (by decide)]; exact (rebook_deactivate k l).imp (fun _ h => h.of rfl)
  · split
    · have h2 : Unbooked k1 { k1 with inhibitModifierGuard := true } := .same rfl rfl rfl rfl rfl rfl
      exact (h1.un (h2.trans (.of_frame (.updateMods _ none 0)))).un (.same rfl rfl rfl rfl rfl rfl)
    · exact h1.un (.of_frame (.updateMods _ _ _))

theorem rebook_oneshot (x : Code) (k : Kbd) (l dl : Nat) (p : Bool) (t : Int) :
    Sat (pdOneshot k x l dl p t) (Rebooked (fun b => happen k.config b (.act (.oneshot l) p)) k) AnyErr := by
  unfold pdOneshot
  cases p with
  | true =>
    rw [if_pos rfl]
    refine (rebook_activate k x l).bind (fun k1 h1 => ?_)
    have h2 := h1.un (.of_frame (.updateMods k1 (some dl) 0))
    refine ⟨h2.steps, h2.config, ?_, h2.timer⟩
    have := h2.book
    unfold Kbd.book at this ⊢
    injection this with e1 e2 e3
    show (⟨_, _, true⟩ : LayerBook) = _
    rw [e1, e2]
    rfl
  | false =>
    rw [if_neg (by decide)]
    by_cases hl : k.oneshotLatch = true
    · rw [if_pos hl]
      dsimp only
      split
      · trivial
      · have hb : Rebooked (fun b => happen k.config b (.act (.oneshot l) false)) k
            (k.modLayer l fun s => { s with oneshotDepth := s.oneshotDepth + 1 }) := by
          refine rebook_mod ?_
          rw [happen_untap, if_pos (show k.book.latch = true from hl)]
          rfl
        split
        · rename_i hz
          refine (Unbooked.schedule _ _).imp (fun k1 h1 => ?_)
          generalize hk1 : (k.modLayer l fun s => { s with oneshotDepth := s.oneshotDepth + 1 }) = k1 at hb hz h1
          rw [hb.config] at hz
          have hb2 : Rebooked (fun b => happen k.config b (.act (.oneshot l) false)) k { k1 with oneshotTimeout := t + k1.config.oneshotTimeout } :=
            ⟨hb.steps, hb.config, hb.book, fun _ => .inr hz⟩
          exact hb2.un h1
        · exact hb
    · rw [if_neg hl]
      refine (rebook_deactivate k l).bind (fun k1 h1 => ?_)
      refine (h1.un (.of_frame (.updateMods _ _ _))).of ?_
      rw [happen_untap, if_neg (show ¬ k.book.latch = true from hl)]

theorem rebook_macro (k : Kbd) (m : Nat) (tm iv : Int) (dl : Nat) (t : Int) :
    Sat (pdMacro k m tm iv dl t) (Rebooked (·.spend k.config) k) AnyErr := by
  unfold pdMacro
  dsimp only
  refine Sat.bind (rebook_clearOneshot _) (fun k1 h1 => ?_)
  refine (Unbooked.schedule _ _).imp (fun k2 h2 => ?_)
  have h0 : Unbooked k { k with macroRepeatInterval := iv } := .same rfl rfl rfl rfl rfl rfl
  refine ((h0.re h1).un (.of_frame (.executeMacro k1 dl (k1.config.mac m)))).un (Unbooked.trans ?_ h2)
  exact .same rfl rfl rfl rfl rfl rfl

theorem rebook_toggle (x : Code) (k : Kbd) (l : Nat) :
    Sat (pdToggle k x l) (Rebooked (fun b => happen k.config b (.act (.toggle l) true)) k) AnyErr := by
  unfold pdToggle
  dsimp only
  have hm : Rebooked (fun b => b.flip l) k (k.modLayer l fun s => { s with toggled := !s.toggled }) := rebook_mod rfl
  refine Sat.bind (Q := Rebooked (fun b => if (b.state l).toggled then (b.flip l).leave l else (b.flip l).enter l) k) ?_ (fun k1 h1 => ?_)
  · have ht : ((k.modLayer l fun s => { s with toggled := !s.toggled }).layerState l).toggled = !(k.layerState l).toggled := by
      unfold Kbd.modLayer
      dsimp only
      rw [upd_same]
    by_cases hk : (k.layerState l).toggled = true
    · rw [if_neg (by rw [ht, hk]; decide)]
      refine (rebook_deactivate _ l).imp (fun k1 h1 => (hm.trans h1).of ?_)
      rw [if_pos (show (k.book.state l).toggled = true from hk)]
    · rw [if_pos (by rw [ht]; simpa using hk)]
      refine (rebook_activate _ x l).imp (fun k1 h1 => (hm.trans h1).of ?_)
      rw [if_neg (show ¬ (k.book.state l).toggled = true from hk)]
  · refine (rebook_clearOneshot _).imp (fun k2 h2 => ?_)
    have h3 := h1.un (.of_frame (.updateMods k1 none 0))
    rw [h3.config] at h2
    exact (h3.trans h2).of rfl

theorem rebook_command (k : Kbd) (c : Nat) : Sat (pdCommand k c) (Rebooked (·.spend k.config) k) AnyErr := by
  unfold pdCommand
  dsimp only
  refine Sat.bind (rebook_clearOneshot _) (fun k1 h1 => ?_)
  have h0 : Unbooked k (k.emit (.command (k.config.commands.getD c []))) := .same rfl rfl rfl rfl rfl rfl
  exact (h0.re h1).un (.of_frame (.updateMods _ _ _))

theorem rebook_swap (k : Kbd) (l dl : Nat) (m : Option Macro) :
    Sat (pdSwap k l m dl true) (fun k' => ∃ held, Booked k [.swap dl l held] k') AnyErr := by
  unfold pdSwap
  rw [if_pos rfl]
  refine Sat.bind (Q := fun k' => ∃ held, Booked k [.swap dl l held] k') ?_ (fun k1 h1 => ?_)
  · unfold pdSwapLayer
    refine Sat.ite (fun ht => ?_) (fun ht => ?_)
    · refine Sat.bind (rebook_deactivate k dl) (fun k1 h1 => ?_)
      have hm : Rebooked (fun b => { b with state := upd b.state dl { b.state dl with toggled := false } }) k1
        (k1.modLayer dl fun s => { s with toggled := false }) := rebook_mod rfl
      refine Sat.bind (rebook_activate _ 0 l) (fun k2 h2 => ?_)
      have hm2 : Rebooked (fun b => b.on l) k2 (k2.modLayer l fun s => { s with toggled := true }) := rebook_mod rfl
      refine ⟨false, ((((h1.trans hm).trans h2).trans hm2).un (.of_frame (.updateMods _ _ _))).booked _ ?_⟩
      rw [happen_swap, if_pos (show (k.book.state dl).toggled = true from ht)]
      have e : (k.book.leave dl).flip dl = { (k.book.leave dl) with state := upd (k.book.leave dl).state dl { (k.book.leave dl).state dl with toggled := false } } := by
        unfold LayerBook.flip
        have : ((k.book.leave dl).state dl).toggled = true := by
          unfold LayerBook.leave
          dsimp only
          rw [upd_same]
          exact ht
        rw [this]
        rfl
      rw [e]
    · refine Sat.ite (fun hz => ?_) (fun hz => ?_)
      · refine Sat.bind (rebook_deactivate k dl) (fun k1 h1 => ?_)
        have hm : Rebooked (fun b => b.depth dl (· - 1)) k1 (k1.modLayer dl fun s => { s with oneshotDepth := s.oneshotDepth - 1 }) := rebook_mod rfl
        refine Sat.bind (rebook_activate _ 0 l) (fun k2 h2 => ?_)
        have hm2 : Rebooked (fun b => b.depth l (· + 1)) k2 (k2.modLayer l fun s => { s with oneshotDepth := s.oneshotDepth + 1 }) := rebook_mod rfl
        refine ⟨false, ((((h1.trans hm).trans h2).trans hm2).un (.of_frame (.updateMods _ _ _))).booked _ ?_⟩
        rw [happen_swap, if_neg (show ¬ (k.book.state dl).toggled = true from ht), if_pos (show (k.book.state dl).oneshotDepth ≠ 0 from hz)]
      · cases k.cache.find? (swapHolder k dl) with
        | none =>
          refine ⟨false, rfl, rfl, ?_, fun h => .inl h⟩
          show k.book = happen k.config k.book (.swap dl l false)
          rw [happen_swap, if_neg (show ¬ (k.book.state dl).toggled = true from ht), if_neg (show ¬ (k.book.state dl).oneshotDepth ≠ 0 from hz),
            if_neg (by decide)]
        | some ce =>
          dsimp only
          refine Sat.bind (rebook_deactivate _ dl) (fun k1 h1 => ?_)
          refine Sat.bind (rebook_activate _ _ l) (fun k2 h2 => ?_)
          have h0 : Unbooked k { k with cache := modifyFirst (swapHolder k dl) (fun e => { e with d := .layer l }) k.cache } :=
            .same rfl rfl rfl rfl rfl rfl
          refine ⟨true, (((h0.re h1).trans h2).un (.of_frame (.updateMods _ _ _))).booked _ ?_⟩
          rw [happen_swap, if_neg (show ¬ (k.book.state dl).toggled = true from ht), if_neg (show ¬ (k.book.state dl).oneshotDepth ≠ 0 from hz),
            if_pos rfl]
  · obtain ⟨held, h1⟩ := h1
    refine ⟨held, ?_⟩
    cases m with
    | none => exact h1
    | some m => exact h1.un (.of_frame (.executeMacro _ _ _))

theorem unbook_swap (k : Kbd) (l dl : Nat) (m : Option Macro) : Sat (pdSwap k l m dl false) (Unbooked k) AnyErr := by
  unfold pdSwap
  rw [if_neg (by decide)]
  refine Unbooked.of_frame ?_
  split
  · split
    · exact (KeyFrame.send _ _ _).trans (.updateMods _ _ _)
    · exact .refl _
  · exact .refl _

/-- A press or release of the action: the layers go through what it means. -/
def Doing (k : Kbd) (dl : Nat) (code : Code) (t : Int) (d : Desc) (p : Bool) (k' : Kbd) : Prop :=
  ∃ hs, Does k.config dl code t k.memo d p hs ∧ Booked k hs k'

theorem Doing.config {k k' : Kbd} {dl : Nat} {code : Code} {t : Int} {d : Desc} {p : Bool} (h : Doing k dl code t d p k') :
    k'.config = k.config := by
  obtain ⟨_, _, h⟩ := h
  exact h.config

theorem Doing.un {a b c : Kbd} {dl : Nat} {code : Code} {t : Int} {d : Desc} {p : Bool} (h : Doing a dl code t d p b)
    (h' : Unbooked b c) : Doing a dl code t d p c := by
  obtain ⟨hs, h1, h2⟩ := h
  exact ⟨hs, h1, h2.un h'⟩

theorem Unbooked.doing {a b c : Kbd} {dl : Nat} {code : Code} {t : Int} {d : Desc} {p : Bool} (h : Unbooked a b) (hm : b.memo = a.memo)
    (h' : Doing b dl code t d p c) : Doing a dl code t d p c := by
  obtain ⟨hs, h1, h2⟩ := h'
  exact ⟨hs, h.config ▸ hm ▸ h1, h.then h2⟩

theorem doing_descriptor : ∀ (n : Nat) (k : Kbd) (code : Code) (d : Desc) (dl : Nat) (p : Bool) (t : Int),
    Sat (processDescriptor n k code d dl p t) (Doing k dl code t d p) AnyErr
  | 0, _, _, _, _, _, _ => trivial
  | n+1, k, code, d, dl, p, t => by
    unfold processDescriptor
    dsimp only
    have hf : KeyFrame k (pdMacroPrefix k d dl p) := by
      unfold pdMacroPrefix
      split
      · split
        · exact .executeMacro _ _ _
        · exact .executeMacro _ _ _
        · exact .executeMacro _ _ _
        · exact .refl _
      · exact .refl _
    have h0 : Unbooked k (pdMacroPrefix k d dl p) := .of_frame hf
    have m0 : (pdMacroPrefix k d dl p).memo = k.memo := (Unstruck.of_frame hf).memo
    clear hf
    generalize pdMacroPrefix k d dl p = k0 at h0 m0 ⊢
    refine Sat.bind (Q := Doing k0 dl code t d p) ?_ (fun k1 h1 => ?_)
    · -- an action that happens itself
      have self : ∀ {d : Desc} {f : LayerBook → LayerBook} {r : Res Kbd}, (∀ a b t, (d, p) ≠ (.overloadIdle a b t, true)) →
          (∀ l, (d, p) ≠ (.swap l, true)) → (∀ l m, (d, p) ≠ (.swapm l m, true)) → (∀ l a, (d, p) ≠ (.overload l a, false)) → f k0.book = happen k0.config k0.book (.act d p) →
          Sat r (Rebooked f k0) AnyErr → Sat r (Doing k0 dl code t d p) AnyErr :=
        fun h1 h2 h3 h4 e h => h.imp (fun k1 g => ⟨_, .itself h1 h2 h3 h4, g.booked _ e⟩)
      have idle : ∀ {d : Desc} {r : Res Kbd}, (∀ a b t, (d, p) ≠ (.overloadIdle a b t, true)) →
          (∀ l, (d, p) ≠ (.swap l, true)) → (∀ l m, (d, p) ≠ (.swapm l m, true)) → (∀ l a, (d, p) ≠ (.overload l a, false)) → k0.book = happen k0.config k0.book (.act d p) →
          Sat r (Unbooked k0) AnyErr → Sat r (Doing k0 dl code t d p) AnyErr :=
        fun h1 h2 h3 h4 e h => h.imp (fun k1 g => ⟨_, .itself h1 h2 h3 h4, g.steps, g.config, by rw [g.book]; exact e, g.timer⟩)
      have press : ∀ {d : Desc} {f : LayerBook → LayerBook} {r : Res Kbd}, (∀ a b t, d ≠ .overloadIdle a b t) →
          (∀ l, d ≠ .swap l) → (∀ l m, d ≠ .swapm l m) → (∀ l a, d ≠ .overload l a) → f k0.book = happen k0.config k0.book (.act d true) →
          k0.book = happen k0.config k0.book (.act d false) →
          Sat r (Rebooked f k0) AnyErr → Sat (if p = true then r else .ok k0) (Doing k0 dl code t d p) AnyErr := by
        intro d f r h1 h2 h3 h4 e e' h
        cases p with
        | true =>
          rw [if_pos rfl]
          exact self (by intro a b t e; injection e with e; exact h1 _ _ _ e) (by intro l e; injection e with e; exact h2 _ e)
            (by intro l m e; injection e with e; exact h3 _ _ e) (by intro l a e; injection e with e; exact h4 _ _ e) e h
        | false =>
          rw [if_neg (by decide)]
          exact idle (by intro a b t e; injection e with e; exact h1 _ _ _ e) (by intro l e; injection e with e; exact h2 _ e)
            (by intro l m e; injection e with e; exact h3 _ _ e) (by intro l a e; injection e with e; exact h4 _ _ e) e' (show Sat (Except.ok k0) _ _ from Unbooked.refl k0)
      have press0 : ∀ {d : Desc} {r : Res Kbd}, (∀ a b t, d ≠ .overloadIdle a b t) →
          (∀ l, d ≠ .swap l) → (∀ l m, d ≠ .swapm l m) → (∀ l a, d ≠ .overload l a) → k0.book = happen k0.config k0.book (.act d true) →
          k0.book = happen k0.config k0.book (.act d false) →
          Sat r (Unbooked k0) AnyErr → Sat (if p = true then r else .ok k0) (Doing k0 dl code t d p) AnyErr := by
        intro d r h1 h2 h3 h4 e e' h
        exact press (f := id) h1 h2 h3 h4 e e' (h.imp (fun k1 g => ⟨g.steps, g.config, g.book, g.timer⟩))
      unfold pdSwitch
      cases d with
      | none => exact idle (by intros; simp) (by intros; simp) (by intros; simp) (by intros; simp) (by cases p <;> rfl) (show Sat (Except.ok k0) _ _ from .refl k0)
      | keyseq c m =>
        exact (rebook_keyseq k0 c m dl p t).imp (fun k1 h1 => ⟨_, .itself (by intros; simp) (by intros; simp) (by intros; simp) (by intros; simp), h1⟩)
      | scroll s =>
        exact idle (by intros; simp) (by intros; simp) (by intros; simp) (by intros; simp) (by cases p <;> rfl)
          (show Sat (Except.ok _) _ _ from .same rfl rfl rfl rfl rfl rfl)
      | scrollToggle s =>
        exact idle (by intros; simp) (by intros; simp) (by intros; simp) (by intros; simp) (by cases p <;> rfl)
          (show Sat (Except.ok _) _ _ from .same rfl rfl rfl rfl rfl rfl)
      | overloadIdle d1 d2 tm =>
        dsimp only
        cases p with
        | true =>
          rw [if_pos rfl]
          unfold pdOverloadIdle
          dsimp only
          refine (doing_descriptor n k0 code _ dl true t).bind (fun k1 h1 => ?_)
          obtain ⟨hs, g1, g2⟩ := h1
          rw [idleAction_eq] at g1
          exact ⟨hs, .idle g1, g2.steps, g2.config, g2.book, g2.timer⟩
        | false =>
          rw [if_neg (by decide)]
          exact ⟨_, .itself (by intros; simp) (by intros; simp) (by intros; simp) (by intros; simp), rfl, rfl, rfl, fun h => .inl h⟩
      | overloadTimeout l a tm =>
        refine press0 (by intros; simp) (by intros; simp) (by intros; simp) (by intros; simp) rfl rfl ?_
        unfold pdOverloadTimeout
        exact (Unbooked.schedule _ _).imp (fun _ h => ⟨h.steps, h.config, h.layers, h.clock, h.latch, h.timer⟩)
      | overloadTimeoutTap l a tm =>
        refine press0 (by intros; simp) (by intros; simp) (by intros; simp) (by intros; simp) rfl rfl ?_
        unfold pdOverloadTimeout
        exact (Unbooked.schedule _ _).imp (fun _ h => ⟨h.steps, h.config, h.layers, h.clock, h.latch, h.timer⟩)
      | layout l => exact press (by intros; simp) (by intros; simp) (by intros; simp) (by intros; simp) rfl rfl (rebook_setlayout k0 l)
      | layer l => exact self (by intros; simp) (by intros; simp) (by intros; simp) (by intros; simp) rfl (rebook_layer code k0 l p)
      | layerm l m => exact self (by intros; simp) (by intros; simp) (by intros; simp) (by intros; simp) rfl (rebook_layer code k0 l p)
      | clear => exact press (by intros; simp) (by intros; simp) (by intros; simp) (by intros; simp) rfl rfl (rebook_clear k0)
      | clearm m =>
        refine press (by intros; simp) (by intros; simp) (by intros; simp) (by intros; simp) rfl rfl (f := fun b => (b.spend k0.config).untoggle k0.config) ?_
        refine Sat.bind (rebook_clear k0) (fun k1 h1 => ?_)
        exact h1.un (.of_frame (.executeMacro _ _ _))
      | overload l a =>
        dsimp only
        cases p with
        | true =>
          rw [if_pos rfl]
          refine self (by intros; simp) (by intros; simp) (by intros; simp) (by intros; simp) rfl (f := fun b => b.enter l) ?_
          unfold pdOverloadPress
          refine (rebook_activate _ _ _).bind (fun k1 h1 => ?_)
          have h2 : Unbooked k0 { k0 with overloadStartTime := t } := .same rfl rfl rfl rfl rfl rfl
          exact (h2.re h1).un (.of_frame (.updateMods _ _ _))
        | false =>
          rw [if_neg (by decide)]
          unfold pdOverloadRelease
          dsimp only
          refine ((rebook_deactivate k0 l).and (Unstruck.deactivate k0 l)).bind (fun k1 h1 => ?_)
          have m2 : (updateMods k1 none 0).memo = k0.memo := (h1.2.trans (.of_frame (.updateMods _ _ _))).memo
          replace h1 := h1.1
          have h2 : Booked k0 [.act (.overload l a) false] (updateMods k1 none 0) :=
            (h1.un (.of_frame (.updateMods _ _ _))).booked _ rfl
          generalize updateMods k1 none 0 = k2 at h2 m2 ⊢
          have htap : isTap k2 code t = true ↔ k0.memo.tap k0.config code t := by
            rw [isTap_iff, m2, h2.config]
          split
          · rename_i ht
            have ht := htap.1 ht
            split
            · rename_i i hi
              exact ⟨_, .tapMacro ht hi, h2.un (.of_frame (.executeMacro _ _ _))⟩
            · rename_i hm
              refine ((doing_descriptor n k2 code _ dl true t).and (struck_descriptor n k2 code _ dl true t)).bind (fun k3 h3 => ?_)
              refine (doing_descriptor n k3 code _ dl false t).imp (fun k4 h4 => ?_)
              obtain ⟨⟨hs, p3, q3⟩, w3⟩ := h3
              obtain ⟨hs', p4, q4⟩ := h4
              obtain ⟨as, w3, _⟩ := w3.done
              rw [m2, h2.config] at p3 w3
              rw [q3.config, h2.config] at p4
              exact ⟨_, .tap ht (fun m e => hm m e) w3 p3 p4, (h2.append q3).append q4⟩
          · rename_i ht
            exact ⟨_, .hold (fun e => ht (htap.2 e)), h2⟩
      | oneshot l => exact self (by intros; simp) (by intros; simp) (by intros; simp) (by intros; simp) rfl (rebook_oneshot code k0 l dl p t)
      | oneshotm l m =>
        exact self (by intros; simp) (by intros; simp) (by intros; simp) (by intros; simp) (by cases p <;> rfl) (rebook_oneshot code k0 l dl p t)
      | «macro» m => exact press (by intros; simp) (by intros; simp) (by intros; simp) (by intros; simp) rfl rfl (rebook_macro k0 _ _ _ _ _)
      | macro2 a b m => exact press (by intros; simp) (by intros; simp) (by intros; simp) (by intros; simp) rfl rfl (rebook_macro k0 _ _ _ _ _)
      | toggle l => exact press (by intros; simp) (by intros; simp) (by intros; simp) (by intros; simp) rfl rfl (rebook_toggle code k0 l)
      | togglem l m => exact press (by intros; simp) (by intros; simp) (by intros; simp) (by intros; simp) rfl rfl (rebook_toggle code k0 l)
      | timeout d1 tm d2 =>
        refine press0 (by intros; simp) (by intros; simp) (by intros; simp) (by intros; simp) rfl rfl ?_
        unfold pdTimeout
        exact (Unbooked.schedule _ _).imp (fun _ h => ⟨h.steps, h.config, h.layers, h.clock, h.latch, h.timer⟩)
      | command c => exact press (by intros; simp) (by intros; simp) (by intros; simp) (by intros; simp) rfl rfl (rebook_command k0 c)
      | swap l =>
        dsimp only
        cases p with
        | true =>
          refine (rebook_swap k0 l dl none).imp (fun k1 h1 => ?_)
          obtain ⟨held, h1⟩ := h1
          exact ⟨_, .swap l held, h1⟩
        | false => exact idle (by intros; simp) (by intros; simp) (by intros; simp) (by intros; simp) rfl (unbook_swap k0 l dl none)
      | swapm l m =>
        dsimp only
        cases p with
        | true =>
          refine (rebook_swap k0 l dl _).imp (fun k1 h1 => ?_)
          obtain ⟨held, h1⟩ := h1
          exact ⟨_, .swapm l m held, h1⟩
        | false => exact idle (by intros; simp) (by intros; simp) (by intros; simp) (by intros; simp) rfl (unbook_swap k0 l dl _)
    · refine h0.doing m0 ?_
      show Doing _ _ _ _ _ _ (ite _ _ _)
      split
      · exact h1.un (.same rfl rfl rfl rfl rfl rfl)
      · exact h1

/-! ### Through the engine -/

/-- One-shots can expire. -/
def Expires (k : Kbd) : Prop := k.oneshotTimeout ≠ 0 ∨ k.config.oneshotTimeout ≠ 0

/-- The steps logged since `k0` tell how the layers changed. -/
def Layered (k0 k : Kbd) : Prop :=
  ∃ new, k.steps = new ++ k0.steps ∧ LayerRun k0.config (Expires k0) k0.book k0.memo new k.book k.memo ∧ k.config = k0.config ∧
    (k.oneshotTimeout ≠ 0 → Expires k0)

theorem Layered.refl (k : Kbd) : Layered k k := ⟨[], rfl, .nil, rfl, fun h => .inl h⟩

theorem Layered.un {k0 k k' : Kbd} (h : Layered k0 k) (h' : Unbooked k k') (hm : k'.memo = k.memo) : Layered k0 k' := by
  obtain ⟨new, h1, h2, h3, h4⟩ := h
  refine ⟨new, h'.steps.trans h1, h'.book ▸ hm ▸ h2, h'.config.trans h3, fun ht => ?_⟩
  rcases h'.timer ht with e | e
  · exact h4 e
  · exact .inr (by rw [← h3]; exact e)

theorem Layered.log {k0 k : Kbd} (h : Layered k0 k) (s : Step) (hs : s.action = none) : Layered k0 (k.log s) := by
  obtain ⟨new, h1, h2, h3, h4⟩ := h
  exact ⟨s :: new, by show s :: k.steps = _; rw [h1]; rfl, .other s h2 hs, h3, h4⟩

theorem performs_action {c : Config} {s : Step} {code : Code} {d : Desc} {dl : Nat} {p : Bool} {m m' : Memo} {as : List Act}
    (e : s.action = some (code, d, dl, p)) (h : Performs c code s.time m d p as m') : s.performs c m as m' := by
  cases s with
  | key c' p' t' r =>
    cases r with
    | none => cases e
    | some r => cases e; exact h
  | resolve => cases e; exact h
  | passed => cases e
  | swallowed => cases e

theorem Layered.acts {k0 k k1 k' : Kbd} {s : Step} {code : Code} {d : Desc} {dl : Nat} {p : Bool} (h : Layered k0 k) (hu : Unbooked k k1)
    (hm : k1.memo = k.memo)     (e : s.action = some (code, d, dl, p))
    (hl : ∀ t, s = .key code true t (some (d, dl)) → ¬ (KEYD.CHORD_1 ≤ code ∧ code ≤ KEYD.CHORD_MAX) → k.book.lookup k.config code = (d, dl))
    (hd : Doing (k1.log s) dl code s.time d p k') (hw : StruckAs (k1.log s) code d p s.time k') : Layered k0 k' := by
  obtain ⟨new, h1, h2, h3, h4⟩ := h
  obtain ⟨hs, g1, g2⟩ := hd
  have hc : (k1.log s).config = k0.config := hu.config.trans h3
  obtain ⟨as, hw, _⟩ := hw.done
  have hmm : (k1.log s).memo = k.memo := hm
  rw [hc, hmm] at hw g1
  refine ⟨s :: new, ?_, ?_, g2.config.trans hc, fun ht => ?_⟩
  · rw [g2.steps]
    show s :: k1.steps = _
    rw [hu.steps, h1]
    rfl
  · rw [g2.book, hc, show (k1.log s).book = k.book from hu.book]
    refine .acts h2 e (fun t et hn => ?_) (performs_action e hw) g1
    rw [← h3]
    exact hl t et hn
  · rcases g2.timer ht with e | e
    · rcases hu.timer e with e | e
      · exact h4 e
      · exact .inr (by rw [← h3]; exact e)
    · exact .inr (by rw [← hc]; exact e)

theorem lookup_same {k k' : Kbd} (h1 : k'.layerState = k.layerState) (h2 : k'.config = k.config) (code : Code)
    (h : ¬ (KEYD.CHORD_1 ≤ code ∧ code ≤ KEYD.CHORD_MAX)) : lookupDescriptor k' code = lookupDescriptor k code := by
  have ha : k'.isActive = k.isActive := by funext i; unfold Kbd.isActive; rw [h1]
  unfold lookupDescriptor lookupActive lookupComposite
  rw [if_neg h, if_neg h]
  simp only [h1, h2, ha]

theorem book_lookup (k : Kbd) (code : Code) (h : ¬ (KEYD.CHORD_1 ≤ code ∧ code ≤ KEYD.CHORD_MAX)) :
    k.book.lookup k.config code = lookupDescriptor k code := by
  unfold LayerBook.lookup
  have hc : (newKeyboard k.config).config = k.config := rfl
  generalize newKeyboard k.config = k1 at hc ⊢
  exact lookup_same (k := k) (k' := { k1 with layerState := k.book.state }) rfl hc code h

/-- The timers spend one-shots that expired, and change nothing else about the layers. -/
theorem layered_timers (k : Kbd) (c : Code) (t : Int) : Sat (stepTimers k c t) (fun k' => ∃ b : Bool, k'.steps = k.steps ∧
    k'.config = k.config ∧ (b = true → k.oneshotTimeout ≠ 0) ∧ k'.book = (if b then k.book.spend k.config else k.book) ∧
    (k'.oneshotTimeout ≠ 0 → k.oneshotTimeout ≠ 0 ∨ k.config.oneshotTimeout ≠ 0)) AnyErr := by
  unfold stepTimers
  refine Sat.bind (Q := fun k' => ∃ b : Bool, (b = true → k.oneshotTimeout ≠ 0) ∧
    Rebooked (fun x => if b then x.spend k.config else x) k k') ?_ (fun k1 h1 => ?_)
  · split
    · rename_i hz
      refine (rebook_clearOneshot k).bind (fun k1 h1 => ?_)
      exact ⟨true, fun _ => hz.1, h1.un (.of_frame (.updateMods k1 none 0))⟩
    · exact ⟨false, fun e => (by cases e), rfl, rfl, rfl, fun h => .inl h⟩
  · obtain ⟨b, hb, h1⟩ := h1
    have fin : ∀ {k' : Kbd}, Unbooked k1 k' → ∃ b : Bool, k'.steps = k.steps ∧
        k'.config = k.config ∧ (b = true → k.oneshotTimeout ≠ 0) ∧ k'.book = (if b then k.book.spend k.config else k.book) ∧
        (k'.oneshotTimeout ≠ 0 → k.oneshotTimeout ≠ 0 ∨ k.config.oneshotTimeout ≠ 0) := by
      intro k' h
      have h2 := h1.un h
      exact ⟨b, h2.steps, h2.config, hb, h2.book, h2.timer⟩
    split
    · exact fin (.refl _)
    · split
      · refine fin (Unbooked.trans (b := { k1 with activeMacro := none }) ?_ (.of_frame (.updateMods _ _ _)))
        exact .same rfl rfl rfl rfl rfl rfl
      · split
        · rename_i m _ _ _
          refine (Unbooked.schedule _ _).imp (fun k2 h2 => ?_)
          refine fin ((Unbooked.of_frame (.executeMacro k1 k1.activeMacroLayer (k1.config.mac m))).trans (Unbooked.trans ?_ h2))
          exact .same rfl rfl rfl rfl rfl rfl
        · exact fin (.refl _)

theorem layered_engineInv (k0 : Kbd) : EngineInv (Layered k0) AnyErr where
  errs _ _ := trivial
  chord _ _ h := h.un (.same rfl rfl rfl rfl rfl rfl) rfl
  timeouts _ _ h := h.un (.same rfl rfl rfl rfl rfl rfl) rfl
  passed k e h := h.log (.passed e) rfl
  swallowed k evs h := by
    have : ∀ (l : List KeyEvent), Layered k0 { k with steps := l.map Step.swallowed ++ k.steps } := by
      intro l
      induction l with
      | nil => exact h
      | cons e l ih => exact ih.log (.swallowed e) rfl
    have h2 := this evs.reverse
    rw [List.map_reverse] at h2
    exact h2
  install k p h := by
    unfold installChord
    dsimp only
    cases freeChordSlot k.activeChords 0 with
    | none => trivial
    | some i => exact h.un (.same rfl rfl rfl rfl rfl rfl) rfl
  strike _ _ _ _ h := h.un (.same rfl rfl rfl rfl rfl rfl) rfl
  enqueue _ _ h _ := h.un (.same rfl rfl rfl rfl rfl rfl) rfl
  resolve k a t h hp _ _ := by
    unfold resolvePendingStep
    dsimp only
    have ex : ∀ k1 : Kbd, Unbooked k k1 → k1.memo = k.memo →
        Sat (processDescriptor (descBudget (k1.log (.resolve k.pending.code a k.pending.dl t))) (k1.log (.resolve k.pending.code a k.pending.dl t))
          k.pending.code a k.pending.dl true t >>= fun k1 => (.ok (k1, k.pending.queue) : Res _)) (fun r => Layered k0 r.1) AnyErr := by
      intro k1 h1 hm
      refine ((doing_descriptor _ _ _ _ _ _ _).and (struck_descriptor _ _ _ _ _ _ _)).bind (fun k2 g => ?_)
      exact h.acts (s := .resolve k.pending.code a k.pending.dl t) h1 hm rfl (fun t e => (by cases e)) g.1 g.2
    cases hcs : cacheSet { k with pending := { k.pending with code := 0, queue := [], tapExpiry := 0 } } k.pending.code
        (some { d := a, dl := k.pending.dl, layer := 0 }) with
    | none => exact ex _ (.same rfl rfl rfl rfl rfl rfl) rfl
    | some k1 =>
      obtain ⟨l, rfl⟩ := cacheSet_frame hcs
      exact ex _ (.same rfl rfl rfl rfl rfl rfl) rfl
  timers k c t h := by
    refine (((layered_timers k c t).and (Unstruck.stepTimers k c t))).imp (fun k' g => ?_)
    obtain ⟨⟨b, g1, g2, g3, g4, g5⟩, gm⟩ := g
    obtain ⟨new, h1, h2, h3, h4⟩ := h
    refine ⟨new, g1.trans h1, ?_, g2.trans h3, fun ht => ?_⟩
    · rw [g4, gm.memo]
      cases b with
      | true => rw [if_pos rfl, h3]; exact .expire h2 (h4 (g3 rfl))
      | false => rw [if_neg (by decide)]; exact h2
    · rcases g5 ht with e | e
      · exact h4 e
      · exact .inr (by rw [← h3]; exact e)
  key k c p t h hp := by
    unfold stepKey
    split
    · exact h
    · split
      · split
        · exact h.log (.key c _ t none) rfl
        · dsimp only
          split
          · exact h.log (.key c _ t none) rfl
          · rename_i k1 hcs
            obtain ⟨l, rfl⟩ := cacheSet_frame hcs
            refine ((doing_descriptor _ _ _ _ _ _ _).and (struck_descriptor _ _ _ _ _ _ _)).imp (fun k2 g => ?_)
            refine h.acts (k1 := { k with cache := l }) (s := .key c true t (some ((lookupDescriptor k c).1, (lookupDescriptor k c).2))) (.same rfl rfl rfl rfl rfl rfl) rfl rfl
              (fun _ _ hn => ?_) g.1 g.2
            rw [book_lookup k c hn]
      · split
        · exact h.log (.key c _ t none) rfl
        · rename_i ce _
          dsimp only
          have ex : ∀ (k1 : Kbd), Unbooked k k1 → k1.memo = k.memo →
              Sat (processDescriptor (descBudget (k1.log (.key c false t (some (ce.d, ce.dl))))) (k1.log (.key c false t (some (ce.d, ce.dl)))) c ce.d ce.dl false t)
                (Layered k0) AnyErr := by
            intro k1 h1 hm
            refine ((doing_descriptor _ _ _ _ _ _ _).and (struck_descriptor _ _ _ _ _ _ _)).imp (fun k2 g => ?_)
            exact h.acts (s := .key c false t (some (ce.d, ce.dl))) h1 hm rfl (fun _ e => (by cases e)) g.1 g.2
          cases hcs : cacheSet k c none with
          | none => exact ex _ (.refl k) rfl
          | some k1 =>
            obtain ⟨l, rfl⟩ := cacheSet_frame hcs
            exact ex _ (.same rfl rfl rfl rfl rfl rfl) rfl

end Keyd
