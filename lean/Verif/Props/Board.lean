import Verif.Proofs.BoardActs
import Verif.Props.Lookup
import Verif.Props.Typewriter
import Verif.Props.ChordLife

/-
  C73: the engine follows the machine of `Verif.Spec.Board` for every sequence of events.
-/

set_option autoImplicit false

namespace Keyd

attribute [local irreducible] Board.letGo

/-! ### Finding a binding -/

theorem find_sorted {R : Nat → Nat → Prop} {P : Nat → Bool} {l : Nat} : ∀ {xs : List Nat}, xs.Pairwise R → l ∈ xs → P l = true →
    (∀ i ∈ xs, R i l → P i = false) → xs.find? P = some l
  | [], _, h, _, _ => by cases h
  | x :: xs, hp, h, hl, hn => by
    rw [List.pairwise_cons] at hp
    rcases List.mem_cons.1 h with rfl | h
    · rw [List.find?_cons_of_pos hl]
    · rw [List.find?_cons_of_neg (by rw [hn x (List.mem_cons_self ..) (hp.1 l h)]; decide)]
      exact find_sorted hp.2 h hl (fun i hi => hn i (List.mem_cons_of_mem _ hi))

theorem find_lookup {c : Config} {k : Kbd} (hk : k.config = c) (ht : ∀ i, 0 ≤ (k.layerState i).activationTime) {code : Code} (hc : NotChordCode code) :
    k.book.find c code = lookupDescriptor k code := by
  subst hk
  have hact : ∀ i, k.book.isOn i = k.isActive i := fun i => rfl
  have s1 := compositeScan_spec k code (lookupActive k code).1 k.config.layers.length
  have s2 := activeScan_spec k code (fun i _ => ht i) k.config.layers.length
  have hl : lookupDescriptor k code = match (lookupComposite k code (lookupActive k code).1).1 with
      | some r => r
      | none => (.keyseq code 0, 0) := by 
    unfold lookupDescriptor
    rw [if_neg hc]
    cases (lookupComposite k code (lookupActive k code).1).1 <;> rfl
  rw [hl]
  unfold LayerBook.find
  dsimp only at s1 s2 ⊢
  change ((lookupComposite k code (lookupActive k code).1).1 = _ ∧ (lookupComposite k code (lookupActive k code).1).2 = 0 ∧ _) ∨ _ at s1
  change ((lookupActive k code).1 = none ∧ (lookupActive k code).2 = 0 ∧ _) ∨ _ at s2
  have hcomp : ∀ i, i ∈ (List.range k.config.layers.length).filter (fun i => decide ((k.config.layer i).type = .composite) &&
        decide ((k.config.layer i).constituents ≠ []) && (k.config.layer i).constituents.all k.book.isOn && decide ((k.config.layer i).keymap code ≠ .none)) ↔
      i < k.config.layers.length ∧ compositeTest k code i := by
    intro i
    rw [List.mem_filter, List.mem_range]
    simp only [Bool.and_eq_true, decide_eq_true_eq]
    unfold compositeTest
    have : k.book.isOn = k.isActive := funext hact
    rw [this]
    constructor
    · rintro ⟨a, ⟨⟨b1, b2⟩, b3⟩, b4⟩; exact ⟨a, b1, b3, b4, b2⟩
    · rintro ⟨a, b1, b3, b4, b2⟩; exact ⟨a, ⟨⟨b1, b2⟩, b3⟩, b4⟩
  have hlay : ∀ i, i ∈ (List.range k.config.layers.length).filter (fun i => k.book.isOn i && decide ((k.config.layer i).keymap code ≠ .none)) ↔
      i < k.config.layers.length ∧ k.isActive i = true ∧ (k.config.layer i).keymap code ≠ .none := by
    intro i
    rw [List.mem_filter, List.mem_range]
    simp only [Bool.and_eq_true, decide_eq_true_eq]
    rw [hact]
  have sorted1 := (List.pairwise_lt_range (n := k.config.layers.length)).filter (fun i => decide ((k.config.layer i).type = .composite) &&
        decide ((k.config.layer i).constituents ≠ []) && (k.config.layer i).constituents.all k.book.isOn && decide ((k.config.layer i).keymap code ≠ .none))
  have sorted2 := (List.pairwise_lt_range (n := k.config.layers.length)).filter (fun i => k.book.isOn i && decide ((k.config.layer i).keymap code ≠ .none))
  generalize (List.range k.config.layers.length).filter (fun i => decide ((k.config.layer i).type = .composite) &&
        decide ((k.config.layer i).constituents ≠ []) && (k.config.layer i).constituents.all k.book.isOn && decide ((k.config.layer i).keymap code ≠ .none)) = comps
    at hcomp sorted1 ⊢
  generalize (List.range k.config.layers.length).filter (fun i => k.book.isOn i && decide ((k.config.layer i).keymap code ≠ .none)) = acts at hlay sorted2 ⊢
  rcases s1 with ⟨h1, _, h3⟩ | ⟨l, g1, g2, _, g4, g5⟩
  · have : comps = [] := by
      rw [List.eq_nil_iff_forall_not_mem]
      intro i hi
      have := (hcomp i).1 hi
      exact h3 i this.1 this.2
    subst this
    rw [h1]
    dsimp only [List.find?_nil]
    rcases s2 with ⟨h1, _, h3⟩ | ⟨l, g1, g2, _, g4, g4', g5⟩
    · have : acts = [] := by
        rw [List.eq_nil_iff_forall_not_mem]
        intro i hi
        have := (hlay i).1 hi
        exact h3 i this.1 this.2
      subst this
      rw [h1]
      rfl
    · have hf : acts.reverse.find? (fun i => acts.all fun j => decide ((k.book.state j).activationTime ≤ (k.book.state i).activationTime)) = some l := by
        refine find_sorted (R := fun a b => b < a) (List.pairwise_reverse.2 sorted2) (List.mem_reverse.2 ((hlay l).2 ⟨g1, g4, g4'⟩)) ?_ ?_
        · rw [List.all_eq_true]
          intro j hj
          obtain ⟨a, b, c⟩ := (hlay j).1 hj
          rw [decide_eq_true_eq]
          show (k.layerState j).activationTime ≤ (k.layerState l).activationTime
          rcases g5 j a b c with h | h <;> omega
        · intro i hi hlt
          obtain ⟨a, b, c⟩ := (hlay i).1 (List.mem_reverse.1 hi)
          rw [Bool.eq_false_iff]
          intro hall
          have := List.all_eq_true.1 hall l ((hlay l).2 ⟨g1, g4, g4'⟩)
          rw [decide_eq_true_eq] at this
          change (k.layerState l).activationTime ≤ (k.layerState i).activationTime at this
          rcases g5 i a b c with h | h <;> omega
      rw [hf, show (lookupActive k code).1 = _ from g2]
  · have hf : comps.find? (fun i => comps.all fun j => decide ((k.config.layer j).constituents.length ≤ (k.config.layer i).constituents.length)) = some l := by
      refine find_sorted (R := fun a b => a < b) sorted1 ((hcomp l).2 ⟨g1, g4⟩) ?_ ?_
      · rw [List.all_eq_true]
        intro j hj
        obtain ⟨a, b⟩ := (hcomp j).1 hj
        rw [decide_eq_true_eq]
        show size k j ≤ size k l
        rcases g5 j a b with h | h <;> omega
      · intro i hi hlt
        obtain ⟨a, b⟩ := (hcomp i).1 hi
        rw [Bool.eq_false_iff]
        intro hall
        have := List.all_eq_true.1 hall l ((hcomp l).2 ⟨g1, g4⟩)
        rw [decide_eq_true_eq] at this
        change size k l ≤ size k i at this
        rcases g5 i a b with h | h <;> omega
    rw [hf, show (lookupComposite k code (lookupActive k code).1).1 = _ from g2]

/-! ### The layers -/

/-- All times count from 0. -/
structure Firm (b : LayerBook) : Prop where
  times : ∀ i, 0 ≤ (b.state i).activationTime
  clock : 0 ≤ b.clock

theorem Firm.enter {b : LayerBook} (h : Firm b) (l : Nat) : Firm (b.enter l) := by
  refine ⟨fun i => ?_, ?_⟩
  · show 0 ≤ ((upd _ _ _) i : LayerSt).activationTime
    rw [upd_apply]; split
    · exact h.clock
    · exact h.times i
  · show 0 ≤ b.clock + 1
    have := h.clock
    omega

theorem Firm.upd {b : LayerBook} (h : Firm b) {l : Nat} {s : LayerSt} (hs : 0 ≤ s.activationTime) {lt : Bool} :
    Firm { b with state := Keyd.upd b.state l s, latch := lt } := by
  refine ⟨fun i => ?_, h.clock⟩
  show 0 ≤ ((Keyd.upd _ _ _) i : LayerSt).activationTime
  rw [upd_apply]; split
  · exact hs
  · exact h.times i

theorem Firm.leave {b : LayerBook} (h : Firm b) (l : Nat) : Firm (b.leave l) :=
  h.upd (s := { b.state l with active := (b.state l).active - 1 }) (lt := b.latch) (h.times l)

theorem Firm.spend {b : LayerBook} (h : Firm b) (c : Config) : Firm (b.spend c) := by
  refine ⟨fun i => ?_, h.clock⟩
  show 0 ≤ (ite _ _ _ : LayerSt).activationTime
  split <;> exact h.times i

theorem Firm.untoggle {b : LayerBook} (h : Firm b) (c : Config) : Firm (b.untoggle c) := by
  refine ⟨fun i => ?_, h.clock⟩
  show 0 ≤ (ite _ _ _ : LayerSt).activationTime
  split <;> exact h.times i

theorem Firm.choose {b : LayerBook} (h : Firm b) (c : Config) (l : Nat) : Firm (b.choose c l) := by
  refine ⟨fun i => ?_, h.clock⟩
  show 0 ≤ (ite _ _ _ : LayerSt).activationTime
  split
  · exact Int.le_of_lt Int.zero_lt_one
  · split <;> exact h.times i

theorem Firm.toggle {b : LayerBook} (h : Firm b) (l : Nat) : Firm (if (b.state l).toggled then (b.flip l).leave l else (b.flip l).enter l) := by
  have hf : Firm (b.flip l) := h.upd (s := { b.state l with toggled := !(b.state l).toggled }) (lt := b.latch) (h.times l)
  split
  · exact hf.leave l
  · exact hf.enter l

theorem Firm.latch {b : LayerBook} (h : Firm b) (lt : Bool) : Firm { b with latch := lt } := ⟨h.times, h.clock⟩

theorem note_rest (b : Board) (m : UInt8) (t : Int) : (b.note m t).book = b.book ∧ (b.note m t).held = b.held ∧ (b.note m t).last = b.last := by
  unfold Board.note; split <;> exact ⟨rfl, rfl, rfl⟩

theorem strike_book (c : Config) (b : Board) (x : Code) (m : UInt8) (dl : Nat) (t : Int) : (b.strike c x m dl t).book = b.book.spend c := by
  unfold Board.strike
  rw [(note_rest _ m t).1]
  show LayerBook.spend c (Board.send _ x true).book = _
  rw [send_book]
  show LayerBook.spend c (b.send x false).book = _
  rw [send_book]

theorem lift_book (c : Config) (b : Board) (x : Code) : (b.lift c x).book = b.book := by
  show (b.send x false).book = _
  rw [send_book]

theorem tap_book (c : Config) (b : Board) (m dl : Nat) : (b.tap c m dl).book = b.book := by
  unfold Board.tap
  split
  · rw [send_book, send_book]; rfl
  · rfl

theorem firm_switch {c : Config} {b : Board} (h : Firm b.book) (code : Code) (l : Nat) : Firm (b.switch c code l).book := by
  have := (h.toggle l).spend c
  unfold Board.switch
  dsimp only
  show Firm (LayerBook.spend c (ite _ _ _ : Board).book)
  split
  · rename_i ht; rw [if_pos ht] at this; exact this
  · rename_i ht; rw [if_neg ht] at this; exact this

theorem firm_swap {c : Config} {b : Board} (h : Firm b.book) (l dl : Nat) : Firm (b.swap c dl l).book := by
  have hs : ∀ held, Firm (happen c b.book (.swap dl l held)) := by
    intro held
    rw [happen_swap]
    have h1 := h.leave dl
    split
    · exact (((h1.upd (s := { (b.book.leave dl).state dl with toggled := !((b.book.leave dl).state dl).toggled }) (lt := b.book.latch) (h1.times dl)).enter l).upd
        (l := l) (s := { ((((b.book.leave dl).flip dl).enter l).state l) with toggled := true }) (lt := b.book.latch)
        (((h1.upd (s := { (b.book.leave dl).state dl with toggled := !((b.book.leave dl).state dl).toggled }) (lt := b.book.latch) (h1.times dl)).enter l).times l))
    · split
      · have h2 : Firm ((b.book.leave dl).depth dl (· - 1)) :=
          h1.upd (s := { (b.book.leave dl).state dl with oneshotDepth := ((b.book.leave dl).state dl).oneshotDepth - 1 }) (lt := b.book.latch) (h1.times dl)
        have h3 := h2.enter l
        generalize ((b.book.leave dl).depth dl fun x => x - 1).enter l = b3 at h3
        exact h3.upd (s := { b3.state l with oneshotDepth := (b3.state l).oneshotDepth + 1 }) (lt := b3.latch) (h3.times l)
      · split
        · exact h1.enter l
        · exact h
  unfold Board.swap
  split
  · exact hs false
  · split
    · split
      · exact hs true
      · exact h
    · exact h

theorem firm_clear {c : Config} {b : Board} (h : Firm b.book) : Firm (b.clear c).book := by
  rw [clear_book]
  exact (h.spend c).untoggle c

theorem firm_act {c : Config} {b : Board} (h : Firm b.book) (hit : Hit) (t : Int) : Firm (b.act c hit t).book := by
  obtain ⟨code, d, dl, time, holds⟩ := hit
  cases d with
  | keyseq x m =>
    show Firm (b.strike c x m dl t).book
    rw [strike_book]
    exact h.spend c
  | layer l => exact h.enter l
  | layerm l m =>
    show Firm (LayerBook.enter (b.tap c m dl).book l)
    rw [tap_book]
    exact h.enter l
  | oneshot l => exact (h.enter l).latch true
  | oneshotm l m =>
    show Firm { LayerBook.enter (b.tap c m dl).book l with latch := true }
    rw [tap_book]
    exact (h.enter l).latch true
  | toggle l => exact firm_switch h code l
  | togglem l m => exact firm_switch (b := b.tap c m dl) (by rw [tap_book]; exact h) code l
  | swap l => exact firm_swap h l dl
  | swapm l m =>
    show Firm ((b.swap c dl l).tap c m dl).book
    rw [tap_book]
    exact firm_swap h l dl
  | overload l a => exact h.enter l
  | command n => exact h.spend c
  | clear => exact firm_clear h
  | clearm m =>
    show Firm ((b.clear c).tap c m dl).book
    rw [tap_book]
    exact firm_clear h
  | layout l => exact ((h.spend c).untoggle c).choose c l
  | _ => exact h

theorem firm_press {c : Config} {b : Board} (h : Firm b.book) (hit : Hit) (t : Int) : Firm (b.press c hit t).book := by
  unfold Board.press
  split
  · exact firm_act h _ t
  · exact firm_act h hit t

theorem firm_untap {c : Config} {b : Board} (h : Firm b.book) (l : Nat) (t : Int) : Firm (b.untap c l t).book := by
  have h1 : Firm (happen c b.book (.act (.oneshot l) false)) := by
    rw [happen_untap]
    split
    · exact h.upd (l := l) (s := { b.book.state l with oneshotDepth := (b.book.state l).oneshotDepth + 1 }) (lt := b.book.latch) (h.times l)
    · exact h.leave l
  unfold Board.untap
  dsimp only
  repeat' split
  all_goals exact h1

theorem firm_letUp {c : Config} {b : Board} (h : Firm b.book) (hit : Hit) (t : Int) : Firm (b.letUp c hit t).book := by
  obtain ⟨code, d, dl, time, holds⟩ := hit
  cases d with
  | keyseq x m =>
    show Firm ((b.lift c x).note m t).book
    rw [(note_rest _ m t).1, lift_book]
    exact h
  | layer l => exact h.leave l
  | layerm l m => exact h.leave l
  | oneshot l => exact firm_untap h l t
  | oneshotm l m => exact firm_untap h l t
  | swapm l m =>
    unfold Board.letUp
    dsimp only
    split
    · rw [lift_book]; exact h
    · exact h
  | _ => exact h

/-- A key released, case by case. -/
theorem release_cases (c : Config) (b : Board) {hit : Hit} (hd : c.acts hit.act) (t : Int) :
    (b.release c hit t = b.letUp c hit t ∧ c.does hit.act) ∨
    ∃ l a, hit.act = .overload l a ∧
      (b.release c hit t = (b.layers c (.overload l a) false).modify c none 0 ∨
       (∃ m, b.release c hit t = ((b.layers c (.overload l a) false).modify c none 0).tap c m hit.layer) ∨
       (c.does (c.desc a) ∧ b.release c hit t =
         (((b.layers c (.overload l a) false).modify c none 0).act c { hit with act := c.desc a } t).letUp c { hit with act := c.desc a } t)) := by
  cases ha : hit.act with
  | overload l a =>
    refine .inr ⟨l, a, rfl, ?_⟩
    unfold Board.release
    rw [ha]
    dsimp only
    split
    · rw [ha] at hd
      rcases hd with h | ⟨m, h, _⟩
      · refine .inr (.inr ⟨h, ?_⟩)
        revert h
        cases c.desc a <;> intro h <;> first | rfl | cases h
      · rw [h]; exact .inr (.inl ⟨m, rfl⟩)
    · exact .inl rfl
  | _ =>
    refine .inl ⟨by unfold Board.release; rw [ha], ?_⟩
    rw [ha] at hd
    exact hd

theorem firm_release {c : Config} {b : Board} (h : Firm b.book) {hit : Hit} (hd : c.acts hit.act) (t : Int) : Firm (b.release c hit t).book := by
  rcases release_cases c b hd t with ⟨e, hd⟩ | ⟨l, a, _, e⟩
  · rw [e]; exact firm_letUp h hit t
  · have h1 : Firm ((b.layers c (.overload l a) false).modify c none 0).book := h.leave l
    rcases e with e | ⟨m, e⟩ | ⟨hd, e⟩
    · rw [e]; exact h1
    · rw [e, tap_book]; exact h1
    · rw [e]
      exact firm_letUp (firm_act h1 _ t) _ t

theorem firm_expire {c : Config} {b : Board} (h : Firm b.book) (t : Int) : Firm (b.expire c t).book := by
  unfold Board.expire
  split
  · exact h.spend c
  · exact h

/-! ### What is kept besides -/

theorem send_kept (b : Board) (x : Code) (p : Bool) : (b.send x p).held = b.held ∧ (b.send x p).last = b.last := by
  exact ⟨(send_rest b x p).2.1, (send_rest b x p).2.2.1⟩

theorem clear_kept (c : Config) (b : Board) : (b.clear c).held = b.held ∧ (b.clear c).last = b.last :=
  ⟨clear_held c b, (letGo_rest _).2.2.1⟩

theorem strike_kept (c : Config) (b : Board) (x : Code) (m : UInt8) (dl : Nat) (t : Int) :
    (b.strike c x m dl t).held = b.held ∧ (b.strike c x m dl t).last = b.last := by
  have h1 := send_kept ((b.send x false).modify c (some dl) m) x true
  have h2 := send_kept b x false
  have h3 := note_rest ((((b.send x false).modify c (some dl) m).send x true).spend c) m t
  exact ⟨h3.2.1.trans (h1.1.trans h2.1), h3.2.2.trans (h1.2.trans h2.2)⟩

theorem tap_kept (c : Config) (b : Board) (m dl : Nat) : (b.tap c m dl).held = b.held ∧ (b.tap c m dl).last = b.last := by
  unfold Board.tap
  split
  · rename_i e _
    have h1 := send_kept ((b.modify c (some dl) e.mods).send e.code true) e.code false
    have h2 := send_kept (b.modify c (some dl) e.mods) e.code true
    exact ⟨h1.1.trans h2.1, h1.2.trans h2.2⟩
  · exact ⟨rfl, rfl⟩

theorem switch_kept (c : Config) (b : Board) (code : Code) (l : Nat) : Kin b.held (b.switch c code l).held ∧ (b.switch c code l).last = b.last := by
  show Kin b.held (ite _ _ _ : Board).held ∧ (ite _ _ _ : Board).last = b.last
  split
  · exact ⟨.refl _, rfl⟩
  · exact ⟨.hold code l b.held, rfl⟩

theorem swap_kept (c : Config) (b : Board) (l dl : Nat) : Kin b.held (b.swap c dl l).held ∧ (b.swap c dl l).last = b.last := by
  unfold Board.swap
  split
  · exact ⟨.refl _, rfl⟩
  · split
    · split
      · rename_i hr
        exact ⟨.reassign hr, rfl⟩
      · exact ⟨.refl _, rfl⟩
    · exact ⟨.refl _, rfl⟩

theorem act_kept (c : Config) (b : Board) (hit : Hit) (t : Int) : Kin b.held (b.act c hit t).held ∧ (b.act c hit t).last = b.last := by
  have same : ∀ b' : Board, b'.held = b.held ∧ b'.last = b.last → Kin b.held b'.held ∧ b'.last = b.last :=
    fun b' h => ⟨by rw [h.1]; exact .refl _, h.2⟩
  have tapped : ∀ (m dl : Nat) (b' : Board), Kin (b.tap c m dl).held b'.held ∧ b'.last = (b.tap c m dl).last → Kin b.held b'.held ∧ b'.last = b.last := by
    intro m dl b' h
    have ht := tap_kept c b m dl
    rw [ht.1, ht.2] at h
    exact h
  obtain ⟨code, d, dl, time, holds⟩ := hit
  cases d with
  | keyseq x m => exact same _ (strike_kept c b x m dl t)
  | layer l => exact ⟨.hold code l b.held, rfl⟩
  | layerm l m => exact tapped m dl _ ⟨.hold code l _, rfl⟩
  | oneshot l => exact ⟨.hold code l b.held, rfl⟩
  | oneshotm l m => exact tapped m dl _ ⟨.hold code l _, rfl⟩
  | overload l a => exact ⟨.hold code l b.held, rfl⟩
  | toggle l => exact switch_kept c b code l
  | togglem l m => exact tapped m dl _ (switch_kept c _ code l)
  | swap l => exact swap_kept c b l dl
  | swapm l m =>
    have h1 := swap_kept c b l dl
    have h2 := tap_kept c (b.swap c dl l) m dl
    show Kin b.held ((b.swap c dl l).tap c m dl).held ∧ ((b.swap c dl l).tap c m dl).last = _
    rw [h2.1, h2.2]; exact h1
  | clear => exact same _ (clear_kept c b)
  | clearm m =>
    have h1 := tap_kept c (b.clear c) m dl
    have h2 := clear_kept c b
    exact same _ ⟨h1.1.trans h2.1, h1.2.trans h2.2⟩
  | layout l => exact same _ (clear_kept c b)
  | _ => exact same _ ⟨rfl, rfl⟩

theorem letUp_kept (c : Config) (b : Board) (hit : Hit) (t : Int) : (b.letUp c hit t).held = b.held ∧ (b.letUp c hit t).last = b.last := by
  obtain ⟨code, d, dl, time, holds⟩ := hit
  cases d with
  | keyseq x m =>
    have h1 := send_kept b x false
    have h2 := note_rest (b.lift c x) m t
    exact ⟨h2.2.1.trans h1.1, h2.2.2.trans h1.2⟩
  | oneshot l =>
    show (b.untap c l t).held = _ ∧ (b.untap c l t).last = _
    unfold Board.untap
    dsimp only
    repeat' split
    all_goals exact ⟨rfl, rfl⟩
  | oneshotm l m =>
    show (b.untap c l t).held = _ ∧ (b.untap c l t).last = _
    unfold Board.untap
    dsimp only
    repeat' split
    all_goals exact ⟨rfl, rfl⟩
  | swapm l m =>
    unfold Board.letUp
    dsimp only
    split
    · exact send_kept b _ false
    · exact ⟨rfl, rfl⟩
  | _ => exact ⟨rfl, rfl⟩

theorem release_kept {c : Config} (b : Board) {hit : Hit} (hd : c.acts hit.act) (t : Int) :
    Kin b.held (b.release c hit t).held ∧ (b.release c hit t).last = b.last := by
  rcases release_cases c b hd t with ⟨e, hd⟩ | ⟨l, a, _, e⟩
  · rw [e, (letUp_kept c b hit t).1, (letUp_kept c b hit t).2]; exact ⟨.refl _, rfl⟩
  · rcases e with e | ⟨m, e⟩ | ⟨hd, e⟩
    · rw [e]; exact ⟨.refl _, rfl⟩
    · have := tap_kept c ((b.layers c (.overload l a) false).modify c none 0) m hit.layer
      rw [e, this.1, this.2]; exact ⟨.refl _, rfl⟩
    · have h1 := act_kept c ((b.layers c (.overload l a) false).modify c none 0) { hit with act := c.desc a } t
      have h2 := letUp_kept c (((b.layers c (.overload l a) false).modify c none 0).act c { hit with act := c.desc a } t) { hit with act := c.desc a } t
      rw [e, h2.1, h2.2]
      exact h1

/-- The same keys are held. -/
theorem act_nodup (c : Config) (b : Board) (hit : Hit) (t : Int) : codesIn (b.act c hit t).held = codesIn b.held := by
  have sw : ∀ (b : Board) (code : Code) (l : Nat), codesIn (b.switch c code l).held = codesIn b.held := by
    intro b code l
    show codesIn (ite _ _ _ : Board).held = _
    split
    · rfl
    · exact codesIn_hold code l b.held
  have sp : ∀ (b : Board) (dl l : Nat), codesIn (b.swap c dl l).held = codesIn b.held := by
    intro b dl l
    unfold Board.swap
    split
    · rfl
    · split
      · split
        · rename_i hr; exact codesIn_reassign dl l hr
        · rfl
      · rfl
  obtain ⟨code, d, dl, time, holds⟩ := hit
  cases d with
  | keyseq x m => exact congrArg codesIn (strike_kept c b x m dl t).1
  | layer l => exact codesIn_hold code l b.held
  | layerm l m => exact (codesIn_hold code l _).trans (congrArg codesIn (tap_kept c b m dl).1)
  | oneshot l => exact codesIn_hold code l b.held
  | oneshotm l m => exact (codesIn_hold code l _).trans (congrArg codesIn (tap_kept c b m dl).1)
  | overload l a => exact codesIn_hold code l b.held
  | toggle l => exact sw b code l
  | togglem l m => exact (sw _ code l).trans (congrArg codesIn (tap_kept c b m dl).1)
  | swap l => exact sp b dl l
  | swapm l m => exact (congrArg codesIn (tap_kept c (b.swap c dl l) m dl).1).trans (sp b dl l)
  | clear => exact congrArg codesIn (clear_held c b)
  | clearm m => exact (congrArg codesIn (tap_kept c (b.clear c) m dl).1).trans (congrArg codesIn (clear_held c b))
  | layout l => exact congrArg codesIn (clear_held c b)
  | _ => rfl

/-- The keys held after a press: with the actions they had, or for a layer; the key itself with the action chosen. -/
theorem press_kept (c : Config) (b : Board) (hit : Hit) (t : Int) (hn : (codesIn (b.act c { hit with act := b.chosen c hit.act t } t).held).Nodup) :
    (∀ x, some x ∈ (b.press c hit t).held → ∃ y, some y ∈ b.held ∧ x.code = y.code ∧ x.time = y.time ∧
      ((x.act = y.act ∧ (x.code = hit.code → b.chosen c hit.act t = hit.act)) ∨ (x.code = hit.code ∧ x.act = b.chosen c hit.act t) ∨ ∃ l, x.act = .layer l)) ∧
    (b.press c hit t).last = b.last := by
  obtain ⟨k1, k2⟩ := act_kept c b { hit with act := b.chosen c hit.act t } t
  cases ha : hit.act with
  | overloadIdle d1 d2 timeout =>
    have epr : b.press c hit t = { b.act c { hit with act := b.chosen c hit.act t } t with
        held := rebindIn hit.code (b.chosen c hit.act t) (b.act c { hit with act := b.chosen c hit.act t } t).held } := by
      unfold Board.press
      rw [ha]
      rfl
    rw [epr, ← ha]
    refine ⟨fun x hx => ?_, k2⟩
    rcases rebind_mem hn hx with ⟨h1, h2⟩ | ⟨g, g1, g2, rfl⟩
    · obtain ⟨y, y1, y2, y3, y4⟩ := k1 x h2
      refine ⟨y, y1, y2, y3, ?_⟩
      rcases y4 with y4 | y4
      · exact .inl ⟨y4, fun e => absurd e h1⟩
      · exact .inr (.inr y4)
    · obtain ⟨y, y1, y2, y3, y4⟩ := k1 g g1
      exact ⟨y, y1, y2, y3, .inr (.inl ⟨g2, rfl⟩)⟩
  | _ =>
    have hch : b.chosen c hit.act t = hit.act := by rw [ha]; rfl
    have epr : b.press c hit t = b.act c { hit with act := b.chosen c hit.act t } t := by
      rw [hch]
      show b.press c hit t = b.act c hit t
      unfold Board.press; rw [ha]
    rw [epr, ← ha]
    refine ⟨fun x hx => ?_, k2⟩
    obtain ⟨y, y1, y2, y3, y4⟩ := k1 x hx
    refine ⟨y, y1, y2, y3, ?_⟩
    rcases y4 with y4 | y4
    · exact .inl ⟨y4, fun _ => hch⟩
    · exact .inr (.inr y4)

/-! ### Events -/

/-- The engine is where the machine is. -/
structure Follows (c : Config) (b : Board) (k : Kbd) : Prop where
  here : At c b k
  pending : k.pending.code = 0
  state : k.chord.state = .inactive
  chords : ∀ ac ∈ k.activeChords, ac.active = false
  scroll : k.scroll.active = false
  hits : ∀ h, some h ∈ b.held → c.acts h.act
  last : k.lastPressedCode = b.last
  since : ∀ h, some h ∈ b.held → h.code = b.last → h.act.isOverload = true → k.overloadStartTime = h.time
  firm : Firm b.book

theorem Follows.entry {c : Config} {b : Board} {k : Kbd} (h : Follows c b k) (code : Code) (p : Bool) (t : Int) : Follows c b (directEntry k code p t) :=
  ⟨h.here.kbd rfl rfl rfl rfl rfl rfl rfl rfl, h.pending, h.state, h.chords, h.scroll, h.hits, h.last, h.since, h.firm⟩

theorem Follows.log {c : Config} {b : Board} {k : Kbd} (h : Follows c b k) (s : Step) : Follows c b (k.log s) :=
  ⟨h.here.kbd rfl rfl rfl rfl rfl rfl rfl rfl, h.pending, h.state, h.chords, h.scroll, h.hits, h.last, h.since, h.firm⟩

theorem Follows.direct {c : Config} (hc : Simple c) {b : Board} {k : Kbd} (h : Follows c b k) (code : Code) : Direct k code := by
  refine ⟨h.pending, h.state, ?_, ?_⟩
  · intro _ ac hac ha
    rw [h.chords ac hac] at ha
    cases ha
  · intro _ i _ _ ch hch
    rw [h.here.config, hc.chords i] at hch
    cases hch

/-- What is found for a key is an action of the machine. -/
theorem plays_find {c : Config} (hc : Simple c) (b : LayerBook) {code : Code} (hp : Physical code) : c.plays (b.find c code).1 := by
  unfold LayerBook.find
  dsimp only
  split
  · exact hc.acts _ _ hp
  · split
    · exact hc.acts _ _ hp
    · trivial

theorem stepKey_follows {c : Config} (hc : Simple c) {b : Board} {k k' : Kbd} (h : Follows c b k) {ev : KeyEvent}
    (hev : ev.code = 0 ∨ Physical ev.code) (e : stepKey k ev.code ev.pressed ev.ts = .ok k') : Follows c (if ev.code = 0 then b else b.key c ev) k' := by
  unfold stepKey at e
  unfold Board.key
  obtain ⟨code, pressed, t⟩ := ev
  dsimp only at hev e ⊢
  by_cases h0 : code = 0
  · rw [if_pos h0] at e ⊢
    rw [← Except.ok.inj e]; exact h
  have hph : Physical code := by rcases hev with hev | hev; exacts [absurd hev h0, hev]
  rw [if_neg h0] at e ⊢
  have hfind := h.here.grip.find h0
  cases pressed with
  | true =>
    rw [if_pos rfl] at e
    cases hg : heldIn code b.held with
    | some hit =>
      rw [hg] at hfind
      rw [if_pos (by unfold cacheGet; rw [hfind]; rfl)] at e
      dsimp only
      rw [if_pos rfl, ← Except.ok.inj e]
      exact h.log _
    | none =>
      rw [hg] at hfind
      rw [if_neg (by unfold cacheGet; rw [hfind]; decide)] at e
      have hlook : b.book.find c code = lookupDescriptor k code := by
        rw [← h.here.book]
        refine find_lookup h.here.config (fun i => ?_) hph.2
        have := h.firm.times i
        rw [← h.here.book] at this
        exact this
      dsimp only at e ⊢
      rw [if_pos rfl]
      rw [← hlook] at e
      have hplays := plays_find hc b.book hph
      generalize b.book.find c code = found at e hplays ⊢
      obtain ⟨d, dl⟩ := found
      dsimp only at e hplays ⊢
      obtain ⟨hit, hhit⟩ : ∃ hit, hit = ({ code := code, act := d, layer := dl, time := t } : Hit) := ⟨_, rfl⟩
      have hhc : hit.code = code := by rw [hhit]
      rw [← hhit]
      have hgn : heldIn hit.code b.held = none := by rw [hhc]; exact hg
      obtain ⟨p1, p2⟩ := h.here.grip.place (h := hit) (by rw [hhc]; exact h0) hgn 0 none
      cases hp : hit.place b.held with
      | none =>
        have hset : cacheSet k code (some { d := d, dl := dl, layer := 0 }) = none := by
          unfold cacheSet
          rw [← hhc, p1 hp]
        rw [hset] at e
        rw [← Except.ok.inj e]
        exact h.log _
      | some held =>
        obtain ⟨j, j1, j2⟩ := p2 held hp
        have hset : cacheSet k code (some { d := d, dl := dl, layer := 0 }) = some { k with cache := k.cache.set j hit.entry } := by
          unfold cacheSet
          rw [← hhc, j1, hhit]
          dsimp only
          rw [Nat.zero_add]
          rfl
        rw [hset] at e
        dsimp only at e ⊢
        obtain ⟨k2, hk2⟩ : ∃ k2, k2 = ({ k with cache := k.cache.set j hit.entry } : Kbd).log (.key code true t (some (d, dl))) := ⟨_, rfl⟩
        rw [← hk2] at e
        have hcodes := place_codes hp
        have a2 : At c { b with held := held } k2 := by
          rw [hk2]
          refine ⟨h.here.config, h.here.book, h.here.sent.same rfl ⟨[], rfl, by simp⟩ rfl rfl rfl rfl, h.here.timer, h.here.idle, j2, ?_, h.here.typed⟩
          show (codesIn held).Nodup
          rw [hcodes.nodup_iff, List.nodup_cons]
          refine ⟨fun hm => ?_, h.here.nodup⟩
          obtain ⟨g, g1, g2⟩ := mem_codesIn_iff hm
          exact not_heldIn hgn g1 g2
        have hn : descBudget k2 = (k2.config.descriptors.length + 1) + 1 := rfl
        rw [hn] at e
        have e : processDescriptor (k2.config.descriptors.length + 1 + 1) k2 hit.code hit.act hit.layer true t = .ok k' := by rw [hhit]; exact e
        have hplays : c.plays hit.act := by rw [hhit]; exact hplays
        obtain ⟨a3, f3⟩ := press_at a2 (by rw [hhc]; exact h0) hplays e
        have hacts := plays_chosen { b with held := held } hplays t
        have hnd : (codesIn ((Board.act c { b with held := held } { hit with act := ({ b with held := held } : Board).chosen c hit.act t } t).held)).Nodup := by
          have hp1 := act_nodup c { b with held := held } { hit with act := ({ b with held := held } : Board).chosen c hit.act t } t
          rw [hp1]; exact a2.nodup
        have kept := press_kept c { b with held := held } hit t hnd
        have firm := firm_press (c := c) (b := { b with held := held }) h.firm hit t
        generalize ({ b with held := held } : Board).chosen c hit.act t = chosen at f3 kept hacts
        generalize Board.press c { b with held := held } hit t = b3 at a3 kept firm ⊢
        obtain ⟨kept1, kept2⟩ := kept
        dsimp only at kept1 kept2
        have q : k2.pending = k.pending ∧ k2.chord = k.chord ∧ k2.activeChords = k.activeChords ∧ k2.scroll = k.scroll ∧
            k2.overloadStartTime = k.overloadStartTime := by
          rw [hk2]; exact ⟨rfl, rfl, rfl, rfl, rfl⟩
        obtain ⟨q1, q2, q3, q5, q6⟩ := q
        refine ⟨a3.board rfl rfl rfl rfl rfl rfl rfl rfl, ?_, ?_, ?_, ?_, ?_, ?_, ?_, firm⟩
        · rw [f3.pending]; show k2.pending.code = 0; rw [q1]; exact h.pending
        · rw [f3.chord]; show k2.chord.state = _; rw [q2]; exact h.state
        · rw [f3.activeChords]; show ∀ ac ∈ k2.activeChords, _; rw [q3]; exact h.chords
        · rw [f3.scroll]; show k2.scroll.active = _; rw [q5]; exact h.scroll
        · intro x hx
          obtain ⟨y, y1, y2, _, y4⟩ := kept1 x hx
          rcases y4 with ⟨y4, y5⟩ | ⟨_, y4⟩ | ⟨l, y4⟩
          · rw [y4]
            rcases place_mem hp y1 with rfl | y1
            · rw [← y5 y2]; exact hacts
            · exact h.hits y y1
          · rw [y4]; exact hacts
          · rw [y4]; trivial
        · rw [f3.last]; exact hhc
        · intro x hx hxc ho
          change x.code = code at hxc
          obtain ⟨y, y1, y2, y3, y4⟩ := kept1 x hx
          have hy : y = hit := by
            rcases place_mem hp y1 with rfl | y1
            · rfl
            · exact absurd (y2.symm.trans hxc) (not_heldIn hg y1)
          have hov : x.act = chosen := by
            rcases y4 with ⟨y4, y5⟩ | ⟨_, y4⟩ | ⟨l, y4⟩
            · rw [y4, hy]; exact (y5 (hxc.trans hhc.symm)).symm
            · exact y4
            · rw [y4] at ho; cases ho
          rw [f3.since, y3, hy]
          show (if _ then _ else _) = _
          rw [if_pos (by rw [← hov]; exact ho), hhit]
  | false =>
    rw [if_neg (by decide)] at e
    cases hg : heldIn code b.held with
    | none =>
      rw [hg] at hfind
      rw [show cacheGet k code = none from hfind] at e
      dsimp only
      rw [if_neg (by decide)]
      rw [← Except.ok.inj e]
      exact h.log _
    | some hit =>
      rw [hg] at hfind
      obtain ⟨hm, hcode⟩ := mem_heldIn hg
      rw [show cacheGet k code = some hit.entry from hfind] at e
      obtain ⟨j, j1, j2⟩ := h.here.grip.leave h0 hg 0 none
      have hset : cacheSet k code none = some { k with cache := k.cache.modify j fun e => { e with code := 0 } } := by
        unfold cacheSet
        rw [j1]
        dsimp only
        rw [Nat.zero_add]
      rw [hset] at e
      dsimp only [Option.getD_some] at e ⊢
      rw [if_neg (by decide)]
      obtain ⟨k2, hk2⟩ : ∃ k2, k2 = ({ k with cache := k.cache.modify j fun e => { e with code := 0 } } : Kbd).log (.key code false t (some (hit.act, hit.layer))) := ⟨_, rfl⟩
      have e : processDescriptor (descBudget k2) k2 hit.code hit.act hit.layer false t = .ok k' := by rw [hk2, hcode]; exact e
      have a2 : At c { b with held := dropIn code b.held } k2 := by
        rw [hk2]
        exact ⟨h.here.config, h.here.book, h.here.sent.same rfl ⟨[], rfl, by simp⟩ rfl rfl rfl rfl, h.here.timer, h.here.idle, j2,
          h.here.nodup.sublist (codesIn_drop code b.held), h.here.typed⟩
      have q : k2.pending = k.pending ∧ k2.chord = k.chord ∧ k2.activeChords = k.activeChords ∧ k2.scroll = k.scroll ∧
          k2.overloadStartTime = k.overloadStartTime ∧ k2.lastPressedCode = k.lastPressedCode := by
        rw [hk2]; exact ⟨rfl, rfl, rfl, rfl, rfl, rfl⟩
      obtain ⟨q1, q2, q3, q5, q6, q7⟩ := q
      have hn : descBudget k2 = (k2.config.descriptors.length + 1) + 1 := rfl
      rw [hn] at e
      obtain ⟨a3, f3⟩ := release_at a2 (h.hits hit hm) (q7.trans h.last) (by rw [hcode]; exact h0)
        (fun e1 e2 => q6.trans (h.since hit hm e1 e2)) e
      have kept := release_kept { b with held := dropIn code b.held } (h.hits hit hm) t
      have firm := firm_release (c := c) (b := { b with held := dropIn code b.held }) (hit := hit) h.firm (h.hits hit hm) t
      generalize Board.release c { b with held := dropIn code b.held } hit t = b3 at a3 kept firm ⊢
      obtain ⟨kept1, kept2⟩ := kept
      dsimp only at kept1 kept2
      have kin : Kin b.held b3.held := (Kin.drop code b.held).trans kept1
      refine ⟨a3, ?_, ?_, ?_, ?_, ?_, ?_, ?_, firm⟩
      · rw [f3.pending, q1]; exact h.pending
      · rw [f3.chord, q2]; exact h.state
      · rw [f3.activeChords, q3]; exact h.chords
      · rw [f3.scroll, q5]; exact h.scroll
      · intro x hx
        obtain ⟨y, y1, _, _, y4⟩ := kin x hx
        rcases y4 with y4 | ⟨l, y4⟩
        · rw [y4]; exact h.hits y y1
        · rw [y4]; trivial
      · rw [f3.last, q7, kept2]; exact h.last
      · intro x hx hxc ho
        obtain ⟨y, y1, y2, y3, y4⟩ := kin x hx
        rcases y4 with y4 | ⟨l, y4⟩
        · rw [f3.since, q6, y3]
          exact h.since y y1 (y2.symm.trans (hxc.trans kept2)) (by rw [← y4]; exact ho)
        · rw [y4] at ho; cases ho

theorem timers_follows {c : Config} {b : Board} {k k' : Kbd} (h : Follows c b k) {code : Code} {t : Int} (e : stepTimers k code t = .ok k') :
    Follows c (b.expire c t) k' := by
  unfold stepTimers at e
  obtain ⟨k1, e1, e⟩ := bind_eq_ok.1 e
  have h1 : Follows c (b.expire c t) k1 := by
    unfold Board.expire
    rw [← h.here.timer]
    split at e1
    · rename_i ht
      rw [if_pos ht]
      obtain ⟨k2, e2, e1⟩ := bind_eq_ok.1 e1
      obtain ⟨a2, f2⟩ := h.here.spend e2
      have e1 := Except.ok.inj e1
      have f3 := f2.trans (.of_frame (.updateMods k2 none 0))
      have a3 := a2.mods none 0
      rw [e1] at f3 a3
      refine ⟨a3, ?_, ?_, ?_, ?_, h.hits, ?_, ?_, h.firm.spend c⟩
      · rw [f3.pending]; exact h.pending
      · rw [f3.chord]; exact h.state
      · rw [f3.activeChords]; exact h.chords
      · rw [f3.scroll]; exact h.scroll
      · rw [f3.last]; exact h.last
      · intro x hx h1 h2
        rw [f3.since]; exact h.since x hx h1 h2
    · rename_i ht
      rw [if_neg ht, ← Except.ok.inj e1]
      exact h
  rw [h1.here.idle] at e
  rw [← Except.ok.inj e]
  exact h1

theorem processEvent_follows {c : Config} (hc : Simple c) {b : Board} {k k' : Kbd} (h : Follows c b k) {ev : KeyEvent}
    (hev : ev.code = 0 ∨ Physical ev.code) {n : Nat} {w : Int} (e : processEvent n k ev.code ev.pressed ev.ts = .ok (k', w)) :
    Follows c (b.step c ev) k' := by
  cases n with
  | zero => cases e
  | succ n =>
    rw [processEvent_direct (h.direct hc ev.code)] at e
    obtain ⟨k1, e1, e⟩ := bind_eq_ok.1 e
    have h1 := timers_follows (h.entry ev.code ev.pressed ev.ts) e1
    obtain ⟨k2, e2, e⟩ := bind_eq_ok.1 e
    have h2 := stepKey_follows hc h1 hev e2
    have e := congrArg Prod.fst (Except.ok.inj e)
    change ({ k2 with timeouts := _ } : Kbd) = k' at e
    rw [← e]
    exact ⟨h2.here.kbd rfl rfl rfl rfl rfl rfl rfl rfl, h2.pending, h2.state, h2.chords, h2.scroll, h2.hits, h2.last, h2.since, h2.firm⟩

/-- Expiring twice is expiring once. -/
theorem expire_expire (c : Config) (b : Board) {t t' : Int} (h : t ≤ t') : (b.expire c t).expire c t' = b.expire c t' := by
  by_cases h1 : b.deadline ≠ 0 ∧ t ≥ b.deadline
  · have e1 : b.expire c t = (b.spend c).modify c none 0 := if_pos h1
    have e2 : b.expire c t' = (b.spend c).modify c none 0 := if_pos ⟨h1.1, Int.le_trans h1.2 h⟩
    rw [e1, e2]
    exact if_neg (fun h => h.1 rfl)
  · have e1 : b.expire c t = b := if_neg h1
    rw [e1]

/-- The wakeups before an event change nothing that the event itself would not. -/
theorem catchUp_follows {c : Config} (hc : Simple c) {m : Nat} : ∀ (n : Nat) {b : Board} {k k' : Kbd} {timeout ts limit w ts' : Int}, Follows c b k →
    catchUp (processEvent m) n k timeout ts limit = .ok (k', w, ts') →
    ∃ b', Follows c b' k' ∧ b'.expire c limit = b.expire c limit
  | 0, _, _, _, _, _, _, _, _, _, e => by cases e
  | n+1, b, k, k', timeout, ts, limit, w, ts', h, e => by
    unfold catchUp at e
    split at e
    · rename_i ht
      obtain ⟨⟨k1, w1⟩, e1, e⟩ := bind_eq_ok.1 e
      have h1 : Follows c (b.step c ⟨0, false, ts⟩) k1 := processEvent_follows hc h (ev := ⟨0, false, ts⟩) (.inl rfl) e1
      have hs : b.step c ⟨0, false, ts⟩ = b.expire c ts := if_pos rfl
      rw [hs] at h1
      obtain ⟨b', g1, g2⟩ := catchUp_follows hc n h1 e
      exact ⟨b', g1, g2.trans (expire_expire c b ht.2)⟩
    · have e : k = k' := congrArg Prod.fst (Except.ok.inj e)
      exact ⟨b, e ▸ h, rfl⟩

theorem loop_follows {c : Config} (hc : Simple c) {n : Nat} : ∀ (evs : List KeyEvent) {b : Board} {k k' : Kbd} {timeout ts w : Int}, Follows c b k →
    (∀ ev ∈ evs, ev.code = 0 ∨ Physical ev.code) → processEventsLoop (processEvent n) evs k timeout ts = .ok (k', w) →
    Follows c (evs.foldl (Board.step c) b) k'
  | [], b, k, k', timeout, ts, w, h, _, e => by
    have e1 : k = k' := congrArg Prod.fst (Except.ok.inj e)
    exact e1 ▸ h
  | ev :: evs, b, k, k', timeout, ts, w, h, hev, e => by
    unfold processEventsLoop at e
    obtain ⟨⟨k0, w0, ts0⟩, e0, e⟩ := bind_eq_ok.1 e
    obtain ⟨b0, h0, hb0⟩ := catchUp_follows hc _ h e0
    obtain ⟨⟨k1, w1⟩, e1, e⟩ := bind_eq_ok.1 e
    have h1 := processEvent_follows hc h0 (hev ev (by simp)) e1
    have hs : b0.step c ev = b.step c ev := by unfold Board.step; rw [hb0]
    rw [hs] at h1
    exact loop_follows hc evs h1 (fun e he => hev e (by simp [he])) e

theorem follows_start {c : Config} : Follows c (Board.start c) (newKeyboard c) := by
  have hls : (newKeyboard c).book = (Board.start c).book := by
    unfold newKeyboard Board.start Kbd.book
    dsimp only
    congr 1
    funext i
    by_cases hd : c.defaultLayout ≠ []
    · rw [if_pos hd]
      cases hf : findLayout c.defaultLayout c.layers 0 with
      | none =>
        dsimp only
        rw [if_neg (fun h => (by cases h.2)), upd_apply]
      | some j =>
        dsimp only
        rw [upd_apply]
        by_cases hj : i = j
        · rw [if_pos hj, if_pos ⟨hd, by rw [hj]⟩, upd_apply]
          split <;> rfl
        · rw [if_neg hj, if_neg (fun h => hj (Option.some.inj h.2).symm), upd_apply]
    · rw [if_neg hd, if_neg (fun h => hd h.1), upd_apply]
  have firm : Firm (Board.start c).book := by
    refine ⟨fun i => ?_, by show (0 : Int) ≤ 1; omega⟩
    show 0 ≤ (ite _ _ _ : LayerSt).activationTime
    split
    · show (0 : Int) ≤ 1; omega
    · split <;> exact Int.le_refl _
  refine ⟨⟨rfl, hls, ⟨rfl, rfl, rfl, fun _ _ => rfl, ?_, fun _ _ => rfl⟩, rfl, rfl, ?_, ?_, rfl⟩, rfl, rfl, ?_, rfl, ?_, rfl, ?_, firm⟩
  · show modKeys.filter (fun _ => false) = []
    decide
  · show (List.replicate 16 ({} : CacheEntry)).map CacheEntry.slot = (List.replicate 16 none).map (Option.map Hit.entry)
    rfl
  · show (codesIn (List.replicate 16 none)).Nodup
    exact List.nodup_nil
  · intro ac h
    have : ac ∈ List.replicate 3 ({} : ActiveChord) := h
    rw [List.eq_of_mem_replicate this]
  · intro h hh
    have := List.eq_of_mem_replicate (show some h ∈ List.replicate 16 (none : Option Hit) from hh)
    cases this
  · intro h hh
    have := List.eq_of_mem_replicate (show some h ∈ List.replicate 16 (none : Option Hit) from hh)
    cases this

theorem follows_fed {c : Config} (hc : Simple c) {evs : List KeyEvent} {k : Kbd} (h : Fed (fun c' => c' = c) evs k)
    (hev : ∀ ev ∈ evs, ev.code = 0 ∨ Physical ev.code) : Follows c (Board.run c evs) k := by
  induction h with
  | init c' h => subst h; exact follows_start
  | events fuel k before evs k' wait h run ih =>
    have ih := ih (fun ev he => hev ev (List.mem_append_left _ he))
    have he : ∀ ev ∈ evs, ev.code = 0 ∨ Physical ev.code := fun ev he => hev ev (List.mem_append_right _ he)
    have hrun : Board.run c (before ++ evs) = evs.foldl (Board.step c) (Board.run c before) := List.foldl_append ..
    rw [hrun]
    exact loop_follows hc evs ih he run
  | bind k before exp k' accepted h run hcf ih =>
    have ih := ih hev
    have e := kbdEval_frame run
    rw [e]
    exact ⟨⟨hcf, ih.here.book, ih.here.sent.same rfl ⟨[], rfl, by simp⟩ rfl rfl rfl rfl, ih.here.timer, ih.here.idle, ih.here.grip, ih.here.nodup, ih.here.typed⟩, ih.pending, ih.state, ih.chords, ih.scroll,
      ih.hits, ih.last, ih.since, ih.firm⟩
  | scroll k before s h hs ih =>
    have ih := ih hev
    exact ⟨ih.here.kbd rfl rfl rfl rfl rfl rfl rfl rfl, ih.pending, ih.state, ih.chords, hs.trans ih.scroll, ih.hits, ih.last, ih.since, ih.firm⟩

/-- C73. For every configuration of remaps, modified keys, layers, one-shots, toggles, swaps (each with or without a macro of one key),
overloads, `overloadi`, layouts, `clear` and commands, with or without `oneshot_timeout`, and every
sequence of events of physical keys, in whatever batches and at whatever times: what the host gets is what the machine of
`Verif.Spec.Board` says. The keys that go down and up, in order, each with the modifiers that are down at that moment; the commands
run; and the keys and modifiers down afterwards. -/
theorem C73_machine {c : Config} (hc : Simple c) {evs : List KeyEvent} {k : Kbd} (h : Fed (fun c' => c' = c) evs k)
    (hev : ∀ ev ∈ evs, ev.code = 0 ∨ Physical ev.code) :
    hostEvents (fun _ => false) k.outputs = (Board.run c evs).out ∧
    ranCommands k.outputs = (Board.run c evs).ran ∧
    (∀ x, isModifierKey x = false → hostAfter (fun _ => false) k.outputs x = (Board.run c evs).down x) ∧
    modKeys.filter (hostAfter (fun _ => false) k.outputs) = (Board.run c evs).mods := by
  have f := (follows_fed hc h hev).here.sent
  exact ⟨f.out, f.ran, by rw [f.sync]; exact f.down, by rw [f.sync]; exact f.mods⟩

/-! ### Checking -/

def Config.tapsB (c : Config) (m : Nat) : Bool :=
  match c.mac m with
  | [e] => decide (e.type = .keysequence)
  | _ => false

theorem taps_of_check {c : Config} {m : Nat} (h : c.tapsB m = true) : c.taps m := by
  unfold Config.tapsB at h
  split at h
  · rename_i e he
    rw [decide_eq_true_eq] at h
    exact ⟨e, he, h⟩
  · cases h

def Config.doesB (c : Config) : Desc → Bool
  | .none => true
  | .keyseq _ _ => true
  | .layer _ | .oneshot _ | .toggle _ | .swap _ => true
  | .layerm _ m | .oneshotm _ m | .togglem _ m | .swapm _ m => c.tapsB m
  | .command _ => true
  | .clear => true
  | .clearm m => c.tapsB m
  | .layout _ => true
  | _ => false

theorem does_of_check {c : Config} {d : Desc} (h : c.doesB d = true) : c.does d := by
  cases d with
  | none => trivial
  | keyseq x m => trivial
  | layer l => trivial
  | oneshot l => trivial
  | toggle l => trivial
  | swap l => trivial
  | layerm l m => exact taps_of_check h
  | oneshotm l m => exact taps_of_check h
  | togglem l m => exact taps_of_check h
  | swapm l m => exact taps_of_check h
  | command n => trivial
  | clear => trivial
  | clearm m => exact taps_of_check h
  | layout l => trivial
  | _ => cases h

def Config.actsB (c : Config) : Desc → Bool
  | .overload _ a => match c.desc a with
    | .macro m => c.tapsB m
    | d => c.doesB d
  | d => c.doesB d

theorem acts_of_check {c : Config} {d : Desc} (h : c.actsB d = true) : c.acts d := by
  cases d with
  | overload l a =>
    unfold Config.actsB at h
    dsimp only at h
    show c.does (c.desc a) ∨ _
    cases hd : c.desc a with
    | «macro» m =>
      rw [hd] at h
      exact .inr ⟨m, rfl, taps_of_check h⟩
    | _ => rw [hd] at h; exact .inl (does_of_check h)
  | _ => exact acts_does (does_of_check (by exact h))

def Config.playsB (c : Config) : Desc → Bool
  | .overloadIdle d1 d2 _ => c.actsB (c.desc d1) && c.actsB (c.desc d2)
  | d => c.actsB d

theorem plays_of_check {c : Config} {d : Desc} (h : c.playsB d = true) : c.plays d := by
  have key : c.actsB d = true → c.acts d := acts_of_check
  cases d with
  | overloadIdle d1 d2 t =>
    unfold Config.playsB at h
    rw [Bool.and_eq_true] at h
    exact ⟨acts_of_check h.1, acts_of_check h.2⟩
  | _ => exact key (by exact h)

def simpleB (c : Config) : Bool :=
  c.layers.all (fun l => allCodes.all (fun code => c.playsB (l.keymap code)) && decide (l.chords = []))

theorem simple_of_check {c : Config} (h : simpleB c = true) : Simple c := by
  unfold simpleB at h
  have hl : ∀ i, (∀ code, c.plays ((c.layer i).keymap code)) ∧ (c.layer i).chords = [] := by
    intro i
    by_cases hi : i < c.layers.length
    · have hg := getElem_of_lt hi
      have := List.all_eq_true.1 h _ (List.mem_of_getElem? hg)
      rw [Bool.and_eq_true, decide_eq_true_eq] at this
      exact ⟨fun code => plays_of_check (List.all_eq_true.1 this.1 code (mem_allCodes code)), this.2⟩
    · have : c.layer i = {} := by
        unfold Config.layer
        rw [List.getD_eq_getElem?_getD, List.getElem?_eq_none (by omega)]
        rfl
      rw [this]
      exact ⟨fun _ => trivial, rfl⟩
  exact ⟨fun i code _ => (hl i).1 code, fun i => (hl i).2⟩

/-! ### Concrete cases -/

/-- The configuration recommended in the README. -/
def recommendedText : Str := b!"[ids]

*

[main]

shift = oneshot(shift)
meta = oneshot(meta)
control = oneshot(control)

leftalt = oneshot(alt)
rightalt = oneshot(altgr)

capslock = overload(control, esc)
insert = S-insert
"

/-- It is one of remaps, one-shots and overloads. -/
theorem C73_recommended : (textConfig recommendedText).map simpleB = some true := by
  set_option maxRecDepth 100000 in decide +kernel

/-- Layers, overloads, toggles, composite layers, modified keys, layouts, commands and `clear`. -/
def boardText : Str := b!"[main]
capslock = overload(nav, esc)
leftshift = oneshot(shift)
q = toggle(num)
z = command(beep)
x = clear()
w = S-insert
y = setlayout(dv)
[nav]
h = left
j = C-down
[num]
j = 1
[nav+shift]
h = home
[dv:layout]
a = o
"

def boardEvents : List KeyEvent :=
  [press 58 1, press 35 2, release 35 3, press 36 4, release 36 5, release 58 6, press 58 10, release 58 20, press 42 30, release 42 31,
   press 30 32, release 30 33, press 16 40, release 16 41, press 36 42, press 44 43, press 17 50, release 36 51, press 45 52, press 42 60, press 58 61, press 35 62]

/-- Capslock held is a layer and tapped is escape; the tapped shift counts for the next key; `j` is 1 while `num` is toggled; `clear` lets go
of Insert; with both held the composite layer binds `h`. The hypotheses of `C73_machine` hold and the machine says: -/
theorem C73_example : checkRun boardText boardEvents simpleB
    (fun k => decide (hostEvents (fun _ => false) k.outputs = [(105, true, []), (105, false, []), (108, true, [29]), (108, false, [29]), (1, true, []), (1, false, []),
      (30, true, [42]), (30, false, [42]), (2, true, []), (110, true, [42]), (2, false, [42]), (110, false, []), (102, true, [])] ∧
      ranCommands k.outputs = [b!"beep"])) = true := by
  set_option maxRecDepth 100000 in decide +kernel

end Keyd
