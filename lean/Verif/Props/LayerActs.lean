import Verif.Proofs.LayerActs
import Verif.Proofs.Performed
import Verif.Spec.Witness
import Verif.Props.Typewriter

/-
  C68 (the layers follow the actions performed) and what it says about one-shots over any batch of events (C13).
-/

set_option autoImplicit false

namespace Keyd

/-- C68. Whatever a batch of events does to the layers is what the actions performed do to them, one after the other in the order in
which they are performed, with the exception that one-shots may expire if a timeout is set for them. Each key is looked up with the
layers as the actions before it left them. -/
theorem C68_layers {n : Nat} {k k' : Kbd} {evs : List KeyEvent} {w : Int} (run : kbdProcessEvents n k evs = .ok (k', w)) :
    ∃ new, k'.steps = new ++ k.steps ∧ LayerRun k.config (Expires k) k.book k.memo new k'.book k'.memo := by
  have h0 : Layered k k := ⟨[], rfl, .nil, rfl, fun h => .inl h⟩
  obtain ⟨new, h1, h2, _, _⟩ := (kbdProcessEvents_sat (layered_engineInv k) n k evs h0).of_ok run
  exact ⟨new, h1, h2⟩

/-- The same from the creation of the keyboard: the layers are a function of the log of actions (and of when one-shots expire). -/
theorem C68_layers_start {n : Nat} {c : Config} {k' : Kbd} {evs : List KeyEvent} {w : Int}
    (run : kbdProcessEvents n (newKeyboard c) evs = .ok (k', w)) :
    LayerRun c (Expires (newKeyboard c)) (newKeyboard c).book (newKeyboard c).memo k'.steps k'.book k'.memo := by
  obtain ⟨new, h1, h2⟩ := C68_layers run
  rw [show (newKeyboard c).steps = [] from rfl, List.append_nil] at h1
  rw [h1]
  exact h2

/-- The action is not `swap`. -/
def Desc.unswapped : Desc → Prop
  | .swap _ | .swapm _ _ => False
  | _ => True

/-- What an action means for the layers is determined by the action, the time and what is remembered, except that of `swap` it also depends
on whether the layer it replaces is held by a key. -/
theorem does_unique {c : Config} {dl : Nat} {code : Code} {t : Int} {m : Memo} {d : Desc} {p : Bool} {hs hs' : List Happening}
    (hc : ∀ i, (c.desc i).unswapped) (hd : d.unswapped) (h : Does c dl code t m d p hs) (h' : Does c dl code t m d p hs') : hs = hs' := by
  induction h generalizing hs' with
  | itself h1 h2 h3 h4 =>
    cases h' with
    | itself => rfl
    | idle => exact (h1 _ _ _ rfl).elim
    | hold => rfl
    | tapMacro => rfl
    | tap => exact (h4 _ _ rfl).elim
    | swap => exact hd.elim
    | swapm => exact hd.elim
  | idle _ ih =>
    cases h' with
    | itself h1 => exact (h1 _ _ _ rfl).elim
    | idle g => exact ih (hc _) g
  | hold h =>
    cases h' with
    | itself _ _ _ h4 => exact (h4 _ _ rfl).elim
    | hold => rfl
    | tapMacro g => rfl
    | tap g => exact (h g).elim
  | tapMacro h hi =>
    cases h' with
    | itself _ _ _ h4 => exact (h4 _ _ rfl).elim
    | hold => rfl
    | tapMacro g => rfl
    | tap _ g => exact (g _ hi).elim
  | tap h hi hp _ _ ih1 ih2 =>
    cases h' with
    | itself _ _ _ h4 => exact (h4 _ _ rfl).elim
    | hold g => exact (g h).elim
    | tapMacro _ g => exact (hi _ g).elim
    | tap _ _ hp' g1 g2 =>
      obtain ⟨_, rfl⟩ := performs_unique hp hp'
      rw [ih1 (hc _) g1, ih2 (hc _) g2]
  | swap => exact hd.elim
  | swapm => exact hd.elim

/-- Without a timeout for one-shots and without `swap`, the log (and what was remembered before it) determines the layers. -/
theorem C68_determined {c : Config} {b : LayerBook} {m : Memo} {log : List Step} {b1 b2 : LayerBook} {m1 m2 : Memo}
    (h1 : LayerRun c False b m log b1 m1) (h2 : LayerRun c False b m log b2 m2) (hc : ∀ i, (c.desc i).unswapped)
    (hd : ∀ s ∈ log, ∀ code d dl p, s.action = some (code, d, dl, p) → d.unswapped) :
    b1 = b2 ∧ m1 = m2 := by
  induction h1 generalizing b2 m2 with
  | nil =>
    cases h2 with
    | nil => exact ⟨rfl, rfl⟩
    | expire _ hx => exact hx.elim
  | other s h hs ih =>
    cases h2 with
    | other _ h' _ => exact ih h' (fun s hm => hd s (List.mem_cons_of_mem _ hm))
    | acts _ e _ _ _ => rw [hs] at e; cases e
    | expire _ hx => exact hx.elim
  | acts h e hl hp hdo ih =>
    cases h2 with
    | other _ _ hs => rw [e] at hs; cases hs
    | acts h' e' _ hp' hdo' =>
      rw [e] at e'
      cases e'
      obtain ⟨rfl, rfl⟩ := ih h' (fun s hm => hd s (List.mem_cons_of_mem _ hm))
      rw [does_unique hc (hd _ List.mem_cons_self _ _ _ _ e) hdo hdo']
      exact ⟨rfl, (step_performs_unique hp hp').2⟩
    | expire _ hx => exact hx.elim
  | expire _ hx => exact hx.elim

/-! ### One-shots over batches of events -/

/-- What ends the one-shots that are outstanding: a key, macro or command is struck, a layer is toggled, cleared or selected
(`swap` may move a one-shot to another layer). -/
def Happening.ends : Happening → Bool
  | .act (.keyseq _ _) true | .act (.macro _) true | .act (.macro2 _ _ _) true | .act (.command _) true => true
  | .act (.toggle _) true | .act (.togglem _ _) true | .act .clear true | .act (.clearm _) true | .act (.layout _) true => true
  | .swap _ _ _ => true
  | _ => false

/-- What makes a one-shot outstanding. -/
def Happening.latches : Happening → Bool
  | .act (.oneshot _) false | .act (.oneshotm _ _) false => true
  | .swap _ _ _ => true
  | _ => false

/-- The step may mean something for which `q` holds. -/
def Step.may (c : Config) (q : Happening → Bool) (s : Step) : Prop :=
  ∃ code d dl p m hs h, s.action = some (code, d, dl, p) ∧ Does c dl code s.time m d p hs ∧ h ∈ hs ∧ q h = true

theorem spend_depth (c : Config) (b : LayerBook) (l : Nat) (hl : l < c.layers.length) :
    ((b.spend c).state l).oneshotDepth = 0 := by
  unfold LayerBook.spend
  dsimp only
  rw [if_pos hl]

theorem untoggle_depth (c : Config) (b : LayerBook) (l : Nat) :
    ((b.untoggle c).state l).oneshotDepth = (b.state l).oneshotDepth := by
  unfold LayerBook.untoggle
  dsimp only
  split <;> rfl

theorem choose_depth (c : Config) (b : LayerBook) (y l : Nat) :
    ((b.choose c y).state l).oneshotDepth = (b.state l).oneshotDepth := by
  unfold LayerBook.choose
  dsimp only
  split
  · rfl
  · split <;> rfl

theorem enter_depth (b : LayerBook) (y l : Nat) : ((b.enter y).state l).oneshotDepth = (b.state l).oneshotDepth := by
  unfold LayerBook.enter
  dsimp only
  by_cases h : l = y
  · subst h; rw [upd_same]
  · rw [upd_other _ _ h]

theorem leave_depth (b : LayerBook) (y l : Nat) : ((b.leave y).state l).oneshotDepth = (b.state l).oneshotDepth := by
  unfold LayerBook.leave
  dsimp only
  by_cases h : l = y
  · subst h; rw [upd_same]
  · rw [upd_other _ _ h]

theorem deeper_depth (b : LayerBook) (y l : Nat) : (b.state l).oneshotDepth ≤ ((b.depth y (· + 1)).state l).oneshotDepth := by
  unfold LayerBook.depth
  dsimp only
  by_cases h : l = y
  · subst h; rw [upd_same]; exact Nat.le_succ _
  · rw [upd_other _ _ h]; exact Nat.le_refl _

theorem happen_keeps {c : Config} {h : Happening} (hh : h.ends = false) (b : LayerBook) (l : Nat) :
    (b.state l).oneshotDepth ≤ ((happen c b h).state l).oneshotDepth := by
  unfold happen
  split <;> first | (cases hh; done) | skip
  all_goals first
    | exact Nat.le_refl _
    | (split <;> first
        | exact Nat.le_of_eq (enter_depth _ _ _).symm
        | exact Nat.le_of_eq (leave_depth _ _ _).symm
        | (split <;> first | exact deeper_depth _ _ _ | exact Nat.le_of_eq (leave_depth _ _ _).symm))

theorem happen_spent {c : Config} {h : Happening} (hh : h.latches = false) {b : LayerBook} {l : Nat} (hl : l < c.layers.length)
    (hb : (b.state l).oneshotDepth = 0) : ((happen c b h).state l).oneshotDepth = 0 := by
  unfold happen
  split <;> first | (cases hh; done) | skip
  all_goals first
    | exact hb
    | exact spend_depth _ _ _ hl
    | (rw [choose_depth, untoggle_depth]; exact spend_depth _ _ _ hl)
    | (rw [untoggle_depth]; exact spend_depth _ _ _ hl)
    | (split
       · exact (enter_depth _ _ _).trans hb
       · exact (leave_depth _ _ _).trans hb)
    | (rename_i p
       cases p with
       | true => exact (enter_depth _ _ _).trans hb
       | false => cases hh)

theorem happen_spends {c : Config} {h : Happening} (hh : h.ends = true) (hs : h.latches = false) (b : LayerBook) {l : Nat} (hl : l < c.layers.length) :
    ((happen c b h).state l).oneshotDepth = 0 := by
  unfold Happening.ends at hh
  split at hh
  all_goals first
    | exact spend_depth _ _ _ hl
    | exact (untoggle_depth _ _ _).trans (spend_depth _ _ _ hl)
    | exact (choose_depth _ _ _ _).trans ((untoggle_depth _ _ _).trans (spend_depth _ _ _ hl))
    | (cases hs; done)
    | (cases hh; done)

theorem happen_all_keep {c : Config} {hs : List Happening} (hh : ∀ h ∈ hs, h.ends = false) (b : LayerBook) (l : Nat) :
    (b.state l).oneshotDepth ≤ ((hs.foldl (happen c) b).state l).oneshotDepth := by
  induction hs generalizing b with
  | nil => exact Nat.le_refl _
  | cons h hs ih =>
    exact Nat.le_trans (happen_keeps (hh h List.mem_cons_self) b l) (ih (fun h hm => hh h (List.mem_cons_of_mem _ hm)) _)

theorem happen_all_spent {c : Config} {hs : List Happening} (hh : ∀ h ∈ hs, h.latches = false) {b : LayerBook} {l : Nat}
    (hl : l < c.layers.length) (hb : (b.state l).oneshotDepth = 0) : ((hs.foldl (happen c) b).state l).oneshotDepth = 0 := by
  induction hs generalizing b with
  | nil => exact hb
  | cons h hs ih =>
    exact ih (fun h hm => hh h (List.mem_cons_of_mem _ hm)) (happen_spent (hh h List.mem_cons_self) hl hb)

theorem layerRun_keeps {c : Config} {x : Prop} {b b' : LayerBook} {m m' : Memo} {log : List Step} (h : LayerRun c x b m log b' m') (hx : ¬ x)
    (hn : ∀ s ∈ log, ¬ s.may c Happening.ends) (l : Nat) : (b.state l).oneshotDepth ≤ (b'.state l).oneshotDepth := by
  induction h with
  | nil => exact Nat.le_refl _
  | other s h hs ih => exact ih (fun s hm => hn s (List.mem_cons_of_mem _ hm))
  | acts h e hl hp hd ih =>
    refine Nat.le_trans (ih (fun s hm => hn s (List.mem_cons_of_mem _ hm))) (happen_all_keep (fun h hm => ?_) _ l)
    cases hq : h.ends with
    | false => rfl
    | true => exact (hn _ List.mem_cons_self ⟨_, _, _, _, _, _, h, e, hd, hm, hq⟩).elim
  | expire h hx' _ => exact (hx hx').elim

theorem layerRun_spent {c : Config} {x : Prop} {b b' : LayerBook} {m m' : Memo} {log : List Step} (h : LayerRun c x b m log b' m') {l : Nat}
    (hl : l < c.layers.length) (hb : (b.state l).oneshotDepth = 0) (hn : ∀ s ∈ log, ¬ s.may c Happening.latches) :
    (b'.state l).oneshotDepth = 0 := by
  induction h with
  | nil => exact hb
  | other s h hs ih => exact ih (fun s hm => hn s (List.mem_cons_of_mem _ hm))
  | acts h e hl' hp hd ih =>
    refine happen_all_spent (fun h hm => ?_) hl (ih (fun s hm => hn s (List.mem_cons_of_mem _ hm)))
    cases hq : h.latches with
    | false => rfl
    | true => exact (hn _ List.mem_cons_self ⟨_, _, _, _, _, _, h, e, hd, hm, hq⟩).elim
  | expire h hx ih => exact spend_depth c _ l hl

theorem layerRun_split {c : Config} {x : Prop} {b b' : LayerBook} {m m' : Memo} {after before : List Step}
    (h : LayerRun c x b m (after ++ before) b' m') : ∃ b1 m1, LayerRun c x b m before b1 m1 ∧ LayerRun c x b1 m1 after b' m' := by
  generalize hlog : after ++ before = log at h
  induction h generalizing after with
  | nil =>
    obtain ⟨rfl, rfl⟩ := List.append_eq_nil_iff.1 hlog
    exact ⟨b, m, .nil, .nil⟩
  | other s h hs ih =>
    cases after with
    | nil => cases hlog; exact ⟨_, _, .other s h hs, .nil⟩
    | cons a after =>
      injection hlog with h1 h2
      subst h1
      obtain ⟨b1, m1, g1, g2⟩ := ih h2
      exact ⟨b1, m1, g1, .other _ g2 hs⟩
  | acts h e hl hp hd ih =>
    cases after with
    | nil => cases hlog; exact ⟨_, _, .acts h e hl hp hd, .nil⟩
    | cons a after =>
      injection hlog with h1 h2
      subst h1
      obtain ⟨b1, m1, g1, g2⟩ := ih h2
      exact ⟨b1, m1, g1, .acts g2 e hl hp hd⟩
  | expire h hx ih =>
    obtain ⟨b1, m1, g1, g2⟩ := ih hlog
    exact ⟨b1, m1, g1, .expire g2 hx⟩

/-- A key, macro or command, or an action that changes which layers are toggled or selected. -/
def Desc.strikes : Desc → Bool
  | .keyseq _ _ | .macro _ | .macro2 _ _ _ | .command _ | .toggle _ | .togglem _ _ | .clear | .clearm _ | .layout _ => true
  | _ => false

/-- C13. Over any batch of events, whatever else is going on (chords, undecided keys): one-shots that are outstanding stay so as long as
nothing is performed that ends them (and no timeout is set for them). -/
theorem C13_kept {n : Nat} {k k' : Kbd} {evs : List KeyEvent} {w : Int} {new : List Step}
    (run : kbdProcessEvents n k evs = .ok (k', w)) (hx : ¬ Expires k) (hs : k'.steps = new ++ k.steps)
    (hn : ∀ s ∈ new, ¬ s.may k.config Happening.ends) (l : Nat) :
    (k.layerState l).oneshotDepth ≤ (k'.layerState l).oneshotDepth := by
  obtain ⟨new', h1, h2⟩ := C68_layers run
  rw [hs] at h1
  have := List.append_cancel_right h1
  subst this
  exact layerRun_keeps h2 hx hn l

/-- C13. The first key after that is looked up with these one-shots still outstanding. -/
theorem C13_next_key {n : Nat} {k k' : Kbd} {evs : List KeyEvent} {w : Int} {after before : List Step} {code : Code} {t : Int} {d : Desc}
    {dl : Nat} (run : kbdProcessEvents n k evs = .ok (k', w)) (hx : ¬ Expires k)
    (hs : k'.steps = after ++ .key code true t (some (d, dl)) :: before ++ k.steps)
    (hc : ¬ (KEYD.CHORD_1 ≤ code ∧ code ≤ KEYD.CHORD_MAX))
    (hn : ∀ s ∈ before, ¬ s.may k.config Happening.ends) :
    ∃ b m, LayerRun k.config (Expires k) k.book k.memo before b m ∧ b.lookup k.config code = (d, dl) ∧
      ∀ l, (k.layerState l).oneshotDepth ≤ (b.state l).oneshotDepth := by
  obtain ⟨new', h1, h2⟩ := C68_layers run
  rw [hs] at h1
  have := List.append_cancel_right h1
  subst this
  rw [show after ++ Step.key code true t (some (d, dl)) :: before = after ++ ([Step.key code true t (some (d, dl))] ++ before) from rfl] at h2
  obtain ⟨b1, m1, g1, _⟩ := layerRun_split h2
  obtain ⟨b2, m2, g2, g3⟩ := layerRun_split g1
  refine ⟨b2, m2, g2, ?_, fun l => layerRun_keeps g2 hx hn l⟩
  cases g3 with
  | other _ h hs => cases hs
  | acts h e hl hp hd =>
    cases e
    cases h with
    | nil => exact hl t rfl hc
    | expire _ hx' => exact (hx hx').elim
  | expire _ hx' => exact (hx hx').elim

/-- C13. Once a key, macro or command is struck, no one-shot is outstanding in any layer, until the next one-shot key is let go. -/
theorem C13_spent {n : Nat} {k k' : Kbd} {evs : List KeyEvent} {w : Int} {after before : List Step} {s : Step} {code : Code} {d : Desc}
    {dl : Nat} (run : kbdProcessEvents n k evs = .ok (k', w))
    (hs : k'.steps = after ++ s :: before ++ k.steps) (ha : s.action = some (code, d, dl, true)) (hd : d.strikes = true)
    (hn : ∀ s ∈ after, ¬ s.may k.config Happening.latches) (l : Nat) (hl : l < k.config.layers.length) :
    (k'.layerState l).oneshotDepth = 0 := by
  obtain ⟨new', h1, h2⟩ := C68_layers run
  rw [hs] at h1
  have := List.append_cancel_right h1
  subst this
  rw [show after ++ s :: before = after ++ ([s] ++ before) from rfl] at h2
  obtain ⟨b1, m1, g1, g4⟩ := layerRun_split h2
  obtain ⟨b2, m2, _, g3⟩ := layerRun_split g1
  refine layerRun_spent g4 hl ?_ hn
  have key : ∀ t m hs', Does k.config dl code t m d true hs' → hs' = [.act d true] ∧ (Happening.act d true).ends = true ∧
      (Happening.act d true).latches = false := by
    intro t m hs' h
    cases h with
    | itself => exact ⟨rfl, by (cases d <;> first | rfl | (cases hd; done)), by (cases d <;> first | rfl | (cases hd; done))⟩
    | idle => cases hd
    | swap => cases hd
    | swapm => cases hd
  have one : ∀ b' m', LayerRun k.config (Expires k) b2 m2 [s] b' m' → (b'.state l).oneshotDepth = 0 := by
    intro b' m' h
    generalize hlog : [s] = log at h
    induction h with
    | nil => cases hlog
    | other s' _ hs' => cases hlog; rw [ha] at hs'; cases hs'
    | acts h e hl' hp hd' =>
      cases hlog
      rw [ha] at e
      cases e
      obtain ⟨rfl, e1, e2⟩ := key _ _ _ hd'
      exact happen_spends e1 e2 _ hl
    | expire _ _ _ => exact spend_depth _ _ _ hl
  exact one b1 m1 g3

/-- A check for `Step.may` being false. -/
def Step.mayNotB (q : Happening → Bool) (s : Step) : Bool :=
  match s.action with
  | none => true
  | some (_, .overloadIdle _ _ _, _, true) | some (_, .overload _ _, _, false) | some (_, .swap _, _, true) | some (_, .swapm _ _, _, true) => false
  | some (_, d, _, p) => !(q (.act d p))

theorem Step.may_not {c : Config} {q : Happening → Bool} {s : Step} (h : s.mayNotB q = true) : ¬ s.may c q := by
  rintro ⟨code, d, dl, p, m, hs, x, e, hd, hm, hq⟩
  unfold Step.mayNotB at h
  rw [e] at h
  cases hd with
  | itself h1 h2 h3 h4 =>
    cases List.mem_singleton.1 hm
    cases p <;> cases d <;> simp_all
  | idle => cases h
  | hold => cases h
  | tapMacro => cases h
  | tap => cases h
  | swap => cases h
  | swapm => cases h

/-- A one-shot of `nav` on `o`, a layer on `l`, and in `nav` a chord for the same layer. -/
def oneshotText : Str := b!"[ids]\n*\n[main]\no = oneshot(nav)\nl = layer(other)\n[nav]\nz = a\nm+n = layer(other)\n[other]\n"

/-- The hypotheses of `C13_kept`, with a one-shot outstanding, a layer key and a chord: the one-shot outlives both. -/
theorem C13_kept_example : checkRun oneshotText [press 24 0, release 24 5] (fun _ => true)
    (fun k => decide (k.oneshotTimeout = 0) && decide (k.config.oneshotTimeout = 0) && decide ((k.layerState 6).oneshotDepth = 1) &&
      (match kbdProcessEvents 40 k [press 38 10, release 38 20, press 50 30, press 49 31, release 50 50, release 49 60] with
        | .ok (k', _) => decide (k'.steps = k'.steps.take (k'.steps.length - k.steps.length) ++ k.steps) &&
          (k'.steps.take (k'.steps.length - k.steps.length)).all (Step.mayNotB Happening.ends) &&
          decide ((k'.steps.take (k'.steps.length - k.steps.length)).length = 12) && decide ((k'.layerState 6).oneshotDepth = 1)
        | _ => false)) = true := by
  set_option maxRecDepth 100000 in decide +kernel

/-- The hypotheses of `C13_next_key` and `C13_spent`: the next key is then looked up in `nav`, and no one-shot remains. -/
theorem C13_next_key_example : checkRun oneshotText [press 24 0, release 24 5] (fun _ => true)
    (fun k => decide (k.oneshotTimeout = 0) && decide (k.config.oneshotTimeout = 0) && decide ((k.layerState 6).oneshotDepth = 1) &&
      (match kbdProcessEvents 40 k [press 38 10, release 38 20, press 50 30, press 49 31, press 44 40, release 44 45] with
        | .ok (k', _) => decide (k'.steps =
            ([.key 44 false 45 (some (.keyseq 30 0, 6)), .passed ⟨44, false, 45⟩] : List Step) ++ .key 44 true 40 (some (.keyseq 30 0, 6)) ::
            (k'.steps.drop 3).take (k'.steps.length - k.steps.length - 3) ++ k.steps) &&
          ((k'.steps.drop 3).take (k'.steps.length - k.steps.length - 3)).all (Step.mayNotB Happening.ends) &&
          ([.key 44 false 45 (some (.keyseq 30 0, 6)), .passed ⟨44, false, 45⟩] : List Step).all (Step.mayNotB Happening.latches) &&
          decide ((k'.layerState 6).oneshotDepth = 0)
        | _ => false)) = true := by
  set_option maxRecDepth 100000 in decide +kernel

/-- A one-shot key that is held while a key is typed has served its purpose, and letting it go leaves the layer
(`oneshot(shift)` on `o`, typed: `A`, with nothing outstanding afterwards) ... -/
theorem C13_held_ends : checkRun b!"[ids]\n*\n[main]\no = oneshot(shift)\np = oneshot(control)\n"
    [press 24 0, press 30 10, release 30 20, release 24 40] (fun _ => true)
    (fun k => decide ((k.layerState 2).active = 0)) = true := by
  set_option maxRecDepth 100000 in decide +kernel

/-- ... but not if another one-shot key (`p`) has been pressed in the meantime: then it counts as tapped, and the next key is struck with
shift although no key that stands for shift is down or was tapped. -/
theorem C13_fails_latch : checkRun b!"[ids]\n*\n[main]\no = oneshot(shift)\np = oneshot(control)\n"
    [press 24 0, press 30 10, release 30 20, press 25 30, release 24 40] (fun _ => true)
    (fun k => decide ((k.layerState 2).active = 1) && decide ((k.layerState 2).oneshotDepth = 1) && (cacheGet k 24).isNone) = true := by
  set_option maxRecDepth 100000 in decide +kernel

/-- Tapping a key whose tap action is a macro does not spend one-shots: `o` (shift for the next key), a tap of `i`, which types `x`, and shift
is still outstanding. -/
theorem C13_fails_tapped_macro : checkRun b!"[ids]\n*\n[main]\no = oneshot(shift)\ni = overload(nav, macro(x))\n[nav]\n"
    [press 24 0, release 24 5, press 23 10, release 23 20] (fun _ => true)
    (fun k => decide ((k.layerState 2).oneshotDepth = 1) && decide (k.outputs.getLast? = some (.key 45 false))) = true := by
  set_option maxRecDepth 100000 in decide +kernel

/-- C68 on a run with `swap`, `toggle`, `clear` and one-shots: the layers afterwards are those of `happen` applied to the actions. -/
def swapText : Str := b!"[ids]\n*\n[main]\nl = layer(nav)\nt = toggle(other)\nc = clear()\n[nav]\ns = swap(other)\n[other]\n"

theorem C68_example : checkRun swapText [press 38 0, press 31 10, release 31 20, press 20 30] (fun _ => true)
    (fun k =>
      let hs : List Happening := [.act (.layer 6) true, .swap 6 7 true, .act (.swap 7) false, .act (.toggle 7) true]
      let b := hs.foldl (happen k.config) (newKeyboard k.config).book
      decide ((k.layerState 7).active = 2) && decide ((k.layerState 6).active = 0) && decide ((k.layerState 7).toggled = true) &&
      (List.range 8).all (fun i => decide (k.layerState i = b.state i)) && decide (k.clock = b.clock)) = true := by
  set_option maxRecDepth 100000 in decide +kernel

end Keyd
