import Verif.Spec.Listener
import Verif.Props.Layers
import Verif.Props.Modifiers
import Verif.Props.Reload

/-
  C39: what a client of `keyd listen` can know about the layers.
-/

set_option autoImplicit false

namespace Keyd
attribute [local irreducible] configInit

/-- How many times layer `i` is active, by the announcements (newest first). -/
def nest (i : Nat) : List Out → Nat
  | [] => 0
  | .layer j b :: tr => if j = i then (if b then nest i tr + 1 else nest i tr - 1) else nest i tr
  | _ :: tr => nest i tr

theorem nest_filter (i : Nat) : ∀ tr, nest i (tr.filter Out.isLayer) = nest i tr
  | [] => rfl
  | o :: tr => by
    have ih := nest_filter i tr
    cases o with
    | layer j b => simp [List.filter_cons, Out.isLayer, nest, ih]
    | key a b => simp [Out.isLayer, nest, ih]
    | command a => simp [Out.isLayer, nest, ih]
    | sleep a => simp [Out.isLayer, nest, ih]

/-- No deactivation is announced of a layer that is not active. -/
def NoUnder (j : Nat) : List Out → Prop
  | [] => True
  | .layer i false :: tr => (i = j → nest j tr ≠ 0) ∧ NoUnder j tr
  | _ :: tr => NoUnder j tr

theorem noUnder_filter (j : Nat) : ∀ tr, NoUnder j (tr.filter Out.isLayer) ↔ NoUnder j tr
  | [] => Iff.rfl
  | o :: tr => by
    have ih := noUnder_filter j tr
    have ih2 := nest_filter j tr
    cases o with
    | layer i b => cases b <;> simp [List.filter_cons, Out.isLayer, NoUnder, ih, ih2]
    | key a b => simp [Out.isLayer, NoUnder, ih]
    | command a => simp [Out.isLayer, NoUnder, ih]
    | sleep a => simp [Out.isLayer, NoUnder, ih]

theorem NoUnder.drop {j : Nat} {old : List Out} : ∀ {tr : List Out}, NoUnder j (tr ++ old) → NoUnder j old
  | [], h => h
  | o :: tr, h => by
    cases o with
    | layer i b => cases b; exacts [NoUnder.drop (tr := tr) h.2, NoUnder.drop (tr := tr) h]
    | key a b => exact NoUnder.drop (tr := tr) h
    | command a => exact NoUnder.drop (tr := tr) h
    | sleep a => exact NoUnder.drop (tr := tr) h

/-- Activations announced are matched by deactivations announced and activity left. -/
theorem nest_count {j : Nat} {old : List Out} : ∀ {tr : List Out}, NoUnder j (tr ++ old) →
    nest j (tr ++ old) + tr.count (.layer j false) = nest j old + tr.count (.layer j true)
  | [], _ => rfl
  | o :: tr, h => by
    cases o with
    | layer i b =>
      show (if i = j then (if b then nest j (tr ++ old) + 1 else nest j (tr ++ old) - 1) else nest j (tr ++ old)) + _ = _
      cases b with
      | true =>
        have ih := nest_count (j := j) (old := old) (tr := tr) h
        by_cases hij : i = j
        · subst hij; simp; omega
        · simp [hij]; exact ih
      | false =>
        have ih := nest_count (j := j) (old := old) (tr := tr) h.2
        by_cases hij : i = j
        · subst hij
          have := h.1 rfl
          have this : nest i (tr ++ old) ≠ 0 := this
          simp; omega
        · simp [hij]; exact ih
    | key a b =>
      have ih := nest_count (j := j) (old := old) (tr := tr) h
      simpa [nest] using ih
    | command a =>
      have ih := nest_count (j := j) (old := old) (tr := tr) h
      simpa [nest] using ih
    | sleep a =>
      have ih := nest_count (j := j) (old := old) (tr := tr) h
      simpa [nest] using ih

/-- The announcements account for the layers. -/
structure Announced (c : Config) (k : Kbd) : Prop where
  shape : SameShape c k.config
  counts : ∀ i, isLayout c i = false → (k.layerState i).active = nest i k.layerTrace
  real : ∀ i b, .layer i b ∈ k.layerTrace → (isLayout c i = true ∧ b = true) ∨ LayerTarget c i
  sound : ∀ i, isLayout c i = false → NoUnder i k.layerTrace

theorem announced_inv {c : Config} (hw : WF c) : LayerInv (LayerTarget c) (LayoutTarget c) (Announced c) where
  view := by
    intro k k' v h
    exact ⟨by rw [v.config]; exact h.shape, by rw [v.layerState, v.trace]; exact h.counts, by rw [v.trace]; exact h.real, by rw [v.trace]; exact h.sound⟩
  deact := by
    intro k i hi ha h
    have ht : (deactStep k i).layerTrace = .layer i false :: k.layerTrace := layerTrace_emit _ _ _
    refine ⟨h.shape, ?_, ?_, ?_⟩
    · intro j hj
      rw [ht]
      show (upd k.layerState i _ j).active = if i = j then _ else _
      rw [upd_apply]
      by_cases hij : j = i
      · subst hij
        rw [if_pos rfl, if_pos rfl]
        show (k.layerState j).active - 1 = _
        rw [h.counts j hj]
        rfl
      · rw [if_neg hij, if_neg (fun e => hij e.symm)]
        exact h.counts j hj
    · intro j b hm
      rw [ht] at hm
      rcases List.mem_cons.1 hm with e | hm
      · injection e with e1 e2
        rw [e1]; exact .inr hi
      · exact h.real j b hm
    · intro j hj
      rw [ht]
      exact ⟨fun e => by subst e; rw [← h.counts i hj]; exact ha, h.sound j hj⟩
  act := by
    intro k i hi h
    have ht : (actStep k i).layerTrace = .layer i true :: k.layerTrace := layerTrace_emit _ _ _
    refine ⟨h.shape, ?_, ?_, ?_⟩
    · intro j hj
      rw [ht]
      show (upd k.layerState i _ j).active = if i = j then _ else _
      rw [upd_apply]
      by_cases hij : j = i
      · subst hij
        rw [if_pos rfl, if_pos rfl]
        show (k.layerState j).active + 1 = _
        rw [h.counts j hj]
        rfl
      · rw [if_neg hij, if_neg (fun e => hij e.symm)]
        exact h.counts j hj
    · intro j b hm
      rw [ht] at hm
      rcases List.mem_cons.1 hm with e | hm
      · injection e with e1 e2
        rw [e1]; exact .inr hi
      · exact h.real j b hm
    · intro j hj
      rw [ht]
      exact h.sound j hj
  flags := by
    intro k i f hi hf h
    refine ⟨h.shape, ?_, h.real, h.sound⟩
    intro j hj
    show (upd k.layerState i _ j).active = _
    rw [upd_apply]
    split
    · rename_i e; rw [(hf _).1, ← e]; exact h.counts j hj
    · exact h.counts j hj
  layout := by
    intro k idx hY h
    have hy := isLayout_of_layoutTarget hw hY
    obtain ⟨ls, h1, h2⟩ := layoutStep_spec k idx
    have ht : (layoutStep k idx).layerTrace = .layer idx true :: k.layerTrace := by
      rw [h1]; exact layerTrace_emit _ _ _
    have hls : (layoutStep k idx).layerState = ls := by rw [h1]; rfl
    have hcf : (layoutStep k idx).config = k.config := by rw [h1]; rfl
    refine ⟨by rw [hcf]; exact h.shape, ?_, ?_, ?_⟩
    · intro j hj
      have hji : j ≠ idx := by rintro rfl; rw [hy] at hj; cases hj
      rw [hls, ht, h2 j, if_neg (by tauto), if_neg]
      · show _ = if idx = j then _ else _
        rw [if_neg (fun e => hji e.symm)]
        exact h.counts j hj
      · rintro ⟨e1, e⟩
        have hlt := (mem_nonMain.1 e1).2
        rw [h.shape.1] at hlt
        rw [h.shape.type, isLayout_type hlt, hj] at e
        cases e
    · intro j b hm
      rw [ht] at hm
      rcases List.mem_cons.1 hm with e | hm
      · injection e with e1 e2
        rw [e1, e2]; exact .inl ⟨hy, rfl⟩
      · exact h.real j b hm
    · intro j hj
      rw [ht]
      exact h.sound j hj

theorem announced_new {c : Config} (hw : WF c) : Announced c (newKeyboard c) := by
  refine ⟨.refl c, ?_, fun i b h => (by cases h), fun _ _ => trivial⟩
  intro i hi
  have h1 : i ≠ initialLayout c := by rintro rfl; rw [initialLayout_isLayout hw] at hi; cases hi
  have h2 : i ≠ 0 := by rintro rfl; rw [main_isLayout hw] at hi; cases hi
  rw [newKeyboard_layers, if_neg (by tauto), if_neg h2]
  rfl

theorem announced_history {c : Config} (hw : WF c) {k : Kbd} (h : HistoryOf c k) : Announced c k :=
  (LayerInv.history hw (announced_inv hw) (announced_new hw) (fun k c' hs hf => ⟨hf.shape.trans hs, hf.counts, hf.real, hf.sound⟩) h).2.1

/-! ### The trace only grows -/

theorem grows_outInv (tr : List Out) : OutInv (fun k => ∃ os, k.trace = os ++ tr) := by
  have fr : ∀ k k' : Kbd, KeyFrame k k' → (∃ os, k.trace = os ++ tr) → ∃ os, k'.trace = os ++ tr := by
    rintro k k' ⟨_, _, os', rfl, _⟩ ⟨os, h⟩
    exact ⟨os' ++ os, by show os' ++ k.trace = _; rw [h, List.append_assoc]⟩
  refine ⟨?_, ?_, ?_, ?_, ?_⟩
  · intro k k' _ _ _ ht h; rw [ht]; exact h
  · intro k x b h; exact fr _ _ (.send k x b) h
  · rintro k x ⟨os, h⟩ _; exact ⟨.key x false :: os, by show _ :: k.trace = _; rw [h]; rfl⟩
  · rintro k o _ ⟨os, h⟩; exact ⟨o :: os, by show _ :: k.trace = _; rw [h]; rfl⟩
  · intro k i t _ h; exact fr _ _ (KeyFrame.emitMacro _ k) h

theorem events_grow {n : Nat} {k k' : Kbd} {evs : List KeyEvent} {w : Int} (run : kbdProcessEvents n k evs = .ok (k', w)) :
    ∃ os, k'.trace = os ++ k.trace :=
  (kbdProcessEvents_sat (grows_outInv k.trace).engineInv n k evs ⟨[], rfl⟩).of_ok run

theorem Later.grows {k k' : Kbd} (h : Later k k') : ∃ os, k'.trace = os ++ k.trace := by
  induction h with
  | now => exact ⟨[], rfl⟩
  | events fuel k1 evs k2 wait h run ih =>
    obtain ⟨os, ih⟩ := ih
    obtain ⟨os', h'⟩ := events_grow run
    exact ⟨os' ++ os, by rw [h', ih, List.append_assoc]⟩
  | bind k1 exp k2 accepted h run ih =>
    have e := kbdEval_frame run
    rw [e]; exact ih
  | scroll k1 s h ih => exact ih

theorem Later.history {c : Config} {k k' : Kbd} (hk : HistoryOf c k) (h : Later k k') : HistoryOf c k' := by
  induction h with
  | now => exact hk
  | events fuel k1 evs k2 wait h run ih => exact .events _ _ _ _ _ ih run
  | bind k1 exp k2 accepted h run ih => exact .bind _ _ _ _ ih run
  | scroll k1 s h ih => exact .scroll _ _ ih

theorem since_eq {k k' : Kbd} {os : List Out} (h : k'.trace = os ++ k.trace) : k.since k' = os.reverse := by
  unfold Kbd.since Kbd.outputs
  rw [h, List.reverse_append, List.drop_left' (by simp)]

/-! ### Beliefs -/

/-- The names the daemon can send in full. -/
def ShortNames (c : Config) : Prop := ∀ l ∈ c.layers, l.name.length ≤ 63

theorem changeLine_short {l : Layer} (h : l.name.length ≤ 63) (b : Bool) :
    changeLine l b = (if l.type = .layout then 47 else if b then 43 else 45) :: (l.name ++ [10]) := by
  unfold changeLine
  dsimp only
  rw [if_pos (by simp; omega)]
  rfl

theorem hear_layout {l : Layer} (h : l.name.length ≤ 63) (ht : l.type = .layout) (b : Bool) (x : Belief) :
    x.hear (changeLine l b) = { x with layout := l.name } := by
  rw [changeLine_short h, if_pos ht]
  unfold Belief.hear
  simp

theorem hear_on {l : Layer} (h : l.name.length ≤ 63) (ht : l.type ≠ .layout) (x : Belief) :
    x.hear (changeLine l true) = { x with layers := l.name :: x.layers.filter (· ≠ l.name) } := by
  rw [changeLine_short h, if_neg ht, if_pos rfl]
  unfold Belief.hear
  simp

theorem hear_off {l : Layer} (h : l.name.length ≤ 63) (ht : l.type ≠ .layout) (x : Belief) :
    x.hear (changeLine l false) = { x with layers := x.layers.filter (· ≠ l.name) } := by
  rw [changeLine_short h, if_neg ht, if_neg (by simp)]
  unfold Belief.hear
  simp

/-- The belief after the announcements (newest first). -/
def believe (c : Config) (b0 : Belief) : List Out → Belief
  | [] => b0
  | .layer i b :: tr => (believe c b0 tr).hear (changeLine (c.layer i) b)
  | _ :: tr => believe c b0 tr

theorem believe_eq (c : Config) (b0 : Belief) : ∀ tr : List Out, (changeLines c tr.reverse).foldl Belief.hear b0 = believe c b0 tr
  | [] => rfl
  | o :: tr => by
    have ih := believe_eq c b0 tr
    unfold changeLines at ih ⊢
    rw [List.reverse_cons, List.filterMap_append, List.foldl_append, ih]
    cases o <;> rfl

theorem name_inj {c : Config} (hw : WF c) {i j : Nat} (hi : i < c.layers.length) (hj : j < c.layers.length)
    (h : (c.layer i).name = (c.layer j).name) : i = j := by
  have hn := hw.names
  have e1 : (c.layers.map (·.name))[i]'(by simpa using hi) = (c.layers.map (·.name))[j]'(by simpa using hj) := by
    rw [List.getElem_map, List.getElem_map]
    rwa [config_layer_some (List.getElem?_eq_getElem hi), config_layer_some (List.getElem?_eq_getElem hj)] at h
  exact (List.getElem_inj hn).1 e1

theorem layer_mem {c : Config} {i : Nat} (hi : i < c.layers.length) : c.layer i ∈ c.layers := by
  rw [config_layer_some (List.getElem?_eq_getElem hi)]
  exact List.getElem_mem hi

/-- Announcements are of existing layers, and of layouts only when they are selected. -/
def Real (c : Config) (tr : List Out) : Prop :=
  ∀ i b, .layer i b ∈ tr → i < c.layers.length ∧ ((c.layer i).type = .layout → b = true)

theorem believe_layout {c : Config} (hs : ShortNames c) (b0 : Belief) (old : List Out) (d : Nat)
    (h0 : b0.layout = (c.layer (selectedLayout c d old)).name) : ∀ tr : List Out, Real c tr →
    (believe c b0 tr).layout = (c.layer (selectedLayout c d (tr ++ old))).name
  | [], _ => h0
  | o :: tr, hr => by
    have ih := believe_layout hs b0 old d h0 tr (fun i b h => hr i b (List.mem_cons_of_mem _ h))
    cases o with
    | layer i b =>
      obtain ⟨hi, hb⟩ := hr i b (List.mem_cons_self ..)
      have hsh := hs _ (layer_mem hi)
      by_cases ht : (c.layer i).type = .layout
      · rw [hb ht]
        show ((believe c b0 tr).hear _).layout = (c.layer (if isLayout c i then i else _)).name
        rw [hear_layout hsh ht, if_pos ((isLayout_type hi).1 ht)]
      · have hl : isLayout c i = false := by
          cases hl : isLayout c i with
          | false => rfl
          | true => exact absurd ((isLayout_type hi).2 hl) ht
        cases b with
        | true =>
          show ((believe c b0 tr).hear _).layout = (c.layer (if isLayout c i then i else _)).name
          rw [hear_on hsh ht, hl]
          exact ih
        | false =>
          show ((believe c b0 tr).hear _).layout = _
          rw [hear_off hsh ht]
          exact ih
    | key a b => exact ih
    | command a => exact ih
    | sleep a => exact ih

/-- The names believed belong to layers that are not layouts. -/
theorem believe_named {c : Config} (hs : ShortNames c) (b0 : Belief)
    (h0 : ∀ n ∈ b0.layers, ∃ i, i < c.layers.length ∧ (c.layer i).type ≠ .layout ∧ (c.layer i).name = n) : ∀ tr : List Out, Real c tr →
    ∀ n ∈ (believe c b0 tr).layers, ∃ i, i < c.layers.length ∧ (c.layer i).type ≠ .layout ∧ (c.layer i).name = n
  | [], _ => h0
  | o :: tr, hr => by
    have ih := believe_named hs b0 h0 tr (fun i b h => hr i b (List.mem_cons_of_mem _ h))
    cases o with
    | layer i b =>
      obtain ⟨hi, hb⟩ := hr i b (List.mem_cons_self ..)
      have hsh := hs _ (layer_mem hi)
      intro n hn
      have hn : n ∈ ((believe c b0 tr).hear (changeLine (c.layer i) b)).layers := hn
      by_cases ht : (c.layer i).type = .layout
      · rw [hear_layout hsh ht] at hn
        exact ih n hn
      · cases b with
        | true =>
          rw [hear_on hsh ht] at hn
          rcases List.mem_cons.1 hn with rfl | hn
          · exact ⟨i, hi, ht, rfl⟩
          · exact ih n (List.mem_filter.1 hn).1
        | false =>
          rw [hear_off hsh ht] at hn
          exact ih n (List.mem_filter.1 hn).1
    | key a b => exact ih
    | command a => exact ih
    | sleep a => exact ih

/-- A layer believed active is active. -/
theorem believe_sound {c : Config} (hw : WF c) (hs : ShortNames c) (b0 : Belief) (old : List Out) {j : Nat} (hj : j < c.layers.length)
    (hjt : (c.layer j).type ≠ .layout) (h0 : (c.layer j).name ∈ b0.layers → nest j old ≠ 0) : ∀ tr : List Out, Real c tr →
    (c.layer j).name ∈ (believe c b0 tr).layers → nest j (tr ++ old) ≠ 0
  | [], _ => h0
  | o :: tr, hr => by
    have ih := believe_sound hw hs b0 old hj hjt h0 tr (fun i b h => hr i b (List.mem_cons_of_mem _ h))
    cases o with
    | layer i b =>
      obtain ⟨hi, hb⟩ := hr i b (List.mem_cons_self ..)
      have hsh := hs _ (layer_mem hi)
      intro hn
      have hn : (c.layer j).name ∈ ((believe c b0 tr).hear (changeLine (c.layer i) b)).layers := hn
      show (if i = j then (if b then nest j (tr ++ old) + 1 else nest j (tr ++ old) - 1) else nest j (tr ++ old)) ≠ 0
      by_cases hij : i = j
      · subst hij
        rw [if_pos rfl]
        cases b with
        | true => simp
        | false =>
          rw [hear_off hsh hjt] at hn
          have := (List.mem_filter.1 hn).2
          simp at this
      · rw [if_neg hij]
        refine ih ?_
        by_cases ht : (c.layer i).type = .layout
        · rw [hear_layout hsh ht] at hn; exact hn
        · cases b with
          | true =>
            rw [hear_on hsh ht] at hn
            rcases List.mem_cons.1 hn with e | hn
            · exact absurd (name_inj hw hj hi e).symm hij
            · exact (List.mem_filter.1 hn).1
          | false =>
            rw [hear_off hsh ht] at hn
            exact (List.mem_filter.1 hn).1
    | key a b => exact ih
    | command a => exact ih
    | sleep a => exact ih

/-- And the other way around, when it never is active more than once. -/
theorem believe_complete {c : Config} (hw : WF c) (hs : ShortNames c) (b0 : Belief) (old : List Out) {j : Nat} (hj : j < c.layers.length)
    (hjt : (c.layer j).type ≠ .layout) (h0 : nest j old ≠ 0 → (c.layer j).name ∈ b0.layers) : ∀ tr : List Out, Real c tr →
    (∀ suf, suf <:+ tr → nest j (suf ++ old) ≤ 1) →
    nest j (tr ++ old) ≠ 0 → (c.layer j).name ∈ (believe c b0 tr).layers
  | [], _, _ => h0
  | o :: tr, hr, h1 => by
    have ih := believe_complete hw hs b0 old hj hjt h0 tr (fun i b h => hr i b (List.mem_cons_of_mem _ h))
      (fun suf h => h1 suf (h.trans (List.suffix_cons _ _)))
    cases o with
    | layer i b =>
      obtain ⟨hi, hb⟩ := hr i b (List.mem_cons_self ..)
      have hsh := hs _ (layer_mem hi)
      intro hn
      have hn : (if i = j then (if b then nest j (tr ++ old) + 1 else nest j (tr ++ old) - 1) else nest j (tr ++ old)) ≠ 0 := hn
      show (c.layer j).name ∈ ((believe c b0 tr).hear (changeLine (c.layer i) b)).layers
      by_cases hij : i = j
      · subst hij
        rw [if_pos rfl] at hn
        cases b with
        | true =>
          rw [hear_on hsh hjt]
          exact List.mem_cons_self ..
        | false =>
          have := h1 tr (List.suffix_cons _ _)
          simp only [Bool.false_eq_true, if_false] at hn
          omega
      · rw [if_neg hij] at hn
        have ih := ih hn
        have hne : (c.layer j).name ≠ (c.layer i).name := fun e => hij (name_inj hw hj hi e).symm
        by_cases ht : (c.layer i).type = .layout
        · rw [hear_layout hsh ht]; exact ih
        · cases b with
          | true =>
            rw [hear_on hsh ht]
            exact List.mem_cons_of_mem _ (List.mem_filter.2 ⟨ih, by simpa using hne⟩)
          | false =>
            rw [hear_off hsh ht]
            exact List.mem_filter.2 ⟨ih, by simpa using hne⟩
    | key a b => exact ih
    | command a => exact ih
    | sleep a => exact ih

/-! ### The snapshot -/

theorem hear_names (name : Nat → Str) : ∀ (is : List Nat) (b : Belief),
    ((is.map fun i => (43 : UInt8) :: name i ++ [10]).foldl Belief.hear b).layout = b.layout ∧
    ∀ n, n ∈ ((is.map fun i => (43 : UInt8) :: name i ++ [10]).foldl Belief.hear b).layers ↔ n ∈ b.layers ∨ ∃ i ∈ is, name i = n
  | [], b => by simp
  | i :: is, b => by
    rw [List.map_cons, List.foldl_cons]
    have e : b.hear ((43 : UInt8) :: name i ++ [10]) = { b with layers := name i :: b.layers.filter (· ≠ name i) } := by
      show b.hear ((43 : UInt8) :: (name i ++ [10])) = _
      unfold Belief.hear
      simp
    rw [e]
    obtain ⟨h1, h2⟩ := hear_names name is { b with layers := name i :: b.layers.filter (· ≠ name i) }
    refine ⟨h1, fun n => ?_⟩
    rw [h2 n]
    simp only [List.mem_cons, List.mem_filter, decide_eq_true_eq]
    constructor
    · rintro ((h | h) | ⟨j, h3, h4⟩)
      · exact .inr ⟨i, .inl rfl, h.symm⟩
      · exact .inl h.1
      · exact .inr ⟨j, .inr h3, h4⟩
    · rintro (h | ⟨j, rfl | h3, h4⟩)
      · by_cases hn : n = name i
        · exact .inl (.inl hn)
        · exact .inl (.inr ⟨h, hn⟩)
      · exact .inl (.inl h4.symm)
      · exact .inr ⟨j, h3, h4⟩

theorem snapshot_belief (k : Kbd) :
    (Belief.listen (snapshot k)).layout = (k.config.layer (shownLayout k.config k)).name ∧
    ∀ n, n ∈ (Belief.listen (snapshot k)).layers ↔ ∃ i, i < k.config.layers.length ∧ i ≠ 0 ∧ (k.layerState i).active ≠ 0 ∧
      (k.config.layer i).type ≠ .layout ∧ (k.config.layer i).name = n := by
  unfold Belief.listen snapshot
  dsimp only
  rw [List.foldl_cons]
  have e : ({} : Belief).hear ((47 : UInt8) :: (k.config.layer (shownLayout k.config k)).name ++ [10]) =
      { layout := (k.config.layer (shownLayout k.config k)).name } := by
    show ({} : Belief).hear ((47 : UInt8) :: (_ ++ [10])) = _
    unfold Belief.hear
    simp
  rw [e]
  obtain ⟨h1, h2⟩ := hear_names (fun i => (k.config.layer i).name) ((List.range k.config.layers.length).filter fun i =>
      decide (i ≠ 0 ∧ (k.layerState i).active ≠ 0 ∧ (k.config.layer i).type ≠ .layout))
      { layout := (k.config.layer (shownLayout k.config k)).name }
  refine ⟨h1, fun n => ?_⟩
  rw [h2 n]
  simp only [List.not_mem_nil, false_or, List.mem_filter, List.mem_range, decide_eq_true_eq]
  constructor
  · rintro ⟨i, ⟨h3, h4, h5, h6⟩, h7⟩; exact ⟨i, h3, h4, h5, h6, h7⟩
  · rintro ⟨i, h3, h4, h5, h6, h7⟩; exact ⟨i, ⟨h3, h4, h5, h6⟩, h7⟩

theorem selectedLayout_isLayout {c : Config} {d : Nat} (h : isLayout c d = true) : ∀ tr, isLayout c (selectedLayout c d tr) = true
  | [] => h
  | o :: tr => by
    have ih := selectedLayout_isLayout h tr
    cases o with
    | layer i b =>
      cases b with
      | true =>
        show isLayout c (if isLayout c i then i else _) = true
        split
        · assumption
        · exact ih
      | false => exact ih
    | key a b => exact ih
    | command a => exact ih
    | sleep a => exact ih

theorem shown_selected {c : Config} (hw : WF c) {k : Kbd} (hf : LayerFacts c k) :
    shownLayout k.config k = selectedLayout c (initialLayout c) k.layerTrace := by
  have hsel := selectedLayout_isLayout (c := c) (initialLayout_isLayout hw) k.layerTrace
  have hmem : ∀ i, i ∈ ((List.range k.config.layers.length).filter fun i =>
      decide (i ≠ 0 ∧ (k.layerState i).active ≠ 0 ∧ (k.config.layer i).type = .layout)) ↔
      i ≠ 0 ∧ i = selectedLayout c (initialLayout c) k.layerTrace := by
    intro i
    rw [List.mem_filter, List.mem_range, decide_eq_true_eq, hf.shape.1, hf.shape.type]
    constructor
    · rintro ⟨h1, h2, h3, h4⟩
      exact ⟨h2, (hf.layouts i h2 ((isLayout_type h1).1 h4)).2.1.1 h3⟩
    · rintro ⟨h1, h2⟩
      have hl : isLayout c i = true := by rw [h2]; exact hsel
      exact ⟨lt_of_isLayout hl, h1, (hf.layouts i h1 hl).2.1.2 h2, (isLayout_type (lt_of_isLayout hl)).2 hl⟩
  unfold shownLayout
  cases hh : ((List.range k.config.layers.length).filter fun i =>
      decide (i ≠ 0 ∧ (k.layerState i).active ≠ 0 ∧ (k.config.layer i).type = .layout)) with
  | nil =>
    rw [hh] at hmem
    show 0 = _
    by_contra hne
    have := (hmem (selectedLayout c (initialLayout c) k.layerTrace)).2 ⟨fun e => hne e.symm, rfl⟩
    cases this
  | cons a l =>
    rw [hh] at hmem
    show a = _
    exact ((hmem a).1 (List.mem_cons_self ..)).2

/-! ### C39 -/

/-- What is known about a listener that connected when the keyboard was `k`, at a later time. -/
theorem listener_facts {c : Config} (hw : WF c) (hs : ShortNames c) {k k' : Kbd} (hk : HistoryOf c k) (hl : Later k k') :
    ∃ tr, k.since k' = tr.reverse ∧ k'.trace = tr ++ k.trace ∧ Real c tr ∧
      Belief.listen (snapshot k ++ changeLines c (k.since k')) = believe c (Belief.listen (snapshot k)) tr := by
  obtain ⟨tr, htr⟩ := hl.grows
  have hsince := since_eq htr
  refine ⟨tr, hsince, htr, ?_, ?_⟩
  · intro i b hm
    have ha := announced_history hw (hl.history hk)
    have : Out.layer i b ∈ k'.layerTrace := by
      unfold Kbd.layerTrace
      rw [htr]
      exact List.mem_filter.2 ⟨List.mem_append_left _ hm, rfl⟩
    rcases ha.real i b this with ⟨h1, h2⟩ | h1
    · exact ⟨lt_of_isLayout h1, fun _ => h2⟩
    · have ho := ordinary_of_target h1
      refine ⟨lt_of_ordinary ho, fun ht => ?_⟩
      have := (isLayout_type (lt_of_ordinary ho)).1 ht
      rw [ordinary_not_layout ho] at this
      cases this
  · rw [hsince, ← believe_eq]
    unfold Belief.listen
    rw [List.foldl_append]

theorem shape_name {c c' : Config} (h : SameShape c c') {i : Nat} (hi : i < c.layers.length) : (c'.layer i).name = (c.layer i).name := by
  obtain ⟨l', h1, h2, _⟩ := h.2 i _ (List.getElem?_eq_getElem hi)
  rw [config_layer_some h1, config_layer_some (List.getElem?_eq_getElem hi), h2]

/-- C39, the layout. A listener that applies the snapshot it is sent when it connects and all the lines
that follow, always knows the current layout. -/
theorem C39_layout {c : Config} (hb : Bound c) (hs : ShortNames c) {k k' : Kbd} (hk : HistoryOf c k) (hl : Later k k') :
    CurrentLayout k' (Belief.listen (snapshot k ++ changeLines c (k.since k'))).layout := by
  have hw := C27_wellformed c hb
  obtain ⟨tr, h1, h2, h3, h4⟩ := listener_facts hw hs hk hl
  have hf := (layerFacts_history hw hk).2.1
  have hf' := (layerFacts_history hw (hl.history hk)).2.1
  have hini := initialLayout_isLayout hw
  have hsel := selectedLayout_isLayout hini k'.layerTrace
  have hlt := lt_of_isLayout hsel
  have h0 : (Belief.listen (snapshot k)).layout = (c.layer (selectedLayout c (initialLayout c) k.trace)).name := by
    rw [(snapshot_belief k).1, shown_selected hw hf]
    have : selectedLayout c (initialLayout c) k.layerTrace = selectedLayout c (initialLayout c) k.trace := selectedLayout_filter ..
    rw [this]
    exact shape_name hf.shape (lt_of_isLayout (selectedLayout_isLayout hini _))
  rw [h4, believe_layout hs _ k.trace (initialLayout c) h0 tr h3, ← h2]
  have e : selectedLayout c (initialLayout c) k'.trace = selectedLayout c (initialLayout c) k'.layerTrace := (selectedLayout_filter ..).symm
  rw [e]
  have hlt' : selectedLayout c (initialLayout c) k'.layerTrace < k'.config.layers.length := by rw [hf'.shape.1]; exact hlt
  refine ⟨_, _, List.getElem?_eq_getElem hlt', ?_, ?_, ?_, ?_⟩
  · rw [← config_layer_some (List.getElem?_eq_getElem hlt')]
    exact shape_name hf'.shape hlt
  · rw [← config_layer_some (List.getElem?_eq_getElem hlt'), hf'.shape.type]
    exact (isLayout_type hlt).2 hsel
  · by_cases hz : selectedLayout c (initialLayout c) k'.layerTrace = 0
    · rw [hz, hf'.main.1]; omega
    · exact (hf'.layouts _ hz hsel).2.1.2 rfl
  · intro j m hj0 hm ht ha
    have hj : j < c.layers.length := by
      rw [← hf'.shape.1]
      by_contra hge
      rw [List.getElem?_eq_none (by omega)] at hm
      cases hm
    have : (c.layer j).type = .layout := by rw [← hf'.shape.type, config_layer_some hm]; exact ht
    exact (hf'.layouts j hj0 ((isLayout_type hj).1 this)).2.1.1 ha

theorem not_layout {c : Config} {j : Nat} (hj : j < c.layers.length) (ht : (c.layer j).type ≠ .layout) : isLayout c j = false := by
  cases h : isLayout c j with
  | false => rfl
  | true => exact absurd ((isLayout_type hj).2 h) ht

theorem nest_counts {c : Config} {k : Kbd} (ha : Announced c k) {j : Nat} (hj : isLayout c j = false) :
    nest j k.trace = (k.layerState j).active := by
  rw [ha.counts j hj]
  exact (nest_filter j k.trace).symm

/-- C39, one direction. Whatever layer such a listener believes to be active, is active. -/
theorem C39_believed_is_active {c : Config} (hb : Bound c) (hs : ShortNames c) {k k' : Kbd} (hk : HistoryOf c k) (hl : Later k k')
    {name : Str} (h : name ∈ (Belief.listen (snapshot k ++ changeLines c (k.since k'))).layers) : ActiveLayer k' name := by
  have hw := C27_wellformed c hb
  obtain ⟨tr, h1, h2, h3, h4⟩ := listener_facts hw hs hk hl
  have ha := announced_history hw hk
  have ha' := announced_history hw (hl.history hk)
  rw [h4] at h
  have hnamed : ∀ n ∈ (Belief.listen (snapshot k)).layers, ∃ i, i < c.layers.length ∧ (c.layer i).type ≠ .layout ∧ (c.layer i).name = n := by
    intro n hn
    obtain ⟨i, h5, _, _, h8, h9⟩ := ((snapshot_belief k).2 n).1 hn
    rw [ha.shape.1] at h5
    rw [ha.shape.type] at h8
    exact ⟨i, h5, h8, by rw [← h9]; exact (shape_name ha.shape h5).symm⟩
  obtain ⟨i, hi, hit, hin⟩ := believe_named hs _ hnamed tr h3 name h
  subst hin
  have h0 : (c.layer i).name ∈ (Belief.listen (snapshot k)).layers → nest i k.trace ≠ 0 := by
    intro hn
    obtain ⟨j, h5, _, h7, _, h9⟩ := ((snapshot_belief k).2 _).1 hn
    rw [ha.shape.1] at h5
    rw [shape_name ha.shape h5] at h9
    have := name_inj hw h5 hi h9
    subst this
    rw [nest_counts ha (not_layout hi hit)]
    exact h7
  have := believe_sound hw hs _ k.trace hi hit h0 tr h3 h
  rw [← h2, nest_counts ha' (not_layout hi hit)] at this
  have hi' : i < k'.config.layers.length := by rw [ha'.shape.1]; exact hi
  refine ⟨i, _, List.getElem?_eq_getElem hi', ?_, ?_, this⟩
  · rw [← config_layer_some (List.getElem?_eq_getElem hi')]
    exact shape_name ha'.shape hi
  · rw [← config_layer_some (List.getElem?_eq_getElem hi'), ha'.shape.type]
    exact hit


/-- C39. If no layer is activated again while it is active (by a second key, say), such a listener knows
exactly which layers are active. -/
theorem C39_exact_partial {c : Config} (hb : Bound c) (hs : ShortNames c) {k k' : Kbd} (hk : HistoryOf c k) (hl : Later k k')
    (hu : Unnested k (k.since k')) (name : Str) :
    name ∈ (Belief.listen (snapshot k ++ changeLines c (k.since k'))).layers ↔ ActiveLayer k' name := by
  refine ⟨C39_believed_is_active hb hs hk hl, ?_⟩
  rintro ⟨i, l, hi, hn, ht, hact⟩
  have hw := C27_wellformed c hb
  obtain ⟨tr, h1, h2, h3, h4⟩ := listener_facts hw hs hk hl
  have ha := announced_history hw hk
  have ha' := announced_history hw (hl.history hk)
  have hi' : i < k'.config.layers.length := by
    by_contra hge
    rw [List.getElem?_eq_none (by omega)] at hi
    cases hi
  have hic : i < c.layers.length := by rw [← ha'.shape.1]; exact hi'
  have hl' := config_layer_some hi
  have hit : (c.layer i).type ≠ .layout := by rw [← ha'.shape.type, hl']; exact ht
  have hno := not_layout hic hit
  have hname : (c.layer i).name = name := by rw [← hn, ← hl']; exact (shape_name ha'.shape hic).symm
  rw [h4, ← hname]
  have hik : i < k.config.layers.length := by rw [ha.shape.1]; exact hic
  refine believe_complete hw hs _ k.trace hic hit ?_ tr h3 ?_ ?_
  · intro hne
    rw [nest_counts ha hno] at hne
    refine ((snapshot_belief k).2 _).2 ⟨i, hik, ?_, hne, ?_, shape_name ha.shape hic⟩
    · rintro rfl
      rw [main_isLayout hw] at hno
      cases hno
    · rw [ha.shape.type]; exact hit
  · intro suf hsuf
    have hsound := (noUnder_filter i k'.trace).1 (ha'.sound i hno)
    rw [h2] at hsound
    obtain ⟨pre, hpre⟩ := hsuf
    have hsound2 : NoUnder i (suf ++ k.trace) := by
      rw [← hpre, List.append_assoc] at hsound
      exact hsound.drop
    have hcount := nest_count hsound2
    rw [nest_counts ha hno] at hcount
    have hp : suf.reverse <+: k.since k' := by
      rw [h1, ← hpre, List.reverse_append]
      exact List.prefix_append _ _
    have := hu i suf.reverse ?_ hp
    · rw [List.count_reverse, List.count_reverse] at this
      omega
    · intro l0 hl0
      rw [← config_layer_some hl0, ha.shape.type]
      exact hit
  · rw [← h2, nest_counts ha' hno]; exact hact

/-! ### What the daemon sends -/

theorem linesTo_broadcast {env : Env} {d : Daemon} {con : Nat} (hm : con ∈ d.listeners) (hn : d.listeners.Nodup) (hw : env.writable con = true)
    (line : Str) : (broadcast env d line).linesTo con = d.linesTo con ++ [line] ∧
      con ∈ (broadcast env d line).listeners ∧ (broadcast env d line).listeners.Nodup := by
  have hm' : con ∈ d.listeners.filter env.writable := List.mem_filter.2 ⟨hm, hw⟩
  have hn' : (d.listeners.filter env.writable).Nodup := hn.sublist List.filter_sublist
  refine ⟨?_, hm', hn'⟩
  unfold Daemon.linesTo broadcast
  dsimp only
  rw [List.reverse_append, List.filter_append, List.map_append, ← List.map_reverse, List.reverse_reverse]
  congr 1
  generalize d.listeners.filter env.writable = l at hm' hn'
  induction l with
  | nil => cases hm'
  | cons a l ih =>
    rw [List.nodup_cons] at hn'
    rw [List.map_cons]
    rcases List.mem_cons.1 hm' with rfl | hm'
    · rw [List.filter_cons_of_pos (by simp)]
      have : (l.map fun con => (con, line)).filter (fun p => decide (p.1 = con)) = [] := by
        rw [List.filter_eq_nil_iff]
        intro p hp
        obtain ⟨x, hx, rfl⟩ := List.mem_map.1 hp
        simp only [decide_eq_true_eq]
        rintro rfl
        exact hn'.1 hx
      rw [this]; rfl
    · rw [List.filter_cons_of_neg, ih hm' hn'.2]
      simp only [decide_eq_true_eq]
      rintro rfl
      exact hn'.1 hm'

theorem linesTo_send (d : Daemon) (code : Code) (down : Bool) : (daemonSendKey d code down).sent = d.sent ∧
    (daemonSendKey d code down).listeners = d.listeners := by
  unfold daemonSendKey
  dsimp only
  constructor
  all_goals
    repeat' split
  all_goals rfl

theorem linesTo_applyOuts {env : Env} {con addr : Nat} {c : Config} (hw : env.writable con = true) : ∀ (os : List Out) (d : Daemon) (n : Nat → Nat),
    con ∈ d.listeners → d.listeners.Nodup →
    (applyOuts env addr c d n os).linesTo con = d.linesTo con ++ changeLines c os ∧
      con ∈ (applyOuts env addr c d n os).listeners ∧ (applyOuts env addr c d n os).listeners.Nodup
  | [], d, n, hm, hn => ⟨(List.append_nil _).symm, hm, hn⟩
  | .key code down :: os, d, n, hm, hn => by
    obtain ⟨e1, e2⟩ := linesTo_send d code down
    obtain ⟨h1, h2⟩ := linesTo_applyOuts hw os (daemonSendKey d code down) n (by rw [e2]; exact hm) (by rw [e2]; exact hn)
    refine ⟨?_, h2⟩
    have : (daemonSendKey d code down).linesTo con = d.linesTo con := by unfold Daemon.linesTo; rw [e1]
    rw [this] at h1
    exact h1
  | .layer i b :: os, d, n, hm, hn => by
    have key : ∀ n', (onLayerChange env d addr c n' i b).linesTo con = d.linesTo con ++ [changeLine (c.layer i) b] ∧
        con ∈ (onLayerChange env d addr c n' i b).listeners ∧ (onLayerChange env d addr c n' i b).listeners.Nodup := by
      intro n'
      unfold onLayerChange
      dsimp only
      have hne : d.listeners ≠ [] := List.ne_nil_of_mem hm
      split
      · rw [if_neg (show (setLed d addr 1 _).listeners ≠ [] from hne)]
        exact linesTo_broadcast (d := setLed d addr 1 _) hm hn hw _
      · exact linesTo_broadcast hm hn hw _
    unfold applyOuts
    dsimp only
    obtain ⟨k1, k2, k3⟩ := key (if (c.layer i).type = .layout then n else upd n i (if b = true then n i + 1 else n i - 1))
    obtain ⟨h1, h2⟩ := linesTo_applyOuts (addr := addr) (c := c) hw os (onLayerChange env d addr c _ i b)
      (if (c.layer i).type = .layout then n else upd n i (if b = true then n i + 1 else n i - 1)) k2 k3
    refine ⟨?_, h2⟩
    rw [h1, k1, List.append_assoc]
    rfl
  | .command _ :: os, d, n, hm, hn => linesTo_applyOuts hw os d n hm hn
  | .sleep _ :: os, d, n, hm, hn => linesTo_applyOuts hw os d n hm hn

/-- C39. When a keyboard processes events, a listener that can take them receives exactly the lines
for the layer changes that happen, in order. -/
theorem C39_lines_sent {env : Env} {d d' : Daemon} {addr con : Nat} {evs : List KeyEvent} {w : Int} {k : Kbd} (hk : d.heap addr = some k)
    (hm : con ∈ d.listeners) (hn : d.listeners.Nodup) (hw : env.writable con = true) (run : kbdRun env d addr evs = .ok (d', w)) :
    ∃ k', kbdProcessEvents env.fuel k evs = .ok (k', w) ∧ con ∈ d'.listeners ∧ d'.listeners.Nodup ∧
      d'.linesTo con = d.linesTo con ++ changeLines k.config (k.since k') := by
  unfold kbdRun at run
  rw [hk] at run
  dsimp only at run
  obtain ⟨⟨k', w'⟩, h1, h2⟩ := dbind_eq_ok.1 run
  have h1 : kbdProcessEvents env.fuel k evs = .ok (k', w') := by
    cases hr : kbdProcessEvents env.fuel k evs with
    | ok r => rw [hr] at h1; injection h1 with h1; rw [h1]
    | error e => rw [hr] at h1; cases h1
  dsimp only at h2
  injection h2 with h2
  have e1 := congrArg Prod.fst h2
  have e2 : w' = w := congrArg Prod.snd h2
  dsimp only at e1
  subst e2
  obtain ⟨os, hos⟩ := events_grow h1
  have hnew : (k'.trace.take (k'.trace.length - k.trace.length)).reverse = k.since k' := by
    rw [since_eq hos, hos]
    congr 1
    rw [List.length_append, Nat.add_sub_cancel, List.take_left' rfl]
  rw [hnew] at e1
  obtain ⟨h3, h4, h5⟩ := linesTo_applyOuts (addr := addr) (c := k.config) hw (k.since k') { d with heap := upd d.heap addr (some k') }
    (fun i => (k.layerState i).active) hm hn
  refine ⟨k', h1, ?_⟩
  rw [← e1]
  exact ⟨h4, h5, h3⟩

/-- C39. A new listener that can take it receives the snapshot of the keyboard used last. -/
theorem C39_snapshot_sent {env : Env} {d d' : Daemon} {addr con : Nat} {k : Kbd} (ha : d.active = some addr) (hk : d.heap addr = some k)
    (hl : d.listeners.length ≠ 32) (hw : env.writable con = true) (run : addListener env d con = .ok d') :
    con ∈ d'.listeners ∧ d'.linesTo con = d.linesTo con ++ snapshot k := by
  unfold addListener at run
  rw [if_neg hl, ha] at run
  dsimp only at run
  rw [hk] at run
  dsimp only at run
  rw [if_pos hw] at run
  injection run with run
  subst run
  refine ⟨by simp, ?_⟩
  unfold Daemon.linesTo
  dsimp only
  rw [List.reverse_append, List.filter_append, List.map_append, ← List.map_reverse, List.reverse_reverse]
  congr 1
  induction snapshot k with
  | nil => rfl
  | cons a l ih =>
    rw [List.map_cons, List.filter_cons_of_pos (by simp), List.map_cons, ih]

/-! ### Examples and the missing part -/

def listenText : Str := b!"[main]
a = layer(nav)
b = layer(nav)
c = setlayout(alt1)
d = oneshot(nav)
[nav]
x = y
[alt1:layout]
"

/-- What a listener that is there from the start believes, and the truth about layer `nav` and the
layout `alt1`. -/
def listenCheck (nav alt : Bool) (believed : Bool) (k : Kbd) : Bool :=
  decide ((k.config.layer 6).name = b!"nav" ∧ (k.config.layer 7).name = b!"alt1" ∧
    ((k.layerState 6).active ≠ 0 ↔ nav = true) ∧ ((k.layerState 7).active ≠ 0 ↔ alt = true) ∧
    (b!"nav" ∈ (Belief.listen (snapshot (newKeyboard k.config) ++ changeLines k.config k.outputs)).layers ↔ believed = true) ∧
    ((Belief.listen (snapshot (newKeyboard k.config) ++ changeLines k.config k.outputs)).layout = b!"alt1" ↔ alt = true) ∧
    ∀ l ∈ k.config.layers, l.name.length ≤ 63)

/-- The listener is right when `nav` is held and the layout selected ... -/
theorem C39_example_on : checkRun listenText [press 46 1, release 46 2, press 30 3] (fun _ => true) (listenCheck true true true) = true := by
  set_option maxRecDepth 100000 in decide +kernel

/-- ... and when it is released again. -/
theorem C39_example_off : checkRun listenText [press 46 1, release 46 2, press 30 3, release 30 4] (fun _ => true) (listenCheck false true false) = true := by
  set_option maxRecDepth 100000 in decide +kernel

/-- C39 fails in general: when two keys hold the same layer and one is released, the listener is told that
the layer was deactivated, although it is still active. -/
theorem C39_fails_nested : checkRun listenText [press 30 1, press 48 2, release 30 3] (fun _ => true) (listenCheck true false false) = true := by
  set_option maxRecDepth 100000 in decide +kernel

end Keyd
