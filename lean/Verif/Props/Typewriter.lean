import Verif.Spec.Typewriter
import Verif.Proofs.Typed
import Verif.Proofs.Direct
import Verif.Proofs.DirectSteps
import Verif.Proofs.Memory
import Verif.Props.Layers
import Verif.Props.Clear

/-
  C07: a configuration that only remaps keys and holds modifier layers makes the engine behave
  exactly like the small machine of `Verif.Spec.Typewriter`, for every sequence of events in every
  batching.
-/

set_option autoImplicit false

namespace Keyd

/-- The action a role is bound to. -/
def Role.desc : Role → Desc
  | .key x => .keyseq x 0
  | .hold l => .layer l

/-- Nothing is undecided and no timer is running. -/
structure Inert (c : Config) (k : Kbd) : Prop where
  config : k.config = c
  pending : k.pending.code = 0
  state : k.chord.state = .inactive
  chords : ∀ ac ∈ k.activeChords, ac.active = false
  oneshot : k.oneshotTimeout = 0
  macro_ : k.activeMacro = none
  timeouts : k.timeouts = []
  scroll : k.scroll.active = false

/-- The keys remembered as held are those held by the machine. -/
structure Pads (c : Config) (held : List (Code × Role)) (k : Kbd) : Prop where
  length : k.cache.length = 16
  perm : ((k.cache.map CacheEntry.strip).filter (fun e => e.code ≠ 0)).Perm
    (held.map fun p => (⟨p.1, p.2.desc, 0, 0⟩ : CacheEntry))
  nodup : (held.map Prod.fst).Nodup
  roles : ∀ p ∈ held, Physical p.1 ∧ c.role p.1 = some p.2

/-- The layers active are the main layer and those held by the machine. -/
structure Lays (held : List (Code × Role)) (k : Kbd) : Prop where
  active : ∀ i, (k.layerState i).active = held.countP (fun p => p.2 = .hold i) + if i = 0 then 1 else 0
  depth : ∀ i, (k.layerState i).oneshotDepth = 0
  main : (k.layerState 0).activationTime = 0

/-- The same has been typed. -/
structure Types (m : Machine) (k : Kbd) : Prop where
  out : k.typed = m.out
  down : ∀ x, isModifierKey x = false → k.keystate x = m.down x

/-- The modifiers wanted are down. -/
def Mods (c : Config) (m : Machine) (k : Kbd) : Prop :=
  ∀ mask key, (mask, key) ∈ modifierKeys → (k.keystate key = true ↔ m.wants c mask)

structure Emul (c : Config) (m : Machine) (k : Kbd) : Prop where
  inert : Inert c k
  pads : Pads c m.held k
  lays : Lays m.held k
  types : Types m k
  mods : Mods c m k

theorem Types.send {m : Machine} {k : Kbd} (h : Types m k) {x : Code} (hx : isModifierKey x = false) (b : Bool) :
    Types (m.send x b) (sendKey k x b) := by
  unfold Machine.send
  by_cases hr : RealKey x
  · by_cases hb : m.down x = b
    · rw [if_pos (.inr (.inr hb))]
      refine ⟨?_, fun y hy => ?_⟩
      · rw [typed_sendKey _ _ _ hr hx, h.down x hx, hb, if_pos rfl, List.append_nil]
        exact h.out
      · rw [sendKey_keystate _ _ _ hr.1 hr.2, upd_apply]
        split
        · rename_i e; rw [e, hb]
        · exact h.down y hy
    · rw [if_neg (by rintro (h1 | h1 | h1); exacts [hr.1 h1, hr.2 h1, hb h1])]
      refine ⟨?_, fun y hy => ?_⟩
      · rw [typed_sendKey _ _ _ hr hx, h.down x hx, if_neg hb, h.out]
      · rw [sendKey_keystate _ _ _ hr.1 hr.2, upd_apply]
        show _ = if y = x then b else m.down y
        split
        · rfl
        · exact h.down y hy
  · rw [sendKey_unreal _ _ _ hr, if_pos]
    · exact h
    · unfold RealKey at hr
      by_cases h1 : x = KEYD.NOOP
      · exact .inl h1
      · by_cases h2 : x = KEYD.EXTERNAL_MOUSE_BUTTON
        · exact .inr (.inl h2)
        · exact absurd ⟨h1, h2⟩ hr

theorem Types.mods {m : Machine} {k : Kbd} (h : Types m k) (ex : Option Nat) (z : UInt8) : Types m (updateMods k ex z) :=
  ⟨by rw [typed_updateMods]; exact h.out,
   fun x hx => by rw [C09_other_keys_unchanged _ _ _ _ (not_modifier hx)]; exact h.down x hx⟩

theorem Types.quiet {m : Machine} {k k' : Kbd} (h : Types m k) (h1 : k'.typed = k.typed) (h2 : k'.keystate = k.keystate) : Types m k' :=
  ⟨h1.trans h.out, fun x hx => by rw [h2]; exact h.down x hx⟩

theorem Inert.frame {c : Config} {k k' : Kbd} (h : Inert c k) (f : KeyFrame k k') : Inert c k' := by
  obtain ⟨_, _, _, rfl, _⟩ := f
  exact ⟨h.config, h.pending, h.state, h.chords, h.oneshot, h.macro_, h.timeouts, h.scroll⟩

theorem Lays.frame {held : List (Code × Role)} {k k' : Kbd} (h : Lays held k) (f : KeyFrame k k') : Lays held k' := by
  obtain ⟨_, _, _, rfl, _⟩ := f
  exact ⟨h.active, h.depth, h.main⟩

theorem Pads.frame {c : Config} {held : List (Code × Role)} {k k' : Kbd} (h : Pads c held k) (f : KeyFrame k k') : Pads c held k' := by
  obtain ⟨_, _, _, rfl, _⟩ := f
  exact ⟨h.length, h.perm, h.nodup, h.roles⟩

/-- Where the main layer is active, and only layers that are held, the modifiers requested are those the machine wants. -/
theorem requested_wants {c : Config} (hc : Typewriter c) {m : Machine} {k : Kbd} (hk : k.config = c) (hl : Lays m.held k)
    (hr : ∀ p ∈ m.held, Physical p.1 ∧ c.role p.1 = some p.2) {ex : Option Nat} (he : ex = none ∨ ex = some 0) (mask : UInt8) :
    Requested k ex 0 mask ↔ m.wants c mask := by
  have hex : ∀ i, 0 < i → ¬ Excluded c ex i := by
    rintro i hi ⟨e, l, h1, h2, h3⟩
    rcases he with he | he
    · rw [he] at h1; cases h1
    · rw [he] at h1
      injection h1 with h1
      subst h1
      rcases h3 with h3 | h3
      · omega
      · refine hc.composite 0 ?_
        rw [config_layer_some h2]; exact h3.1
  constructor
  · rintro (h | ⟨i, l, h1, h2, _, h4⟩)
    · exact absurd (by simp) h
    · rw [hk] at h1
      rw [hl.active i] at h2
      have hi : i ≠ 0 := by
        rintro rfl
        rw [← config_layer_some h1, hc.main.2.2] at h4
        exact h4 (by simp)
      rw [if_neg hi, Nat.add_zero] at h2
      have : 0 < m.held.countP (fun p => p.2 = .hold i) := by omega
      rw [List.countP_pos_iff] at this
      obtain ⟨p, hp, hpi⟩ := this
      exact ⟨p, hp, i, by simpa using hpi, by rw [config_layer_some h1]; exact h4⟩
  · rintro ⟨p, hp, l, h1, h2⟩
    obtain ⟨hph, hro⟩ := hr p hp
    rw [h1] at hro
    obtain ⟨b1, b2, _⟩ := hc.bare _ _ hph hro
    refine .inr ⟨l, c.layers[l], ?_, ?_, ?_, ?_⟩
    · rw [hk]; exact List.getElem?_eq_getElem b2
    · rw [hl.active l]
      have : 0 < m.held.countP (fun p => p.2 = .hold l) := List.countP_pos_iff.2 ⟨p, hp, by simpa using h1⟩
      omega
    · rw [hk]; exact hex l b1
    · rw [← config_layer_some (List.getElem?_eq_getElem b2)]; exact h2

theorem mods_updateMods {c : Config} (hc : Typewriter c) {m : Machine} {k : Kbd} (hk : k.config = c) (hl : Lays m.held k)
    (hr : ∀ p ∈ m.held, Physical p.1 ∧ c.role p.1 = some p.2) {ex : Option Nat} (he : ex = none ∨ ex = some 0) :
    Mods c m (updateMods k ex 0) := by
  intro mask key hm
  rw [C09_modifiers_exact _ _ _ _ _ hm, requested_wants hc hk hl hr he]

theorem Mods.send {c : Config} {m : Machine} {k : Kbd} (h : Mods c m k) {x : Code} (hx : isModifierKey x = false) (b : Bool) :
    Mods c m (sendKey k x b) := by
  intro mask key hm
  rw [← h mask key hm]
  by_cases hr : RealKey x
  · rw [sendKey_keystate _ _ _ hr.1 hr.2, upd_apply, if_neg]
    exact fun e => not_modifier hx _ hm e.symm
  · rw [sendKey_unreal _ _ _ hr]

theorem send_held (m : Machine) (x : Code) (b : Bool) : (m.send x b).held = m.held := by
  unfold Machine.send; split <;> rfl

theorem wants_held {c : Config} {m m' : Machine} (h : m'.held = m.held) (mask : UInt8) : m'.wants c mask ↔ m.wants c mask := by
  unfold Machine.wants; rw [h]

theorem Mods.held {c : Config} {m m' : Machine} {k : Kbd} (h : Mods c m k) (he : m'.held = m.held) : Mods c m' k :=
  fun mask key hm => (h mask key hm).trans (wants_held he mask).symm

/-! ### The keys held -/

theorem Pads.get {c : Config} {held : List (Code × Role)} {k : Kbd} (h : Pads c held k) {code : Code} (hc : code ≠ 0)
    {ce : CacheEntry} (hg : cacheGet k code = some ce) :
    ∃ r, (code, r) ∈ held ∧ ce = ⟨code, r.desc, 0, ce.layer⟩ := by
  unfold cacheGet at hg
  have hm := List.mem_of_find?_eq_some hg
  have he : ce.code = code := by simpa using List.find?_some hg
  have : ce.strip ∈ (k.cache.map CacheEntry.strip).filter (fun e => e.code ≠ 0) :=
    List.mem_filter.2 ⟨List.mem_map_of_mem hm, by simpa [CacheEntry.strip, he] using hc⟩
  obtain ⟨p, hp, e⟩ := List.mem_map.1 (h.perm.mem_iff.1 this)
  obtain ⟨pc, pr⟩ := p
  obtain ⟨cc, cd, cdl, cl⟩ := ce
  simp only [CacheEntry.strip, CacheEntry.mk.injEq] at e he
  obtain ⟨e1, e2, e3, _⟩ := e
  subst e1 he
  exact ⟨pr, hp, by rw [e2, ← e3]⟩

theorem Pads.get_none {c : Config} {held : List (Code × Role)} {k : Kbd} (h : Pads c held k) {code : Code}
    (hg : cacheGet k code = none) : ∀ p ∈ held, p.1 ≠ code := by
  rintro ⟨pc, pr⟩ hp e
  have : (⟨pc, pr.desc, 0, 0⟩ : CacheEntry) ∈ (k.cache.map CacheEntry.strip).filter (fun e => e.code ≠ 0) :=
    h.perm.mem_iff.2 (List.mem_map.2 ⟨_, hp, rfl⟩)
  obtain ⟨e', he', hs⟩ := List.mem_map.1 (List.mem_filter.1 this).1
  refine cacheGet_none.1 hg e' he' ?_
  have := congrArg CacheEntry.code hs
  simp only [CacheEntry.strip] at this
  rw [this]; exact e

/-- The number of slots in use. -/
theorem Pads.used {c : Config} {held : List (Code × Role)} {k : Kbd} (h : Pads c held k) :
    k.cache.countP (fun e => e.code ≠ 0) = held.length := by
  have := h.perm.length_eq
  rw [List.length_map, ← List.countP_eq_length_filter, List.countP_map] at this
  rw [← this]
  rfl

/-- Remembering one more key. -/
theorem Pads.put {c : Config} {held : List (Code × Role)} {k : Kbd} (h : Pads c held k) {code : Code} {r : Role}
    (hp : Physical code) (hr : c.role code = some r) (hg : cacheGet k code = none) (hl : held.length < 16) :
    ∃ cache', cacheSet k code (some { d := r.desc, dl := 0, layer := 0 }) = some { k with cache := cache' } ∧
      Pads c ((code, r) :: held) { k with cache := cache' } := by
  have hfree : ∃ e ∈ k.cache, e.code = 0 := by
    by_cases he : ∃ e ∈ k.cache, e.code = 0
    · exact he
    · exfalso
      have hu := h.used
      have : k.cache.countP (fun e => e.code ≠ 0) = k.cache.length := by
        rw [List.countP_eq_length]
        intro e hm
        simpa using fun e0 => he ⟨e, hm, e0⟩
      rw [this, h.length] at hu
      omega
  obtain ⟨s, hs⟩ := cacheSlot_some (code := code) k.cache 0 none hfree
  obtain ⟨k', hk'⟩ : ∃ k', cacheSet k code (some { d := r.desc, dl := 0, layer := 0 }) = some k' := by
    unfold cacheSet
    rw [hs]
    exact ⟨_, rfl⟩
  obtain ⟨pre, x, post, h1, h2, h3⟩ := cacheSet_some_split hk'
  have hx : x.code = 0 := by
    rcases h3 with h3 | h3
    · exact absurd h3 (cacheGet_none.1 hg x (by rw [h1]; simp))
    · exact h3.1
  refine ⟨_, by rw [hk', h2], ?_⟩
  refine ⟨?_, ?_, ?_, ?_⟩
  · have := h.length
    rw [h1] at this
    simpa using this
  · have hperm := h.perm
    rw [h1] at hperm
    simp only [List.map_append, List.map_cons, List.filter_append] at hperm ⊢
    rw [List.filter_cons_of_neg (by simp [CacheEntry.strip, hx])] at hperm
    rw [List.filter_cons_of_pos (by show decide (code ≠ 0) = true; exact decide_eq_true hp.1)]
    exact (List.perm_middle).trans (List.Perm.cons _ hperm)
  · rw [List.map_cons, List.nodup_cons]
    refine ⟨?_, h.nodup⟩
    intro hm
    obtain ⟨p, hp', e⟩ := List.mem_map.1 hm
    exact h.get_none hg p hp' e
  · intro p hp'
    rcases List.mem_cons.1 hp' with rfl | hp'
    · exact ⟨hp, hr⟩
    · exact h.roles p hp'

/-- When 16 keys are held there is no room. -/
theorem Pads.full {c : Config} {held : List (Code × Role)} {k : Kbd} (h : Pads c held k) {code : Code} {e : CacheEntry}
    (hg : cacheGet k code = none) (hl : ¬ held.length < 16) : cacheSet k code (some e) = none := by
  cases hs : cacheSet k code (some e) with
  | none => rfl
  | some k' =>
    exfalso
    obtain ⟨pre, x, post, h1, _, h3⟩ := cacheSet_some_split hs
    have hx : x.code = 0 := by
      rcases h3 with h3 | h3
      · exact absurd h3 (cacheGet_none.1 hg x (by rw [h1]; simp))
      · exact h3.1
    have hu := h.used
    have hlen := h.length
    rw [h1] at hu hlen
    rw [List.countP_append, List.countP_cons_of_neg (by simpa using hx)] at hu
    have := List.countP_le_length (p := fun e : CacheEntry => decide (e.code ≠ 0)) (l := pre)
    have := List.countP_le_length (p := fun e : CacheEntry => decide (e.code ≠ 0)) (l := post)
    simp only [List.length_append, List.length_cons] at hlen
    omega

/-- Forgetting a key. -/
theorem Pads.drop {c : Config} {held : List (Code × Role)} {k : Kbd} (h : Pads c held k) {code : Code} (hc : code ≠ 0) {ce : CacheEntry}
    (hg : cacheGet k code = some ce) :
    ∃ cache', cacheSet k code none = some { k with cache := cache' } ∧
      Pads c (held.filter (fun p => p.1 ≠ code)) { k with cache := cache' } := by
  obtain ⟨pre, post, h1, h2, h3, h4⟩ := cacheSet_none_split hg
  refine ⟨_, h4, ?_, ?_, ?_, ?_⟩
  · have := h.length
    rw [h1] at this
    simpa using this
  · have hperm := h.perm
    have hnd : ((k.cache.map CacheEntry.strip).filter (fun e => e.code ≠ 0)).Pairwise (fun a b => a.code ≠ b.code) := by
      have : (((k.cache.map CacheEntry.strip).filter (fun e => e.code ≠ 0)).map CacheEntry.code).Nodup := by
        refine (List.Perm.nodup_iff (hperm.map CacheEntry.code)).2 ?_
        rw [List.map_map]
        exact h.nodup
      rwa [List.nodup_iff_pairwise_ne, List.pairwise_map] at this
    have hf := hperm.filter (fun e => e.code ≠ code)
    have e2 : (held.map fun p => (⟨p.1, p.2.desc, 0, 0⟩ : CacheEntry)).filter (fun e => e.code ≠ code) =
        (held.filter (fun p => p.1 ≠ code)).map fun p => (⟨p.1, p.2.desc, 0, 0⟩ : CacheEntry) := by
      rw [List.filter_map]; rfl
    rw [e2] at hf
    refine List.Perm.trans (List.Perm.of_eq ?_) hf
    rw [h1] at hnd ⊢
    simp only [List.map_append, List.map_cons, List.filter_append] at hnd ⊢
    rw [List.filter_cons_of_neg (by simp [CacheEntry.strip])]
    rw [List.filter_cons_of_pos (p := fun e : CacheEntry => decide (e.code ≠ 0)) (by simpa [CacheEntry.strip, h2] using hc),
      List.filter_cons_of_neg (by simp [CacheEntry.strip, h2])]
    rw [List.filter_cons_of_pos (by simpa [CacheEntry.strip, h2] using hc)] at hnd
    rw [List.pairwise_append] at hnd
    obtain ⟨_, n2, n3⟩ := hnd
    rw [List.pairwise_cons] at n2
    congr 1
    · symm
      rw [List.filter_eq_self]
      intro a ha
      have := n3 a ha _ (List.mem_cons_self ..)
      simp only [CacheEntry.strip, h2] at this
      simpa using this
    · symm
      rw [List.filter_eq_self]
      intro a ha
      have := n2.1 a ha
      simp only [CacheEntry.strip, h2] at this
      simpa using fun e => this e.symm
  · exact h.nodup.sublist (List.Sublist.map _ List.filter_sublist)
  · intro p hp
    exact h.roles p (List.mem_filter.1 hp).1

theorem find_held {held : List (Code × Role)} (hn : (held.map Prod.fst).Nodup) {code : Code} {r : Role} (h : (code, r) ∈ held) :
    held.find? (fun p => p.1 = code) = some (code, r) := by
  induction held with
  | nil => cases h
  | cons p l ih =>
    rw [List.map_cons, List.nodup_cons] at hn
    rcases List.mem_cons.1 h with rfl | h
    · rw [List.find?_cons_of_pos (by simp)]
    · rw [List.find?_cons_of_neg, ih hn.2 h]
      simp only [decide_eq_true_eq]
      intro e
      exact hn.1 (e ▸ List.mem_map.2 ⟨_, h, rfl⟩)

theorem find_not_held {held : List (Code × Role)} {code : Code} (h : ∀ p ∈ held, p.1 ≠ code) :
    held.find? (fun p => p.1 = code) = none := by
  rw [List.find?_eq_none]
  intro p hp
  simpa using h p hp

/-! ### Finding the binding -/

theorem Lays.bare {c : Config} (hc : Typewriter c) {held : List (Code × Role)} {k : Kbd} (hl : Lays held k)
    (hr : ∀ p ∈ held, Physical p.1 ∧ c.role p.1 = some p.2) {i : Nat} (hi : i ≠ 0) (ha : k.isActive i = true) :
    (∀ x, (c.layer i).keymap x = .none) ∧ (c.layer i).chords = [] := by
  have ha : (k.layerState i).active ≠ 0 := by simpa [Kbd.isActive] using ha
  rw [hl.active i, if_neg hi, Nat.add_zero] at ha
  have : 0 < held.countP (fun p => p.2 = .hold i) := by omega
  rw [List.countP_pos_iff] at this
  obtain ⟨p, hp, hpi⟩ := this
  have hpi : p.2 = .hold i := by simpa using hpi
  obtain ⟨h1, h2⟩ := hr p hp
  rw [hpi] at h2
  exact (hc.bare _ _ h1 h2).2.2

theorem lookup_role {c : Config} (hc : Typewriter c) {held : List (Code × Role)} {k : Kbd} (hk : k.config = c) (hl : Lays held k)
    (hr : ∀ p ∈ held, Physical p.1 ∧ c.role p.1 = some p.2) {code : Code} (hp : Physical code) {r : Role} (hro : c.role code = some r) :
    lookupDescriptor k code = (r.desc, 0) := by
  have h1 : lookupActive k code = (if (c.layer 0).keymap code = .none then none else some ((c.layer 0).keymap code, 0), 0) := by
    unfold lookupActive
    rw [hk]
    obtain ⟨n, hn⟩ : ∃ n, c.layers.length = n + 1 := ⟨c.layers.length - 1, by have := hc.main.1; omega⟩
    rw [hn, List.range_succ_eq_map, List.foldl_cons]
    have hz : k.isActive 0 = true := by
      unfold Kbd.isActive
      rw [hl.active 0]
      simp
    have h0 : (if k.isActive 0 = true ∧ (c.layer 0).keymap code ≠ .none ∧ (k.layerState 0).activationTime ≥ ((none, 0) : Option (Desc × Nat) × Int).2
          then (some ((c.layer 0).keymap code, 0), (k.layerState 0).activationTime) else (none, 0)) =
        (if (c.layer 0).keymap code = .none then (none : Option (Desc × Nat)) else some ((c.layer 0).keymap code, 0), (0 : Int)) := by
      rw [hl.main]
      by_cases hn : (c.layer 0).keymap code = .none
      · rw [if_neg (fun h => h.2.1 hn), if_pos hn]
      · rw [if_pos ⟨hz, hn, by simp⟩, if_neg hn]
    dsimp only
    dsimp only at h0
    rw [h0]
    apply foldl_id
    intro i hi
    obtain ⟨j, _, rfl⟩ := List.mem_map.1 hi
    rw [if_neg]
    rintro ⟨ha, hb, _⟩
    exact hb ((hl.bare hc hr (by omega) ha).1 code)
  have h2 : ∀ st, lookupComposite k code st = (st, 0) := by
    intro st
    unfold lookupComposite
    apply foldl_id
    intro i _
    dsimp only
    rw [if_neg]
    rintro ⟨ha, _⟩
    rw [hk] at ha
    exact hc.composite i ha
  unfold lookupDescriptor
  rw [if_neg hp.2, h2, h1]
  unfold Config.role at hro
  dsimp only
  cases hd : (c.layer 0).keymap code <;> rw [hd] at hro
  case none =>
    rw [if_pos rfl]
    injection hro with hro
    rw [← hro]; rfl
  case keyseq x m =>
    rw [if_neg (by simp)]
    dsimp only at hro ⊢
    split at hro
    · rename_i hm
      injection hro with hro
      rw [← hro, hm]; rfl
    · cases hro
  case layer l =>
    rw [if_neg (by simp)]
    injection hro with hro
    rw [← hro]; rfl
  all_goals cases hro

theorem Inert.direct {c : Config} (hc : Typewriter c) {m : Machine} {k : Kbd} (h : Emul c m k) (code : Code) : Direct k code := by
  refine ⟨h.inert.pending, h.inert.state, ?_, ?_⟩
  · intro _ ac hac ha
    rw [h.inert.chords ac hac] at ha
    cases ha
  · intro _ i _ ha ch hch
    rw [h.inert.config] at hch
    by_cases hi : i = 0
    · subst hi
      rw [hc.main.2.1] at hch
      cases hch
    · rw [(h.lays.bare hc h.pads.roles hi ha).2] at hch
      cases hch

/-! ### What the actions do -/

theorem Lays.clearOneshot {held : List (Code × Role)} {k : Kbd} (h : Lays held k) (ht : k.oneshotTimeout = 0) :
    ∃ k', Keyd.clearOneshot k = .ok k' ∧ k' = { k with oneshotLatch := false, trace := k'.trace, layerState := k'.layerState } ∧ Lays held k' := by
  obtain ⟨k', hk'⟩ := clearOneshot_succeeds (k := k) (fun i _ => by rw [h.depth i]; omega)
  obtain ⟨ls, os, e, _, _, hls⟩ := clearOneshot_spec hk'
  have hls : ∀ i, ls i = k.layerState i := by
    intro i
    rw [hls i]
    split
    · have := h.depth i
      rcases hi : k.layerState i with ⟨a, b, c, d⟩
      rw [hi] at this
      dsimp only at this ⊢
      subst this
      rfl
    · rfl
  refine ⟨k', hk', ?_, ?_⟩
  · rw [e, ht]
  · rw [e]
    exact ⟨fun i => by dsimp only; rw [hls i]; exact h.active i, fun i => by dsimp only; rw [hls i]; exact h.depth i,
      by dsimp only; rw [hls 0]; exact h.main⟩

theorem keyseq_press {c : Config} (hc : Typewriter c) {m : Machine} {k : Kbd} (hi : Inert c k) (hp : Pads c m.held k) (hl : Lays m.held k)
    (ht : Types m k) {x : Code} (hx : isModifierKey x = false) (t : Int) :
    ∃ k', pdKeyseq k x 0 0 true t = .ok k' ∧ Emul c ((m.send x false).send x true) k' := by
  unfold pdKeyseq
  simp only [if_true]
  obtain ⟨k0, hk0⟩ : ∃ k0, k0 = (if k.keystate x = true then sendKey k x false else k) := ⟨_, rfl⟩
  have f0 : KeyFrame k k0 := by
    rw [hk0]; split
    · exact .send _ _ _
    · exact .refl _
  have t0 : Types (m.send x false) k0 := by
    rw [hk0]
    split
    · exact ht.send hx false
    · rename_i hf
      have : (m.send x false) = m := by
        unfold Machine.send
        rw [if_pos (.inr (.inr (by rw [← ht.down x hx]; simpa using hf)))]
      rw [this]; exact ht
  rw [← hk0]
  have f1 := KeyFrame.updateMods k0 (some 0) 0
  have f2 := KeyFrame.send (updateMods k0 (some 0) 0) x true
  have f := (f0.trans f1).trans f2
  have hh : ((m.send x false).send x true).held = m.held := by rw [send_held, send_held]
  have t2 : Types ((m.send x false).send x true) (sendKey (updateMods k0 (some 0) 0) x true) := (t0.mods _ _).send hx true
  have m2 : Mods c m (sendKey (updateMods k0 (some 0) 0) x true) :=
    (mods_updateMods hc (f0.config.trans hi.config) (hl.frame f0) hp.roles (.inr rfl)).send hx true
  obtain ⟨k3, e3, e4, l3⟩ := (hl.frame f).clearOneshot (hi.frame f).oneshot
  rw [e3, bind_ok]
  simp only [true_or, if_true]
  refine ⟨_, rfl, ?_⟩
  have t3 := typed_clearOneshot e3
  have i2 := hi.frame f
  have p2 := hp.frame f
  have hks : k3.keystate = (sendKey (updateMods k0 (some 0) 0) x true).keystate := by rw [e4]
  refine ⟨?_, ?_, ?_, ?_, ?_⟩
  · rw [e4]
    exact ⟨i2.config, i2.pending, i2.state, i2.chords, i2.oneshot, i2.macro_, i2.timeouts, i2.scroll⟩
  · rw [hh, e4]
    exact ⟨p2.length, p2.perm, p2.nodup, p2.roles⟩
  · rw [hh]
    exact ⟨l3.active, l3.depth, l3.main⟩
  · exact t2.quiet (Eq.trans (typed_of_trace rfl) t3) hks
  · intro mask key hm
    rw [wants_held hh]
    show k3.keystate key = true ↔ _
    rw [hks]
    exact m2 mask key hm

theorem keyseq_release {c : Config} (hc : Typewriter c) {m : Machine} {k : Kbd} (hi : Inert c k) (hp : Pads c m.held k) (hl : Lays m.held k)
    (ht : Types m k) {x : Code} (hx : isModifierKey x = false) (t : Int) :
    ∃ k', pdKeyseq k x 0 0 false t = .ok k' ∧ Emul c (m.send x false) k' := by
  unfold pdKeyseq
  rw [if_neg (by simp), bind_ok]
  simp only [true_or, if_true]
  refine ⟨_, rfl, ?_⟩
  have f0 := KeyFrame.send k x false
  have f := f0.trans (KeyFrame.updateMods (sendKey k x false) none 0)
  have hh : (m.send x false).held = m.held := send_held _ _ _
  have i2 := hi.frame f
  have p2 := hp.frame f
  have l2 := hl.frame f
  have t2 : Types (m.send x false) (updateMods (sendKey k x false) none 0) := (ht.send hx false).mods _ _
  have m2 := mods_updateMods hc (f0.config.trans hi.config) (hl.frame f0) hp.roles (ex := none) (.inl rfl)
  refine ⟨⟨i2.config, i2.pending, i2.state, i2.chords, i2.oneshot, i2.macro_, i2.timeouts, i2.scroll⟩, ?_, ?_, t2.quiet (typed_of_trace rfl) rfl, ?_⟩
  · rw [hh]; exact ⟨p2.length, p2.perm, p2.nodup, p2.roles⟩
  · rw [hh]; exact ⟨l2.active, l2.depth, l2.main⟩
  · exact Mods.held (m := m) m2 hh

theorem layer_mods {c : Config} (hc : Typewriter c) {m : Machine} {k : Kbd} (hi : Inert c k) (hp : Pads c m.held k) (hl : Lays m.held k)
    (ht : Types m k) (code : Code) :
    ∃ k', (if k.lastPressedCode = code then
        let k := updateMods { k with inhibitModifierGuard := true } none 0
        Except.ok { k with inhibitModifierGuard := false }
      else .ok (updateMods k none 0) : Res Kbd) = .ok k' ∧ Emul c m k' := by
  have key : ∀ b b' : Bool, Emul c m { updateMods { k with inhibitModifierGuard := b } none 0 with inhibitModifierGuard := b' } := by
    intro b b'
    have f := KeyFrame.updateMods { k with inhibitModifierGuard := b } none 0
    have i1 : Inert c { k with inhibitModifierGuard := b } := ⟨hi.config, hi.pending, hi.state, hi.chords, hi.oneshot, hi.macro_, hi.timeouts, hi.scroll⟩
    have l1 : Lays m.held { k with inhibitModifierGuard := b } := ⟨hl.active, hl.depth, hl.main⟩
    have p1 : Pads c m.held { k with inhibitModifierGuard := b } := ⟨hp.length, hp.perm, hp.nodup, hp.roles⟩
    have t1 : Types m { k with inhibitModifierGuard := b } := ht.quiet (typed_of_trace rfl) rfl
    have i2 := i1.frame f
    have l2 := l1.frame f
    have p2 := p1.frame f
    have m2 := mods_updateMods hc (k := { k with inhibitModifierGuard := b }) hi.config l1 hp.roles (ex := none) (.inl rfl)
    exact ⟨⟨i2.config, i2.pending, i2.state, i2.chords, i2.oneshot, i2.macro_, i2.timeouts, i2.scroll⟩, ⟨p2.length, p2.perm, p2.nodup, p2.roles⟩,
      ⟨l2.active, l2.depth, l2.main⟩, (t1.mods none 0).quiet (typed_of_trace rfl) rfl, m2⟩
  split
  · exact ⟨_, rfl, key true false⟩
  · refine ⟨_, rfl, ?_⟩
    have h := key k.inhibitModifierGuard (updateMods k none 0).inhibitModifierGuard
    exact h

theorem layer_press {c : Config} (hc : Typewriter c) {m : Machine} {k : Kbd} {code : Code} {l : Nat} (hi : Inert c k)
    (hp : Pads c ((code, .hold l) :: m.held) k) (hl : Lays m.held k) (ht : Types m k) :
    ∃ k', pdLayer k code l true = .ok k' ∧ Emul c { m with held := (code, .hold l) :: m.held } k' := by
  have hlen : m.held.length < 16 := by
    have := hp.used
    have h2 := List.countP_le_length (p := fun e : CacheEntry => decide (e.code ≠ 0)) (l := k.cache)
    rw [hp.length] at h2
    simp only [List.length_cons] at this
    omega
  have hact : (k.layerState l).active < 255 := by
    rw [hl.active l]
    have := List.countP_le_length (p := fun p : Code × Role => decide (p.2 = .hold l)) (l := m.held)
    split <;> omega
  unfold pdLayer
  simp only [if_true]
  cases ha : activateLayer k code l with
  | error e =>
    exfalso
    unfold activateLayer at ha
    dsimp only at ha
    rw [if_neg (by omega)] at ha
    cases ha
  | ok k1 =>
    rw [bind_ok]
    have hty := typed_activateLayer ha
    obtain ⟨hlpos, _, _, _⟩ := hc.bare _ _ (hp.roles (code, .hold l) (by simp)).1 (hp.roles (code, .hold l) (by simp)).2
    have hcalm : Calm k k1 := Sat.of_ok (Calm.activate k code l) ha
    obtain ⟨cache', e⟩ := activateLayer_ok ha
    refine layer_mods hc (m := { m with held := (code, .hold l) :: m.held }) ?_ ?_ ?_ ?_ code
    · rw [e]; exact ⟨hi.config, hi.pending, hi.state, hi.chords, hi.oneshot, hi.macro_, hi.timeouts, hi.scroll⟩
    · refine ⟨?_, ?_, hp.nodup, hp.roles⟩
      · have := congrArg List.length hcalm.cache
        rw [List.length_map, List.length_map, hp.length] at this
        exact this
      · rw [hcalm.cache]; exact hp.perm
    · rw [e]
      refine ⟨fun i => ?_, fun i => ?_, ?_⟩
      · dsimp only
        rw [upd_apply, List.countP_cons]
        by_cases hil : i = l
        · subst hil
          rw [if_pos rfl]
          simp only [decide_true, if_true]
          rw [hl.active i]
          omega
        · rw [if_neg hil, hl.active i]
          simp [Ne.symm hil]
      · dsimp only
        rw [upd_apply]
        split
        · rename_i e; rw [← e]; exact hl.depth i
        · exact hl.depth i
      · dsimp only
        rw [upd_apply, if_neg (by omega)]
        exact hl.main
    · have h := ht.quiet hty (by rw [e])
      exact ⟨h.out, h.down⟩

theorem filter_held {held : List (Code × Role)} (hn : (held.map Prod.fst).Nodup) {code : Code} {r : Role} (h : (code, r) ∈ held)
    (q : Role → Bool) : held.countP (fun p => q p.2) = (held.filter (fun p => p.1 ≠ code)).countP (fun p => q p.2) + if q r then 1 else 0 := by
  induction held with
  | nil => cases h
  | cons p l ih =>
    rw [List.map_cons, List.nodup_cons] at hn
    rcases List.mem_cons.1 h with rfl | h
    · rw [List.filter_cons_of_neg (by simp), List.countP_cons]
      have : l.filter (fun p => decide (p.1 ≠ code)) = l := by
        rw [List.filter_eq_self]
        intro a ha
        have : a.1 ≠ code := fun e => hn.1 (by rw [← e]; exact List.mem_map.2 ⟨a, ha, rfl⟩)
        simpa using this
      rw [this]
    · have hpc : p.1 ≠ code := fun e => hn.1 (e ▸ List.mem_map.2 ⟨_, h, rfl⟩)
      rw [List.filter_cons_of_pos (by simpa using hpc), List.countP_cons, List.countP_cons, ih hn.2 h]
      omega

theorem layer_release {c : Config} (hc : Typewriter c) {m : Machine} {k : Kbd} {code : Code} {l : Nat} (hi : Inert c k)
    (hr : ∀ p ∈ m.held, Physical p.1 ∧ c.role p.1 = some p.2)
    (hn : (m.held.map Prod.fst).Nodup) (hm : (code, Role.hold l) ∈ m.held)
    (hp : Pads c (m.held.filter (fun p => p.1 ≠ code)) k) (hl : Lays m.held k) (ht : Types m k) :
    ∃ k', pdLayer k code l false = .ok k' ∧ Emul c { m with held := m.held.filter (fun p => p.1 ≠ code) } k' := by
  have hcount : ∀ i, m.held.countP (fun p => p.2 = .hold i) =
      (m.held.filter (fun p => p.1 ≠ code)).countP (fun p => p.2 = .hold i) + if i = l then 1 else 0 := by
    intro i
    rw [filter_held hn hm (fun r => r = .hold i)]
    by_cases h : i = l
    · subst h; simp
    · simp [h, Ne.symm h]
  unfold pdLayer
  rw [if_neg (by simp)]
  have hd : deactivateLayer k l = .ok ((k.modLayer l fun s => { s with active := s.active - 1 }).emit (.layer l false)) := by
    refine deactivateLayer_ok.2 ⟨?_, rfl⟩
    rw [hl.active l, hcount l, if_pos rfl]
    omega
  rw [hd, bind_ok]
  have hlpos : 0 < l := (hc.bare _ _ (hr _ hm).1 (hr _ hm).2).1
  refine layer_mods hc (m := { m with held := m.held.filter (fun p => p.1 ≠ code) }) ?_ ?_ ?_ ?_ code
  · exact ⟨hi.config, hi.pending, hi.state, hi.chords, hi.oneshot, hi.macro_, hi.timeouts, hi.scroll⟩
  · exact ⟨hp.length, hp.perm, hp.nodup, hp.roles⟩
  · refine ⟨fun i => ?_, fun i => ?_, ?_⟩
    · show ((upd k.layerState l _) i).active = _
      rw [upd_apply]
      have h1 := hl.active i
      rw [hcount i] at h1
      by_cases hil : i = l
      · subst hil
        rw [if_pos rfl] at h1 ⊢
        show (k.layerState i).active - 1 = _
        rw [h1]
        dsimp only
        omega
      · rw [if_neg hil] at h1 ⊢
        omega
    · show ((upd k.layerState l _) i).oneshotDepth = _
      rw [upd_apply]
      split
      · exact hl.depth l
      · exact hl.depth i
    · show ((upd k.layerState l _) 0).activationTime = _
      rw [upd_apply, if_neg (by omega)]
      exact hl.main
  · have h := ht.quiet (typed_deactivateLayer hd) rfl
    exact ⟨h.out, h.down⟩

/-! ### Events -/

theorem Emul.entry {c : Config} {m : Machine} {k : Kbd} (h : Emul c m k) (code : Code) (p : Bool) (t : Int) : Emul c m (directEntry k code p t) :=
  ⟨⟨h.inert.config, h.inert.pending, h.inert.state, h.inert.chords, h.inert.oneshot, h.inert.macro_, h.inert.timeouts, h.inert.scroll⟩,
   ⟨h.pads.length, h.pads.perm, h.pads.nodup, h.pads.roles⟩, ⟨h.lays.active, h.lays.depth, h.lays.main⟩,
   h.types.quiet (typed_of_trace rfl) rfl, h.mods⟩

theorem Emul.log {c : Config} {m : Machine} {k : Kbd} (h : Emul c m k) (s : Step) : Emul c m (k.log s) :=
  ⟨⟨h.inert.config, h.inert.pending, h.inert.state, h.inert.chords, h.inert.oneshot, h.inert.macro_, h.inert.timeouts, h.inert.scroll⟩,
   ⟨h.pads.length, h.pads.perm, h.pads.nodup, h.pads.roles⟩, ⟨h.lays.active, h.lays.depth, h.lays.main⟩,
   h.types.quiet (typed_of_trace rfl) rfl, h.mods⟩

theorem Emul.last {c : Config} {m : Machine} {k : Kbd} (h : Emul c m k) (b : Prop) [Decidable b] (x : Code) :
    Emul c m (if b then { k with lastPressedCode := x } else k) := by
  split
  · exact ⟨⟨h.inert.config, h.inert.pending, h.inert.state, h.inert.chords, h.inert.oneshot, h.inert.macro_, h.inert.timeouts, h.inert.scroll⟩,
     ⟨h.pads.length, h.pads.perm, h.pads.nodup, h.pads.roles⟩, ⟨h.lays.active, h.lays.depth, h.lays.main⟩,
     h.types.quiet (typed_of_trace rfl) rfl, h.mods⟩
  · exact h

theorem Lays.key {held : List (Code × Role)} {k : Kbd} (h : Lays held k) (code x : Code) : Lays ((code, .key x) :: held) k := by
  refine ⟨fun i => ?_, h.depth, h.main⟩
  rw [List.countP_cons_of_neg (by simp)]
  exact h.active i

theorem stepKey_emul {c : Config} (hc : Typewriter c) {m : Machine} {k : Kbd} (h : Emul c m k) {ev : KeyEvent}
    (hev : ev.code = 0 ∨ Physical ev.code) :
    ∃ k', stepKey k ev.code ev.pressed ev.ts = .ok k' ∧ Emul c (m.step c ev) k' := by
  unfold stepKey Machine.step
  obtain ⟨code, pressed, t⟩ := ev
  dsimp only at hev ⊢
  by_cases h0 : code = 0
  · rw [if_pos h0, if_pos h0]; exact ⟨k, rfl, h⟩
  have hph : Physical code := by rcases hev with hev | hev; exacts [absurd hev h0, hev]
  rw [if_neg h0, if_neg h0]
  cases pressed with
  | true =>
    simp only [if_true, true_and]
    cases hg : cacheGet k code with
    | some ce =>
      obtain ⟨r, hm, _⟩ := h.pads.get h0 hg
      rw [find_held h.pads.nodup hm]
      simp only [Option.isSome_some, if_true]
      exact ⟨_, rfl, h.log _⟩
    | none =>
      rw [find_not_held (h.pads.get_none hg)]
      simp only [Option.isSome_none, Bool.false_eq_true, if_false]
      obtain ⟨r, hr⟩ := Option.isSome_iff_exists.1 (hc.roles code hph)
      rw [lookup_role hc h.inert.config h.lays h.pads.roles hph hr]
      dsimp only
      by_cases hlen : m.held.length < 16
      · obtain ⟨cache', hset, hpads⟩ := h.pads.put hph hr hg hlen
        rw [hset, if_pos hlen, hr]
        dsimp only
        obtain ⟨k1, hk1⟩ : ∃ k1, k1 = ({ k with cache := cache' } : Kbd).log (.key code true t (some (r.desc, 0))) := ⟨_, rfl⟩
        rw [← hk1]
        have i1 : Inert c k1 := by
          rw [hk1]
          exact ⟨h.inert.config, h.inert.pending, h.inert.state, h.inert.chords, h.inert.oneshot, h.inert.macro_, h.inert.timeouts, h.inert.scroll⟩
        have p1 : Pads c ((code, r) :: m.held) k1 := by
          rw [hk1]
          exact ⟨hpads.length, hpads.perm, hpads.nodup, hpads.roles⟩
        have l1 : Lays m.held k1 := by
          rw [hk1]
          exact ⟨h.lays.active, h.lays.depth, h.lays.main⟩
        have t1 : Types m k1 := by
          rw [hk1]
          exact h.types.quiet (typed_of_trace rfl) rfl
        unfold descBudget processDescriptor
        cases r with
        | key x =>
          obtain ⟨k2, e2, h2⟩ := keyseq_press hc (m := { m with held := (code, .key x) :: m.held }) i1 p1 (l1.key code x)
            ⟨t1.out, t1.down⟩ (hc.keys code x hph hr) t
          show ∃ k', ((pdKeyseq k1 x 0 0 true t).bind fun k => _) = _ ∧ _
          rw [e2]
          exact ⟨_, rfl, h2.last _ _⟩
        | hold l =>
          obtain ⟨k2, e2, h2⟩ := layer_press hc i1 p1 l1 t1
          show ∃ k', ((pdLayer k1 code l true).bind fun k => _) = _ ∧ _
          rw [e2]
          exact ⟨_, rfl, h2.last _ _⟩
      · rw [h.pads.full hg hlen, if_neg hlen]
        exact ⟨_, rfl, h.log _⟩
  | false =>
    simp only [Bool.false_eq_true, if_false, false_and]
    cases hg : cacheGet k code with
    | none =>
      rw [find_not_held (h.pads.get_none hg)]
      exact ⟨_, rfl, h.log _⟩
    | some ce =>
      obtain ⟨r, hm, hce⟩ := h.pads.get h0 hg
      rw [find_held h.pads.nodup hm]
      obtain ⟨cache', hset, hpads⟩ := h.pads.drop h0 hg
      rw [hset, hce]
      dsimp only [Option.getD_some]
      obtain ⟨k1, hk1⟩ : ∃ k1, k1 = ({ k with cache := cache' } : Kbd).log (.key code false t (some (r.desc, 0))) := ⟨_, rfl⟩
      rw [← hk1]
      have i1 : Inert c k1 := by
        rw [hk1]
        exact ⟨h.inert.config, h.inert.pending, h.inert.state, h.inert.chords, h.inert.oneshot, h.inert.macro_, h.inert.timeouts, h.inert.scroll⟩
      have p1 : Pads c (m.held.filter (fun p => p.1 ≠ code)) k1 := by
        rw [hk1]
        exact ⟨hpads.length, hpads.perm, hpads.nodup, hpads.roles⟩
      have l1 : Lays m.held k1 := by
        rw [hk1]
        exact ⟨h.lays.active, h.lays.depth, h.lays.main⟩
      have t1 : Types m k1 := by
        rw [hk1]
        exact h.types.quiet (typed_of_trace rfl) rfl
      have hro := h.pads.roles _ hm
      unfold descBudget processDescriptor
      cases r with
      | key x =>
        have l2 : Lays (m.held.filter (fun p => p.1 ≠ code)) k1 := by
          refine ⟨fun i => ?_, l1.depth, l1.main⟩
          rw [l1.active i]
          have := filter_held h.pads.nodup hm (fun r => r = .hold i)
          simp only [reduceCtorEq, decide_false, Bool.false_eq_true, if_false, Nat.add_zero] at this
          rw [this]
        obtain ⟨k2, e2, h2⟩ := keyseq_release hc (m := { m with held := m.held.filter (fun p => p.1 ≠ code) }) i1 p1 l2
          ⟨t1.out, t1.down⟩ (hc.keys code x hro.1 hro.2) t
        show ∃ k', ((pdKeyseq k1 x 0 0 false t).bind fun k => _) = _ ∧ _
        rw [e2]
        exact ⟨_, rfl, h2.last _ _⟩
      | hold l =>
        obtain ⟨k2, e2, h2⟩ := layer_release hc i1 h.pads.roles h.pads.nodup hm p1 l1 t1
        show ∃ k', ((pdLayer k1 code l false).bind fun k => _) = _ ∧ _
        rw [e2]
        exact ⟨_, rfl, h2.last _ _⟩

theorem processEvent_emul {c : Config} (hc : Typewriter c) {m : Machine} {k : Kbd} (h : Emul c m k) {ev : KeyEvent}
    (hev : ev.code = 0 ∨ Physical ev.code) (n : Nat) :
    ∃ k', processEvent (n+1) k ev.code ev.pressed ev.ts = .ok (k', 0) ∧ Emul c (m.step c ev) k' := by
  rw [processEvent_direct (Inert.direct hc h ev.code)]
  have h1 := h.entry ev.code ev.pressed ev.ts
  have ht : stepTimers (directEntry k ev.code ev.pressed ev.ts) ev.code ev.ts = .ok (directEntry k ev.code ev.pressed ev.ts) := by
    unfold stepTimers
    rw [if_neg (fun e => e.1 h1.inert.oneshot), bind_ok, h1.inert.macro_]
  rw [ht, bind_ok]
  obtain ⟨k2, e2, h2⟩ := stepKey_emul hc h1 hev
  rw [e2, bind_ok]
  have : calculateMainLoopTimeout k2 ev.ts = (k2, 0) := by
    unfold calculateMainLoopTimeout
    have e : ∀ (k2 : Kbd), k2.timeouts = [] → ({ k2 with timeouts := [] } : Kbd) = k2 := by
      intro k2 h; rw [← h]
    rw [h2.inert.timeouts]
    simp only [List.filter_nil, List.foldl_nil, if_true]
    rw [e _ h2.inert.timeouts]
  rw [this]
  exact ⟨k2, rfl, h2⟩

theorem loop_emul {c : Config} (hc : Typewriter c) (n : Nat) : ∀ (evs : List KeyEvent) (m : Machine) (k : Kbd) (ts : Int), Emul c m k →
    (∀ ev ∈ evs, ev.code = 0 ∨ Physical ev.code) →
    ∃ k', processEventsLoop (processEvent (n+1)) evs k 0 ts = .ok (k', 0) ∧ Emul c (evs.foldl (Machine.step c) m) k'
  | [], m, k, ts, h, _ => ⟨k, rfl, h⟩
  | ev :: evs, m, k, ts, h, hev => by
    obtain ⟨k1, e1, h1⟩ := processEvent_emul hc h (hev ev (by simp)) n
    obtain ⟨k2, e2, h2⟩ := loop_emul hc n evs _ k1 (ev.ts + 0) h1 (fun e he => hev e (by simp [he]))
    refine ⟨k2, ?_, h2⟩
    unfold processEventsLoop
    have : catchUp (processEvent (n+1)) ((ev.ts - ts).toNat + 2) k 0 ts ev.ts = .ok (k, 0, ts) := by
      unfold catchUp
      rw [if_neg (by omega)]
    rw [this, bind_ok]
    dsimp only
    rw [e1, bind_ok]
    exact e2

theorem emul_start {c : Config} (hc : Typewriter c) : Emul c {} (newKeyboard c) := by
  have hls : (newKeyboard c).layerState = upd (fun _ => {}) 0 { active := 1, activationTime := 0 } := by
    unfold newKeyboard
    simp only [hc.layout, ne_eq, not_true, if_false]
  refine ⟨⟨rfl, rfl, rfl, ?_, rfl, rfl, rfl, rfl⟩, ⟨rfl, ?_, List.nodup_nil, by simp⟩, ⟨?_, ?_, ?_⟩, ⟨rfl, fun _ _ => rfl⟩, ?_⟩
  · intro ac h
    have : ac ∈ List.replicate 3 ({} : ActiveChord) := h
    rw [List.eq_of_mem_replicate this]
  · have : ((newKeyboard c).cache.map CacheEntry.strip).filter (fun e => e.code ≠ 0) = [] := by
      show ((List.replicate 16 ({} : CacheEntry)).map CacheEntry.strip).filter (fun e => e.code ≠ 0) = []
      decide
    rw [this]
    exact List.Perm.refl _
  · intro i
    rw [hls, upd_apply]
    split
    · rename_i e; simp [e]
    · rename_i e; simp [e]
  · intro i
    rw [hls, upd_apply]
    split <;> rfl
  · rw [hls]; rfl
  · intro mask key hm
    constructor
    · intro h; exact absurd (show false = true from h) (by simp)
    · rintro ⟨p, hp, _⟩; cases hp

/-- C07. When the configuration only remaps keys and holds modifier layers, then for every sequence of
events, in one batch or spread over many, with any timestamps: the engine processes it without error,
never asks to be woken up, and has typed exactly what the remapping machine types; the keys down
are those down on the machine, and a modifier is down exactly when a key holding a layer
with that modifier is held. -/
theorem C07_refines {c : Config} (hc : Typewriter c) (n : Nat) (evs : List KeyEvent)
    (hev : ∀ ev ∈ evs, ev.code = 0 ∨ Physical ev.code) :
    ∃ k, kbdProcessEvents (n+1) (newKeyboard c) evs = .ok (k, 0) ∧
      k.typed = (Machine.run c evs).out ∧
      (∀ x, isModifierKey x = false → k.keystate x = (Machine.run c evs).down x) ∧
      ∀ mask key, (mask, key) ∈ modifierKeys → (k.keystate key = true ↔ (Machine.run c evs).wants c mask) := by
  obtain ⟨k, h1, h2⟩ := loop_emul hc n evs {} (newKeyboard c) 0 (emul_start hc) hev
  exact ⟨k, h1, h2.types.out, h2.types.down, h2.mods⟩

/-- C07. The same when the events come in many batches, between which bindings are looked at or changed
back. -/
theorem C07_any_batches {c : Config} (hc : Typewriter c) {evs : List KeyEvent} {k : Kbd} (h : Fed (fun c' => c' = c) evs k)
    (hev : ∀ ev ∈ evs, ev.code = 0 ∨ Physical ev.code) :
    k.typed = (Machine.run c evs).out ∧
      (∀ x, isModifierKey x = false → k.keystate x = (Machine.run c evs).down x) ∧
      ∀ mask key, (mask, key) ∈ modifierKeys → (k.keystate key = true ↔ (Machine.run c evs).wants c mask) := by
  have key : Emul c (Machine.run c evs) k := by
    induction h with
    | init c' h => subst h; exact emul_start hc
    | events fuel k before evs k' wait h run ih =>
      have ih := ih (fun ev he => hev ev (List.mem_append_left _ he))
      have he : ∀ ev ∈ evs, ev.code = 0 ∨ Physical ev.code := fun ev he => hev ev (List.mem_append_right _ he)
      have hrun : Machine.run c (before ++ evs) = evs.foldl (Machine.step c) (Machine.run c before) := List.foldl_append ..
      rw [hrun]
      cases evs with
      | nil =>
        injection run with run
        have : k = k' := congrArg Prod.fst run
        subst this
        exact ih
      | cons ev rest =>
        cases fuel with
        | zero =>
          exfalso
          have : kbdProcessEvents 0 k (ev :: rest) = .error .fuel := by
            unfold kbdProcessEvents processEventsWith processEventsLoop
            have : catchUp (processEvent 0) ((ev.ts - 0).toNat + 2) k 0 0 ev.ts = .ok (k, 0, 0) := by
              unfold catchUp
              rw [if_neg (by omega)]
            rw [this, bind_ok]
            rfl
          rw [this] at run
          cases run
        | succ n =>
          obtain ⟨k2, e2, h2⟩ := loop_emul hc n (ev :: rest) _ k 0 ih he
          have : (k2, (0 : Int)) = (k', wait) := by
            have := e2.symm.trans run
            injection this
          have : k2 = k' := congrArg Prod.fst this
          subst this
          exact h2
    | bind k before exp k' accepted h run hcf ih =>
      have ih := ih hev
      have e := kbdEval_frame run
      rw [e]
      exact ⟨⟨hcf, ih.inert.pending, ih.inert.state, ih.inert.chords, ih.inert.oneshot, ih.inert.macro_, ih.inert.timeouts, ih.inert.scroll⟩,
        ⟨ih.pads.length, ih.pads.perm, ih.pads.nodup, ih.pads.roles⟩, ⟨ih.lays.active, ih.lays.depth, ih.lays.main⟩,
        ih.types.quiet (typed_of_trace rfl) rfl, ih.mods⟩
    | scroll k before s h hs ih =>
      have ih := ih hev
      exact ⟨⟨ih.inert.config, ih.inert.pending, ih.inert.state, ih.inert.chords, ih.inert.oneshot, ih.inert.macro_, ih.inert.timeouts, hs.trans ih.inert.scroll⟩,
        ⟨ih.pads.length, ih.pads.perm, ih.pads.nodup, ih.pads.roles⟩, ⟨ih.lays.active, ih.lays.depth, ih.lays.main⟩,
        ih.types.quiet (typed_of_trace rfl) rfl, ih.mods⟩
  exact ⟨key.types.out, key.types.down, key.mods⟩

/-! ### Keys that stand for themselves -/

/-- The machine on keys that stand for themselves. -/
structure Echo (c : Config) (ks : List Code) (m : Machine) : Prop where
  held : m.held.map Prod.fst = ks
  roles : ∀ p ∈ m.held, c.role p.1 = some p.2 ∧ ∀ x, p.2 = .key x → x = p.1
  down : ∀ x, m.down x = true ↔ x ∈ ks ∧ c.role x = some (.key x)

theorem find_fst {held : List (Code × Role)} {code : Code} (h : code ∈ held.map Prod.fst) :
    ∃ r, held.find? (fun p => p.1 = code) = some (code, r) ∧ (code, r) ∈ held := by
  cases hf : held.find? (fun p => p.1 = code) with
  | none =>
    obtain ⟨p, hp, e⟩ := List.mem_map.1 h
    rw [List.find?_eq_none] at hf
    exact absurd (by simpa using e) (hf p hp)
  | some p =>
    have h1 : p.1 = code := by simpa using List.find?_some hf
    have h2 := List.mem_of_find?_eq_some hf
    obtain ⟨pc, pr⟩ := p
    dsimp only at h1
    subst h1
    exact ⟨pr, rfl, h2⟩

theorem echo_run {c : Config} : ∀ (evs : List KeyEvent) (held : List Code) (m : Machine), Echo c held m → Typing held evs →
    (∀ ev ∈ evs, ev.code ≠ 0 ∧ RealKey ev.code ∧ (c.role ev.code = some (.key ev.code) ∨ ∃ l, c.role ev.code = some (.hold l))) →
    (evs.foldl (Machine.step c) m).out =
      m.out ++ evs.filterMap (fun ev => if c.role ev.code = some (.key ev.code) then some (ev.code, ev.pressed) else none)
  | [], _, m, _, _, _ => by simp
  | ev :: evs, held, m, h, ht, hev => by
    obtain ⟨h0, hreal, hrole⟩ := hev ev (by simp)
    have hrest : ∀ e ∈ evs, e.code ≠ 0 ∧ RealKey e.code ∧ (c.role e.code = some (.key e.code) ∨ ∃ l, c.role e.code = some (.hold l)) :=
      fun e he => hev e (by simp [he])
    rw [List.foldl_cons, List.filterMap_cons]
    obtain ⟨code, pressed, ts⟩ := ev
    dsimp only at h0 hreal hrole ⊢
    unfold Typing at ht
    dsimp only at ht
    cases pressed with
    | true =>
      simp only [if_true] at ht
      obtain ⟨t1, t2, t3⟩ := ht
      have hlen : m.held.length < 16 := by rw [← h.held, List.length_map] at t2; exact t2
      have hnot : m.held.find? (fun p => p.1 = code) = none :=
        find_not_held (fun p hp e => t1 (by rw [← h.held, ← e]; exact List.mem_map_of_mem hp))
      have hstep : ∀ r, c.role code = some r → m.step c ⟨code, true, ts⟩ = { m with held := (code, r) :: m.held }.strike r := by
        intro r hr
        unfold Machine.step
        dsimp only
        rw [if_neg h0, hnot]
        dsimp only
        rw [if_pos ⟨rfl, hlen⟩, hr]
      rcases hrole with hr | ⟨l, hr⟩
      · rw [hstep _ hr, if_pos hr]
        have hd : m.down code = false := by
          cases hd : m.down code with
          | false => rfl
          | true => exact absurd ((h.down code).1 hd).1 t1
        have e1 : ({ m with held := (code, .key code) :: m.held } : Machine).strike (.key code) =
            { held := (code, .key code) :: m.held, down := fun y => if y = code then true else m.down y, out := m.out ++ [(code, true)] } := by
          unfold Machine.strike
          dsimp only
          have : ({ m with held := (code, .key code) :: m.held } : Machine).send code false = { m with held := (code, .key code) :: m.held } := by
            unfold Machine.send
            rw [if_pos (.inr (.inr hd))]
          rw [this]
          unfold Machine.send
          rw [if_neg]
          rintro (e | e | e)
          · exact hreal.1 e
          · exact hreal.2 e
          · rw [show m.down code = true from e] at hd; cases hd
        rw [e1, echo_run evs (code :: held) _ ?_ t3 hrest]
        · simp
        · refine ⟨by simp [h.held], ?_, ?_⟩
          · intro p hp
            rcases List.mem_cons.1 hp with rfl | hp
            · exact ⟨hr, fun x e => by injection e with e; exact e.symm⟩
            · exact h.roles p hp
          · intro x
            show (if x = code then true else m.down x) = true ↔ _
            by_cases hx : x = code
            · subst hx; simp [hr]
            · rw [if_neg hx, h.down x, List.mem_cons]
              simp [hx]
      · rw [hstep _ hr, if_neg (by rw [hr]; simp)]
        show (evs.foldl (Machine.step c) { m with held := (code, .hold l) :: m.held }).out = _
        rw [echo_run evs (code :: held) _ ?_ t3 hrest]
        refine ⟨by simp [h.held], ?_, ?_⟩
        · intro p hp
          rcases List.mem_cons.1 hp with rfl | hp
          · exact ⟨hr, fun x e => by cases e⟩
          · exact h.roles p hp
        · intro x
          show m.down x = true ↔ _
          rw [h.down x, List.mem_cons]
          by_cases hx : x = code
          · subst hx; simp [hr]
          · simp [hx]
    | false =>
      simp only [Bool.false_eq_true, if_false] at ht
      obtain ⟨t1, t2⟩ := ht
      obtain ⟨r, hf, hm⟩ := find_fst (held := m.held) (code := code) (by rw [h.held]; exact t1)
      have hro := h.roles _ hm
      have hstep : m.step c ⟨code, false, ts⟩ = { m with held := m.held.filter (fun p => p.1 ≠ code) }.lift r := by
        unfold Machine.step
        dsimp only
        rw [if_neg h0, hf]
        simp only [Bool.false_eq_true, if_false]
      have hheld : (m.held.filter (fun p => p.1 ≠ code)).map Prod.fst = held.filter (· ≠ code) := by
        rw [← h.held, List.filter_map]; rfl
      rw [hstep]
      cases r with
      | key x =>
        have hx : x = code := hro.2 x rfl
        subst hx
        have hr : c.role x = some (.key x) := hro.1
        rw [if_pos hr]
        have hd : m.down x = true := (h.down x).2 ⟨t1, hr⟩
        have e1 : ({ m with held := m.held.filter (fun p => p.1 ≠ x) } : Machine).lift (.key x) =
            { held := m.held.filter (fun p => p.1 ≠ x), down := fun y => if y = x then false else m.down y, out := m.out ++ [(x, false)] } := by
          unfold Machine.lift Machine.send
          dsimp only
          rw [if_neg]
          rintro (e | e | e)
          · exact hreal.1 e
          · exact hreal.2 e
          · rw [hd] at e; cases e
        rw [e1, echo_run evs _ _ ?_ t2 hrest]
        · simp
        · refine ⟨hheld, fun p hp => h.roles p (List.mem_filter.1 hp).1, ?_⟩
          intro y
          show (if y = x then false else m.down y) = true ↔ _
          by_cases hy : y = x
          · subst hy; simp
          · rw [if_neg hy, h.down y]
            simp [hy]
      | hold l =>
        have hr : c.role code = some (.hold l) := hro.1
        rw [if_neg (by rw [hr]; simp)]
        show (evs.foldl (Machine.step c) { m with held := m.held.filter (fun p => p.1 ≠ code) }).out = _
        rw [echo_run evs _ _ ?_ t2 hrest]
        refine ⟨hheld, fun p hp => h.roles p (List.mem_filter.1 hp).1, ?_⟩
        intro y
        show m.down y = true ↔ _
        rw [h.down y]
        by_cases hy : y = code
        · subst hy; simp [hr]
        · simp [hy]

/-- C07. Typing on keys that stand for themselves, and on keys that hold modifier layers: what is typed
is exactly the input without the keys that hold layers. -/
theorem C07_passthrough {c : Config} (hc : Typewriter c) (n : Nat) (evs : List KeyEvent) (ht : Typing [] evs)
    (hev : ∀ ev ∈ evs, Physical ev.code ∧ RealKey ev.code ∧
      (c.role ev.code = some (.key ev.code) ∨ ∃ l, c.role ev.code = some (.hold l))) :
    ∃ k, kbdProcessEvents (n+1) (newKeyboard c) evs = .ok (k, 0) ∧
      k.typed = evs.filterMap (fun ev => if c.role ev.code = some (.key ev.code) then some (ev.code, ev.pressed) else none) := by
  obtain ⟨k, h1, h2, _⟩ := C07_refines hc n evs (fun ev he => .inr (hev ev he).1)
  refine ⟨k, h1, ?_⟩
  rw [h2]
  unfold Machine.run
  rw [echo_run evs [] {} ?_ ht (fun ev he => ⟨(hev ev he).1.1, (hev ev he).2⟩)]
  · rfl
  · exact ⟨rfl, fun p hp => (by cases hp), fun x => by simp⟩

/-! ### Examples -/

def typewriterB (c : Config) : Bool :=
  allCodes.all (fun code => (decide (code = 0) || decide (KEYD.CHORD_1 ≤ code ∧ code ≤ KEYD.CHORD_MAX)) ||
    match c.role code with
    | some (.key x) => !isModifierKey x
    | some (.hold l) => decide (0 < l ∧ l < c.layers.length) && allCodes.all (fun x => decide ((c.layer l).keymap x = .none)) &&
        decide ((c.layer l).chords = [])
    | none => false) &&
  c.layers.all (fun l => decide (l.type ≠ .composite)) &&
  decide (0 < c.layers.length ∧ (c.layer 0).chords = [] ∧ (c.layer 0).mods = 0 ∧ c.defaultLayout = [])

theorem typewriter_of_check {c : Config} (h : typewriterB c = true) : Typewriter c := by
  unfold typewriterB at h
  simp only [Bool.and_eq_true, decide_eq_true_eq, List.all_eq_true] at h
  obtain ⟨⟨h1, h2⟩, h3, h4, h5, h6⟩ := h
  have h1' : ∀ code, Physical code → (match c.role code with
    | some (.key x) => !isModifierKey x
    | some (.hold l) => decide (0 < l ∧ l < c.layers.length) && allCodes.all (fun x => decide ((c.layer l).keymap x = .none)) &&
        decide ((c.layer l).chords = [])
    | none => false) = true := by
    intro code hp
    have := h1 code (mem_allCodes code)
    rw [Bool.or_eq_true, Bool.or_eq_true, decide_eq_true_eq, decide_eq_true_eq] at this
    rcases this with (e | e) | e
    · exact absurd e hp.1
    · exact absurd e hp.2
    · exact e
  refine ⟨?_, ?_, ?_, ?_, ⟨h3, h4, h5⟩, h6⟩
  · intro code hp
    have := h1' code hp
    cases hr : c.role code with
    | none => rw [hr] at this; cases this
    | some r => rfl
  · intro code x hp hr
    have := h1' code hp
    rw [hr] at this
    simpa using this
  · intro code l hp hr
    have := h1' code hp
    rw [hr] at this
    simp only [Bool.and_eq_true, decide_eq_true_eq, List.all_eq_true] at this
    exact ⟨this.1.1.1, this.1.1.2, fun x => this.1.2 x (mem_allCodes x), this.2⟩
  · intro i
    by_cases hi : i < c.layers.length
    · rw [config_layer_some (List.getElem?_eq_getElem hi)]
      exact h2 _ (List.getElem_mem hi)
    · have : c.layer i = {} := by
        unfold Config.layer
        rw [List.getD_eq_getElem?_getD, List.getElem?_eq_none (by omega)]
        rfl
      rw [this]
      exact fun e => by cases e

/-- The configuration without bindings is covered ... -/
theorem C07_example_empty : ((textConfig b!"").map typewriterB) = some true := by
  set_option maxRecDepth 100000 in decide +kernel

/-- ... in it, letters stand for themselves and the control keys hold the control layer. -/
theorem C07_example_roles : ((textConfig b!"").map fun c =>
    decide (c.role 30 = some (.key 30) ∧ c.role 29 = some (.hold 1) ∧ c.role 97 = some (.hold 1) ∧ c.role 42 = some (.hold 2))) = some true := by
  set_option maxRecDepth 100000 in decide +kernel

def typewriterText : Str := b!"[main]
a = b
capslock = esc
x = noop
tab = layer(shift)
y = layer(hyper)
[hyper:C-A]
"

/-- So is one with remapped keys and layers held for their modifiers. -/
theorem C07_example : ((textConfig typewriterText).map typewriterB) = some true := by
  set_option maxRecDepth 100000 in decide +kernel

/-- Two keys that stand for the same key, a key that stands for nothing, and modifiers. -/
theorem C07_example_run : checkRun typewriterText
    [press 30 1, press 48 2, press 15 3, press 21 4, release 30 5, press 45 6, release 48 7, release 45 8, press 58 9] typewriterB
    (fun k => decide (k.typed = [(48, true), (48, false), (48, true), (48, false), (1, true)] ∧
      k.keystate 42 = true ∧ k.keystate 29 = true ∧ k.keystate 56 = true ∧ k.keystate 1 = true ∧ k.keystate 48 = false)) = true := by
  set_option maxRecDepth 100000 in decide +kernel

end Keyd
