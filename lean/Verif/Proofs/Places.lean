import Verif.Spec.Board

/-
  The places of the keys held on the machine of `Verif.Spec.Board` and the key cache of the engine.
-/

set_option autoImplicit false

namespace Keyd

/-- What is in a slot of the cache. -/
def CacheEntry.slot (e : CacheEntry) : Option CacheEntry := if e.code = 0 then none else some e

/-- The slot of a key held. -/
def Hit.entry (h : Hit) : CacheEntry := ⟨h.code, h.act, h.layer, h.holds⟩

/-- The cache has the keys held on the machine in the same places. -/
def Grip (cache : List CacheEntry) (held : List (Option Hit)) : Prop := cache.map CacheEntry.slot = held.map (Option.map Hit.entry)

/-- The codes of the keys held. -/
def codesIn (held : List (Option Hit)) : List Code := held.filterMap (Option.map Hit.code)

theorem slot_free {e : CacheEntry} (h : e.code = 0) : e.slot = none := if_pos h

theorem slot_used {e : CacheEntry} (h : e.code ≠ 0) : e.slot = some e := if_neg h

theorem Grip.nil : Grip [] [] := rfl

theorem Grip.split {e : CacheEntry} {es : List CacheEntry} {held : List (Option Hit)} (g : Grip (e :: es) held) :
    ∃ p ps, held = p :: ps ∧ e.slot = p.map Hit.entry ∧ Grip es ps := by
  cases held with
  | nil => cases g
  | cons p ps =>
    unfold Grip at g
    rw [List.map_cons, List.map_cons] at g
    injection g with g1 g2
    exact ⟨p, ps, rfl, g1, g2⟩

theorem Grip.cons {e : CacheEntry} {es : List CacheEntry} {p : Option Hit} {ps : List (Option Hit)} (h : e.slot = p.map Hit.entry) (g : Grip es ps) :
    Grip (e :: es) (p :: ps) := by
  unfold Grip at g ⊢
  rw [List.map_cons, List.map_cons, h, g]

theorem Grip.nothing {held : List (Option Hit)} (g : Grip [] held) : held = [] := by
  cases held with
  | nil => rfl
  | cons p ps => cases g

/-- A place is free or it is not. -/
theorem slot_cases {e : CacheEntry} {p : Option Hit} (h : e.slot = p.map Hit.entry) :
    (e.code = 0 ∧ p = none) ∨ ∃ hit, e.code ≠ 0 ∧ p = some hit ∧ hit.entry = e := by
  by_cases h0 : e.code = 0
  · rw [slot_free h0] at h
    cases p with
    | none => exact .inl ⟨h0, rfl⟩
    | some hit => cases h
  · rw [slot_used h0] at h
    cases p with
    | none => cases h
    | some hit => exact .inr ⟨hit, h0, rfl, (Option.some.inj h).symm⟩

theorem heldIn_none (code : Code) (ps : List (Option Hit)) : heldIn code (none :: ps) = heldIn code ps := rfl

theorem heldIn_pos {code : Code} {h : Hit} (ps : List (Option Hit)) (e : h.code = code) : heldIn code (some h :: ps) = some h := by
  unfold heldIn
  rw [List.findSome?_cons, Option.filter_some_pos (by simpa using e)]

theorem heldIn_neg {code : Code} {h : Hit} (ps : List (Option Hit)) (e : h.code ≠ code) : heldIn code (some h :: ps) = heldIn code ps := by
  unfold heldIn
  rw [List.findSome?_cons, Option.filter_some_neg (by simpa using e)]

/-- The key found in the cache is the one held on the machine. -/
theorem Grip.find {code : Code} (hc : code ≠ 0) : ∀ {cache : List CacheEntry} {held : List (Option Hit)}, Grip cache held →
    cache.find? (fun e => decide (e.code = code)) = (heldIn code held).map Hit.entry
  | [], held, g => by rw [g.nothing]; rfl
  | e :: es, held, g => by
    obtain ⟨p, ps, rfl, h1, h2⟩ := g.split
    have ih := Grip.find hc h2
    rcases slot_cases h1 with ⟨h0, rfl⟩ | ⟨hit, h0, rfl, rfl⟩
    · rw [heldIn_none, List.find?_cons_of_neg (by simpa [h0] using fun h => hc h.symm), ih]
    · by_cases hx : hit.code = code
      · rw [heldIn_pos ps hx, List.find?_cons_of_pos (by rw [decide_eq_true_eq]; exact hx)]
        rfl
      · rw [heldIn_neg ps hx, List.find?_cons_of_neg (by rw [decide_eq_true_eq]; exact hx), ih]

theorem mem_heldIn {code : Code} {h : Hit} : ∀ {held : List (Option Hit)}, heldIn code held = some h → some h ∈ held ∧ h.code = code
  | [], e => by cases e
  | none :: ps, e => by
    have := mem_heldIn (held := ps) e
    exact ⟨List.mem_cons_of_mem _ this.1, this.2⟩
  | some g :: ps, e => by
    by_cases hx : g.code = code
    · rw [heldIn_pos ps hx] at e
      cases e
      exact ⟨List.mem_cons_self, hx⟩
    · rw [heldIn_neg ps hx] at e
      have := mem_heldIn (held := ps) e
      exact ⟨List.mem_cons_of_mem _ this.1, this.2⟩

theorem not_heldIn {code : Code} {h : Hit} : ∀ {held : List (Option Hit)}, heldIn code held = none → some h ∈ held → h.code ≠ code
  | none :: ps, e, hm => by
    rcases List.mem_cons.1 hm with hm | hm
    · cases hm
    · exact not_heldIn (held := ps) e hm
  | some g :: ps, e, hm => by
    by_cases hx : g.code = code
    · rw [heldIn_pos ps hx] at e; cases e
    · rw [heldIn_neg ps hx] at e
      rcases List.mem_cons.1 hm with hm | hm
      · cases hm; exact hx
      · exact not_heldIn (held := ps) e hm

/-- A key pressed takes the slot that the machine says, or none. -/
theorem Grip.place {h : Hit} (h0 : h.code ≠ 0) : ∀ {cache : List CacheEntry} {held : List (Option Hit)}, Grip cache held →
    heldIn h.code held = none → ∀ (i : Nat) (acc : Option Nat),
    (h.place held = none → cacheSlot h.code cache i acc = acc) ∧
    (∀ held', h.place held = some held' → ∃ j, cacheSlot h.code cache i acc = some (i + j) ∧ Grip (cache.set j h.entry) held')
  | [], held, g, _, i, acc => by
    rw [g.nothing]
    exact ⟨fun _ => rfl, fun held' e => by cases e⟩
  | e :: es, held, g, hn, i, acc => by
    obtain ⟨p, ps, rfl, h1, h2⟩ := g.split
    have hx : e.code ≠ h.code := by
      rcases slot_cases h1 with ⟨z, _⟩ | ⟨hit, _, rfl, rfl⟩
      · rw [z]; exact fun h => h0 h.symm
      · exact not_heldIn hn List.mem_cons_self
    have hn' : heldIn h.code ps = none := by
      rcases slot_cases h1 with ⟨z, rfl⟩ | ⟨hit, _, rfl, rfl⟩
      · exact hn
      · rwa [heldIn_neg ps hx] at hn
    obtain ⟨i1, i2⟩ := Grip.place h0 h2 hn' (i+1) (if e.code = 0 then some i else acc)
    unfold cacheSlot
    rw [if_neg hx]
    unfold Hit.place
    cases hp : h.place ps with
    | some ps' =>
      obtain ⟨j, j1, j2⟩ := i2 ps' hp
      refine ⟨fun e => (by cases e), fun held' e2 => ⟨j + 1, ?_, ?_⟩⟩
      · rw [j1]; congr 1; omega
      · injection e2 with e2
        subst e2
        rw [List.set_cons_succ]
        exact .cons h1 j2
    | none =>
      rw [i1 hp]
      rcases slot_cases h1 with ⟨z, rfl⟩ | ⟨hit, z, rfl, rfl⟩
      · refine ⟨fun e => (by cases e), fun held' e2 => ⟨0, by rw [if_pos z]; rfl, ?_⟩⟩
        injection e2 with e2
        subst e2
        exact .cons (slot_used (e := h.entry) h0) h2
      · refine ⟨fun _ => if_neg z, fun held' e2 => by cases e2⟩

/-- A key released leaves its slot. -/
theorem Grip.leave {code : Code} {h : Hit} (hc : code ≠ 0) : ∀ {cache : List CacheEntry} {held : List (Option Hit)}, Grip cache held →
    heldIn code held = some h → ∀ (i : Nat) (acc : Option Nat),
    ∃ j, cacheSlot code cache i acc = some (i + j) ∧ Grip (cache.modify j fun e => { e with code := 0 }) (dropIn code held)
  | [], held, g, hn, i, acc => by
    rw [g.nothing] at hn
    cases hn
  | e :: es, held, g, hn, i, acc => by
    obtain ⟨p, ps, rfl, h1, h2⟩ := g.split
    unfold cacheSlot
    rcases slot_cases h1 with ⟨z, rfl⟩ | ⟨hit, z, rfl, rfl⟩
    · rw [if_neg (by rw [z]; exact fun h => hc h.symm)]
      obtain ⟨j, j1, j2⟩ := Grip.leave hc h2 hn (i+1) (if e.code = 0 then some i else acc)
      refine ⟨j + 1, by rw [j1]; congr 1; omega, ?_⟩
      rw [List.modify_succ_cons]
      exact .cons h1 j2
    · by_cases hx : hit.code = code
      · refine ⟨0, if_pos hx, ?_⟩
        rw [List.modify_zero_cons, dropIn, if_pos hx]
        exact .cons rfl h2
      · rw [if_neg (show hit.entry.code ≠ code from hx)]
        rw [heldIn_neg ps hx] at hn
        obtain ⟨j, j1, j2⟩ := Grip.leave hc h2 hn (i+1) (if hit.entry.code = 0 then some i else acc)
        refine ⟨j + 1, by rw [j1]; congr 1; omega, ?_⟩
        rw [List.modify_succ_cons, dropIn, if_neg hx]
        exact .cons h1 j2

/-- A key holds a layer. -/
theorem Grip.hold {code : Code} (hc : code ≠ 0) (l : Nat) : ∀ {cache : List CacheEntry} {held : List (Option Hit)}, Grip cache held →
    Grip (modifyFirst (fun e => decide (e.code = code)) (fun e => { e with layer := l }) cache) (holdIn code l held)
  | [], held, g => by rw [g.nothing]; exact .nil
  | e :: es, held, g => by
    obtain ⟨p, ps, rfl, h1, h2⟩ := g.split
    have ih := Grip.hold hc l h2
    unfold modifyFirst
    rcases slot_cases h1 with ⟨z, rfl⟩ | ⟨hit, z, rfl, rfl⟩
    · rw [if_neg (by simpa [z] using fun h => hc h.symm)]
      exact .cons h1 ih
    · by_cases hx : hit.code = code
      · rw [if_pos (decide_eq_true (show hit.entry.code = code from hx)), holdIn, if_pos hx]
        exact .cons (slot_used z) h2
      · rw [if_neg (by rw [decide_eq_true_eq]; exact hx), holdIn, if_neg hx]
        exact .cons h1 ih

/-- A key is bound to another action. -/
theorem Grip.rebind {code : Code} (hc : code ≠ 0) (d : Desc) : ∀ {cache : List CacheEntry} {held : List (Option Hit)}, Grip cache held →
    Grip (modifyFirst (fun e => decide (e.code = code)) (fun e => { e with d := d }) cache) (rebindIn code d held)
  | [], held, g => by rw [g.nothing]; exact .nil
  | e :: es, held, g => by
    obtain ⟨p, ps, rfl, h1, h2⟩ := g.split
    have ih := Grip.rebind hc d h2
    unfold modifyFirst
    rcases slot_cases h1 with ⟨z, rfl⟩ | ⟨hit, z, rfl, rfl⟩
    · rw [if_neg (by simpa [z] using fun h => hc h.symm)]
      exact .cons h1 ih
    · by_cases hx : hit.code = code
      · rw [if_pos (decide_eq_true (show hit.entry.code = code from hx)), rebindIn, if_pos hx]
        exact .cons (slot_used z) h2
      · rw [if_neg (by rw [decide_eq_true_eq]; exact hx), rebindIn, if_neg hx]
        exact .cons h1 ih

theorem codesIn_rebind (code : Code) (d : Desc) : ∀ held : List (Option Hit), codesIn (rebindIn code d held) = codesIn held
  | [] => rfl
  | none :: ps => codesIn_rebind code d ps
  | some h :: ps => by
    unfold rebindIn
    split
    · rfl
    · show h.code :: codesIn (rebindIn code d ps) = h.code :: codesIn ps
      rw [codesIn_rebind code d ps]

/-- No key has the code 0. -/
theorem Grip.blank (l : Nat) : ∀ {cache : List CacheEntry} {held : List (Option Hit)}, Grip cache held →
    Grip (modifyFirst (fun e => decide (e.code = 0)) (fun e => { e with layer := l }) cache) held
  | [], held, g => g
  | e :: es, held, g => by
    obtain ⟨p, ps, rfl, h1, h2⟩ := g.split
    unfold modifyFirst
    split
    · rename_i hz
      have hz : e.code = 0 := by simpa using hz
      rw [slot_free hz] at h1
      exact .cons ((slot_free (e := { e with layer := l }) hz).trans h1) h2
    · exact .cons h1 (Grip.blank l h2)

theorem codesIn_hold (code : Code) (l : Nat) : ∀ held : List (Option Hit), codesIn (holdIn code l held) = codesIn held
  | [] => rfl
  | none :: ps => codesIn_hold code l ps
  | some h :: ps => by
    unfold holdIn
    split
    · rfl
    · show h.code :: codesIn (holdIn code l ps) = h.code :: codesIn ps
      rw [codesIn_hold code l ps]

theorem codesIn_reassign (dl l : Nat) : ∀ {held held' : List (Option Hit)}, reassign dl l held = some held' → codesIn held' = codesIn held
  | [], held', e => by cases e
  | none :: ps, held', e => by
    obtain ⟨q, e1, rfl⟩ := Option.map_eq_some_iff.1 e
    show codesIn q = codesIn ps
    exact codesIn_reassign dl l e1
  | some h :: ps, held', e => by
    unfold reassign at e
    split at e
    · injection e with e; subst e; rfl
    · obtain ⟨q, e1, rfl⟩ := Option.map_eq_some_iff.1 e
      show h.code :: codesIn q = h.code :: codesIn ps
      rw [codesIn_reassign dl l (held := ps) e1]

theorem mem_codesIn {held : List (Option Hit)} {h : Hit} (hm : some h ∈ held) : h.code ∈ codesIn held :=
  List.mem_filterMap.2 ⟨some h, hm, rfl⟩

/-- Only that key is bound to another action. -/
theorem rebind_mem {code : Code} {d : Desc} {h : Hit} : ∀ {held : List (Option Hit)}, (codesIn held).Nodup → some h ∈ rebindIn code d held →
    (h.code ≠ code ∧ some h ∈ held) ∨ ∃ g, some g ∈ held ∧ g.code = code ∧ h = { g with act := d }
  | [], _, hm => by cases hm
  | none :: ps, hn, hm => by
    rcases List.mem_cons.1 hm with hm | hm
    · cases hm
    · rcases rebind_mem (held := ps) hn hm with ⟨h1, h2⟩ | ⟨g, g1, g2⟩
      · exact .inl ⟨h1, List.mem_cons_of_mem _ h2⟩
      · exact .inr ⟨g, List.mem_cons_of_mem _ g1, g2⟩
  | some x :: ps, hn, hm => by
    have hn' : x.code ∉ codesIn ps ∧ (codesIn ps).Nodup := List.nodup_cons.1 hn
    unfold rebindIn at hm
    split at hm
    · rename_i hx
      rcases List.mem_cons.1 hm with hm | hm
      · exact .inr ⟨x, List.mem_cons_self, hx, Option.some.inj hm⟩
      · refine .inl ⟨fun e => hn'.1 ?_, List.mem_cons_of_mem _ hm⟩
        rw [hx, ← e]; exact mem_codesIn hm
    · rename_i hx
      rcases List.mem_cons.1 hm with hm | hm
      · injection hm with hm; subst hm
        exact .inl ⟨hx, List.mem_cons_self⟩
      · rcases rebind_mem (held := ps) hn'.2 hm with ⟨h1, h2⟩ | ⟨g, g1, g2⟩
        · exact .inl ⟨h1, List.mem_cons_of_mem _ h2⟩
        · exact .inr ⟨g, List.mem_cons_of_mem _ g1, g2⟩

theorem mem_codesIn_iff {held : List (Option Hit)} {x : Code} (hx : x ∈ codesIn held) : ∃ h, some h ∈ held ∧ h.code = x := by
  obtain ⟨p, hp, e⟩ := List.mem_filterMap.1 hx
  cases p with
  | none => cases e
  | some h => exact ⟨h, hp, Option.some.inj e⟩

theorem codesIn_drop (code : Code) : ∀ held : List (Option Hit), List.Sublist (codesIn (dropIn code held)) (codesIn held)
  | [] => List.Sublist.slnil
  | none :: ps => codesIn_drop code ps
  | some h :: ps => by
    unfold dropIn
    split
    · exact List.sublist_cons_self _ _
    · exact (codesIn_drop code ps).cons_cons _

theorem place_codes {h : Hit} : ∀ {held held' : List (Option Hit)}, h.place held = some held' → (codesIn held').Perm (h.code :: codesIn held)
  | [], held', e => by cases e
  | p :: ps, held', e => by
    unfold Hit.place at e
    cases hp : h.place ps with
    | some ps' =>
      rw [hp] at e
      injection e with e
      subst e
      have ih := place_codes hp
      cases p with
      | none => exact ih
      | some g =>
        show (g.code :: codesIn ps').Perm (h.code :: g.code :: codesIn ps)
        exact (ih.cons _).trans (.swap _ _ _)
    | none =>
      rw [hp] at e
      cases p with
      | none => injection e with e; subst e; exact .refl _
      | some g => cases e

theorem place_mem {h g : Hit} : ∀ {held held' : List (Option Hit)}, h.place held = some held' → some g ∈ held' → g = h ∨ some g ∈ held
  | [], held', e, _ => by cases e
  | p :: ps, held', e, hm => by
    unfold Hit.place at e
    cases hp : h.place ps with
    | some ps' =>
      rw [hp] at e
      injection e with e
      subst e
      rcases List.mem_cons.1 hm with hm | hm
      · exact .inr (by rw [hm]; exact List.mem_cons_self)
      · rcases place_mem hp hm with h | h
        · exact .inl h
        · exact .inr (List.mem_cons_of_mem _ h)
    | none =>
      rw [hp] at e
      cases p with
      | none =>
        injection e with e; subst e
        rcases List.mem_cons.1 hm with hm | hm
        · exact .inl (Option.some.inj hm)
        · exact .inr (List.mem_cons_of_mem _ hm)
      | some g => cases e

/-- `swap`: the key that holds the layer becomes a key for the other layer. -/
theorem Grip.reassign {c : Config} {k : Kbd} (hk : k.config = c) {dl l : Nat} (hd : dl ≠ 0 ∧ (c.layer dl).type = .normal) :
    ∀ {cache : List CacheEntry} {held : List (Option Hit)}, Grip cache held → (codesIn held).Nodup →
    (Keyd.reassign dl l held = none → cache.find? (swapHolder k dl) = none) ∧
    (∀ held', Keyd.reassign dl l held = some held' → ∃ ce, cache.find? (swapHolder k dl) = some ce ∧ ce.code ≠ 0 ∧ ce.code ∈ codesIn held ∧
      Grip (modifyFirst (fun e => decide (e.code = ce.code)) (fun e => { e with layer := l })
        (modifyFirst (swapHolder k dl) (fun e => { e with d := .layer l }) cache)) held')
  | [], held, g, _ => by
    rw [g.nothing]
    exact ⟨fun _ => rfl, fun held' e => by cases e⟩
  | e :: es, held, g, hn => by
    obtain ⟨p, ps, rfl, h1, h2⟩ := g.split
    rcases slot_cases h1 with ⟨z, rfl⟩ | ⟨hit, z, rfl, rfl⟩
    · obtain ⟨i1, i2⟩ := Grip.reassign hk hd h2 (l := l) hn
      have hs : ¬ swapHolder k dl e = true := by
        unfold swapHolder
        rw [decide_eq_true_eq]
        exact fun h => h.1 z
      refine ⟨fun e => ?_, fun held' e => ?_⟩
      · rw [List.find?_cons_of_neg hs]
        exact i1 (Option.map_eq_none_iff.1 e)
      · obtain ⟨q, q1, rfl⟩ := Option.map_eq_some_iff.1 e
        obtain ⟨ce, j1, j2, j3, j4⟩ := i2 q q1
        refine ⟨ce, by rw [List.find?_cons_of_neg hs, j1], j2, j3, ?_⟩
        rw [modifyFirst, if_neg hs, modifyFirst, if_neg (by simpa [z] using fun h => j2 h.symm)]
        exact .cons h1 j4
    · have hn : (hit.code :: codesIn ps).Nodup := hn
      rw [List.nodup_cons] at hn
      obtain ⟨i1, i2⟩ := Grip.reassign hk hd h2 (l := l) hn.2
      have hs : swapHolder k dl hit.entry = true ↔ hit.holds = dl := by
        unfold swapHolder
        rw [decide_eq_true_eq, hk]
        constructor
        · exact fun h => h.2.1
        · intro h
          refine ⟨z, h, ?_, ?_⟩
          · show (c.layer hit.holds).type = _; rw [h]; exact hd.2
          · show hit.holds ≠ 0; rw [h]; exact hd.1
      unfold Keyd.reassign
      by_cases hx : hit.holds = dl
      · rw [if_pos hx]
        refine ⟨fun e => (by cases e), fun held' e => ⟨hit.entry, List.find?_cons_of_pos (hs.2 hx), z, List.mem_cons_self, ?_⟩⟩
        injection e with e
        subst e
        rw [modifyFirst, if_pos (hs.2 hx), modifyFirst, if_pos (by simp)]
        exact .cons (slot_used z) h2
      · rw [if_neg hx]
        have hs' : ¬ swapHolder k dl hit.entry = true := fun h => hx (hs.1 h)
        refine ⟨fun e => ?_, fun held' e => ?_⟩
        · rw [List.find?_cons_of_neg hs']
          exact i1 (Option.map_eq_none_iff.1 e)
        · obtain ⟨q, q1, rfl⟩ := Option.map_eq_some_iff.1 e
          obtain ⟨ce, j1, j2, j3, j4⟩ := i2 q q1
          refine ⟨ce, by rw [List.find?_cons_of_neg hs', j1], j2, List.mem_cons_of_mem _ j3, ?_⟩
          have hne : ¬ (decide (hit.entry.code = ce.code)) = true := by
            rw [decide_eq_true_eq]
            intro h
            exact hn.1 (by rw [show hit.code = ce.code from h]; exact j3)
          rw [modifyFirst, if_neg hs', modifyFirst, if_neg hne]
          exact .cons h1 j4

/-! What becomes of the keys held. -/

/-- The keys held are some of those held before, with the same codes and times, and the same actions unless they became keys for a layer. -/
def Kin (a b : List (Option Hit)) : Prop :=
  ∀ h', some h' ∈ b → ∃ h, some h ∈ a ∧ h'.code = h.code ∧ h'.time = h.time ∧ (h'.act = h.act ∨ ∃ l, h'.act = .layer l)

theorem Kin.refl (a : List (Option Hit)) : Kin a a := fun h hm => ⟨h, hm, rfl, rfl, .inl rfl⟩

theorem Kin.trans {a b c : List (Option Hit)} (h : Kin a b) (h' : Kin b c) : Kin a c := by
  intro x hx
  obtain ⟨y, y1, y2, y3, y4⟩ := h' x hx
  obtain ⟨z, z1, z2, z3, z4⟩ := h y y1
  refine ⟨z, z1, y2.trans z2, y3.trans z3, ?_⟩
  rcases y4 with y4 | y4
  · rw [y4]; exact z4
  · exact .inr y4

theorem Kin.cons {a b : List (Option Hit)} (p : Option Hit) (h : Kin a b) : Kin (p :: a) (p :: b) := by
  intro x hx
  rcases List.mem_cons.1 hx with hx | hx
  · exact ⟨x, by rw [hx]; exact List.mem_cons_self, rfl, rfl, .inl rfl⟩
  · obtain ⟨z, z1, z2⟩ := h x hx
    exact ⟨z, List.mem_cons_of_mem _ z1, z2⟩

theorem Kin.hold (code : Code) (l : Nat) : ∀ held : List (Option Hit), Kin held (holdIn code l held)
  | [] => .refl _
  | none :: ps => (Kin.hold code l ps).cons none
  | some h :: ps => by
    unfold holdIn
    split
    · intro x hx
      rcases List.mem_cons.1 hx with hx | hx
      · injection hx with hx; subst hx
        exact ⟨h, List.mem_cons_self, rfl, rfl, .inl rfl⟩
      · exact ⟨x, List.mem_cons_of_mem _ hx, rfl, rfl, .inl rfl⟩
    · exact (Kin.hold code l ps).cons (some h)

theorem Kin.drop (code : Code) : ∀ held : List (Option Hit), Kin held (dropIn code held)
  | [] => .refl _
  | none :: ps => (Kin.drop code ps).cons none
  | some h :: ps => by
    unfold dropIn
    split
    · intro x hx
      rcases List.mem_cons.1 hx with hx | hx
      · cases hx
      · exact ⟨x, List.mem_cons_of_mem _ hx, rfl, rfl, .inl rfl⟩
    · exact (Kin.drop code ps).cons (some h)

theorem Kin.reassign {dl l : Nat} : ∀ {held held' : List (Option Hit)}, Keyd.reassign dl l held = some held' → Kin held held'
  | [], held', e => by cases e
  | none :: ps, held', e => by
    obtain ⟨q, e1, rfl⟩ := Option.map_eq_some_iff.1 e
    exact (Kin.reassign e1).cons none
  | some h :: ps, held', e => by
    unfold Keyd.reassign at e
    split at e
    · injection e with e; subst e
      intro x hx
      rcases List.mem_cons.1 hx with hx | hx
      · injection hx with hx; subst hx
        exact ⟨h, List.mem_cons_self, rfl, rfl, .inr ⟨l, rfl⟩⟩
      · exact ⟨x, List.mem_cons_of_mem _ hx, rfl, rfl, .inl rfl⟩
    · obtain ⟨q, e1, rfl⟩ := Option.map_eq_some_iff.1 e
      exact (Kin.reassign e1).cons (some h)

end Keyd
