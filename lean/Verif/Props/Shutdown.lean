import Verif.Model.Shutdown
import Verif.Proofs.LayerOps
import Mathlib.Data.List.Nodup
import Mathlib.Data.List.Induction
import Mathlib.Data.Finset.Card
import Mathlib.Data.Fintype.Card

/-
  C100: stopping the daemon with a signal at any moment.
-/

set_option autoImplicit false

namespace Keyd

/-- The linked list that begins at `p` has these entries, each with its keyboard; all of them are allocated. -/
inductive Linked (m : ConfMem) : Option Nat → List (Nat × Nat) → Prop
  | nil : Linked m none []
  | cons {e k : Nat} {n : Option Nat} {es : List (Nat × Nat)} : m.ents e = some (n, some k) → m.kbds k = true → Linked m n es → Linked m (some e) ((e, k) :: es)

structure Listed (m : ConfMem) (p : Option Nat) (es : List (Nat × Nat)) : Prop where
  linked : Linked m p es
  ents : (es.map (·.1)).Nodup
  kbds : (es.map (·.2)).Nodup
  bound : ∀ x ∈ es, x.1 < m.fresh

theorem Linked.frame {m m' : ConfMem} {p : Option Nat} {es : List (Nat × Nat)} (h : Linked m p es)
    (h1 : ∀ x ∈ es, m'.ents x.1 = m.ents x.1) (h2 : ∀ x ∈ es, m'.kbds x.2 = m.kbds x.2) : Linked m' p es := by
  induction h with
  | nil => exact .nil
  | @cons e k n es he hk _ ih =>
    exact .cons (by rw [h1 (e, k) (List.mem_cons_self ..)]; exact he) (by rw [h2 (e, k) (List.mem_cons_self ..)]; exact hk)
      (ih (fun x hx => h1 x (List.mem_cons_of_mem _ hx)) (fun x hx => h2 x (List.mem_cons_of_mem _ hx)))

theorem freeFrom_linked (es : List (Nat × Nat)) : ∀ (n : Nat) (m : ConfMem) (p : Option Nat), Linked m p es → (es.map (·.1)).Nodup → (es.map (·.2)).Nodup →
    es.length ≤ n → ∃ m', freeFrom n m p = some m' ∧ m'.configs = none ∧
      (∀ e, m'.ents e = if e ∈ es.map (·.1) then none else m.ents e) ∧ (∀ k, m'.kbds k = if k ∈ es.map (·.2) then false else m.kbds k) := by
  induction es with
  | nil =>
    intro n m p h _ _ _
    cases h
    refine ⟨{ m with configs := none }, by cases n <;> rfl, rfl, fun e => by simp, fun k => by simp⟩
  | cons x es ih =>
    intro n m p h h1 h2 h3
    obtain ⟨e, k⟩ := x
    generalize hq : (e, k) :: es = q at h
    cases h with
    | nil => cases hq
    | @cons e' k' nx es' he hk hl =>
      cases hq
      rw [List.map_cons, List.nodup_cons] at h1 h2
      cases n with
      | zero => simp at h3
      | succ n =>
        let m1 : ConfMem := { m with kbds := upd m.kbds k false, ents := upd m.ents e none }
        have hl1 : Linked m1 nx es := by
          refine hl.frame (fun x hx => ?_) (fun x hx => ?_)
          · exact upd_other _ _ (fun c => h1.1 (List.mem_map.2 ⟨x, hx, c⟩))
          · exact upd_other _ _ (fun c => h2.1 (List.mem_map.2 ⟨x, hx, c⟩))
        obtain ⟨m', g1, g2, g3, g4⟩ := ih n m1 nx hl1 h1.2 h2.2 (by simpa using h3)
        refine ⟨m', ?_, g2, fun z => ?_, fun z => ?_⟩
        · rw [freeFrom, he]
          dsimp only
          rw [ConfMem.freeKbd, if_pos hk, Option.bind_some, ConfMem.freeEnt, if_pos (by show (m.ents e).isSome = true; rw [he]; rfl), Option.bind_some]
          exact g1
        · rw [g3, List.map_cons]
          by_cases hz : z ∈ es.map (·.1)
          · rw [if_pos hz, if_pos (List.mem_cons_of_mem _ hz)]
          · rw [if_neg hz]
            show upd m.ents e none z = _
            by_cases hze : z = e
            · rw [hze, upd_same, if_pos (List.mem_cons_self ..)]
            · rw [upd_other _ _ hze, if_neg (fun c => (List.mem_cons.1 c).elim hze hz)]
        · rw [g4, List.map_cons]
          by_cases hz : z ∈ es.map (·.2)
          · rw [if_pos hz, if_pos (List.mem_cons_of_mem _ hz)]
          · rw [if_neg hz]
            show upd m.kbds k false z = _
            by_cases hze : z = k
            · rw [hze, upd_same, if_pos (List.mem_cons_self ..)]
            · rw [upd_other _ _ hze, if_neg (fun c => (List.mem_cons.1 c).elim hze hz)]

theorem length_le_bound {l : List Nat} {n : Nat} (h : l.Nodup) (hb : ∀ x ∈ l, x < n) : l.length ≤ n := by
  have h1 : l.toFinset ⊆ Finset.range n := by
    intro x hx
    exact Finset.mem_range.2 (hb x (List.mem_toFinset.1 hx))
  have h2 := Finset.card_le_card h1
  rwa [List.toFinset_card_of_nodup h, Finset.card_range] at h2

theorem Listed.stop {m : ConfMem} {es : List (Nat × Nat)} (h : Listed m m.configs es) : ∃ m', sigterm m = some m' ∧ m'.configs = none ∧
    (∀ e, m'.ents e = if e ∈ es.map (·.1) then none else m.ents e) ∧ (∀ k, m'.kbds k = if k ∈ es.map (·.2) then false else m.kbds k) := by
  refine freeFrom_linked es _ m m.configs h.linked h.ents h.kbds ?_
  have := length_le_bound h.ents (n := m.fresh) (fun x hx => by
    obtain ⟨y, hy, rfl⟩ := List.mem_map.1 hx
    exact h.bound y hy)
  rw [List.length_map] at this
  omega

/-- `configs` points to an entry that is freed, or whose keyboard is. -/
def Dangling (m : ConfMem) : Prop := ∃ c, m.configs = some c ∧ ∀ n k, m.ents c = some (n, some k) → m.kbds k = false

theorem Dangling.stop {m : ConfMem} (h : Dangling m) (hk : ∀ c n, m.configs = some c → m.ents c ≠ some (n, none)) : sigterm m = none := by
  obtain ⟨c, hc, hd⟩ := h
  unfold sigterm
  rw [hc, freeFrom]
  cases he : m.ents c with
  | none => rfl
  | some x =>
    obtain ⟨n, o⟩ := x
    cases o with
    | none => exact absurd he (hk c n hc)
    | some k =>
      dsimp only
      rw [ConfMem.freeKbd, hd n k he, if_neg (by decide)]
      rfl

/-- Nothing is allocated but these entries and their keyboards. -/
def OnlyThese (m : ConfMem) (es : List (Nat × Nat)) : Prop :=
  (∀ e, m.ents e ≠ none → e ∈ es.map (·.1)) ∧ (∀ k, m.kbds k = true → k ∈ es.map (·.2))

/-- `configs` is a freed entry. -/
def Gone (m : ConfMem) : Prop := ∃ c, m.configs = some c ∧ m.ents c = none

/-- The invariant of the daemon. -/
def ReloadInv (m : ConfMem) : ReloadPc → Prop
  | .idle => ∃ es, Listed m m.configs es ∧ OnlyThese m es
  | .next _ => ∃ es, Listed m m.configs es ∧ OnlyThese m es
  | .start _ => m.configs = none ∧ OnlyThese m []
  | .clear _ => (m.configs = none ∨ Gone m) ∧ OnlyThese m []
  | .test ent _ => ∃ es, Listed m ent es ∧ OnlyThese m es ∧ (m.configs = ent ∨ Gone m)
  | .freeKbd e n _ => ∃ k es, m.ents e = some (n, some k) ∧ Listed m (some e) ((e, k) :: es) ∧ OnlyThese m ((e, k) :: es) ∧ (m.configs = some e ∨ Gone m)
  | .freeEnt e n _ => ∃ k es, m.ents e = some (n, some k) ∧ m.kbds k = false ∧ Listed m n es ∧ e ∉ es.map (·.1) ∧
      (∀ x, m.ents x ≠ none → x = e ∨ x ∈ es.map (·.1)) ∧ (∀ k, m.kbds k = true → k ∈ es.map (·.2)) ∧ (m.configs = some e ∨ Gone m)
  | .parse e _ _ => ∃ es, Listed m m.configs es ∧ e ∉ es.map (·.1) ∧ e < m.fresh ∧ m.ents e = some (none, none) ∧
      (∀ x, m.ents x ≠ none → x = e ∨ x ∈ es.map (·.1)) ∧ (∀ k, m.kbds k = true → k ∈ es.map (·.2))
  | .keyboard e _ => ∃ es, Listed m m.configs es ∧ e ∉ es.map (·.1) ∧ e < m.fresh ∧ m.ents e = some (none, none) ∧
      (∀ x, m.ents x ≠ none → x = e ∨ x ∈ es.map (·.1)) ∧ (∀ k, m.kbds k = true → k ∈ es.map (·.2))
  | .link e _ => ∃ k es, Listed m m.configs es ∧ e ∉ es.map (·.1) ∧ e < m.fresh ∧ m.ents e = some (none, some k) ∧ m.kbds k = true ∧ k ∉ es.map (·.2) ∧
      OnlyThese m ((e, k) :: es)
  | .publish e _ => ∃ k es, Listed m m.configs es ∧ e ∉ es.map (·.1) ∧ e < m.fresh ∧ m.ents e = some (m.configs, some k) ∧ m.kbds k = true ∧ k ∉ es.map (·.2) ∧
      OnlyThese m ((e, k) :: es)

/-- Keyboards have numbers below `fresh` too. -/
def Bounded (m : ConfMem) : Prop := (∀ e, m.ents e ≠ none → e < m.fresh) ∧ (∀ k, m.kbds k = true → k < m.fresh)

theorem Linked.alive {m : ConfMem} {p : Option Nat} {es : List (Nat × Nat)} (h : Linked m p es) : ∀ x ∈ es, m.ents x.1 ≠ none ∧ m.kbds x.2 = true := by
  induction h with
  | nil => intro x hx; cases hx
  | @cons e k n es he hk _ ih =>
    intro x hx
    rcases List.mem_cons.1 hx with rfl | hx
    · exact ⟨by rw [he]; exact fun c => (by cases c), hk⟩
    · exact ih x hx

theorem reload_step {m : ConfMem} {pc : ReloadPc} (h : ReloadInv m pc) (hb : Bounded m) :
    ∃ m' pc', reloadStep m pc = some (m', pc') ∧ ReloadInv m' pc' ∧ Bounded m' := by
  cases pc with
  | idle => exact ⟨m, _, rfl, h, hb⟩
  | clear fs =>
    exact ⟨_, _, rfl, ⟨rfl, h.2⟩, hb⟩
  | start fs =>
    exact ⟨_, _, rfl, ⟨[], ⟨.nil, List.nodup_nil, List.nodup_nil, fun _ h => (by cases h)⟩, h.2⟩, hb⟩
  | test ent fs =>
    obtain ⟨es, hl, ho, hc⟩ := h
    cases ent with
    | none =>
      cases hl.linked
      exact ⟨_, _, rfl, ⟨hc, ho⟩, hb⟩
    | some e =>
      have hli := hl.linked
      generalize hp : some e = p at hli
      cases hli with
      | nil => cases hp
      | @cons e' k n es he hk hl' =>
        cases hp
        refine ⟨m, .freeKbd e n fs, ?_, ⟨k, es, he, hl, ho, hc⟩, hb⟩
        unfold reloadStep
        dsimp only
        rw [he]
  | freeKbd e n fs =>
    obtain ⟨k, es, he, hl, ho, hc⟩ := h
    have hli := hl.linked
    generalize hp : some e = p at hli
    generalize hq : (e, k) :: es = q at hli
    cases hli with
    | nil => cases hp
    | @cons e' k' n' es' he' hk hl' =>
      cases hp
      cases hq
      rw [he] at he'
      cases he'
      have n1 := hl.ents
      have n2 := hl.kbds
      rw [List.map_cons, List.nodup_cons] at n1 n2
      refine ⟨{ m with kbds := upd m.kbds k false }, .freeEnt e n fs, ?_, ⟨k, es, he, upd_same .., ?_, n1.1, ?_, ?_, hc⟩, hb.1, fun z hz => ?_⟩
      · unfold reloadStep
        dsimp only
        rw [he]
        dsimp only
        rw [ConfMem.freeKbd, if_pos hk]
        rfl
      · exact ⟨hl'.frame (fun _ _ => rfl) (fun x hx => upd_other _ _ (fun c => n2.1 (List.mem_map.2 ⟨x, hx, c⟩))), n1.2, n2.2, fun x hx => hl.bound x (List.mem_cons_of_mem _ hx)⟩
      · intro x hx
        exact List.mem_cons.1 (ho.1 x hx)
      · intro z hz
        have hz : upd m.kbds k false z = true := hz
        by_cases hzk : z = k
        · rw [hzk, upd_same] at hz; cases hz
        · rw [upd_other _ _ hzk] at hz
          exact (List.mem_cons.1 (ho.2 z hz)).resolve_left hzk
      · have hz : upd m.kbds k false z = true := hz
        by_cases hzk : z = k
        · rw [hzk, upd_same] at hz; cases hz
        · rw [upd_other _ _ hzk] at hz
          exact hb.2 z hz
  | freeEnt e n fs =>
    obtain ⟨k, es, he, hk, hl, hne, ho1, ho2, hc⟩ := h
    refine ⟨{ m with ents := upd m.ents e none }, .test n fs, ?_, ⟨es, ?_, ⟨fun x hx => ?_, ho2⟩, ?_⟩, fun x hx => ?_, hb.2⟩
    · unfold reloadStep
      dsimp only
      rw [ConfMem.freeEnt, if_pos (by rw [he]; rfl)]
      rfl
    · exact ⟨hl.linked.frame (fun x hx => upd_other _ _ (fun c => hne (List.mem_map.2 ⟨x, hx, c⟩))) (fun _ _ => rfl), hl.ents, hl.kbds, hl.bound⟩
    · have hx : upd m.ents e none x ≠ none := hx
      by_cases hxe : x = e
      · rw [hxe, upd_same] at hx; exact absurd rfl hx
      · rw [upd_other _ _ hxe] at hx
        exact (ho1 x hx).resolve_left hxe
    · rcases hc with hc | ⟨c, hc, hcn⟩
      · exact .inr ⟨e, hc, upd_same ..⟩
      · refine .inr ⟨c, hc, ?_⟩
        show upd m.ents e none c = none
        by_cases hce : c = e
        · rw [hce, upd_same]
        · rw [upd_other _ _ hce]; exact hcn
    · have hx : upd m.ents e none x ≠ none := hx
      by_cases hxe : x = e
      · rw [hxe, upd_same] at hx; exact absurd rfl hx
      · rw [upd_other _ _ hxe] at hx
        exact hb.1 x hx
  | next fs =>
    obtain ⟨es, hl, ho⟩ := h
    cases fs with
    | nil => exact ⟨m, .idle, rfl, ⟨es, hl, ho⟩, hb⟩
    | cons ok fs =>
      have hf : m.fresh ∉ es.map (·.1) := by
        intro c
        obtain ⟨x, hx, e⟩ := List.mem_map.1 c
        have := hl.bound x hx
        omega
      refine ⟨_, _, rfl, ⟨es, ⟨?_, hl.ents, hl.kbds, fun x hx => Nat.lt_succ_of_lt (hl.bound x hx)⟩, hf, Nat.lt_succ_self _, upd_same .., fun x hx => ?_, ho.2⟩, fun x hx => ?_, fun z hz => Nat.lt_succ_of_lt (hb.2 z hz)⟩
      · exact hl.linked.frame (fun x hx => upd_other _ _ (fun c => hf (List.mem_map.2 ⟨x, hx, c⟩))) (fun _ _ => rfl)
      · have hx : upd m.ents m.fresh (some (none, none)) x ≠ none := hx
        by_cases hxe : x = m.fresh
        · exact .inl hxe
        · rw [upd_other _ _ hxe] at hx
          exact .inr (ho.1 x hx)
      · have hx : upd m.ents m.fresh (some (none, none)) x ≠ none := hx
        show x < m.fresh + 1
        by_cases hxe : x = m.fresh
        · omega
        · rw [upd_other _ _ hxe] at hx
          have := hb.1 x hx
          omega
  | parse e ok fs =>
    obtain ⟨es, hl, hne, hlt, he, ho1, ho2⟩ := h
    cases ok with
    | true => exact ⟨m, .keyboard e fs, rfl, ⟨es, hl, hne, hlt, he, ho1, ho2⟩, hb⟩
    | false =>
      refine ⟨{ m with ents := upd m.ents e none }, .next fs, ?_, ⟨es, ⟨?_, hl.ents, hl.kbds, hl.bound⟩, fun x hx => ?_, ho2⟩, fun x hx => ?_, hb.2⟩
      · unfold reloadStep
        dsimp only
        rw [if_neg (by decide), ConfMem.freeEnt, if_pos (by rw [he]; rfl)]
        rfl
      · exact hl.linked.frame (fun x hx => upd_other _ _ (fun c => hne (List.mem_map.2 ⟨x, hx, c⟩))) (fun _ _ => rfl)
      · have hx : upd m.ents e none x ≠ none := hx
        by_cases hxe : x = e
        · rw [hxe, upd_same] at hx; exact absurd rfl hx
        · rw [upd_other _ _ hxe] at hx
          exact (ho1 x hx).resolve_left hxe
      · have hx : upd m.ents e none x ≠ none := hx
        by_cases hxe : x = e
        · rw [hxe, upd_same] at hx; exact absurd rfl hx
        · rw [upd_other _ _ hxe] at hx
          exact hb.1 x hx
  | keyboard e fs =>
    obtain ⟨es, hl, hne, hlt, he, ho1, ho2⟩ := h
    have hkd : m.kbds m.fresh = false := by
      cases hk : m.kbds m.fresh with
      | false => rfl
      | true => exact absurd (hb.2 _ hk) (Nat.lt_irrefl _)
    have hkn : m.fresh ∉ es.map (·.2) := by
      intro c
      obtain ⟨x, hx, e⟩ := List.mem_map.1 c
      have := (hl.linked.alive x hx).2
      rw [e, hkd] at this
      cases this
    refine ⟨{ m with ents := upd m.ents e (some (none, some m.fresh)), kbds := upd m.kbds m.fresh true, fresh := m.fresh + 1 }, .link e fs, ?_,
      ⟨m.fresh, es, ⟨?_, hl.ents, hl.kbds, fun x hx => Nat.lt_succ_of_lt (hl.bound x hx)⟩, hne, Nat.lt_succ_of_lt hlt, upd_same .., upd_same .., hkn, fun x hx => ?_, fun z hz => ?_⟩,
      fun x hx => ?_, fun z hz => ?_⟩
    · unfold reloadStep
      dsimp only
      rw [he]
    · exact hl.linked.frame (fun x hx => upd_other _ _ (fun c => hne (List.mem_map.2 ⟨x, hx, c⟩))) (fun x hx => upd_other _ _ (fun c => hkn (List.mem_map.2 ⟨x, hx, c⟩)))
    · have hx : upd m.ents e (some (none, some m.fresh)) x ≠ none := hx
      rw [List.map_cons]
      by_cases hxe : x = e
      · rw [hxe]; exact List.mem_cons_self ..
      · rw [upd_other _ _ hxe] at hx
        exact List.mem_cons_of_mem _ ((ho1 x hx).resolve_left hxe)
    · have hz : upd m.kbds m.fresh true z = true := hz
      rw [List.map_cons]
      by_cases hze : z = m.fresh
      · rw [hze]; exact List.mem_cons_self ..
      · rw [upd_other _ _ hze] at hz
        exact List.mem_cons_of_mem _ (ho2 z hz)
    · have hx : upd m.ents e (some (none, some m.fresh)) x ≠ none := hx
      show x < m.fresh + 1
      by_cases hxe : x = e
      · omega
      · rw [upd_other _ _ hxe] at hx
        have := hb.1 x hx
        omega
    · have hz : upd m.kbds m.fresh true z = true := hz
      show z < m.fresh + 1
      by_cases hze : z = m.fresh
      · omega
      · rw [upd_other _ _ hze] at hz
        have := hb.2 z hz
        omega
  | link e fs =>
    obtain ⟨k, es, hl, hne, hlt, he, hk, hkn, ho⟩ := h
    refine ⟨{ m with ents := upd m.ents e (some (m.configs, some k)) }, .publish e fs, ?_,
      ⟨k, es, ⟨?_, hl.ents, hl.kbds, hl.bound⟩, hne, hlt, upd_same .., hk, hkn, fun x hx => ?_, ho.2⟩, fun x hx => ?_, hb.2⟩
    · unfold reloadStep
      dsimp only
      rw [he]
    · exact hl.linked.frame (fun x hx => upd_other _ _ (fun c => hne (List.mem_map.2 ⟨x, hx, c⟩))) (fun _ _ => rfl)
    · have hx : upd m.ents e (some (m.configs, some k)) x ≠ none := hx
      by_cases hxe : x = e
      · rw [hxe]; exact List.mem_cons_self ..
      · rw [upd_other _ _ hxe] at hx
        exact ho.1 x hx
    · have hx : upd m.ents e (some (m.configs, some k)) x ≠ none := hx
      by_cases hxe : x = e
      · rw [hxe]; exact hlt
      · rw [upd_other _ _ hxe] at hx
        exact hb.1 x hx
  | publish e fs =>
    obtain ⟨k, es, hl, hne, hlt, he, hk, hkn, ho⟩ := h
    refine ⟨{ m with configs := some e }, .next fs, rfl, ⟨(e, k) :: es, ⟨?_, ?_, ?_, fun x hx => ?_⟩, ho⟩, hb⟩
    · exact .cons he hk (hl.linked.frame (fun _ _ => rfl) (fun _ _ => rfl))
    · rw [List.map_cons, List.nodup_cons]; exact ⟨hne, hl.ents⟩
    · rw [List.map_cons, List.nodup_cons]; exact ⟨hkn, hl.kbds⟩
    · rcases List.mem_cons.1 hx with rfl | hx
      · exact hlt
      · exact hl.bound x hx

theorem reload_event {m : ConfMem} {pc : ReloadPc} (e : ReloadEvent) (h : ReloadInv m pc) (hb : Bounded m) :
    ∃ m' pc', reloadEvent (m, pc) e = some (m', pc') ∧ ReloadInv m' pc' ∧ Bounded m' := by
  cases e with
  | run => exact reload_step h hb
  | reload fs =>
    cases pc with
    | idle =>
      obtain ⟨es, hl, ho⟩ := h
      exact ⟨m, _, rfl, ⟨es, hl, ho, .inl rfl⟩, hb⟩
    | _ => exact ⟨m, _, rfl, h, hb⟩

theorem reload_inv (es : List ReloadEvent) : ∃ m pc, reloadRun es = some (m, pc) ∧ ReloadInv m pc ∧ Bounded m := by
  unfold reloadRun
  suffices h : ∀ (es : List ReloadEvent) (m : ConfMem) (pc : ReloadPc), ReloadInv m pc → Bounded m →
      ∃ m' pc', es.foldlM reloadEvent (m, pc) = some (m', pc') ∧ ReloadInv m' pc' ∧ Bounded m' by
    refine h es {} .idle ⟨[], ⟨.nil, List.nodup_nil, List.nodup_nil, fun _ h => (by cases h)⟩, fun e he => absurd rfl he, fun k hk => by cases hk⟩
      ⟨fun e he => absurd rfl he, fun k hk => by cases hk⟩
  intro es
  induction es with
  | nil => intro m pc h hb; exact ⟨m, pc, rfl, h, hb⟩
  | cons e es ih =>
    intro m pc h hb
    obtain ⟨m1, pc1, e1, h1, hb1⟩ := reload_event e h hb
    obtain ⟨m2, pc2, e2, h2, hb2⟩ := ih m1 pc1 h1 hb1
    refine ⟨m2, pc2, ?_, h2, hb2⟩
    rw [List.foldlM_cons, e1]
    exact e2

/-- The daemon is in `free_configs`, has freed something, and has not yet forgotten the list. -/
def Midway (m : ConfMem) : ReloadPc → Prop
  | .test ent _ => m.configs ≠ ent
  | .freeKbd e _ _ => m.configs ≠ some e
  | .freeEnt _ _ _ => True
  | .clear _ => m.configs ≠ none
  | _ => False

theorem Gone.stop {m : ConfMem} (h : Gone m) : sigterm m = none := by
  obtain ⟨c, hc, hn⟩ := h
  refine Dangling.stop ⟨c, hc, fun n k e => by rw [hn] at e; cases e⟩ fun c' n hc' e => ?_
  rw [hc] at hc'
  cases hc'
  rw [hn] at e
  cases e

theorem Gone.not_listed {m : ConfMem} (h : Gone m) {p : Option Nat} {es : List (Nat × Nat)} (hl : Listed m p es) : m.configs ≠ p ∨ False := by
  refine .inl fun hp => ?_
  obtain ⟨c, hc, hn⟩ := h
  rw [hc] at hp
  subst hp
  have hli := hl.linked
  generalize hq : some c = q at hli
  cases hli with
  | nil => cases hq
  | cons he _ _ => cases hq; rw [hn] at he; cases he

/-- C100: reloading never touches freed memory and leaves nothing behind: between reloads what is allocated is exactly the list of configurations, and
a signal then frees all of it. -/
theorem C100_idle (es : List ReloadEvent) : ∃ m pc, reloadRun es = some (m, pc) ∧
    (pc = .idle → (∃ l : List (Nat × Nat), Linked m m.configs l ∧ (∀ e, m.ents e ≠ none ↔ e ∈ l.map (·.1)) ∧ (∀ k, m.kbds k = true ↔ k ∈ l.map (·.2))) ∧
      ∃ m', sigterm m = some m' ∧ m'.configs = none ∧ (∀ e, m'.ents e = none) ∧ ∀ k, m'.kbds k = false) := by
  obtain ⟨m, pc, h, hi, hb⟩ := reload_inv es
  refine ⟨m, pc, h, fun hp => ?_⟩
  subst hp
  obtain ⟨l, hl, ho⟩ := hi
  refine ⟨⟨l, hl.linked, fun e => ⟨ho.1 e, fun he => ?_⟩, fun k => ⟨ho.2 k, fun hk => ?_⟩⟩, ?_⟩
  · obtain ⟨x, hx, rfl⟩ := List.mem_map.1 he
    exact (hl.linked.alive x hx).1
  · obtain ⟨x, hx, rfl⟩ := List.mem_map.1 hk
    exact (hl.linked.alive x hx).2
  · obtain ⟨m', g1, g2, g3, g4⟩ := hl.stop
    refine ⟨m', g1, g2, fun e => ?_, fun k => ?_⟩
    · rw [g3]
      split
      · rfl
      · next hn =>
        cases he : m.ents e with
        | none => rfl
        | some x => exact absurd (ho.1 e (by rw [he]; exact fun c => by cases c)) hn
    · rw [g4]
      split
      · rfl
      · next hn =>
        cases hk : m.kbds k with
        | false => rfl
        | true => exact absurd (ho.2 k hk) hn

/-- C100: a signal at any other moment is handled without touching freed memory, except when it comes while the list is being freed. -/
theorem C100_exact (es : List ReloadEvent) (m : ConfMem) (pc : ReloadPc) (h : reloadRun es = some (m, pc)) : sigterm m = none ↔ Midway m pc := by
  obtain ⟨m', pc', h', hi, hb⟩ := reload_inv es
  rw [h] at h'
  cases h'
  have ok : ∀ l, Listed m m.configs l → ¬ sigterm m = none := by
    intro l hl c
    obtain ⟨m', g1, _⟩ := hl.stop
    rw [g1] at c
    cases c
  have nil : m.configs = none → ¬ sigterm m = none := fun hc =>
    ok [] (by rw [hc]; exact ⟨.nil, List.nodup_nil, List.nodup_nil, fun _ h => (by cases h)⟩)
  cases pc with
  | idle => obtain ⟨l, hl, _⟩ := hi; exact ⟨fun c => absurd c (ok l hl), fun c => c.elim⟩
  | next fs => obtain ⟨l, hl, _⟩ := hi; exact ⟨fun c => absurd c (ok l hl), fun c => c.elim⟩
  | start fs => exact ⟨fun c => absurd c (nil hi.1), fun c => c.elim⟩
  | parse e o fs => obtain ⟨l, hl, _⟩ := hi; exact ⟨fun c => absurd c (ok l hl), fun c => c.elim⟩
  | keyboard e fs => obtain ⟨l, hl, _⟩ := hi; exact ⟨fun c => absurd c (ok l hl), fun c => c.elim⟩
  | link e fs => obtain ⟨k, l, hl, _⟩ := hi; exact ⟨fun c => absurd c (ok l hl), fun c => c.elim⟩
  | publish e fs => obtain ⟨k, l, hl, _⟩ := hi; exact ⟨fun c => absurd c (ok l hl), fun c => c.elim⟩
  | clear fs =>
    rcases hi.1 with hc | hg
    · exact ⟨fun c => absurd c (nil hc), fun c => absurd hc c⟩
    · exact ⟨fun _ hc => (by obtain ⟨c, hc', _⟩ := hg; rw [hc] at hc'; cases hc'), fun _ => hg.stop⟩
  | test ent fs =>
    obtain ⟨l, hl, _, hc⟩ := hi
    rcases hc with hc | hg
    · exact ⟨fun c => absurd c (ok l (hc ▸ hl)), fun c => absurd hc c⟩
    · exact ⟨fun _ => (hg.not_listed hl).resolve_right id, fun _ => hg.stop⟩
  | freeKbd e n fs =>
    obtain ⟨k, l, _, hl, _, hc⟩ := hi
    rcases hc with hc | hg
    · exact ⟨fun c => absurd c (ok _ (hc ▸ hl)), fun c => absurd hc c⟩
    · exact ⟨fun _ => (hg.not_listed hl).resolve_right id, fun _ => hg.stop⟩
  | freeEnt e n fs =>
    obtain ⟨k, l, he, hk, _, _, _, _, hc⟩ := hi
    refine ⟨fun _ => trivial, fun _ => ?_⟩
    rcases hc with hc | hg
    · refine Dangling.stop ⟨e, hc, fun n' k' e' => ?_⟩ fun c n' hc' e' => ?_
      · rw [he] at e'; cases e'; exact hk
      · rw [hc] at hc'; cases hc'; rw [he] at e'; cases e'
    · exact hg.stop

/-- C100, what holds: a signal that does not come while the list is being freed is handled without touching freed memory. -/
theorem C100_stop_partial (es : List ReloadEvent) (m : ConfMem) (pc : ReloadPc) (h : reloadRun es = some (m, pc)) (hp : ¬ Midway m pc) : ∃ m', sigterm m = some m' ∧ m'.configs = none := by
  obtain ⟨m', pc', h', hi, hb⟩ := reload_inv es
  rw [h] at h'
  cases h'
  cases hs : sigterm m with
  | none => exact absurd ((C100_exact es m pc h).1 hs) hp
  | some m' =>
    refine ⟨m', rfl, ?_⟩
    have : ∀ (n : Nat) (m : ConfMem) (p : Option Nat) (m' : ConfMem), freeFrom n m p = some m' → m'.configs = none := by
      intro n
      induction n with
      | zero => intro m p m' h; cases p with
        | none => cases h; rfl
        | some e => cases h
      | succ n ih => intro m p m' h; cases p with
        | none => cases h; rfl
        | some e =>
          rw [freeFrom] at h
          cases he : m.ents e with
          | none => rw [he] at h; cases h
          | some x =>
            rw [he] at h
            dsimp only at h
            obtain ⟨m1, _, h⟩ := Option.bind_eq_some_iff.1 h
            exact ih _ _ _ h
    exact this _ _ _ _ hs

/-- Two configurations are loaded, a third file cannot be parsed; then a reload has freed the first keyboard. -/
def shutdownDemo (n : Nat) : List ReloadEvent := .reload [true, false, true] :: List.replicate 17 .run ++ .reload [true] :: List.replicate n .run

theorem C100_example :
    ((reloadRun (shutdownDemo 0)).map fun s => (s.2, s.1.configs, (sigterm s.1).isSome)) = some (.test (some 3) [true], some 3, true) ∧
    ((reloadRun (shutdownDemo 0)).map fun s => (s.1.ents 3, s.1.ents 0, s.1.ents 2)) = some (some (some 0, some 4), some (none, some 1), none) ∧
    ((reloadRun (shutdownDemo 9)).map fun s => (s.2, (sigterm s.1).isSome)) = some (.next [true], true) := by
  exact ⟨by decide +kernel, rfl, by decide +kernel⟩

/-- What is missing: a signal while the list is being freed makes `cleanup` free it again. -/
theorem C100_fails_midway : ((reloadRun (shutdownDemo 2)).map fun s => (s.2, (sigterm s.1).isSome)) = some (.freeEnt 3 (some 0) [true], false) ∧
    ((reloadRun (shutdownDemo 3)).map fun s => (s.2, (sigterm s.1).isSome)) = some (.test (some 0) [true], false) ∧
    ((reloadRun (shutdownDemo 7)).map fun s => (s.2, (sigterm s.1).isSome)) = some (.clear [true], false) := by
  decide +kernel

end Keyd
