import Verif.Proofs.OutInv

/-
  Two general facts about the action interpreter `process_descriptor`:
  most of it leaves the held bindings, the pending key, the chords and the tables
  alone (`Calm`), and every binding the engine has stored anywhere comes from the
  binding tables (`Stored`).
-/

set_option autoImplicit false

namespace Keyd

/-! ### Stored bindings -/

/-- Properties of bindings that are inherited by the bindings the engine makes up:
the layer actions stored by `overloadt` and `swap`. -/
structure TClosed (T : Desc → Prop) : Prop where
  none : T .none
  keyseq : ∀ c m, T (.keyseq c m)
  ot : ∀ l a t, T (.overloadTimeout l a t) → T (.layer l)
  ott : ∀ l a t, T (.overloadTimeoutTap l a t) → T (.layer l)
  swap : ∀ l, T (.swap l) → T (.layer l)
  swapm : ∀ l m, T (.swapm l m) → T (.layer l)

/-- Every binding in the tables satisfies `T`. -/
structure TableT (T : Desc → Prop) (c : Config) : Prop where
  descs : ∀ i, T (c.desc i)
  keys : ∀ i code, T ((c.layer i).keymap code)
  chords : ∀ i, ∀ ch ∈ (c.layer i).chords, T ch.d

/-- Every binding stored in the engine's state and tables satisfies `T`. -/
structure Stored (T : Desc → Prop) (k : Kbd) : Prop where
  cache : ∀ e ∈ k.cache, T e.d
  a1 : T k.pending.action1
  a2 : T k.pending.action2
  chords : ∀ a ∈ k.activeChords, T a.chord.d
  table : TableT T k.config

variable {T : Desc → Prop}

theorem Stored.calm {k k' : Kbd} (h : Stored T k) (hc : Calm k k') : Stored T k' := by
  refine ⟨?_, by rw [hc.pending]; exact h.a1, by rw [hc.pending]; exact h.a2,
    by rw [hc.activeChords]; exact h.chords, by rw [hc.config]; exact h.table⟩
  intro e he
  have : e.strip ∈ k'.cache.map CacheEntry.strip := List.mem_map_of_mem he
  rw [hc.cache] at this
  obtain ⟨e', he', heq⟩ := List.mem_map.1 this
  have : e'.d = e.d := by
    have := congrArg CacheEntry.d heq
    exact this
  rw [← this]
  exact h.cache e' he'

/-- Frame rule for assignments to other fields. -/
theorem Stored.frame {k k' : Kbd} (h : Stored T k) (h1 : k'.cache = k.cache) (h2 : k'.pending = k.pending)
    (h3 : k'.activeChords = k.activeChords) (h4 : k'.config = k.config) : Stored T k' :=
  ⟨by rw [h1]; exact h.cache, by rw [h2]; exact h.a1, by rw [h2]; exact h.a2, by rw [h3]; exact h.chords,
    by rw [h4]; exact h.table⟩

theorem modifyFirst_mem {p : CacheEntry → Bool} {f : CacheEntry → CacheEntry} {x : CacheEntry} :
    ∀ {l : List CacheEntry}, x ∈ modifyFirst p f l → x ∈ l ∨ ∃ y ∈ l, p y = true ∧ x = f y
  | [], h => .inl h
  | e :: l, h => by
    unfold modifyFirst at h
    split at h
    · rename_i hp
      rcases List.mem_cons.1 h with rfl | h
      · exact .inr ⟨e, List.mem_cons_self .., hp, rfl⟩
      · exact .inl (List.mem_cons_of_mem _ h)
    · rcases List.mem_cons.1 h with rfl | h
      · exact .inl (List.mem_cons_self ..)
      · rcases modifyFirst_mem h with h | ⟨y, hy, hp, rfl⟩
        · exact .inl (List.mem_cons_of_mem _ h)
        · exact .inr ⟨y, List.mem_cons_of_mem _ hy, hp, rfl⟩

/-- Setting the binding of held keys. -/
theorem Stored.setD {k : Kbd} (h : Stored T k) (p : CacheEntry → Bool) (d : Desc) (hd : T d) :
    Stored T { k with cache := modifyFirst p (fun e => { e with d := d }) k.cache } := by
  refine ⟨?_, h.a1, h.a2, h.chords, h.table⟩
  intro e he
  rcases modifyFirst_mem he with he | ⟨y, _, _, rfl⟩
  · exact h.cache e he
  · exact hd

theorem Stored.pdSwap (hT : TClosed T) {k : Kbd} (h : Stored T k) (l : Nat) (m : Option Macro) (dl : Nat)
    (p : Bool) (hl : T (.layer l)) : Sat (pdSwap k l m dl p) (Stored T) AnyErr := by
  unfold Keyd.pdSwap
  split
  · refine Sat.bind (Q := Stored T) ?_ (fun k1 h1 => ?_)
    · unfold pdSwapLayer
      split
      · refine (Calm.deactivate k dl).bind (fun k1 h1 => ?_)
        refine (Calm.activate (k1.modLayer dl _) 0 l).bind (fun k2 h2 => ?_)
        refine Stored.calm (k := k2.modLayer l _) ?_ (.of_frame (.updateMods _ _ _))
        refine Stored.frame (k := k2) ?_ rfl rfl rfl rfl
        exact ((h.calm h1).calm (Calm.modL _ _ _)).calm h2
      · split
        · refine (Calm.deactivate k dl).bind (fun k1 h1 => ?_)
          refine (Calm.activate (k1.modLayer dl _) 0 l).bind (fun k2 h2 => ?_)
          refine Stored.calm (k := k2.modLayer l _) ?_ (.of_frame (.updateMods _ _ _))
          refine Stored.frame (k := k2) ?_ rfl rfl rfl rfl
          exact ((h.calm h1).calm (Calm.modL _ _ _)).calm h2
        · split
          · exact h
          · dsimp only
            refine Sat.bind (Calm.deactivate _ dl) (fun k1 h1 => ?_)
            refine (Calm.activate k1 _ l).bind (fun k2 h2 => ?_)
            exact (((h.setD _ _ hl).calm h1).calm h2).calm (.of_frame (.updateMods _ _ _))
    · show Stored T _
      split
      · exact h1.calm (.of_frame (.executeMacro _ _ _))
      · exact h1
  · show Stored T _
    split
    · split
      · exact h.calm (.of_frame ((KeyFrame.send _ _ _).trans (.updateMods _ _ _)))
      · exact h
    · exact h

theorem Stored.pdSwitch (hT : TClosed T) {pd : Kbd → Code → Desc → Nat → Bool → Int → Res Kbd}
    (hpd : ∀ k c d dl p t, T d → Stored T k → Sat (pd k c d dl p t) (Stored T) AnyErr)
    {k : Kbd} (c : Code) (d : Desc) (dl : Nat) (p : Bool) (t : Int) (hd : T d) (h : Stored T k) :
    Sat (pdSwitch pd k c d dl p t) (Stored T) AnyErr := by
  have calm : ∀ {r : Res Kbd}, Sat r (Calm k) AnyErr → Sat r (Stored T) AnyErr :=
    fun hr => hr.imp (fun _ hc => h.calm hc)
  unfold Keyd.pdSwitch
  cases d with
  | none => exact h
  | keyseq c' m => exact calm (Calm.pdKeyseq _ _ _ _ _ _)
  | scroll s => exact h.frame rfl rfl rfl rfl
  | scrollToggle s => exact h.frame rfl rfl rfl rfl
  | overloadIdle d1 d2 tm =>
    dsimp only
    split
    · unfold pdOverloadIdle
      have ha : T (idleAction k d1 d2 tm t) := by
        unfold idleAction
        split <;> exact h.table.descs _
      exact (hpd _ _ _ _ _ _ ha h).bind (fun k1 h1 => h1.setD _ _ ha)
    · exact h
  | overloadTimeout l a tm =>
    dsimp only
    split
    · refine (Calm.schedule _ _).imp (fun k1 h1 => Stored.calm ?_ h1)
      exact ⟨h.cache, h.table.descs _, hT.ot _ _ _ hd, h.chords, h.table⟩
    · exact h
  | overloadTimeoutTap l a tm =>
    dsimp only
    split
    · refine (Calm.schedule _ _).imp (fun k1 h1 => Stored.calm ?_ h1)
      exact ⟨h.cache, h.table.descs _, hT.ott _ _ _ hd, h.chords, h.table⟩
    · exact h
  | layout l =>
    dsimp only
    split
    · exact calm (Calm.setlayout _ _)
    · exact h
  | layer l => exact calm (Calm.pdLayer _ _ _ _)
  | layerm l m => exact calm (Calm.pdLayer _ _ _ _)
  | clear =>
    dsimp only
    split
    · exact calm (Calm.clear _)
    · exact h
  | clearm m =>
    dsimp only
    split
    · exact (calm (Calm.clear _)).bind (fun k1 h1 => h1.calm (.of_frame (.executeMacro _ _ _)))
    · exact h
  | overload l a =>
    dsimp only
    split
    · exact calm (Calm.pdOverloadPress _ _ _ _)
    · unfold pdOverloadRelease
      refine (calm (Calm.deactivate _ _)).bind (fun k1 h1 => ?_)
      dsimp only
      have h2 : Stored T (updateMods k1 none 0) := h1.calm (.of_frame (.updateMods _ _ _))
      refine Sat.ite (fun _ => ?_) (fun _ => h2)
      have ha : T (k.config.desc a) := h.table.descs _
      revert ha
      generalize k.config.desc a = act
      intro ha
      split
      · exact h2.calm (.of_frame (.executeMacro _ _ _))
      · exact (hpd _ _ _ _ _ _ ha h2).bind (fun k2 h2 => hpd _ _ _ _ _ _ ha h2)
  | oneshot l => exact calm (Calm.pdOneshot _ _ _ _ _ _)
  | oneshotm l m => exact calm (Calm.pdOneshot _ _ _ _ _ _)
  | «macro» m =>
    dsimp only
    split
    · exact calm (Calm.pdMacro _ _ _ _ _ _)
    · exact h
  | macro2 tm r m =>
    dsimp only
    split
    · exact calm (Calm.pdMacro _ _ _ _ _ _)
    · exact h
  | toggle l =>
    dsimp only
    split
    · exact calm (Calm.pdToggle _ _ _)
    · exact h
  | togglem l m =>
    dsimp only
    split
    · exact calm (Calm.pdToggle _ _ _)
    · exact h
  | timeout d1 tm d2 =>
    dsimp only
    split
    · refine (Calm.schedule _ _).imp (fun k1 h1 => Stored.calm ?_ h1)
      exact ⟨h.cache, h.table.descs _, h.table.descs _, h.chords, h.table⟩
    · exact h
  | command cm =>
    dsimp only
    split
    · exact calm (Calm.pdCommand _ _)
    · exact h
  | swap l => exact h.pdSwap hT _ _ _ _ (hT.swap _ hd)
  | swapm l m => exact h.pdSwap hT _ _ _ _ (hT.swapm _ _ hd)

theorem Stored.processDescriptor (hT : TClosed T) : ∀ (n : Nat) (k : Kbd) (c : Code) (d : Desc) (dl : Nat)
    (p : Bool) (t : Int), T d → Stored T k → Sat (processDescriptor n k c d dl p t) (Stored T) AnyErr
  | 0, _, _, _, _, _, _, _, _ => trivial
  | n+1, k, c, d, dl, p, t, hd, h => by
    unfold Keyd.processDescriptor
    refine (Stored.pdSwitch hT (fun k c d dl p t hd hk => Stored.processDescriptor hT n k c d dl p t hd hk)
      c d dl p t hd (h.calm (.of_frame (Calm.pdMacroPrefix k d dl p)))).bind (fun k1 h1 => ?_)
    show Stored T _
    split
    · exact h1.frame rfl rfl rfl rfl
    · exact h1

theorem List.mem_modify' {α : Type} {f : α → α} {x : α} : ∀ {l : List α} {i : Nat}, x ∈ l.modify i f →
    x ∈ l ∨ ∃ y ∈ l, x = f y
  | [], i, h => by simp at h
  | a :: l, 0, h => by
    rw [List.modify_zero_cons] at h
    rcases List.mem_cons.1 h with rfl | h
    · exact .inr ⟨a, List.mem_cons_self .., rfl⟩
    · exact .inl (List.mem_cons_of_mem _ h)
  | a :: l, i+1, h => by
    rw [List.modify_succ_cons] at h
    rcases List.mem_cons.1 h with rfl | h
    · exact .inl (List.mem_cons_self ..)
    · rcases mem_modify' h with h | ⟨y, hy, rfl⟩
      · exact .inl (List.mem_cons_of_mem _ h)
      · exact .inr ⟨y, List.mem_cons_of_mem _ hy, rfl⟩

theorem Stored.cacheSet {k k' : Kbd} (h : Stored T k) {c : Code} {e : Option CacheEntry}
    (he : ∀ x, e = some x → T x.d) (hs : cacheSet k c e = some k') : Stored T k' := by
  unfold Keyd.cacheSet at hs
  split at hs
  · cases hs
  · split at hs
    · cases hs
      refine ⟨?_, h.a1, h.a2, h.chords, h.table⟩
      intro x hx
      rcases List.mem_modify' hx with hx | ⟨y, hy, rfl⟩
      · exact h.cache x hx
      · exact h.cache y hy
    · rename_i ent
      cases hs
      refine ⟨?_, h.a1, h.a2, h.chords, h.table⟩
      intro x hx
      rcases List.mem_or_eq_of_mem_set hx with hx | rfl
      · exact h.cache x hx
      · exact he ent rfl

theorem Stored.cacheSetD {k : Kbd} (h : Stored T k) {c : Code} {e : Option CacheEntry}
    (he : ∀ x, e = some x → T x.d) : Stored T ((Keyd.cacheSet k c e).getD k) := by
  cases hs : Keyd.cacheSet k c e with
  | none => exact h
  | some k' => exact h.cacheSet he hs

theorem getD_mem_or {α : Type} (l : List α) (i : Nat) (d : α) : l.getD i d ∈ l ∨ l.getD i d = d := by
  rw [List.getD_eq_getElem?_getD]
  cases h : l[i]? with
  | none => exact .inr rfl
  | some a => exact .inl (List.mem_of_getElem? h)

theorem foldl_some_mem {α β : Type} (P : β → Prop) (f : β → α → β) (h : ∀ b a, P b → P (f b a)) :
    ∀ (l : List α) (b : β), P b → P (l.foldl f b)
  | [], _, hb => hb
  | a :: l, b, hb => foldl_some_mem P f h l _ (h b a hb)

theorem Stored.lookup (hT : TClosed T) {k : Kbd} (h : Stored T k) (c : Code) : T (lookupDescriptor k c).1 := by
  unfold lookupDescriptor
  split
  · dsimp only
    rcases getD_mem_or k.activeChords (c.toNat - KEYD.CHORD_1.toNat) {} with hm | hm
    · exact h.chords _ hm
    · rw [hm]; exact hT.none
  · have h1 : ∀ d l, (lookupActive k c).1 = some (d, l) → T d := by
      have : (fun acc : Option (Desc × Nat) × Int => ∀ d l, acc.1 = some (d, l) → T d) (lookupActive k c) := by
        unfold lookupActive
        refine foldl_some_mem (fun acc : Option (Desc × Nat) × Int => ∀ d l, acc.1 = some (d, l) → T d) _ ?_ _ _ (fun d l h => by cases h)
        intro b a hb d l hd
        dsimp only at hd
        split at hd
        · cases hd; exact h.table.keys _ _
        · exact hb d l hd
      exact this
    have h2 : ∀ d l, (lookupComposite k c (lookupActive k c).1).1 = some (d, l) → T d := by
      have : (fun acc : Option (Desc × Nat) × Nat => ∀ d l, acc.1 = some (d, l) → T d)
          (lookupComposite k c (lookupActive k c).1) := by
        unfold lookupComposite
        refine foldl_some_mem (fun acc : Option (Desc × Nat) × Nat => ∀ d l, acc.1 = some (d, l) → T d) _ ?_ _ _ (fun d l h => h1 d l h)
        intro b a hb d l hd
        dsimp only at hd
        split at hd
        · cases hd; exact h.table.keys _ _
        · exact hb d l hd
      exact this
    split
    · rename_i r hr; exact h2 r.1 r.2 hr
    · exact hT.keyseq _ _

/-- The generic principle: an invariant `P` of the engine may rely on every
processed binding satisfying `T`. -/
structure TInv (T : Desc → Prop) (P : Kbd → Prop) (E : Err → Prop) : Prop where
  errs : ∀ e, InfraErr e → E e
  chord : ∀ k ch, P k → P { k with chord := ch }
  timeouts : ∀ k ts, P k → P { k with timeouts := ts }
  passed : ∀ k ev, P k → P (k.log (.passed ev))
  swallowed : ∀ k evs, P k → P (k.logSwallowed evs)
  activeChords : ∀ k ac, P k → P { k with activeChords := ac }
  enqueue : ∀ k q, P k → P { k with pending := { k.pending with queue := q } }
  resolve : ∀ k a t, Stored T k → P k → k.pending.code ≠ 0 → a ≠ .none → T a →
    (a = k.pending.action1 ∨ a = k.pending.action2 ∨ a = .keyseq KEYD.NOOP 0) →
    Sat (resolvePendingStep k a t) (fun r => P r.1) E
  timers : ∀ k c t, Stored T k → P k → Sat (stepTimers k c t) P E
  key : ∀ k c p t, Stored T k → P k → PassesPending k c p → Sat (stepKey k c p t) P E

theorem stored_resolve (hT : TClosed T) (k : Kbd) (a : Desc) (t : Int) (h : Stored T k) (ha : T a) :
    Sat (resolvePendingStep k a t) (fun r => Stored T r.1) AnyErr := by
  unfold resolvePendingStep
  dsimp only
  refine Sat.bind (Q := Stored T) ?_ (fun k1 h1 => h1)
  refine Stored.processDescriptor hT _ _ _ _ _ _ _ ha ?_
  have h0 : Stored T { k with pending := { k.pending with code := 0, queue := [], tapExpiry := 0 } } :=
    ⟨h.cache, h.a1, h.a2, h.chords, h.table⟩
  have h1 := h0.cacheSetD (c := k.pending.code) (e := some { d := a, dl := k.pending.dl, layer := 0 })
    (by rintro x ⟨⟩; exact ha)
  exact h1.frame rfl rfl rfl rfl

theorem stored_key (hT : TClosed T) (k : Kbd) (c : Code) (p : Bool) (t : Int) (h : Stored T k) :
    Sat (stepKey k c p t) (Stored T) AnyErr := by
  unfold stepKey
  refine Sat.ite (fun _ => h) (fun _ => Sat.ite (fun _ => Sat.ite (fun _ => ?_) (fun _ => ?_)) (fun _ => ?_))
  · exact h.frame rfl rfl rfl rfl
  · have hl := h.lookup hT c
    revert hl
    generalize lookupDescriptor k c = r
    obtain ⟨d, dl⟩ := r
    intro hl
    dsimp only at hl ⊢
    split
    · exact h.frame rfl rfl rfl rfl
    · rename_i k' hk'
      refine Stored.processDescriptor hT _ _ _ _ _ _ _ hl ?_
      exact Stored.frame (h.cacheSet (by rintro x ⟨⟩; exact hl) hk') rfl rfl rfl rfl
  · split
    · exact h.frame rfl rfl rfl rfl
    · rename_i ce hce
      dsimp only
      have : ce ∈ k.cache := List.mem_of_find?_eq_some hce
      refine Stored.processDescriptor hT _ _ _ _ _ _ _ (h.cache ce this) ?_
      exact Stored.frame (Stored.cacheSetD (c := c) (e := none) h (by simp)) rfl rfl rfl rfl

theorem TInv.engineInv (hT : TClosed T) {P : Kbd → Prop} {E : Err → Prop} (I : TInv T P E) :
    EngineInv (fun k => Stored T k ∧ P k) E where
  errs := I.errs
  chord := fun k ch h => ⟨h.1.frame rfl rfl rfl rfl, I.chord k ch h.2⟩
  timeouts := fun k ts h => ⟨h.1.frame rfl rfl rfl rfl, I.timeouts k ts h.2⟩
  passed := fun k ev h => ⟨h.1.frame rfl rfl rfl rfl, I.passed k ev h.2⟩
  swallowed := fun k ev h => ⟨h.1.frame rfl rfl rfl rfl, I.swallowed k ev h.2⟩
  install := by
    intro k p h
    unfold installChord
    dsimp only
    split
    · exact I.errs _ (by simp [InfraErr])
    · refine ⟨⟨h.1.cache, h.1.a1, h.1.a2, ?_, h.1.table⟩, I.activeChords _ _ h.2⟩
      intro a ha
      rcases List.mem_or_eq_of_mem_set ha with ha | rfl
      · exact h.1.chords a ha
      · unfold derefChord
        rcases getD_mem_or (k.config.layer p.1).chords p.2 ⟨[], .none⟩ with hm | hm
        · exact h.1.table.chords _ _ hm
        · dsimp only
          rw [hm]; exact hT.none
  strike := by
    intro k i keys a h
    refine ⟨⟨h.1.cache, h.1.a1, h.1.a2, ?_, h.1.table⟩, I.activeChords _ _ h.2⟩
    intro x hx
    rcases List.mem_or_eq_of_mem_set hx with hx | rfl
    · exact h.1.chords x hx
    · rcases getD_mem_or k.activeChords i {} with hm | hm
      · exact h.1.chords (k.activeChords.getD i {}) hm
      · dsimp only
        rw [hm]; exact hT.none
  enqueue := fun k q h _ => ⟨⟨h.1.cache, h.1.a1, h.1.a2, h.1.chords, h.1.table⟩, I.enqueue k q h.2⟩
  resolve := by
    intro k a t h hc hn ha
    have hTa : T a := by
      rcases ha with rfl | rfl | rfl
      · exact h.1.a1
      · exact h.1.a2
      · exact hT.keyseq _ _
    exact ((I.resolve k a t h.1 h.2 hc hn hTa ha).and_any (stored_resolve hT k a t h.1 hTa)).imp
      (fun _ h => ⟨h.2, h.1⟩)
  timers := fun k c t h => ((I.timers k c t h.1 h.2).and_any
    ((Calm.stepTimers k c t).imp (fun _ hc => h.1.calm hc))).imp (fun _ h => ⟨h.2, h.1⟩)
  key := fun k c p t h hp => ((I.key k c p t h.1 h.2 hp).and_any (stored_key hT k c p t h.1)).imp
      (fun _ h => ⟨h.2, h.1⟩)

/-- The stored bindings of a new keyboard. -/
theorem Stored.new (hT : TClosed T) {c : Config} (h : TableT T c) : Stored T (newKeyboard c) := by
  refine ⟨?_, hT.none, hT.none, ?_, h⟩
  · intro e he
    have : e = {} := List.eq_of_mem_replicate he
    rw [this]; exact hT.none
  · intro e he
    have : e = {} := List.eq_of_mem_replicate he
    rw [this]; exact hT.none

end Keyd
