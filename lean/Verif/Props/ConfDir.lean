import Verif.Props.Daemon
import Verif.Model.ConfDir

/-
  C90: which files of the config directory count, and in what order.
-/

set_option autoImplicit false

namespace Keyd

attribute [local irreducible] configInit

/-! ### Specification -/

/-- The entry is a config file that can be read and parsed, and this is its config: not a directory, called something`.conf`. -/
def HasConfig (fs : Files) (stack : Str → Str) (e : DirEnt) (c : Config) : Prop :=
  e.isDir = false ∧ (∃ base, e.name = base ++ b!".conf") ∧
    ∃ text, readFile fs (stack (b!"/etc/keyd/" ++ e.name)) (b!"/etc/keyd/" ++ e.name) = .ok (some text) ∧ configParse text = .ok (some c)

/-- The configs of some entries, in order. -/
inductive Configs (fs : Files) (stack : Str → Str) : List DirEnt → List Config → Prop
  | nil : Configs fs stack [] []
  | config {e : DirEnt} {c : Config} {es : List DirEnt} {cs : List Config} (h : HasConfig fs stack e c) (t : Configs fs stack es cs) :
      Configs fs stack (e :: es) (c :: cs)
  | other {e : DirEnt} {es : List DirEnt} {cs : List Config} (h : ¬ ∃ c, HasConfig fs stack e c) (t : Configs fs stack es cs) :
      Configs fs stack (e :: es) cs

/-! ### Proofs -/

theorem path_eq (e : DirEnt) : e.path = b!"/etc/keyd/" ++ e.name := rfl

theorem suffix_iff (e : DirEnt) : (e.path.length ≥ 5 ∧ e.path.drop (e.path.length - 5) = b!".conf") ↔ ∃ base, e.name = base ++ b!".conf" := by
  constructor
  · rintro ⟨hl, h⟩
    have hp : e.path = e.path.take (e.path.length - 5) ++ b!".conf" := by rw [← h, List.take_append_drop]
    generalize e.path.take (e.path.length - 5) = q at hp
    rw [path_eq] at hp
    have hs : b!".conf" <:+ b!"/etc/keyd/" ++ e.name := ⟨q, hp.symm⟩
    by_cases hn : 5 ≤ e.name.length
    · have := List.suffix_of_suffix_length_le hs (List.suffix_append _ e.name) hn
      obtain ⟨b, hb⟩ := this
      exact ⟨b, hb.symm⟩
    · exfalso
      have hb : e.name <:+ b!".conf" := List.suffix_of_suffix_length_le (List.suffix_append _ e.name) hs (by
        show e.name.length ≤ 5; omega)
      have key : ∀ j : Fin 5, ¬ (b!".conf" <:+ b!"/etc/keyd/" ++ b!".conf".drop (5 - j.1)) := by decide +kernel
      have he : e.name = b!".conf".drop (5 - e.name.length) := by
        have := List.suffix_iff_eq_drop.1 hb
        exact this
      have := key ⟨e.name.length, by omega⟩
      dsimp only at this
      rw [← he] at this
      exact this hs
  · rintro ⟨b, hb⟩
    rw [path_eq, hb, ← List.append_assoc]
    generalize b!"/etc/keyd/" ++ b = q
    refine ⟨?_, ?_⟩
    · rw [List.length_append]; show _ + 5 ≥ 5; omega
    · rw [List.length_append, show (b!".conf" : Str).length = 5 from rfl, Nat.add_sub_cancel, List.drop_left]

/-- What one entry does, in the terms of the specification. -/
theorem loadEntry_eq {fs : Files} {stack : Str → Str} {d d' : Daemon} {e : DirEnt} (h : loadEntry fs stack d e = .ok d') :
    (∃ c, HasConfig fs stack e c ∧ d' = { d with heap := upd d.heap d.next (some (newKeyboard c)), next := d.next + 1, configs := ⟨c, d.next⟩ :: d.configs })
    ∨ ((¬ ∃ c, HasConfig fs stack e c) ∧ d' = d) := by
  unfold loadEntry at h
  split at h
  · rename_i hd
    right
    refine ⟨?_, (Except.ok.inj h).symm⟩
    rintro ⟨c, hc, _⟩
    rw [hd] at hc
    cases hc
  · rename_i hd
    dsimp only at h
    split at h
    · rename_i hs
      have hs := (suffix_iff e).1 hs
      obtain ⟨o, ho, h⟩ := dbind_eq_ok.1 h
      have ho := lift_ok.1 ho
      rw [path_eq] at ho
      cases o with
      | none =>
        right
        refine ⟨?_, (Except.ok.inj h).symm⟩
        rintro ⟨c, _, _, t, ht, _⟩
        rw [ho] at ht
        cases ht
      | some text =>
        dsimp only at h
        unfold loadConfig at h
        obtain ⟨o, hp, h⟩ := dbind_eq_ok.1 h
        have hp := lift_ok.1 hp
        cases o with
        | none =>
          right
          refine ⟨?_, (Except.ok.inj h).symm⟩
          rintro ⟨c, _, _, t, ht, hc⟩
          rw [ho] at ht
          rw [← Option.some.inj (Except.ok.inj ht), hp] at hc
          cases hc
        | some c =>
          left
          exact ⟨c, ⟨by simpa using hd, hs, text, ho, hp⟩, (Except.ok.inj h).symm⟩
    · rename_i hs
      right
      refine ⟨?_, (Except.ok.inj h).symm⟩
      rintro ⟨c, _, hb, _⟩
      exact hs ((suffix_iff e).2 hb)

theorem loadEntry_frame {fs : Files} {stack : Str → Str} {d d' : Daemon} {e : DirEnt} (h : loadEntry fs stack d e = .ok d') :
    d.next ≤ d'.next ∧ ∀ a < d.next, d'.heap a = d.heap a := by
  rcases loadEntry_eq h with ⟨c, _, rfl⟩ | ⟨_, rfl⟩
  · exact ⟨Nat.le_succ _, fun a ha => upd_other _ _ (by omega)⟩
  · exact ⟨Nat.le_refl _, fun _ _ => rfl⟩

theorem loadDir_frame (fs : Files) (stack : Str → Str) : ∀ (es : List DirEnt) (d d' : Daemon), loadDir fs stack es d = .ok d' →
    d.next ≤ d'.next ∧ ∀ a < d.next, d'.heap a = d.heap a
  | [], d, d', h => by rw [← Except.ok.inj h]; exact ⟨Nat.le_refl _, fun _ _ => rfl⟩
  | e :: es, d, d', h => by
    unfold loadDir at h
    obtain ⟨d1, h1, h2⟩ := dbind_eq_ok.1 h
    obtain ⟨a1, a2⟩ := loadEntry_frame h1
    obtain ⟨b1, b2⟩ := loadDir_frame fs stack es d1 d' h2
    exact ⟨Nat.le_trans a1 b1, fun a ha => by rw [b2 a (by omega), a2 a ha]⟩

/-- C90. The configs of the daemon are those of the config files in the directory, the last one read first, and each has a new keyboard in its
initial state. Devices, listeners and what has been sent are left alone. -/
theorem C90_loaded (fs : Files) (stack : Str → Str) : ∀ (es : List DirEnt) (d d' : Daemon), loadDir fs stack es d = .ok d' →
    ∃ cs, Configs fs stack es cs ∧ d'.configs.map Ent.config = cs.reverse ++ d.configs.map Ent.config ∧
      (∀ ent ∈ d'.configs, ent ∈ d.configs ∨ (d.next ≤ ent.kbd ∧ d'.heap ent.kbd = some (newKeyboard ent.config))) ∧
      d' = { d with heap := d'.heap, next := d'.next, configs := d'.configs }
  | [], d, d', h => by
    rw [← Except.ok.inj h]
    exact ⟨[], .nil, rfl, fun ent he => .inl he, rfl⟩
  | e :: es, d, d', h => by
    unfold loadDir at h
    obtain ⟨d1, h1, h2⟩ := dbind_eq_ok.1 h
    obtain ⟨cs, ih, ih2, ih3, ih4⟩ := C90_loaded fs stack es d1 d' h2
    have hfr := loadDir_frame fs stack es d1 d' h2
    rcases loadEntry_eq h1 with ⟨c, hc, rfl⟩ | ⟨hn, rfl⟩
    · refine ⟨c :: cs, .config hc ih, ?_, ?_, ?_⟩
      · rw [ih2]
        simp
      · intro ent he
        rcases ih3 ent he with he | ⟨hl, hh⟩
        · rcases List.mem_cons.1 he with rfl | he
          · right
            refine ⟨Nat.le_refl _, ?_⟩
            rw [hfr.2 _ (Nat.lt_succ_self _)]
            exact upd_same _ _ _
          · exact .inl he
        · exact .inr ⟨Nat.le_of_succ_le hl, hh⟩
      · rw [ih4]
    · exact ⟨cs, .other hn ih, ih2, ih3, ih4⟩

/-- C90. Entries that are not config files, or cannot be read or parsed, have no effect: the daemon is in the same state as if they were not in the
directory. -/
theorem C90_others (fs : Files) (stack : Str → Str) : ∀ (es es' : List DirEnt) (d d' : Daemon), loadDir fs stack es d = .ok d' →
    es'.Sublist es → (∀ e ∈ es, (∃ c, HasConfig fs stack e c) → e ∈ es') → es.Nodup → loadDir fs stack es' d = .ok d'
  | [], es', d, d', h, hs, _, _ => by rw [List.sublist_nil.1 hs]; exact h
  | e :: es, es', d, d', h, hs, hk, hn => by
    obtain ⟨hne, hn⟩ := List.nodup_cons.1 hn
    unfold loadDir at h
    obtain ⟨d1, h1, h2⟩ := dbind_eq_ok.1 h
    cases hs with
    | cons _ hs =>
      have hno : ¬ ∃ c, HasConfig fs stack e c := fun hc => hne (hs.subset (hk e List.mem_cons_self hc))
      rcases loadEntry_eq h1 with ⟨c, hc, _⟩ | ⟨_, rfl⟩
      · exact absurd ⟨c, hc⟩ hno
      · exact C90_others fs stack es es' _ d' h2 hs (fun x hx hc => hk x (List.mem_cons_of_mem _ hx) hc) hn
    | cons_cons _ hs =>
      rename_i es''
      show (loadEntry fs stack d e >>= fun d => loadDir fs stack es'' d) = .ok d'
      rw [h1]
      exact C90_others fs stack es es'' d1 d' h2 hs (fun x hx hc => by
        rcases List.mem_cons.1 (hk x (List.mem_cons_of_mem _ hx) hc) with rfl | hm
        · exact absurd hx hne
        · exact hm) hn

/-- The entries of a directory have one list of configs. -/
theorem configs_unique {fs : Files} {stack : Str → Str} {es : List DirEnt} {cs cs' : List Config} (h : Configs fs stack es cs)
    (h' : Configs fs stack es cs') : cs = cs' := by
  induction h generalizing cs' with
  | nil => cases h'; rfl
  | config hc _ ih =>
    cases h' with
    | config hc' t' =>
      rw [ih t']
      obtain ⟨_, _, t1, r1, p1⟩ := hc
      obtain ⟨_, _, t2, r2, p2⟩ := hc'
      rw [r1] at r2
      rw [← Option.some.inj (Except.ok.inj r2), p1] at p2
      rw [Option.some.inj (Except.ok.inj p2)]
    | other hn _ => exact absurd ⟨_, hc⟩ hn
  | other hn _ ih =>
    cases h' with
    | config hc' _ => exact absurd ⟨_, hc'⟩ hn
    | other _ t' => exact ih t'

theorem configs_perm {fs : Files} {stack : Str → Str} {es es' : List DirEnt} (hp : es.Perm es') : ∀ {cs cs' : List Config},
    Configs fs stack es cs → Configs fs stack es' cs' → cs.Perm cs' := by
  have ex : ∀ es : List DirEnt, ∃ cs, Configs fs stack es cs := by
    intro es
    induction es with
    | nil => exact ⟨_, .nil⟩
    | cons e es ih =>
      obtain ⟨cs, ih⟩ := ih
      by_cases h : ∃ c, HasConfig fs stack e c
      · exact ⟨_, .config h.choose_spec ih⟩
      · exact ⟨_, .other h ih⟩
  induction hp with
  | nil => intro _ _ h h'; cases h; cases h'; exact .nil
  | cons e _ ih =>
    intro _ _ h h'
    cases h with
    | config hc t =>
      cases h' with
      | config hc' t' =>
        obtain ⟨_, _, t1, r1, p1⟩ := hc
        obtain ⟨_, _, t2, r2, p2⟩ := hc'
        rw [r1] at r2
        rw [← Option.some.inj (Except.ok.inj r2), p1] at p2
        rw [Option.some.inj (Except.ok.inj p2)]
        exact .cons _ (ih t t')
      | other hn _ => exact absurd ⟨_, hc⟩ hn
    | other hn t =>
      cases h' with
      | config hc' _ => exact absurd ⟨_, hc'⟩ hn
      | other _ t' => exact ih t t'
  | swap a b l =>
    intro _ _ h h'
    obtain ⟨cs, hl⟩ := ex l
    by_cases ha : ∃ c, HasConfig fs stack a c <;> by_cases hb : ∃ c, HasConfig fs stack b c
    · rw [configs_unique h (.config hb.choose_spec (.config ha.choose_spec hl)),
        configs_unique h' (.config ha.choose_spec (.config hb.choose_spec hl))]
      exact .swap _ _ _
    · rw [configs_unique h (.other hb (.config ha.choose_spec hl)), configs_unique h' (.config ha.choose_spec (.other hb hl))]
    · rw [configs_unique h (.config hb.choose_spec (.other ha hl)), configs_unique h' (.other ha (.config hb.choose_spec hl))]
    · rw [configs_unique h (.other hb (.other ha hl)), configs_unique h' (.other ha (.other hb hl))]
  | trans _ _ ih1 ih2 =>
    intro _ _ h h'
    obtain ⟨cs, hm⟩ := ex _
    exact (ih1 h hm).trans (ih2 hm h')

theorem find_perm {α : Type} {p : α → Bool} {l l' : List α} (hp : l.Perm l') (hu : ∀ a ∈ l, ∀ b ∈ l, p a = true → p b = true → a = b) :
    l.find? p = l'.find? p := by
  cases h : l.find? p with
  | none =>
    symm
    rw [List.find?_eq_none] at h ⊢
    exact fun x hx => h x (hp.mem_iff.2 hx)
  | some a =>
    cases h' : l'.find? p with
    | none =>
      rw [List.find?_eq_none] at h'
      exact absurd (List.find?_some h) (h' a (hp.mem_iff.1 (List.mem_of_find?_eq_some h)))
    | some b =>
      rw [hu a (List.mem_of_find?_eq_some h) b (hp.mem_iff.2 (List.mem_of_find?_eq_some h')) (List.find?_some h) (List.find?_some h')]

theorem find_map_ent (es : List Ent) (p : Config → Bool) : (es.find? fun e => p e.config).map Ent.config = (es.map Ent.config).find? p := by
  rw [List.find?_map]
  rfl

/-- The config for a device depends on the configs in the list only. -/
theorem lookup_configs (es : List Ent) (id : Str) (flags : UInt8) : (lookupConfigEnt es id flags).map Ent.config =
    match (es.map Ent.config).find? (fun c => Lists c id flags) with
    | some c => some c
    | none => if flags = ID_MOUSE then none else (es.map Ent.config).find? (fun c => ByWildcard c id flags) := by
  rw [C37_lookup, ← find_map_ent es (fun c => Lists c id flags), ← find_map_ent es (fun c => ByWildcard c id flags)]
  cases es.find? (fun e => Lists e.config id flags) with
  | some e => rfl
  | none =>
    dsimp only [Option.map_none]
    split <;> rfl

/-- C90. The order of the entries in the directory decides nothing about a device for which there is no tie: if at most one config lists the device and at
most one takes it by its wildcard, every order gives the device the same config. -/
theorem C90_order (fs : Files) (stack : Str → Str) (es es' : List DirEnt) (hp : es.Perm es') (d1 d2 d1' d2' : Daemon)
    (e1 : d1.configs = []) (e2 : d2.configs = []) (h1 : loadDir fs stack es d1 = .ok d1') (h2 : loadDir fs stack es' d2 = .ok d2')
    (id : Str) (flags : UInt8)
    (unique : ∀ e ∈ es, ∀ e' ∈ es, ∀ c c', HasConfig fs stack e c → HasConfig fs stack e' c' →
      (Lists c id flags = true ∧ Lists c' id flags = true) ∨ (ByWildcard c id flags = true ∧ ByWildcard c' id flags = true) → c = c') :
    (lookupConfigEnt d1'.configs id flags).map Ent.config = (lookupConfigEnt d2'.configs id flags).map Ent.config := by
  obtain ⟨cs, a, b, _⟩ := C90_loaded fs stack es d1 d1' h1
  obtain ⟨cs', a', b', _⟩ := C90_loaded fs stack es' d2 d2' h2
  rw [e1, List.map_nil, List.append_nil] at b
  rw [e2, List.map_nil, List.append_nil] at b'
  have hc : cs.reverse.Perm cs'.reverse := (List.reverse_perm cs).trans ((configs_perm hp a a').trans (List.reverse_perm cs').symm)
  have own : ∀ {es : List DirEnt} {cs : List Config}, Configs fs stack es cs → ∀ c ∈ cs, ∃ e ∈ es, HasConfig fs stack e c := by
    intro es cs h
    induction h with
    | nil => intro c hc; cases hc
    | config hc _ ih =>
      intro c hm
      rcases List.mem_cons.1 hm with rfl | hm
      · exact ⟨_, List.mem_cons_self, hc⟩
      · obtain ⟨e, he, hh⟩ := ih c hm
        exact ⟨e, List.mem_cons_of_mem _ he, hh⟩
    | other _ _ ih =>
      intro c hm
      obtain ⟨e, he, hh⟩ := ih c hm
      exact ⟨e, List.mem_cons_of_mem _ he, hh⟩
  have u : ∀ c ∈ cs.reverse, ∀ c' ∈ cs.reverse, (Lists c id flags = true ∧ Lists c' id flags = true) ∨
      (ByWildcard c id flags = true ∧ ByWildcard c' id flags = true) → c = c' := by
    intro c hc c' hc' hh
    obtain ⟨x, hx, hxc⟩ := own a c (List.mem_reverse.1 hc)
    obtain ⟨y, hy, hyc⟩ := own a c' (List.mem_reverse.1 hc')
    exact unique x hx y hy c c' hxc hyc hh
  rw [lookup_configs, lookup_configs, b, b', find_perm hc (fun x hx y hy px py => u x hx y hy (.inl ⟨px, py⟩)),
    find_perm hc (fun x hx y hy px py => u x hx y hy (.inr ⟨px, py⟩))]

/-- The text of an entry that is a config file and can be read. -/
def entryText (fs : Files) (stack : Str → Str) (e : DirEnt) : Option Str :=
  if e.isDir = false ∧ b!".conf" <:+ e.name then
    match readFile fs (stack (b!"/etc/keyd/" ++ e.name)) (b!"/etc/keyd/" ++ e.name) with
    | .ok o => o
    | .error _ => none
  else none

/-- C90. Loading the directory is loading the texts of its config files in the order of the directory: this is what `Env.confs` stands for in all theorems
about the daemon. -/
theorem C90_confs (fs : Files) (stack : Str → Str) : ∀ (es : List DirEnt) (d d' : Daemon), loadDir fs stack es d = .ok d' →
    loadConfigs (es.filterMap (entryText fs stack)) d = .ok d'
  | [], d, d', h => h
  | e :: es, d, d', h => by
    unfold loadDir at h
    obtain ⟨d1, h1, h2⟩ := dbind_eq_ok.1 h
    have ih := C90_confs fs stack es d1 d' h2
    unfold loadEntry at h1
    split at h1
    · rename_i hd
      rw [List.filterMap_cons_none (by unfold entryText; rw [if_neg (fun hh => by rw [hd] at hh; cases hh.1)]), Except.ok.inj h1]
      exact ih
    · rename_i hd
      dsimp only at h1
      split at h1
      · rename_i hs
        obtain ⟨base, hb⟩ := (suffix_iff e).1 hs
        have hc : e.isDir = false ∧ b!".conf" <:+ e.name := ⟨by simpa using hd, ⟨base, hb.symm⟩⟩
        obtain ⟨o, ho, h1⟩ := dbind_eq_ok.1 h1
        have ho := lift_ok.1 ho
        rw [path_eq] at ho
        have et : entryText fs stack e = o := by unfold entryText; rw [if_pos hc, ho]
        cases o with
        | none =>
          rw [List.filterMap_cons_none et, Except.ok.inj h1]
          exact ih
        | some text =>
          rw [List.filterMap_cons_some et]
          show (loadConfig d text >>= fun d => loadConfigs _ d) = .ok d'
          dsimp only at h1
          rw [h1]
          exact ih
      · rename_i hs
        have et : entryText fs stack e = none := by
          unfold entryText
          rw [if_neg]
          rintro ⟨_, base, hb⟩
          exact hs ((suffix_iff e).2 ⟨base, hb.symm⟩)
        rw [List.filterMap_cons_none et, Except.ok.inj h1]
        exact ih

/-! Concrete cases. -/

def sampleFs : Files := fun p =>
  if p = b!"/etc/keyd/one.conf" then some b!"[ids]\n*\n[main]\na = b\n"
  else if p = b!"/etc/keyd/two.conf" then some b!"[ids]\n*\n[main]\na = c\n"
  else if p = b!"/etc/keyd/three.conf" then some b!"[ids]\n1:2\n[main]\na = d\n"
  else if p = b!"/etc/keyd/bad.conf" then some b!"a = b\n"
  else if p = b!"/etc/keyd/README" then some b!"[main]\na = e\n"
  else none

def confOne : DirEnt := ⟨b!"one.conf", false⟩
def confTwo : DirEnt := ⟨b!"two.conf", false⟩
def confThree : DirEnt := ⟨b!"three.conf", false⟩
def clutter : List DirEnt := [⟨b!".", true⟩, ⟨b!"..", true⟩, ⟨b!"bad.conf", false⟩, ⟨b!"README", false⟩, ⟨b!"old.conf", true⟩, ⟨b!"gone.conf", false⟩]

/-- What the key `a` does on a device under the config the directory gives it. -/
def keyA (es : List DirEnt) (id : Str) : Option (Option Desc) :=
  match loadDir sampleFs (fun _ => List.replicate 257 0) es {} with
  | .ok d => some ((lookupConfigEnt d.configs id ID_KEYBOARD).map fun e => (e.config.layer 0).keymap 30)
  | .error _ => none

/-- A directory with other things in it: the device 1:2 gets `three.conf`, another one gets `one.conf`. -/
theorem C90_example : keyA (clutter ++ [confOne, confThree]) b!"1:2" = some (some (.keyseq 32 0)) ∧
    keyA ([confThree] ++ clutter ++ [confOne]) b!"1:2" = some (some (.keyseq 32 0)) ∧
    keyA (clutter ++ [confOne, confThree]) b!"3:4" = some (some (.keyseq 48 0)) := by
  set_option maxRecDepth 100000 in refine ⟨?_, ?_, ?_⟩ <;> decide +kernel

/-- With a tie, the order of the directory decides: two files that take every device. -/
theorem C90_tie : keyA [confOne, confTwo] b!"3:4" = some (some (.keyseq 46 0)) ∧ keyA [confTwo, confOne] b!"3:4" = some (some (.keyseq 48 0)) := by
  set_option maxRecDepth 100000 in refine ⟨?_, ?_⟩ <;> decide +kernel

end Keyd
