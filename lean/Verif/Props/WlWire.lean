import Verif.Model.WlWire
import Verif.Props.Wlroots
import Verif.Props.Devmon
import Mathlib.Data.List.Induction

/-
  C96: what a wayland compositor sends is what the application mapper acts on.
-/

set_option autoImplicit false

namespace Keyd

/-! ### Specification: the wayland wire format -/

/-- A message on the wire: the object, then in one word the size (upper half) and the opcode, then the payload. -/
def wlBytes (m : WlMsg) : Str := bytes32 m.obj ++ (bytes32 ((8 + m.data.length) * 65536 + m.op) ++ m.data)

/-- The fields are in range. -/
def WlMsg.fits (m : WlMsg) : Prop := m.obj < 2 ^ 32 ∧ m.op < 65536 ∧ 8 + m.data.length < 65536

/-- A string: its length with the terminating NUL, the bytes, the NUL and padding. -/
def wlText (bs pad : Str) : Str := bytes32 (bs.length + 1) ++ (bs ++ 0 :: pad)

/-- What the messages of the foreign-toplevel protocol say; object 4 is the manager. A window's state is an array of words; 2 is
"activated". -/
inductive WlSays (utf8 : Str → Option PyStr) : WlMsg → WlEvent → Prop
  | toplevel {i : Nat} : i < 2 ^ 32 → WlSays utf8 ⟨4, 0, bytes32 i⟩ (.toplevel i)
  | title {i : Nat} {bs pad : Str} {s : PyStr} : i ≠ 4 → utf8 bs = some s → bs.length + 1 < 2 ^ 32 → WlSays utf8 ⟨i, 0, wlText bs pad⟩ (.title i s)
  | appid {i : Nat} {bs pad : Str} {s : PyStr} : i ≠ 4 → utf8 bs = some s → bs.length + 1 < 2 ^ 32 → WlSays utf8 ⟨i, 1, wlText bs pad⟩ (.appid i s)
  | state {i : Nat} {xs : List Nat} : i ≠ 4 → (∀ x ∈ xs, x < 2 ^ 32) → 4 * xs.length < 2 ^ 32 →
      WlSays utf8 ⟨i, 4, bytes32 (4 * xs.length) ++ xs.flatMap bytes32⟩ (.state i (decide (2 ∈ xs)))
  | done {i : Nat} : i ≠ 4 → WlSays utf8 ⟨i, 5, []⟩ (.done i)
  | closed {i : Nat} : i ≠ 4 → WlSays utf8 ⟨i, 6, []⟩ (.closed i)

/-- Messages about other things: from an object that is no window, or a window's other messages (outputs, its parent). -/
def WlOther (es : List WlEvent) (m : WlMsg) : Prop :=
  ¬ (m.obj = 4 ∧ m.op = 0) ∧ (.toplevel m.obj ∉ es ∨ m.op = 2 ∨ m.op = 3 ∨ 6 < m.op)

/-- The registry announces an interface. -/
def WlAnnounces (utf8 : Str → Option PyStr) (name : PyStr) (m : WlMsg) : Prop :=
  ∃ (n : Nat) (bs pad : Str), m = ⟨2, 0, bytes32 n ++ wlText bs pad⟩ ∧ bs.length + 1 < 2 ^ 32 ∧ utf8 bs = some name

/-- What happens at the socket when every write of the compositor arrives in one piece: whole messages arrive (`some`), or the mapper
gets to run (`none`). -/
def wlWhole (hist : List (Option (List WlMsg))) : List WlSockEvent :=
  hist.map fun o => o.elim .run fun ms => .arrive (ms.flatMap wlBytes)

def wlSent (hist : List (Option (List WlMsg))) : List WlMsg := hist.flatMap fun o => o.getD []

/-! ### Bytes -/

theorem bytes32_length (n : Nat) : (bytes32 n).length = 4 := rfl

theorem bytes32_drop (n : Nat) (s : Str) : (bytes32 n ++ s).drop 4 = s := rfl

theorem le32_word {n : Nat} (h : n < 2 ^ 32) : le32 (bytes32 n) = n := by
  have := le32_bytes32 h []
  rwa [List.append_nil] at this

/-- The invariant of the socket. -/
def WlSockInv (sent : List WlMsg) (s : WlSock) : Prop :=
  s.failed = false ∧ ∃ rest, sent = s.got ++ rest ∧ (∀ m ∈ rest, m.fits) ∧
    ((s.head = none ∧ s.arrived = rest.flatMap wlBytes) ∨
     ∃ m ms, rest = m :: ms ∧ m.data ≠ [] ∧ s.head = some (m.obj, (8 + m.data.length) * 65536 + m.op) ∧
       s.arrived = m.data ++ ms.flatMap wlBytes)

theorem wlSock_run {sent : List WlMsg} {s : WlSock} (h : WlSockInv sent s) : WlSockInv sent (wlSockStep s .run) ∧
    (wlSockStep s .run = s → s.got = sent) := by
  obtain ⟨hf, rest, hs, hfit, hh⟩ := h
  rcases hh with ⟨hn, ha⟩ | ⟨m, ms, rfl, hd, hn, ha⟩
  · cases rest with
    | nil =>
      have e : wlSockStep s .run = s := by
        unfold wlSockStep
        rw [hf, hn, ha]
        rfl
      rw [e]
      exact ⟨⟨hf, [], hs, hfit, .inl ⟨hn, ha⟩⟩, fun _ => by rw [hs, List.append_nil]⟩
    | cons m ms =>
      obtain ⟨f1, f2, f3⟩ := hfit m (List.mem_cons_self ..)
      have ha' : s.arrived = bytes32 m.obj ++ (bytes32 ((8 + m.data.length) * 65536 + m.op) ++ (m.data ++ ms.flatMap wlBytes)) := by
        rw [ha, List.flatMap_cons, wlBytes]
        simp only [List.append_assoc]
      have hl : ¬ s.arrived.length < 8 := by
        rw [ha']; simp only [List.length_append, bytes32_length]; omega
      have hne : s.arrived ≠ [] := by
        rw [ha']; simp [bytes32]
      have h1 : le32 s.arrived = m.obj := by rw [ha']; exact le32_bytes32 f1 _
      have h2 : le32 (s.arrived.drop 4) = (8 + m.data.length) * 65536 + m.op := by
        rw [ha', bytes32_drop]; exact le32_bytes32 (by omega) _
      have h3 : s.arrived.drop 8 = m.data ++ ms.flatMap wlBytes := by
        rw [ha', show (8 : Nat) = 4 + 4 from rfl, ← List.drop_drop, bytes32_drop, bytes32_drop]
      have q1 : ((8 + m.data.length) * 65536 + m.op) / 65536 = 8 + m.data.length := by omega
      have q2 : ((8 + m.data.length) * 65536 + m.op) % 65536 = m.op := by omega
      have e : wlSockStep s .run = if m.data = [] then { s with arrived := ms.flatMap wlBytes, got := s.got ++ [m] }
          else { s with arrived := m.data ++ ms.flatMap wlBytes, head := some (m.obj, (8 + m.data.length) * 65536 + m.op) } := by
        unfold wlSockStep
        dsimp only
        rw [hf, hn, if_neg (by decide)]
        dsimp only
        rw [if_neg hne, if_neg hl, h1, h2, h3, q1, q2, if_neg (by omega)]
        by_cases hd : m.data = []
        · rw [if_pos (by rw [hd]; rfl), if_pos hd]
          obtain ⟨o, p, dt⟩ := m
          cases hd
          rfl
        · have : m.data.length ≠ 0 := fun e => hd (List.eq_nil_of_length_eq_zero e)
          rw [if_neg (by omega), if_neg hd]
      rw [e]
      by_cases hd : m.data = []
      · rw [if_pos hd]
        refine ⟨⟨hf, ms, by rw [hs, List.append_assoc]; rfl, fun x hx => hfit x (List.mem_cons_of_mem _ hx), .inl ⟨hn, rfl⟩⟩, fun h => ?_⟩
        have := congrArg (fun x => x.got.length) h
        dsimp only at this
        rw [List.length_append] at this
        simp at this
      · rw [if_neg hd]
        refine ⟨⟨hf, m :: ms, hs, hfit, .inr ⟨m, ms, rfl, hd, rfl, rfl⟩⟩, fun h => ?_⟩
        have := congrArg (fun x => x.head) h
        dsimp only at this
        rw [hn] at this
        cases this
  · obtain ⟨f1, f2, f3⟩ := hfit m (List.mem_cons_self ..)
    have q1 : ((8 + m.data.length) * 65536 + m.op) / 65536 = 8 + m.data.length := by omega
    have q2 : ((8 + m.data.length) * 65536 + m.op) % 65536 = m.op := by omega
    have hne : s.arrived ≠ [] := by
      rw [ha]; simp [hd]
    have e : wlSockStep s .run = { s with arrived := ms.flatMap wlBytes, head := none, got := s.got ++ [m] } := by
      unfold wlSockStep
      dsimp only
      rw [hf, hn, if_neg (by decide)]
      dsimp only
      rw [if_neg hne, q1, q2, ha, show 8 + m.data.length - 8 = m.data.length from by omega, List.drop_left, List.take_left]
    rw [e]
    refine ⟨⟨hf, ms, by rw [hs, List.append_assoc]; rfl, fun x hx => hfit x (List.mem_cons_of_mem _ hx), .inl ⟨rfl, rfl⟩⟩, fun h => ?_⟩
    have := congrArg (fun x => x.got.length) h
    dsimp only at this
    rw [List.length_append] at this
    simp at this

theorem wlSock_inv (hist : List (Option (List WlMsg))) (h : ∀ m ∈ wlSent hist, m.fits) : WlSockInv (wlSent hist) (wlSockRun (wlWhole hist)) := by
  induction hist using List.reverseRecOn with
  | nil => exact ⟨rfl, [], rfl, fun _ h => (List.not_mem_nil h).elim, .inl ⟨rfl, rfl⟩⟩
  | append_singleton hist o ih =>
    have e1 : wlSent (hist ++ [o]) = wlSent hist ++ o.getD [] := by simp [wlSent]
    have e2 : wlSockRun (wlWhole (hist ++ [o])) = wlSockStep (wlSockRun (wlWhole hist)) (o.elim .run fun ms => .arrive (ms.flatMap wlBytes)) := by
      simp only [wlSockRun, wlWhole, List.map_append, List.foldl_append, List.map_cons, List.map_nil, List.foldl_cons, List.foldl_nil]
    rw [e1] at h ⊢
    rw [e2]
    have ih := ih fun m hm => h m (List.mem_append_left _ hm)
    cases o with
    | none =>
      rw [Option.getD_none, List.append_nil]
      exact (wlSock_run ih).1
    | some ms =>
      obtain ⟨hf, rest, hs, hfit, hh⟩ := ih
      refine ⟨hf, rest ++ ms, ?_, fun m hm => ?_, ?_⟩
      · show _ = _ ++ _
        rw [hs, List.append_assoc]
        rfl
      · rcases List.mem_append.1 hm with hm | hm
        · exact hfit m hm
        · exact h m (List.mem_append_right _ hm)
      · rcases hh with ⟨hn, ha⟩ | ⟨m, qs, rfl, hd, hn, ha⟩
        · refine .inl ⟨hn, ?_⟩
          show _ ++ _ = _
          rw [ha, List.flatMap_append]
        · refine .inr ⟨m, qs ++ ms, rfl, hd, hn, ?_⟩
          show _ ++ _ = _
          rw [ha, List.flatMap_append, List.append_assoc]

/-- C96: if the compositor's writes arrive in one piece, the mapper does not fail and gets the messages in order, unchanged; once it can
do nothing but wait it has got all of them. -/
theorem C96_messages_partial (hist : List (Option (List WlMsg))) (h : ∀ m ∈ wlSent hist, m.fits) :
    let s := wlSockRun (wlWhole hist)
    s.failed = false ∧ s.got <+: wlSent hist ∧ (wlSockStep s .run = s → s.got = wlSent hist) := by
  have hi := wlSock_inv hist h
  refine ⟨hi.1, ?_, fun hb => (wlSock_run hi).2 hb⟩
  obtain ⟨_, rest, hs, _⟩ := hi
  exact ⟨rest, hs.symm⟩

/-! ### The messages' contents -/

theorem wlString_text (utf8 : Str → Option PyStr) (bs pad : Str) (h : bs.length + 1 < 2 ^ 32) : wlString utf8 (wlText bs pad) = utf8 bs := by
  unfold wlString wlText
  rw [if_neg (by simp only [List.length_append, bytes32_length]; omega), le32_bytes32 h, bytes32_drop, Nat.add_sub_cancel, List.take_left]

theorem wlStates_words (xs : List Nat) (h : ∀ x ∈ xs, x < 2 ^ 32) : wlStates xs.length (xs.flatMap bytes32) = some (decide (2 ∈ xs)) := by
  induction xs with
  | nil => rfl
  | cons x xs ih =>
    rw [List.length_cons, wlStates, List.flatMap_cons, if_neg (by simp only [List.length_append, bytes32_length]; omega), bytes32_drop,
      ih fun y hy => h y (List.mem_cons_of_mem _ hy), le32_bytes32 (h x (List.mem_cons_self ..))]
    by_cases hx : x = 2
    · subst hx; simp
    · have : ¬ 2 = x := fun e => hx e.symm
      simp [hx, this]

theorem wlStep_unknown {w : Wl} {e : WlEvent} (h : w.windows e.id = none) (hn : ∀ i, e ≠ .toplevel i) : wlStep w e = (w, none) := by
  cases e with
  | toplevel i => exact absurd rfl (hn i)
  | title i s => show (match w.windows i with | none => _ | some r => _) = _; rw [show w.windows i = none from h]
  | appid i s => show (match w.windows i with | none => _ | some r => _) = _; rw [show w.windows i = none from h]
  | state i s => show (match w.windows i with | none => _ | some r => _) = _; rw [show w.windows i = none from h]
  | done i => show (match w.windows i with | none => _ | some r => _) = _; rw [show w.windows i = none from h]
  | closed i => show (match w.windows i with | none => _ | some r => _) = _; rw [show w.windows i = none from h]

theorem wlHandle_says {utf8 : Str → Option PyStr} {m : WlMsg} {e : WlEvent} (h : WlSays utf8 m e) (w : Wl) :
    wlHandle utf8 w m = some (wlStep w e) := by
  have skip : ∀ i op dt, i ≠ 4 → w.windows i = none → wlHandle utf8 w ⟨i, op, dt⟩ = some (w, none) := by
    intro i op dt hi hw
    unfold wlHandle
    rw [if_neg (fun c => hi c.1), if_pos hw]
  cases h with
  | @toplevel i hi =>
    unfold wlHandle
    rw [if_pos ⟨rfl, rfl⟩, if_pos (bytes32_length i)]
    dsimp only
    rw [le32_word hi]
  | @title i bs pad s hi hu hl =>
    by_cases hw : w.windows i = none
    · rw [skip i _ _ hi hw, wlStep_unknown hw (fun j h => by cases h)]
    · unfold wlHandle
      rw [if_neg (fun c => hi c.1), if_neg hw, if_pos rfl, wlString_text utf8 bs pad hl, hu]
      rfl
  | @appid i bs pad s hi hu hl =>
    by_cases hw : w.windows i = none
    · rw [skip i _ _ hi hw, wlStep_unknown hw (fun j h => by cases h)]
    · unfold wlHandle
      rw [if_neg (fun c => hi c.1), if_neg hw, if_neg (by decide : ¬ (1 : Nat) = 0), if_pos rfl, wlString_text utf8 bs pad hl, hu]
      rfl
  | @state i xs hi hx hl =>
    by_cases hw : w.windows i = none
    · rw [skip i _ _ hi hw, wlStep_unknown hw (fun j h => by cases h)]
    · unfold wlHandle
      rw [if_neg (fun c => hi c.1), if_neg hw]
      dsimp only
      rw [if_neg (by decide : ¬ (4 : Nat) = 0), if_neg (by decide : ¬ (4 : Nat) = 1), if_pos rfl,
        if_neg (by simp only [List.length_append, bytes32_length]; omega), le32_bytes32 hl, bytes32_drop,
        show (4 * xs.length + 3) / 4 = xs.length by omega, wlStates_words xs hx]
      rfl
  | @done i hi =>
    by_cases hw : w.windows i = none
    · rw [skip i _ _ hi hw, wlStep_unknown hw (fun j h => by cases h)]
    · unfold wlHandle
      rw [if_neg (fun c => hi c.1), if_neg hw]
      rfl
  | @closed i hi =>
    by_cases hw : w.windows i = none
    · rw [skip i _ _ hi hw, wlStep_unknown hw (fun j h => by cases h)]
    · unfold wlHandle
      rw [if_neg (fun c => hi c.1), if_neg hw]
      rfl

theorem wlStep_windows {w : Wl} {e : WlEvent} {j : Nat} (h : w.windows j = none) (hn : e ≠ .toplevel j) : (wlStep w e).1.windows j = none := by
  cases e with
  | toplevel i =>
    show upd w.windows i _ j = none
    rw [upd_other _ _ (fun c => hn (by rw [c]))]
    exact h
  | title i s => dsimp only [wlStep, WlEvent.id]; cases w.windows i <;> exact h
  | appid i s => dsimp only [wlStep, WlEvent.id]; cases w.windows i <;> exact h
  | state i s =>
    dsimp only [wlStep, WlEvent.id]
    cases w.windows i with
    | none => exact h
    | some r => dsimp only; cases w.isActive r <;> cases s <;> exact h
  | done i =>
    dsimp only [wlStep, WlEvent.id]
    cases w.windows i with
    | none => exact h
    | some r =>
      cases w.active with
      | none => exact h
      | some a => dsimp only; cases w.isActive r <;> exact h
  | closed i =>
    dsimp only [wlStep, WlEvent.id]
    cases w.windows i with
    | none => exact h
    | some r =>
      have : upd w.windows i none j = none := by
        by_cases hj : j = i
        · rw [hj, upd_same]
        · rw [upd_other _ _ hj]; exact h
      dsimp only
      cases w.isActive r <;> exact this

theorem wlHandle_other {utf8 : Str → Option PyStr} {m : WlMsg} {w : Wl}
    (h : ¬ (m.obj = 4 ∧ m.op = 0) ∧ (w.windows m.obj = none ∨ m.op = 2 ∨ m.op = 3 ∨ 6 < m.op)) : wlHandle utf8 w m = some (w, none) := by
  unfold wlHandle
  rw [if_neg h.1]
  by_cases hw : w.windows m.obj = none
  · rw [if_pos hw]
  · have ho := h.2.resolve_left hw
    rw [if_neg hw, if_neg (by omega), if_neg (by omega), if_neg (by omega), if_neg (by omega), if_neg (by omega)]

/-- A conversation: each message with the event it announces, if it is about one. -/
def WlTalk (utf8 : Str → Option PyStr) (talk : List (WlMsg × Option WlEvent)) : Prop :=
  ∀ x ∈ talk, match x.2 with
    | some e => WlSays utf8 x.1 e
    | none => WlOther (talk.filterMap (·.2)) x.1

theorem wlHandles_talk {utf8 : Str → Option PyStr} (ids : List WlEvent) : ∀ (talk : List (WlMsg × Option WlEvent)) (w : Wl),
    (∀ x ∈ talk, match x.2 with | some e => WlSays utf8 x.1 e ∧ e ∈ ids | none => WlOther ids x.1) →
    (∀ j, .toplevel j ∉ ids → w.windows j = none) →
    wlHandles utf8 w (talk.map (·.1)) = ((wlRun w (talk.filterMap (·.2))).2, true) := by
  intro talk
  induction talk with
  | nil => intro w _ _; rfl
  | cons x talk ih =>
    intro w h hw
    obtain ⟨m, o⟩ := x
    have hx := h (m, o) (List.mem_cons_self ..)
    have ht := fun y hy => h y (List.mem_cons_of_mem _ hy)
    rw [List.map_cons, wlHandles]
    cases o with
    | none =>
      dsimp only at hx ⊢
      have hx : WlOther ids m := hx
      rw [wlHandle_other ⟨hx.1, hx.2.imp (hw m.obj) id⟩]
      dsimp only
      rw [ih w ht hw, List.filterMap_cons_none rfl]
      rfl
    | some e =>
      obtain ⟨hx, hm⟩ : WlSays utf8 m e ∧ e ∈ ids := hx
      dsimp only
      rw [wlHandle_says hx w]
      have hfm : List.filterMap (fun x : WlMsg × Option WlEvent => x.2) ((m, some e) :: talk) = e :: talk.filterMap (·.2) := List.filterMap_cons_some rfl
      rw [hfm, wlRun]
      generalize hstep : wlStep w e = p
      obtain ⟨w', r⟩ := p
      dsimp only
      rw [ih w' ht fun j hj => ?_]
      · have := wlStep_windows (e := e) (hw j hj) (fun c => hj (c ▸ hm))
        rw [hstep] at this
        exact this

/-- C96: on a connection where the interface has been bound, the mapper reports what the compositor's events call for. -/
theorem C96_events_partial {utf8 : Str → Option PyStr} (talk : List (WlMsg × Option WlEvent)) (h : WlTalk utf8 talk)
    (hd : Distinguished {} (talk.filterMap (·.2))) :
    wlHandles utf8 {} (talk.map (·.1)) = (Desktop.tolds {} (talk.filterMap (·.2)), true) := by
  rw [wlHandles_talk (talk.filterMap (·.2)) talk {} (fun x hx => ?_) (fun _ _ => rfl), C87_focus_partial _ hd]
  have := h x hx
  obtain ⟨m, o⟩ := x
  cases o with
  | none => exact this
  | some e => exact ⟨this, List.mem_filterMap.2 ⟨(m, some e), hx, rfl⟩⟩

theorem wlAnnounced {utf8 : Str → Option PyStr} {name : PyStr} {m : WlMsg} (h : WlAnnounces utf8 name m) :
    m.obj = 2 ∧ m.op = 0 ∧ ¬ m.data.length < 4 ∧ wlString utf8 (m.data.drop 4) = some name := by
  obtain ⟨n, bs, pad, rfl, hl, hu⟩ := h
  refine ⟨rfl, rfl, ?_, ?_⟩
  · simp only [List.length_append, bytes32_length]; omega
  · rw [bytes32_drop, wlString_text utf8 bs pad hl, hu]

/-- C96: the interface is found if and only if it is announced before the answer to the sync request (object 3): the request to bind
it repeats the announcement and gives it the number 4. -/
theorem C96_bind (utf8 : Str → Option PyStr) (name : PyStr) (pre post : List WlMsg) (m : WlMsg)
    (hpre : ∀ x ∈ pre, x.obj ≠ 3 ∧ (x.obj = 2 ∧ x.op = 0 → ∃ other, other ≠ name ∧ WlAnnounces utf8 other x)) :
    (WlAnnounces utf8 name m → wlBind utf8 name (pre ++ m :: post) = (.bound (m.data ++ bytes32 4), post)) ∧
    (m.obj = 3 → wlBind utf8 name (pre ++ m :: post) = (.absent, post)) := by
  induction pre with
  | nil =>
    refine ⟨fun h => ?_, fun h => ?_⟩
    · obtain ⟨h1, h2, h3, h4⟩ := wlAnnounced h
      rw [List.nil_append, wlBind, if_pos ⟨h1, h2⟩, if_neg h3, h4]
      dsimp only
      rw [if_pos rfl]
      rfl
    · rw [List.nil_append, wlBind, if_neg (fun c => by omega), if_pos h]
  | cons x pre ih =>
    have ih := ih fun y hy => hpre y (List.mem_cons_of_mem _ hy)
    have e : wlBind utf8 name (x :: (pre ++ m :: post)) = wlBind utf8 name (pre ++ m :: post) := by
      obtain ⟨h3, ho⟩ := hpre x (List.mem_cons_self ..)
      rw [wlBind]
      by_cases hx : x.obj = 2 ∧ x.op = 0
      · obtain ⟨other, hne, ha⟩ := ho hx
        obtain ⟨_, _, g3, g4⟩ := wlAnnounced ha
        rw [if_pos hx, if_neg g3, g4]
        dsimp only
        rw [if_neg hne]
      · rw [if_neg hx, if_neg h3]
    rw [List.cons_append, e]
    exact ih

/-- C96: from the bytes to the reports. The registry's announcements come first, then the announcement of the interface `g`, then the conversation.
Whatever has been written arrives in one piece; then once the mapper can do nothing but wait, it is still running and has reported the windows the
compositor's events call for. -/
theorem C96_focus_partial {utf8 : Str → Option PyStr} {name : PyStr} (hist : List (Option (List WlMsg))) (pre : List WlMsg) (g : WlMsg)
    (talk : List (WlMsg × Option WlEvent)) (hf : ∀ m ∈ wlSent hist, m.fits) (hs : wlSent hist = pre ++ g :: talk.map (·.1))
    (hpre : ∀ x ∈ pre, x.obj ≠ 3 ∧ (x.obj = 2 ∧ x.op = 0 → ∃ other, other ≠ name ∧ WlAnnounces utf8 other x))
    (hg : WlAnnounces utf8 name g) (ht : WlTalk utf8 talk) (hd : Distinguished {} (talk.filterMap (·.2)))
    (hb : wlSockStep (wlSockRun (wlWhole hist)) .run = wlSockRun (wlWhole hist)) :
    wlMapper utf8 name (wlSockRun (wlWhole hist)).got = (Desktop.tolds {} (talk.filterMap (·.2)), true) := by
  rw [(C96_messages_partial hist hf).2.2 hb, hs, wlMapper, (C96_bind utf8 name pre _ g hpre).1 hg]
  exact C96_events_partial talk ht hd

/-! ### A conversation, and what goes wrong -/

/-- Plain bytes as text. -/
def latinText (s : Str) : Option PyStr := some (s.map UInt8.toNat)

def talkDemo : List (WlMsg × Option WlEvent) :=
  [ (⟨3, 0, [1, 0, 0, 0]⟩, none),
    (⟨4, 0, bytes32 4278190080⟩, some (.toplevel 4278190080)),
    (⟨4278190080, 0, wlText b!"Inbox" [0, 0]⟩, some (.title 4278190080 [73, 110, 98, 111, 120])),
    (⟨4278190080, 1, wlText b!"mail" [0, 0, 0]⟩, some (.appid 4278190080 [109, 97, 105, 108])),
    (⟨4278190080, 2, [9, 0, 0, 0]⟩, none),
    (⟨4278190080, 4, bytes32 8 ++ [0, 2].flatMap bytes32⟩, some (.state 4278190080 true)),
    (⟨4278190080, 5, []⟩, some (.done 4278190080)),
    (⟨4278190080, 6, []⟩, some (.closed 4278190080)) ]

def announceDemo : List WlMsg :=
  [ ⟨2, 0, bytes32 1 ++ wlText b!"wl_shm" [0, 1, 0, 0, 0]⟩, ⟨2, 0, bytes32 7 ++ wlText b!"toplevels" [0, 0, 3, 0, 0, 0]⟩ ]

/-- Everything at once, and twice as many turns as there are messages. -/
def histDemo : List (Option (List WlMsg)) := some (announceDemo ++ talkDemo.map (·.1)) :: List.replicate 20 none

theorem C96_example :
    (∀ m ∈ wlSent histDemo, m.obj < 2 ^ 32 ∧ m.op < 65536 ∧ 8 + m.data.length < 65536) ∧ WlTalk latinText talkDemo ∧
    Distinguished {} (talkDemo.filterMap (·.2)) ∧ wlSockStep (wlSockRun (wlWhole histDemo)) .run = wlSockRun (wlWhole histDemo) ∧
    wlMapper latinText (b!"toplevels".map UInt8.toNat) (wlSockRun (wlWhole histDemo)).got = ([([109, 97, 105, 108], [73, 110, 98, 111, 120])], true) := by
  refine ⟨by decide +kernel, ?_, ?_, by decide +kernel, by decide +kernel⟩
  · intro x hx
    simp only [talkDemo, List.mem_cons, List.not_mem_nil, or_false] at hx
    rcases hx with rfl | rfl | rfl | rfl | rfl | rfl | rfl | rfl
    · exact ⟨by decide, .inl (by decide)⟩
    · exact .toplevel (by decide)
    · exact .title (by decide) (by decide) (by decide)
    · exact .appid (by decide) (by decide) (by decide)
    · exact ⟨by decide, .inr (.inl rfl)⟩
    · exact .state (xs := [0, 2]) (by decide) (by decide) (by decide)
    · exact .done (by decide)
    · exact .closed (by decide)
  · refine ⟨?_, trivial, trivial, ?_, ?_, ?_, trivial⟩
    · rfl
    · intro j hj
      have : (none : Option Nat) = some j := hj
      cases this
    · intro j hj hne; cases hj; exact absurd rfl hne
    · intro j hj hne; cases hj; exact absurd rfl hne

/-- What is missing: a message that arrives in two pieces ends the mapper, or is taken for a message with a cut payload; then the rest of it is
taken for the head of a message. -/
theorem C96_fails_split :
    let bytes := wlBytes ⟨4278190080, 0, wlText b!"Inbox" [0, 0]⟩
    (wlSockRun [.arrive (bytes.take 4), .run, .arrive (bytes.drop 4), .run, .run]).failed = true ∧
    (let s := wlSockRun [.arrive (bytes.take 15), .run, .run, .arrive (bytes.drop 15), .run]
     s.got = [⟨4278190080, 0, (wlText b!"Inbox" [0, 0]).take 7⟩] ∧ s.failed = true) := by
  decide +kernel

/-! ### Cosmic -/

theorem cosmicHandle_cases {utf8 : Str → Option PyStr} (w : Nat → PyStr × PyStr) (i : Nat) :
    (∀ (bs pad : Str) (s : PyStr), utf8 bs = some s → bs.length + 1 < 2 ^ 32 →
      cosmicHandle utf8 w ⟨i, 2, wlText bs pad⟩ = some (fun j => if j = i then (s, (w i).2) else w j, none) ∧
      cosmicHandle utf8 w ⟨i, 3, wlText bs pad⟩ = some (fun j => if j = i then ((w i).1, s) else w j, none)) ∧
    (∀ (x : Nat) (xs : List Nat), x < 256 → xs.length < 63 →
      cosmicHandle utf8 w ⟨i, 8, bytes32 (4 * (x :: xs).length) ++ (x :: xs).flatMap bytes32⟩ =
        some (w, if x = 2 then some ((w i).2, (w i).1) else none)) ∧
    cosmicHandle utf8 w ⟨i, 8, bytes32 0⟩ = some (w, none) ∧
    (∀ (op : Nat) (data : Str), op ≠ 2 → op ≠ 3 → op ≠ 8 → cosmicHandle utf8 w ⟨i, op, data⟩ = some (w, none)) := by
  have hup : ∀ v : PyStr × PyStr, upd w i v = fun j => if j = i then v else w j := by
    intro v; funext j
    by_cases hj : j = i
    · rw [hj, upd_same, if_pos rfl]
    · rw [upd_other _ _ hj, if_neg hj]
  refine ⟨fun bs pad s hu hl => ⟨?_, ?_⟩, fun x xs hx hl => ?_, rfl, fun op data h1 h2 h3 => ?_⟩
  · unfold cosmicHandle
    rw [if_pos rfl]
    dsimp only
    rw [wlString_text utf8 bs pad hl, hu, Option.map_some, hup]
  · unfold cosmicHandle
    rw [if_neg (by decide : ¬ (3 : Nat) = 2), if_pos rfl]
    dsimp only
    rw [wlString_text utf8 bs pad hl, hu, Option.map_some, hup]
  · unfold cosmicHandle
    rw [if_neg (by decide : ¬ (8 : Nat) = 2), if_neg (by decide : ¬ (8 : Nat) = 3), if_pos rfl]
    show (if UInt8.ofNat (4 * (x :: xs).length) = 0 then _ else some (w, if UInt8.ofNat x = 2 then _ else _)) = _
    have h0 : ¬ UInt8.ofNat (4 * (x :: xs).length) = 0 := by
      intro c
      have := congrArg UInt8.toNat c
      rw [UInt8.toNat_ofNat', List.length_cons] at this
      simp at this
      omega
    rw [if_neg h0]
    by_cases h2 : x = 2
    · subst h2; rfl
    · have : ¬ UInt8.ofNat x = 2 := by
        intro c
        have := congrArg UInt8.toNat c
        rw [UInt8.toNat_ofNat'] at this
        simp at this
        omega
      rw [if_neg this, if_neg h2]
  · unfold cosmicHandle
    rw [if_neg h1, if_neg h2, if_neg h3]

/-- What the messages of a Cosmic compositor say about its windows; the states of a window are an array of words. -/
inductive CosmicEvent where
  | title (i : Nat) (s : PyStr)
  | appid (i : Nat) (s : PyStr)
  | states (i : Nat) (xs : List Nat)
deriving DecidableEq, Repr

inductive CosmicSays (utf8 : Str → Option PyStr) : WlMsg → Option CosmicEvent → Prop
  | title {i : Nat} {bs pad : Str} {s : PyStr} : utf8 bs = some s → bs.length + 1 < 2 ^ 32 → CosmicSays utf8 ⟨i, 2, wlText bs pad⟩ (some (.title i s))
  | appid {i : Nat} {bs pad : Str} {s : PyStr} : utf8 bs = some s → bs.length + 1 < 2 ^ 32 → CosmicSays utf8 ⟨i, 3, wlText bs pad⟩ (some (.appid i s))
  | states {i : Nat} {xs : List Nat} : (∀ x ∈ xs, x < 256) → xs.length < 64 →
      CosmicSays utf8 ⟨i, 8, bytes32 (4 * xs.length) ++ xs.flatMap bytes32⟩ (some (.states i xs))
  | other {i op : Nat} {data : Str} : op ≠ 2 → op ≠ 3 → op ≠ 8 → CosmicSays utf8 ⟨i, op, data⟩ none

/-- The last title of a window, and its last class. -/
def lastTitle (past : List CosmicEvent) (i : Nat) : PyStr :=
  ((past.filterMap fun | .title j s => if j = i then some s else none | _ => none).getLast?).getD []

def lastAppid (past : List CosmicEvent) (i : Nat) : PyStr :=
  ((past.filterMap fun | .appid j s => if j = i then some s else none | _ => none).getLast?).getD []

/-- The reports: a window whose first state is 2 (activated). -/
def cosmicTolds (past : List CosmicEvent) : List CosmicEvent → List (PyStr × PyStr)
  | [] => []
  | .states i (2 :: xs) :: es => (lastAppid past i, lastTitle past i) :: cosmicTolds (past ++ [.states i (2 :: xs)]) es
  | e :: es => cosmicTolds (past ++ [e]) es

theorem last_append {α : Type} (xs ys : List α) (d : α) : ((xs ++ ys).getLast?).getD d = (ys.getLast?).getD ((xs.getLast?).getD d) := by
  rw [List.getLast?_append]
  cases ys.getLast? <;> rfl

theorem cosmic_run {utf8 : Str → Option PyStr} : ∀ (talk : List (WlMsg × Option CosmicEvent)) (past : List CosmicEvent),
    (∀ x ∈ talk, CosmicSays utf8 x.1 x.2) →
    cosmicHandles utf8 (fun i => (lastTitle past i, lastAppid past i)) (talk.map (·.1)) = (cosmicTolds past (talk.filterMap (·.2)), true) := by
  intro talk
  induction talk with
  | nil => intro past _; rfl
  | cons x talk ih =>
    intro past h
    obtain ⟨m, o⟩ := x
    have hx : CosmicSays utf8 m o := h (m, o) (List.mem_cons_self ..)
    have ht := fun y hy => h y (List.mem_cons_of_mem _ hy)
    rw [List.map_cons, cosmicHandles]
    dsimp only
    cases hx with
    | @other i op data h1 h2 h3 =>
      rw [((cosmicHandle_cases _ i).2.2.2) op data h1 h2 h3]
      dsimp only
      rw [ih past ht, List.filterMap_cons_none rfl]
      rfl
    | @title i bs pad s hu hl =>
      rw [((cosmicHandle_cases _ i).1 bs pad s hu hl).1]
      dsimp only
      have hfm : List.filterMap (fun x : WlMsg × Option CosmicEvent => x.2) ((⟨i, 2, wlText bs pad⟩, some (.title i s)) :: talk) = .title i s :: talk.filterMap (·.2) := List.filterMap_cons_some rfl
      rw [hfm, cosmicTolds, ← ih _ ht]
      · rw [show (fun j => if j = i then (s, (lastTitle past i, lastAppid past i).2) else (lastTitle past j, lastAppid past j)) =
          fun j => (lastTitle (past ++ [.title i s]) j, lastAppid (past ++ [.title i s]) j) from ?_]
        · rfl
        · funext j
          unfold lastTitle lastAppid
          rw [List.filterMap_append, List.filterMap_append, last_append, last_append]
          by_cases hj : j = i
          · subst hj; simp
          · have : ¬ i = j := fun e => hj e.symm
            simp [hj, this]
      · intro i xs c; cases c
    | @appid i bs pad s hu hl =>
      rw [((cosmicHandle_cases _ i).1 bs pad s hu hl).2]
      dsimp only
      have hfm : List.filterMap (fun x : WlMsg × Option CosmicEvent => x.2) ((⟨i, 3, wlText bs pad⟩, some (.appid i s)) :: talk) = .appid i s :: talk.filterMap (·.2) := List.filterMap_cons_some rfl
      rw [hfm, cosmicTolds, ← ih _ ht]
      · rw [show (fun j => if j = i then ((lastTitle past i, lastAppid past i).1, s) else (lastTitle past j, lastAppid past j)) =
          fun j => (lastTitle (past ++ [.appid i s]) j, lastAppid (past ++ [.appid i s]) j) from ?_]
        · rfl
        · funext j
          unfold lastTitle lastAppid
          rw [List.filterMap_append, List.filterMap_append, last_append, last_append]
          by_cases hj : j = i
          · subst hj; simp
          · have : ¬ i = j := fun e => hj e.symm
            simp [hj, this]
      · intro i xs c; cases c
    | @states i xs hv hl =>
      have same : (fun j => (lastTitle past j, lastAppid past j)) = fun j => (lastTitle (past ++ [.states i xs]) j, lastAppid (past ++ [.states i xs]) j) := by
        funext j
        unfold lastTitle lastAppid
        rw [List.filterMap_append, List.filterMap_append, last_append, last_append]
        rfl
      have hfm : List.filterMap (fun x : WlMsg × Option CosmicEvent => x.2) ((⟨i, 8, bytes32 (4 * xs.length) ++ xs.flatMap bytes32⟩, some (.states i xs)) :: talk) = .states i xs :: talk.filterMap (·.2) := List.filterMap_cons_some rfl
      rw [hfm]
      cases xs with
      | nil =>
        rw [show cosmicHandle utf8 (fun j => (lastTitle past j, lastAppid past j)) ⟨i, 8, bytes32 (4 * ([] : List Nat).length) ++ [].flatMap bytes32⟩ = some (_, none) from
          (cosmicHandle_cases _ i).2.2.1]
        dsimp only
        rw [cosmicTolds, same, ih _ ht]
        · rfl
        · intro i xs c; cases c
      | cons x xs =>
        rw [(cosmicHandle_cases _ i).2.1 x xs (hv x (List.mem_cons_self ..)) (by rw [List.length_cons] at hl; omega)]
        dsimp only
        by_cases h2 : x = 2
        · subst h2
          rw [if_pos rfl, cosmicTolds, same, ih _ ht]
          rfl
        · rw [if_neg h2, cosmicTolds, same, ih _ ht]
          · rfl
          · intro i xs c; cases c; exact h2 rfl

/-- C96: on Cosmic, a window is reported when a message says that the first of its states is 2 (activated), with its last class and title. -/
theorem C96_cosmic_partial {utf8 : Str → Option PyStr} (talk : List (WlMsg × Option CosmicEvent)) (h : ∀ x ∈ talk, CosmicSays utf8 x.1 x.2) :
    cosmicHandles utf8 (fun _ => ([], [])) (talk.map (·.1)) = (cosmicTolds [] (talk.filterMap (·.2)), true) :=
  cosmic_run talk [] h

/-- What is missing on Cosmic: an activated window whose list of states begins with another one is not reported. -/
theorem C96_fails_cosmic :
    cosmicHandles latinText (fun _ => ([], [])) [⟨9, 3, wlText b!"mail" []⟩, ⟨9, 8, bytes32 8 ++ [0, 2].flatMap bytes32⟩] = ([], true) ∧
    cosmicHandles latinText (fun _ => ([], [])) [⟨9, 3, wlText b!"mail" []⟩, ⟨9, 8, bytes32 8 ++ [2, 0].flatMap bytes32⟩] = ([([109, 97, 105, 108], [])], true) := by
  decide +kernel

end Keyd
