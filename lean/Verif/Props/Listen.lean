import Verif.Props.Transfers
import Verif.Props.Listeners
import Verif.Proofs.LayerNames
import Verif.Model.Listen

/-
  C93: `keyd listen` prints what the daemon sends.
-/

set_option autoImplicit false

namespace Keyd

attribute [local irreducible] configInit

/-! ### Specification -/

/-- The complete lines of a text, each with its newline. -/
def completeLines : Str → Str → List Str
  | [], _ => []
  | b :: bs, cur => if b = 10 then (cur ++ [10]) :: completeLines bs [] else completeLines bs (cur ++ [b])

/-- A line: some text without newlines, and a newline. -/
def IsLine (l : Str) : Prop := ∃ t, l = t ++ [10] ∧ (10 : UInt8) ∉ t

/-! ### Proofs -/

theorem xwrite_shape : ∀ (cs : List Call) (buf out : Str),
    (∃ cs', xwrite cs buf out = .done (out ++ buf) cs' ∧ xwritten cs buf = buf) ∨
    (xwrite cs buf out = .exits ∧ xwritten cs buf <+: buf) ∨ (xwrite cs buf out = .waiting (out ++ xwritten cs buf) ∧ xwritten cs buf <+: buf)
  | [], buf, out => by
    unfold xwrite xwritten
    by_cases h : buf = []
    · subst h; left; exact ⟨[], by simp, rfl⟩
    · right; right; rw [if_neg h]; exact ⟨by rw [List.append_nil], List.nil_prefix⟩
  | c :: cs, buf, out => by
    unfold xwrite xwritten
    by_cases h : buf = []
    · subst h; left; exact ⟨c :: cs, by simp, by simp⟩
    · rw [if_neg h, if_neg h]
      cases c with
      | fails => right; left; exact ⟨rfl, List.nil_prefix⟩
      | bytes n =>
        dsimp only
        have pre : xwritten cs (buf.drop n) <+: buf.drop n → buf.take n ++ xwritten cs (buf.drop n) <+: buf := by
          rintro ⟨r, e⟩
          exact ⟨r, by rw [List.append_assoc, e, List.take_append_drop]⟩
        rcases xwrite_shape cs (buf.drop n) (out ++ buf.take n) with ⟨cs', h1, h2⟩ | ⟨h1, h2⟩ | ⟨h1, h2⟩
        · left
          exact ⟨cs', by rw [h1, List.append_assoc, List.take_append_drop], by rw [h2, List.take_append_drop]⟩
        · right; left
          exact ⟨h1, pre h2⟩
        · right; right
          exact ⟨by rw [h1, List.append_assoc], pre h2⟩

/-- What holds after every turn: what is printed is the beginning of the stream, and while the client goes on nothing is lost. -/
structure ListenInv (stream : Str) (s : ListenState) : Prop where
  shown : s.printed <+: stream
  whole : s.state = none → s.stuck = false → s.printed ++ s.unread = stream

theorem listenInv_step {stream : Str} {s : ListenState} (h : ListenInv stream s) (w : Wakeup) : ListenInv stream (listenStep s w) := by
  unfold listenStep
  split
  · exact h
  · rename_i hn
    simp only [not_or, Decidable.not_not, Bool.not_eq_true] at hn
    have hw := h.whole hn.1 hn.2
    cases w with
    | pollFails => exact ⟨h.shown, (fun e => by cases e)⟩
    | broken => exact ⟨h.shown, (fun e => by cases e)⟩
    | readable n writes =>
      dsimp only
      split
      · exact ⟨h.shown, (fun e => by cases e)⟩
      · have split : s.printed ++ s.unread.take (min n 512) ++ s.unread.drop (min n 512) = stream := by
          rw [List.append_assoc, List.take_append_drop, hw]
        have pre : ∀ x, x <+: s.unread.take (min n 512) → s.printed ++ x <+: stream := by
          rintro x ⟨r, e⟩
          refine ⟨r ++ s.unread.drop (min n 512), ?_⟩
          rw [← split, ← e]
          simp
        rcases xwrite_shape writes (s.unread.take (min n 512)) s.printed with ⟨cs', h1, h2⟩ | ⟨h1, h2⟩ | ⟨h1, h2⟩
        · rw [h1]
          exact ⟨⟨_, split⟩, fun _ _ => split⟩
        · rw [h1]
          exact ⟨pre _ h2, (fun e => by cases e)⟩
        · rw [h1]
          exact ⟨pre _ h2, (fun _ e => by cases e)⟩

theorem listenInv_run (stream : Str) (ws : List Wakeup) : ListenInv stream (listenRun stream ws) := by
  have : ∀ s, ListenInv stream s → ListenInv stream (ws.foldl listenStep s) := by
    induction ws with
    | nil => exact fun _ h => h
    | cons w ws ih => exact fun s h => ih _ (listenInv_step h w)
  exact this _ ⟨List.nil_prefix, fun _ _ => rfl⟩

theorem completeLines_line {t : Str} (ht : (10 : UInt8) ∉ t) : ∀ (rest cur : Str), completeLines (t ++ 10 :: rest) cur = (cur ++ t ++ [10]) :: completeLines rest [] := by
  induction t with
  | nil => intro rest cur; simp [completeLines]
  | cons b bs ih =>
    intro rest cur
    have hb : b ≠ 10 := fun e => ht (by rw [e]; exact List.mem_cons_self)
    rw [List.cons_append, completeLines, if_neg hb, ih (fun hh => ht (List.mem_cons_of_mem _ hh))]
    simp

theorem completeLines_none : ∀ (t cur : Str), (10 : UInt8) ∉ t → completeLines t cur = []
  | [], _, _ => rfl
  | b :: bs, cur, h => by
    rw [completeLines, if_neg (fun e => h (by rw [e]; exact List.mem_cons_self))]
    exact completeLines_none bs _ (fun hh => h (List.mem_cons_of_mem _ hh))

/-- The complete lines of the beginning of some lines are the first of them. -/
theorem completeLines_prefix : ∀ (ls : List Str) (p : Str), (∀ l ∈ ls, IsLine l) → p <+: ls.flatten → ∃ n, completeLines p [] = ls.take n
  | [], p, _, h => by
    rw [List.flatten_nil, List.prefix_nil] at h
    subst h
    exact ⟨0, rfl⟩
  | l :: ls, p, hl, h => by
    obtain ⟨t, rfl, ht⟩ := hl l List.mem_cons_self
    rw [List.flatten_cons] at h
    rcases List.prefix_or_prefix_of_prefix h (List.prefix_append (t ++ [10]) ls.flatten) with h1 | h1
    · by_cases e : p = t ++ [10]
      · subst e
        refine ⟨1, ?_⟩
        rw [completeLines_line ht [] []]
        rfl
      · refine ⟨0, ?_⟩
        rw [List.take_zero]
        refine completeLines_none p [] (fun hm => ?_)
        have : p <+: t := by
          obtain ⟨r, hr⟩ := h1
          cases hr' : r.reverse with
          | nil =>
            rw [List.reverse_eq_nil_iff] at hr'
            subst hr'
            rw [List.append_nil] at hr
            exact absurd hr e
          | cons x xs =>
            have hr2 : r = xs.reverse ++ [x] := by rw [← List.reverse_reverse r, hr', List.reverse_cons]
            rw [hr2, ← List.append_assoc] at hr
            exact ⟨xs.reverse, (List.append_inj' hr rfl).1⟩
        exact ht (this.subset hm)
    · obtain ⟨r, rfl⟩ := h1
      rw [List.prefix_append_right_inj] at h
      obtain ⟨n, hn⟩ := completeLines_prefix ls r (fun x hx => hl x (List.mem_cons_of_mem _ hx)) h
      refine ⟨n + 1, ?_⟩
      rw [List.append_assoc, List.singleton_append, completeLines_line ht, hn]
      rfl

theorem completeLines_all : ∀ (ls : List Str), (∀ l ∈ ls, IsLine l) → completeLines ls.flatten [] = ls
  | [], _ => rfl
  | l :: ls, hl => by
    obtain ⟨t, rfl, ht⟩ := hl l List.mem_cons_self
    rw [List.flatten_cons, List.append_assoc, List.singleton_append, completeLines_line ht, completeLines_all ls (fun x hx => hl x (List.mem_cons_of_mem _ hx))]
    rfl

/-! ### C93 -/

/-- C93. Whatever the pieces in which the bytes arrive and are taken: what `keyd listen` has printed is the beginning of what the daemon has sent; while it goes on,
what it has printed and what it has not read yet are together all of it. -/
theorem C93_listen (stream : Str) (ws : List Wakeup) :
    (listenRun stream ws).printed <+: stream ∧ ((listenRun stream ws).state = none → (listenRun stream ws).stuck = false →
      (listenRun stream ws).printed ++ (listenRun stream ws).unread = stream) :=
  ⟨(listenInv_run stream ws).shown, (listenInv_run stream ws).whole⟩

/-- C93, lines. The complete lines that `keyd listen` has printed are the first of those the daemon wrote to it, in order and unchanged; when everything has been
read, they are all of them. -/
theorem C93_lines (ls : List Str) (hl : ∀ l ∈ ls, IsLine l) (ws : List Wakeup) :
    (∃ n, completeLines (listenRun ls.flatten ws).printed [] = ls.take n) ∧
    ((listenRun ls.flatten ws).state = none → (listenRun ls.flatten ws).stuck = false → (listenRun ls.flatten ws).unread = [] →
      completeLines (listenRun ls.flatten ws).printed [] = ls) := by
  refine ⟨completeLines_prefix ls _ hl (listenInv_run _ ws).shown, ?_⟩
  intro h1 h2 h3
  have := (listenInv_run ls.flatten ws).whole h1 h2
  rw [h3, List.append_nil] at this
  rw [this]
  exact completeLines_all ls hl

/-- C93, the end. The client ends, with a failure, as soon as `poll` fails, its output breaks or the connection is closed or fails; once it has ended it prints nothing more. -/
theorem C93_ends (stream : Str) (ws : List Wakeup) (hr : (listenRun stream ws).stuck = false) :
    (listenRun stream (ws ++ [.pollFails])).state = some (-1) ∧ (listenRun stream (ws ++ [.broken])).state = some (-1) ∧
    (∀ writes, (listenRun stream (ws ++ [.readable 0 writes])).state = some (-1)) ∧
    ((listenRun stream ws).unread = [] → ∀ n writes, (listenRun stream (ws ++ [.readable n writes])).state = some (-1)) ∧
    ((listenRun stream ws).state = some (-1) → ∀ more, listenRun stream (ws ++ more) = listenRun stream ws) := by
  have e : ∀ more, listenRun stream (ws ++ more) = more.foldl listenStep (listenRun stream ws) := fun more => by
    unfold listenRun
    rw [List.foldl_append]
  have ends : ∀ s : ListenState, (s.state = none ∨ s.state = some (-1)) → ∀ w, (listenStep s w).state = none ∨ (listenStep s w).state = some (-1) := by
    intro s h w
    unfold listenStep
    split
    · exact h
    · cases w with
      | pollFails => exact .inr rfl
      | broken => exact .inr rfl
      | readable n writes =>
        dsimp only
        split
        · exact .inr rfl
        · split
          · exact h
          · exact .inr rfl
          · exact h
  have hstate : (listenRun stream ws).state = none ∨ (listenRun stream ws).state = some (-1) := by
    have : ∀ (ws : List Wakeup) (s : ListenState), (s.state = none ∨ s.state = some (-1)) → (ws.foldl listenStep s).state = none ∨ (ws.foldl listenStep s).state = some (-1) := by
      intro ws
      induction ws with
      | nil => exact fun _ h => h
      | cons w ws ih => exact fun s h => ih _ (ends s h w)
    exact this ws _ (.inl rfl)
  simp only [e, List.foldl_cons, List.foldl_nil]
  generalize listenRun stream ws = s at *
  have gone : s.state = some (-1) → ∀ w, listenStep s w = s := by
    intro h w
    unfold listenStep
    rw [if_pos (.inl (by rw [h]; exact fun e => by cases e))]
  rcases hstate with h | h
  · have hn : ¬ (s.state ≠ none ∨ s.stuck = true) := by
      rw [h, hr]
      simp
    refine ⟨?_, ?_, ?_, ?_, ?_⟩
    · unfold listenStep; rw [if_neg hn]
    · unfold listenStep; rw [if_neg hn]
    · intro writes
      unfold listenStep
      rw [if_neg hn]
      rfl
    · intro hu n writes
      unfold listenStep
      rw [if_neg hn]
      dsimp only
      rw [hu, List.take_nil, if_pos rfl]
    · intro h'
      rw [h] at h'
      cases h'
  · refine ⟨by rw [gone h]; exact h, by rw [gone h]; exact h, fun _ => by rw [gone h]; exact h, fun _ _ _ => by rw [gone h]; exact h, fun _ more => ?_⟩
    induction more with
    | nil => rfl
    | cons w more ih => rw [List.foldl_cons, gone h]; exact ih

theorem isLine_mark {m : UInt8} (hm : m ≠ 10) {n : Str} (hn : (10 : UInt8) ∉ n) : IsLine (m :: n ++ [10]) :=
  ⟨m :: n, rfl, fun h => by
    rcases List.mem_cons.1 h with h | h
    · exact hm h.symm
    · exact hn h⟩

theorem OneLine.layer {c : Config} (h : OneLine c) (i : Nat) : (10 : UInt8) ∉ (c.layer i).name := by
  by_cases hi : i < c.layers.length
  · exact h _ (layer_mem hi)
  · have : c.layer i = default := by
      unfold Config.layer
      rw [List.getD_eq_getElem?_getD, List.getElem?_eq_none (by omega)]
      rfl
    rw [this]
    exact List.not_mem_nil

theorem ShortNames.layer {c : Config} (h : ShortNames c) (i : Nat) : (c.layer i).name.length ≤ 63 := by
  by_cases hi : i < c.layers.length
  · exact h _ (layer_mem hi)
  · have : c.layer i = default := by
      unfold Config.layer
      rw [List.getD_eq_getElem?_getD, List.getElem?_eq_none (by omega)]
      rfl
    rw [this]
    exact Nat.zero_le _

theorem changeLines_isLine {c : Config} (h : OneLine c) (hs : ShortNames c) (os : List Out) : ∀ l ∈ changeLines c os, IsLine l := by
  intro l hl
  unfold changeLines at hl
  obtain ⟨o, _, ho⟩ := List.mem_filterMap.1 hl
  cases o with
  | layer i b =>
    dsimp only at ho
    cases ho
    rw [changeLine_short (hs.layer i)]
    refine isLine_mark ?_ (h.layer i)
    split
    · decide
    · split <;> decide
  | key _ _ => cases ho
  | command _ => cases ho
  | sleep _ => cases ho

theorem snapshot_isLine {k : Kbd} (h : OneLine k.config) : ∀ l ∈ snapshot k, IsLine l := by
  intro l hl
  unfold snapshot at hl
  dsimp only at hl
  rcases List.mem_cons.1 hl with rfl | hl
  · exact isLine_mark (by decide) (h.layer _)
  · obtain ⟨i, _, rfl⟩ := List.mem_map.1 hl
    exact isLine_mark (by decide) (h.layer i)

/-- C93, the terminal. Whoever reads what `keyd listen` prints line by line, has in front of him the current layout - and, unless a layer is activated again while it is active
(C39), exactly the active layers - as soon as everything that was sent has been read. -/
theorem C93_terminal {c : Config} (hb : Bound c) (hs : ShortNames c) {k k' : Kbd} (hk : HistoryOf c k) (hl : Later k k') (ws : List Wakeup)
    {s : ListenState} (hrun : listenRun (snapshot k ++ changeLines c (k.since k')).flatten ws = s)
    (h1 : s.state = none) (h2 : s.stuck = false) (h3 : s.unread = []) :
    CurrentLayout k' (Belief.listen (completeLines s.printed [])).layout ∧
    (∀ name ∈ (Belief.listen (completeLines s.printed [])).layers, ActiveLayer k' name) ∧
    (Unnested k (k.since k') → ∀ name, ActiveLayer k' name → name ∈ (Belief.listen (completeLines s.printed [])).layers) := by
  have ho : OneLine c := bound_oneLine hb
  have hok : OneLine k.config := ho.shape (announced_history (C27_wellformed c hb) hk).shape
  have hlines : ∀ l ∈ snapshot k ++ changeLines c (k.since k'), IsLine l := by
    intro l h
    rcases List.mem_append.1 h with h | h
    · exact snapshot_isLine hok l h
    · exact changeLines_isLine ho hs _ l h
  have e := (C93_lines _ hlines ws).2
  rw [hrun] at e
  rw [e h1 h2 h3]
  exact ⟨C39_layout hb hs hk hl, fun name h => C39_believed_is_active hb hs hk hl h, fun hu name h => (C39_exact_partial hb hs hk hl hu name).2 h⟩

/-! ### Witnesses -/

/-- Three lines, read in pieces of 4, 1 and 100 bytes and printed in pieces of one or more bytes. -/
theorem C93_example :
    let s := listenRun (snapshot (newKeyboard {}) ++ [b!"+nav\n", b!"-nav\n"]).flatten
      [.readable 4 [.bytes 1, .bytes 9], .readable 1 [.bytes 1], .readable 100 [.bytes 3, .bytes 3, .bytes 100]]
    s.state = none ∧ s.stuck = false ∧ s.unread = [] ∧ completeLines s.printed [] = [b!"/\n", b!"+nav\n", b!"-nav\n"] := by
  decide +kernel

/-- The daemon closes the connection: the client ends, and has printed everything. -/
theorem C93_example_closed :
    let s := listenRun b!"+nav\n" [.readable 512 [.bytes 512], .readable 512 [], .readable 512 []]
    s.state = some (-1) ∧ s.printed = b!"+nav\n" := by
  decide +kernel

/-- `keyd listen` attached from the start, the connection read in pieces of 5 bytes. -/
def terminalCheck (k : Kbd) : Bool :=
  let s := listenRun (snapshot (newKeyboard k.config) ++ changeLines k.config k.outputs).flatten (List.replicate 4 (.readable 5 [.bytes 2, .bytes 3]))
  decide (s.state = none ∧ s.stuck = false ∧ s.unread = [] ∧ s.printed = b!"/main\n/alt1\n+nav\n" ∧
    (Belief.listen (completeLines s.printed [])).layout = b!"alt1" ∧ (Belief.listen (completeLines s.printed [])).layers = [b!"nav"])

/-- The layout `alt1` has been selected and `nav` is held: the terminal says so. -/
theorem C93_example_terminal : checkRun listenText [press 46 1, release 46 2, press 30 3] (fun _ => true) terminalCheck = true := by
  set_option maxRecDepth 100000 in decide +kernel

/-- A configuration with a layer whose name has 64 bytes, as many as the manual allows. -/
def longNameText : Str := b!"[main]
a = layer(nnnnnnnnnnnnnnnnnnnnnnnnnnnnnnnnnnnnnnnnnnnnnnnnnnnnnnnnnnnnnnnn)
b = layer(nav)
[nnnnnnnnnnnnnnnnnnnnnnnnnnnnnnnnnnnnnnnnnnnnnnnnnnnnnnnnnnnnnnnn]
x = y
[nav]
"

/-- Both layers are active, and the listener has read everything that was sent, but in its one complete line the two announcements run together: it knows of neither. -/
def longNameCheck (k : Kbd) : Bool :=
  let lines := completeLines (snapshot (newKeyboard k.config) ++ changeLines k.config k.outputs).flatten []
  decide ((k.config.layer 6).name = List.replicate 64 110 ∧ (k.config.layer 7).name = b!"nav" ∧ (k.layerState 6).active = 1 ∧ (k.layerState 7).active = 1 ∧
    lines = [b!"/main\n", 43 :: List.replicate 64 110 ++ 0 :: b!"+nav\n"] ∧
    ∀ name ∈ (Belief.listen lines).layers, name ≠ List.replicate 64 110 ∧ name ≠ b!"nav")

/-- C39 fails for layer names of 64 bytes, which the manual allows: the line sent ends with a NUL instead of a newline (daemon.c:138,164), so that the next one is lost, too. -/
theorem C39_fails_long : checkRun longNameText [press 30 1, press 48 2] (fun _ => true) longNameCheck = true := by
  set_option maxRecDepth 100000 in decide +kernel

end Keyd
