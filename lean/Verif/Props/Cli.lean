import Verif.Model.Cli
import Verif.Props.Transfers
import Verif.Props.Client
import Verif.Props.Reload
import Verif.Props.KeyNames
import Verif.Props.Actions
set_option autoImplicit false
/-!
# The `keyd` command

C75: `keyd bind`. C76: `keyd input` and `keyd do`. C77: the command line and `keyd list-keys`.
-/
namespace Keyd
attribute [local irreducible] configInit

/-! ### Requests -/

/-- The request as the daemon decodes it. -/
theorem request_decoded {garbage : Str} (type : MsgType) {data : Str} {timeout : Nat} (hg : garbage.length = 4096)
    (hd : data.length ≤ 4096) (ht : timeout < 2 ^ 32) :
    ∃ bytes, ipcMessage garbage type data timeout = .ok bytes ∧ (decodeMsg bytes).type = type ∧ (decodeMsg bytes).timeout = timeout ∧
      (decodeMsg bytes).sz = data.length ∧ (decodeMsg bytes).data.take (decodeMsg bytes).sz = data := by
  have hlen : (data ++ garbage.drop data.length).length = 4096 := by
    rw [List.length_append, List.length_drop]; omega
  refine ⟨encodeMsg type.code timeout (data ++ garbage.drop data.length) data.length, ?_, ?_⟩
  · unfold ipcMessage
    rw [if_neg (by omega)]
    rfl
  · rw [decode_encode (by cases type <;> decide) ht hlen (by omega)]
    refine ⟨by cases type <;> rfl, rfl, rfl, ?_⟩
    exact List.take_left' rfl

theorem cstring_text {s : Str} (hz : (0 : UInt8) ∉ s) : cstring s = s := by
  unfold cstring
  induction s with
  | nil => rfl
  | cons x xs ih =>
    rw [List.takeWhile_cons_of_pos (by simpa using fun e : x = 0 => hz (by simp [e])), ih (fun h => hz (List.mem_cons_of_mem _ h))]

/-- A request that gets one reply. -/
theorem exec_answered {env : Env} {garbage : Str} {d d' : Daemon} {con : Nat} {type : MsgType} {data bytes : Str} {timeout : Nat} {r : Reply}
    (hb : ipcMessage garbage type data timeout = .ok bytes) (run : handleClient env d con (decodeMsg bytes) = .ok d')
    (hr : d'.replies = (con, r) :: d.replies) :
    ipcExec env garbage d con type data timeout = .ok (.answered (decide (r = .fail)) d') := by
  unfold ipcExec
  rw [hb]
  dsimp only
  rw [run]
  have : replySent d d' = some r := by
    unfold replySent
    rw [hr, if_neg (by simp)]
    rfl
  show (match replySent d d' with
    | none => (.ok (.unanswered d') : DRes Exec)
    | some r => .ok (.answered (decide (r = Reply.fail)) d')) = _
  rw [this]

/-! ### C75 -/

/-- What a keyboard becomes by evaluating some expressions one after the other (see C25, C26 for what one does); those that
are not bindings are skipped. -/
inductive Evals : List Str → Kbd → Kbd → Prop
  | nil (k : Kbd) : Evals [] k k
  | cons {s : Str} {ss : List Str} {k k1 k2 : Kbd} {ok : Bool} (h : kbdEval k s = .ok (k1, ok)) (t : Evals ss k1 k2) : Evals (s :: ss) k k2

theorem bindAll_heap (exp : Str) : ∀ (es : List Ent) (d d' : Daemon) (ok : Bool), (es.map Ent.kbd).Nodup →
    bindAll exp es d = .ok (d', ok) → d' = { d with heap := d'.heap } ∧
      (∀ e ∈ es, ∃ k k' b, d.heap e.kbd = some k ∧ kbdEval k exp = .ok (k', b) ∧ d'.heap e.kbd = some k') ∧
      (∀ a, a ∉ es.map Ent.kbd → d'.heap a = d.heap a)
  | [], d, d', ok, _, run => by
    unfold bindAll at run
    injection run with run; injection run with e1 e2; subst e1
    exact ⟨rfl, fun _ h => (by cases h), fun _ _ => rfl⟩
  | e :: es, d, d', ok, hn, run => by
    unfold bindAll at run
    split at run
    · cases run
    · rename_i k hk
      obtain ⟨⟨k', a⟩, h1, run⟩ := dbind_eq_ok.1 run
      obtain ⟨⟨d2, any⟩, h2, run⟩ := dbind_eq_ok.1 run
      injection run with run; injection run with e1 e2; subst e1
      rw [List.map_cons, List.nodup_cons] at hn
      obtain ⟨i1, i2, i3⟩ := bindAll_heap exp es _ d2 any hn.2 h2
      have h1 := lift_ok.1 h1
      refine ⟨by rw [i1], fun x hx => ?_, fun b hb => ?_⟩
      · rcases List.mem_cons.1 hx with rfl | hx
        · refine ⟨k, k', a, hk, h1, ?_⟩
          rw [i3 _ hn.1]
          exact upd_same _ _ _
        · obtain ⟨k1, k2, b, g1, g2, g3⟩ := i2 x hx
          refine ⟨k1, k2, b, ?_, g2, g3⟩
          rw [← g1]
          exact (upd_other d.heap (some k') (fun h : x.kbd = e.kbd => hn.1 (h ▸ List.mem_map_of_mem hx))).symm
      · rw [List.map_cons, List.mem_cons] at hb
        rw [i3 b (fun h => hb (.inr h))]
        exact upd_other _ _ (fun h => hb (.inl h))

/-- One binding. -/
theorem exec_bind {env : Env} {garbage : Str} {d : Daemon} {con : Nat} {s : Str} {x : Exec} (hg : garbage.length = 4096)
    (hn : (d.configs.map Ent.kbd).Nodup) (hs : s.length < 4096) (hz : (0 : UInt8) ∉ s)
    (run : ipcExec env garbage d con .bind s 0 = .ok x) :
    ∃ fail d', x = .answered fail d' ∧ d' = { d with heap := d'.heap, replies := d'.replies } ∧
      (∀ e ∈ d.configs, ∃ k k' b, d.heap e.kbd = some k ∧ kbdEval k s = .ok (k', b) ∧ d'.heap e.kbd = some k') ∧
      (fail = false ↔ ∃ e ∈ d.configs, ∃ k k', d.heap e.kbd = some k ∧ kbdEval k s = .ok (k', true)) := by
  obtain ⟨bytes, b1, b2, b3, b4, b5⟩ := request_decoded (garbage := garbage) .bind (data := s) (timeout := 0) hg (by omega) (by decide)
  cases hb : bindAll s d.configs d with
  | error e =>
    exfalso
    unfold ipcExec at run
    rw [b1] at run
    dsimp only at run
    obtain ⟨d1, h1, -⟩ := dbind_eq_ok.1 run
    unfold handleClient at h1
    rw [if_neg (by omega), if_neg (by omega), b2] at h1
    dsimp only at h1
    rw [b5, cstring_text hz, hb] at h1
    cases h1
  | ok r =>
    obtain ⟨d1, ok⟩ := r
    have hc : handleClient env d con (decodeMsg bytes) = .ok (d1.reply con (if ok then .success else .fail)) := by
      unfold handleClient
      rw [if_neg (by omega), if_neg (by omega), b2]
      dsimp only
      rw [b5, cstring_text hz, hb]
      rfl
    obtain ⟨i1, i2, -⟩ := bindAll_heap s _ _ _ _ hn hb
    have h := exec_answered b1 hc (r := if ok then .success else .fail) (by
      show (con, _) :: d1.replies = _
      rw [i1])
    rw [run] at h
    injection h with h
    refine ⟨_, _, h, ?_, i2, ?_⟩
    · show d1.reply con _ = { d with heap := d1.heap, replies := (con, _) :: d1.replies }
      rw [show d1.reply con (if ok then Reply.success else .fail) = { d1 with replies := (con, if ok then Reply.success else .fail) :: d1.replies } from rfl]
      rw [i1]
    · rw [← bindAll_success s _ _ _ _ hn hb]
      cases ok <;> simp

theorem binds_run {env : Env} {garbage : Str} (hg : garbage.length = 4096) : ∀ (exps : List Str) (con : Nat) (ret : Int) (d : Daemon) (o : Outcome),
    (d.configs.map Ent.kbd).Nodup → (∀ s ∈ exps, s.length < 4096 ∧ (0 : UInt8) ∉ s) → (∀ e ∈ d.configs, d.heap e.kbd ≠ none) →
    addBindings env garbage exps con ret d = .ok o →
    ∃ status d', o = .exits status (if status = 0 then b!"Success\n" else []) d' ∧
      d' = { d with heap := d'.heap, replies := d'.replies } ∧
      (∀ e ∈ d.configs, ∃ k k', d.heap e.kbd = some k ∧ d'.heap e.kbd = some k' ∧ Evals exps k k') ∧
      (status = ret ∨ status = -1) ∧
      (ret = 0 → (status = 0 ↔ ∀ pre s post, exps = pre ++ s :: post → ∃ e ∈ d.configs, ∃ k k1 k2,
        d.heap e.kbd = some k ∧ Evals pre k k1 ∧ kbdEval k1 s = .ok (k2, true))) ∧
      (ret = -1 → status = -1)
  | [], con, ret, d, o, _, _, hl, run => by
    unfold addBindings at run
    injection run with run
    refine ⟨ret, d, run.symm, rfl, fun e he => ?_, .inl rfl, fun h => ⟨fun _ pre s post h => ?_, fun _ => h⟩, id⟩
    · obtain ⟨k, hk⟩ := Option.ne_none_iff_exists'.1 (hl e he)
      exact ⟨k, k, hk, hk, .nil k⟩
    · exact absurd h (by simp)
  | s :: exps, con, ret, d, o, hn, hs, hl, run => by
    unfold addBindings at run
    obtain ⟨x, h1, run⟩ := dbind_eq_ok.1 run
    obtain ⟨fail, d1, rfl, e1, e2, e3⟩ := exec_bind hg hn (hs s List.mem_cons_self).1 (hs s List.mem_cons_self).2 h1
    dsimp only at run
    have hconf : d1.configs = d.configs := by rw [e1]
    have hl1 : ∀ e ∈ d1.configs, d1.heap e.kbd ≠ none := by
      intro e he
      rw [hconf] at he
      obtain ⟨k, k', b, -, -, h⟩ := e2 e he
      rw [h]; exact fun h => (by cases h)
    obtain ⟨status, d', i1, i2, i3, i4, i5, i6⟩ := binds_run hg exps (con + 1) (if fail then -1 else ret) d1 o (by rw [hconf]; exact hn)
      (fun x hx => hs x (List.mem_cons_of_mem _ hx)) hl1 run
    refine ⟨status, d', i1, ?_, fun e he => ?_, ?_, fun hret => ?_, fun hret => ?_⟩
    · rw [i2, e1]
    · obtain ⟨k, k1, b, g1, g2, g3⟩ := e2 e he
      obtain ⟨k1', k2, j1, j2, j3⟩ := i3 e (by rw [hconf]; exact he)
      rw [g3] at j1
      cases j1
      exact ⟨k, k2, g1, j2, .cons g2 j3⟩
    · cases fail with
      | true => rcases i4 with h | h <;> exact .inr h
      | false => exact i4
    · cases fail with
      | true =>
        have hm := i6 rfl
        constructor
        · intro h; rw [hm] at h; cases h
        · intro h
          obtain ⟨e, he, k, k1, k2, g1, g2, g3⟩ := h [] s exps rfl
          cases g2
          have := e3.2 ⟨e, he, k, k2, g1, g3⟩
          cases this
      | false =>
        rw [i5 hret]
        constructor
        · intro h pre t post heq
          cases pre with
          | nil =>
            rw [List.nil_append] at heq
            injection heq with ht hp
            subst ht
            obtain ⟨e, he, k, k', g1, g2⟩ := e3.1 rfl
            exact ⟨e, he, k, k, k', g1, .nil k, g2⟩
          | cons p pre =>
            rw [List.cons_append] at heq
            injection heq with ht hp
            subst ht
            obtain ⟨e, he, k, k1, k2, g1, g2, g3⟩ := h pre t post hp
            rw [hconf] at he
            obtain ⟨k0, k0', b, j1, j2, j3⟩ := e2 e he
            rw [j3] at g1
            cases g1
            exact ⟨e, he, k0, k1, k2, j1, .cons j2 g2, g3⟩
        · intro h pre t post heq
          obtain ⟨e, he, k, k1, k2, g1, g2, g3⟩ := h (s :: pre) t post (by rw [heq]; rfl)
          cases g2 with
          | cons j1 j2 =>
            obtain ⟨k0, k0', b, l1, l2, l3⟩ := e2 e he
            rw [g1] at l1
            cases l1
            rw [l2] at j1
            cases j1
            exact ⟨e, by rw [hconf]; exact he, _, k1, k2, l3, j2, g3⟩
    · apply i6
      cases fail with
      | true => rfl
      | false => exact hret

/-- C75. `keyd bind` with bindings of up to 4095 bytes, at any time: each keyboard of the daemon evaluates them one after the other; nothing else
happens (no key is sent, no device or listener is concerned); it prints `Success` and exits with 0 just when each of them was accepted by
some keyboard, and otherwise exits with -1. -/
theorem C75_bind {env : Env} {garbage stdin : Str} {exps : List Str} {con : Nat} {d : Daemon} {o : Option Outcome} (hg : garbage.length = 4096)
    (hd : DHistory d) (hs : ∀ s ∈ exps, s.length < 4096 ∧ (0 : UInt8) ∉ s) (run : command env garbage (b!"bind" :: exps) stdin con d = .ok o) :
    ∃ status d', o = some (.exits status (if status = 0 then b!"Success\n" else []) d') ∧ (status = 0 ∨ status = -1) ∧
      d' = { d with heap := d'.heap, replies := d'.replies } ∧
      (∀ e ∈ d.configs, ∃ k k', d.heap e.kbd = some k ∧ d'.heap e.kbd = some k' ∧ Evals exps k k') ∧
      (status = 0 ↔ ∀ pre s post, exps = pre ++ s :: post → ∃ e ∈ d.configs, ∃ k k1 k2,
        d.heap e.kbd = some k ∧ Evals pre k k1 ∧ kbdEval k1 s = .ok (k2, true)) := by
  have hi := dinv_history hd
  obtain ⟨o1, h1, h2⟩ := dbind_eq_ok.1 run
  injection h2 with h2
  obtain ⟨status, d', i1, i2, i3, i4, i5, -⟩ := binds_run hg exps con 0 d o1 hi.nodup hs (fun e he h => (by
    obtain ⟨k, hk, -⟩ := hi.live e he
    rw [hk] at h
    cases h)) h1
  exact ⟨status, d', by rw [← h2, i1], i4, i2, i3, i5 rfl⟩

/-! ### C76 -/

/-- The arguments of `keyd input` and `keyd do`: the words, possibly after `-t` and a number of microseconds of up to a second. -/
inductive Invoked : List Str → Nat → List Str → Prop
  | plain (words : List Str) (h : words.head? ≠ some b!"-t") : Invoked words 0 words
  | timed (u : Str) (n : Nat) (words : List Str) (hu : Numeral u n) (hn : n ≤ 1000000) : Invoked (b!"-t" :: u :: words) n words

/-- The text meant: the words separated by spaces, or standard input if there are none. -/
def textMeant (words : List Str) (stdin : Str) : Str := if words = [] then stdin else List.intercalate [32] words

theorem Invoked.option {args words : List Str} {t : Nat} (h : Invoked args t words) : timeoutOption args = (t, words) ∧ t ≤ 1000000 := by
  cases h with
  | plain _ h =>
    refine ⟨?_, by omega⟩
    match args, h with
    | [], _ => rfl
    | [_], _ => rfl
    | f :: u :: rest, h =>
      show (if f = b!"-t" then _ else _) = _
      rw [if_neg (fun e => h (by rw [e]; rfl))]
  | timed u n _ hu hn =>
    refine ⟨?_, hn⟩
    unfold timeoutOption
    dsimp only
    rw [if_pos rfl, atoi_numeral hu (by omega)]
    congr 1
    omega

theorem readInput_eq (words : List Str) (stdin : Str) : readInput words stdin =
    if (textMeant words stdin).length < 4096 then some (textMeant words stdin) else none := by
  unfold readInput textMeant
  split
  · unfold readInputStdin
    by_cases h : stdin.length < 4096
    · rw [if_neg (by omega), if_pos h]
    · rw [if_pos (by omega), if_neg h]
  · exact C54_arguments 4096 words (by omega)

theorem sendText_answered {env : Env} {garbage stdin : Str} {args words : List Str} {t con : Nat} {d d' : Daemon} {type : MsgType} {bytes : Str} {r : Reply}
    (hi : Invoked args t words) (hl : (textMeant words stdin).length < 4096)
    (hb : ipcMessage garbage type (textMeant words stdin) t = .ok bytes) (run : handleClient env d con (decodeMsg bytes) = .ok d')
    (hr : d'.replies = (con, r) :: d.replies) :
    sendText env garbage type args stdin con d = .ok (.exits (if r = .fail then 1 else 0) [] d') := by
  unfold sendText
  rw [hi.option.1]
  dsimp only
  rw [readInput_eq, if_pos hl]
  dsimp only
  rw [exec_answered hb run hr]
  show Except.ok (Outcome.exits (if decide (r = Reply.fail) = true then 1 else 0) [] d') = _
  simp only [decide_eq_true_eq]

/-- C76. `keyd input` with a text of up to 4095 bytes: its characters are typed on the host (on which no key is down) up to the first that
cannot be, no key is left down, nothing else happens, and the exit status is 0 just when all were typed. -/
theorem C76_input {env : Env} {garbage stdin : Str} {args words : List Str} {t con : Nat} {d : Daemon} {cs : List Char} (hg : garbage.length = 4096)
    (hi : Invoked args t words) (ht : textMeant words stdin = cs.flatMap String.utf8EncodeChar) (hl : (textMeant words stdin).length < 4096)
    (hz : (0 : UInt8) ∉ textMeant words stdin) :
    ∃ d' os, command env garbage (b!"input" :: args) stdin con d = .ok (some (.exits (if typeable cs = cs then 0 else 1) [] d')) ∧
      d'.hostKeys = d.hostKeys ++ os ∧ keystrokes (fun _ => false) os = (typeable cs).flatMap (fun c => (charStrokes c).getD []) ∧
      hostAfter (fun _ => false) os = (fun _ => false) ∧ d' = { d with vout := d'.vout, replies := d'.replies } := by
  have h1 := hi.option.2
  obtain ⟨bytes, b1, b2, b3, b4, b5⟩ := request_decoded (garbage := garbage) .input (data := textMeant words stdin) (timeout := t) hg (by omega) (by omega)
  obtain ⟨d', os, c1, c2, c3, c4, c5, c6⟩ := C62_input env d con (decodeMsg bytes) b2 (by omega) (by omega) cs (by rw [b5, cstring_text hz, ht])
  refine ⟨d', os, ?_, c2, c3, c4, c6⟩
  have hs := sendText_answered hi hl b1 c1 c5
  show (do .ok (some (← sendText env garbage .input args stdin con d))) = _
  rw [hs]
  show Except.ok _ = _
  congr 3
  split <;> simp

/-- C76. `keyd do` with a macro (followed by any number of newlines) of up to 4095 bytes: its keystrokes are performed on the host (on which no key is
down) with their modifiers, no key is left down, and the exit status is 0; what is not a macro is not performed and the exit status is 1. -/
theorem C76_do {env : Env} {garbage stdin : Str} {args words : List Str} {t con n : Nat} {d : Daemon} {s : Str} (hg : garbage.length = 4096)
    (hi : Invoked args t words) (ht : textMeant words stdin = s ++ List.replicate n 10) (hl : (textMeant words stdin).length < 4096)
    (hz : (0 : UInt8) ∉ s) (hn : s.getLast? ≠ some 10) :
    (∀ m, macroParse s = .ok (some m) → TextMacro m → (∀ st ∈ Macro.strokes m, st.1 ∉ ([148, 149, 202, 203] : List Code)) →
      ∃ d' os, command env garbage (b!"do" :: args) stdin con d = .ok (some (.exits 0 [] d')) ∧ d'.hostKeys = d.hostKeys ++ os ∧
        keystrokes (fun _ => false) os = (Macro.strokes m).map (fun s => (s.1, modKeys.filter (inMods s.2))) ∧
        hostAfter (fun _ => false) os = (fun _ => false)) ∧
    (macroParse s = .ok none → command env garbage (b!"do" :: args) stdin con d =
      .ok (some (.exits 1 [] { d with replies := (con, .fail) :: d.replies }))) := by
  have h1 := hi.option.2
  obtain ⟨bytes, b1, b2, b3, b4, b5⟩ := request_decoded (garbage := garbage) .«macro» (data := textMeant words stdin) (timeout := t) hg (by omega) (by omega)
  have hlen : s.length + n = (decodeMsg bytes).sz := by
    rw [b4, ht, List.length_append, List.length_replicate]
  have hdata : (decodeMsg bytes).data = s ++ List.replicate n 10 ++ (decodeMsg bytes).data.drop (s.length + n) := by
    rw [← ht]
    conv => lhs; rw [← List.take_append_drop (decodeMsg bytes).sz (decodeMsg bytes).data, b5]
    rw [hlen]
  obtain ⟨c1, c2⟩ := C63_line env d con (decodeMsg bytes) b2 (by omega) s _ n hdata hlen.symm (by omega) hz hn
  refine ⟨fun m hp htext hw => ?_, fun hp => ?_⟩
  · obtain ⟨d', os, e1, e2, e3, e4, e5⟩ := c1 m hp htext hw
    refine ⟨d', os, ?_, e2, e3, e4⟩
    have hs := sendText_answered hi hl b1 e1 e5
    show (do .ok (some (← sendText env garbage .«macro» args stdin con d))) = _
    rw [hs]
    rfl
  · have hs := sendText_answered hi hl b1 (c2 hp) rfl
    show (do .ok (some (← sendText env garbage .«macro» args stdin con d))) = _
    rw [hs]
    rfl

/-- C76. A text that is too long is not sent at all. -/
theorem C76_too_long {env : Env} {garbage stdin : Str} {args words : List Str} {t con : Nat} {d : Daemon} (cmd : Str) (hc : cmd = b!"input" ∨ cmd = b!"do")
    (hi : Invoked args t words) (hl : 4096 ≤ (textMeant words stdin).length) :
    command env garbage (cmd :: args) stdin con d = .ok (some (.stops d)) := by
  have : ∀ type, sendText env garbage type args stdin con d = .ok (.stops d) := by
    intro type
    unfold sendText
    rw [hi.option.1]
    dsimp only
    rw [readInput_eq, if_neg (by omega)]
  rcases hc with rfl | rfl
  · show (do .ok (some (← sendText env garbage .input args stdin con d))) = _
    rw [this]
    rfl
  · show (do .ok (some (← sendText env garbage .«macro» args stdin con d))) = _
    rw [this]
    rfl

/-! ### C77 -/

def allFlags : List Str := [b!"help", b!"-h", b!"--help", b!"version", b!"-v", b!"--version", b!"monitor", b!"-m", b!"--monitor", b!"bind", b!"-e",
      b!"--expression", b!"input", b!"do", b!"listen", b!"reload", b!"list-keys"]

theorem table_flags : ∀ e ∈ commandTable, (e.1 = [] ∨ e.1 ∈ allFlags) ∧ (e.2.1 = [] ∨ e.2.1 ∈ allFlags) ∧ (e.2.2.1 = [] ∨ e.2.2.1 ∈ allFlags) := by
  decide +kernel

/-- C77. The command run is the one named by the first argument, by its name or its flags; any other argument shows the help, and
without arguments the daemon is run. -/
theorem C77_dispatch (a : Str) (rest : List Str) (ha : a ≠ []) :
    dispatch [] = none ∧
    dispatch (a :: rest) = some (
      if a = b!"version" ∨ a = b!"-v" ∨ a = b!"--version" then .version
      else if a = b!"monitor" ∨ a = b!"-m" ∨ a = b!"--monitor" then .monitor
      else if a = b!"bind" ∨ a = b!"-e" ∨ a = b!"--expression" then .bind
      else if a = b!"input" then .input
      else if a = b!"do" then .do
      else if a = b!"listen" then .listen
      else if a = b!"reload" then .reload
      else if a = b!"list-keys" then .listKeys
      else .help) := by
  refine ⟨rfl, ?_⟩
  by_cases h : a ∈ allFlags
  · unfold allFlags at h
    simp only [List.mem_cons, List.not_mem_nil, or_false] at h
    rcases h with rfl | rfl | rfl | rfl | rfl | rfl | rfl | rfl | rfl | rfl | rfl | rfl | rfl | rfl | rfl | rfl | rfl <;> rfl
  · have hn : commandTable.find? (fun e => e.1 = a ∨ e.2.1 = a ∨ e.2.2.1 = a) = none := by
      rw [List.find?_eq_none]
      intro e he
      have ht := table_flags e he
      rw [decide_eq_true_eq]
      rintro (r | r | r) <;> rw [r] at ht
      · exact ht.1.elim ha h
      · exact ht.2.1.elim ha h
      · exact ht.2.2.elim ha h
    unfold allFlags at h
    simp only [List.mem_cons, List.not_mem_nil, or_false, not_or] at h
    obtain ⟨h1, h2, h3, h4, h5, h6, h7, h8, h9, h10, h11, h12, h13, h14, h15, h16, h17⟩ := h
    unfold dispatch
    dsimp only
    rw [hn]
    dsimp only
    rw [if_neg (by simp only [h4, h5, h6, or_self, not_false_iff]), if_neg (by simp only [h7, h8, h9, or_self, not_false_iff]),
      if_neg (by simp only [h10, h11, h12, or_self, not_false_iff]), if_neg h13, if_neg h14, if_neg h15, if_neg h16, if_neg h17]

/-- C77 fails for an empty argument: it is taken for the missing flag of `input`. -/
theorem C77_fails_empty (rest : List Str) : dispatch ([] :: rest) = some .input := rfl

/-- C77. The lines printed by `keyd list-keys`, empty lines aside, are exactly the names of keys. -/
theorem C77_list_keys (s : Str) (hs : s ≠ []) : s ∈ listKeys ↔ ∃ code shifted, (s, code, shifted) ∈ keyNames := by
  have hz : listKeys = keycodeTable.zipIdx.flatMap fun e => e.1.name.toList ++ e.1.alt.toList ++ e.1.shifted.toList := by
    unfold listKeys
    conv => lhs; rw [← List.zipIdx_map_fst 0 keycodeTable, List.flatMap_map]
  rw [hz]
  unfold keyNames
  simp only [List.mem_flatMap, List.mem_append, List.mem_map, List.mem_filterMap, Option.mem_toList]
  constructor
  · rintro ⟨e, he, (h | h) | h⟩
    · exact ⟨_, _, e, he, .inl (.inl ⟨s, h, rfl⟩)⟩
    · exact ⟨_, _, e, he, .inl (.inr ⟨s, h, if_neg hs⟩)⟩
    · exact ⟨_, _, e, he, .inr ⟨s, h, rfl⟩⟩
  · rintro ⟨code, sh, e, he, (⟨x, h, hx⟩ | ⟨x, h, hx⟩) | ⟨x, h, hx⟩⟩
    · cases hx; exact ⟨e, he, .inl (.inl h)⟩
    · split at hx
      · cases hx
      · cases hx; exact ⟨e, he, .inl (.inr h)⟩
    · cases hx; exact ⟨e, he, .inr h⟩

/-- C77. So each of them can be used as an action, with and without modifiers. -/
theorem C77_listed_usable {s p : Str} {ms : UInt8} (hs : s ≠ []) (h : s ∈ listKeys) (hp : PrefixText p ms) :
    ∃ code m, parseKeySequence (p ++ s) = some (code, ms ||| m) ∧ (m = 0 ∨ m = MOD_SHIFT) := by
  obtain ⟨code, sh, hk⟩ := (C77_list_keys s hs).1 h
  have := C30_key_sequence p ms hp s code sh hk
  cases sh with
  | true => exact ⟨code, MOD_SHIFT, this, .inr rfl⟩
  | false => exact ⟨code, 0, by rw [this]; simp, .inl rfl⟩

/-- C77. And each key sequence that can be used ends in one of them, or is a list of modifiers. -/
theorem C77_usable_listed {s : Str} {code : Code} {m : UInt8} (h : parseKeySequence s = some (code, m)) :
    ∃ p ms name, PrefixText p ms ∧ s = p ++ name ∧ (name ∈ listKeys ∨ (name = [] ∧ p ≠ [])) := by
  obtain ⟨p, ms, name, hp, rfl, ⟨sh, hk, -⟩ | ⟨hn, hne, -⟩⟩ := C30_only_key_sequences s code m h
  · refine ⟨p, ms, name, hp, rfl, .inl ?_⟩
    exact (C77_list_keys name (keyNames_scan _ hk).2.1).2 ⟨code, sh, hk⟩
  · exact ⟨p, ms, name, hp, rfl, .inr ⟨hn, hne⟩⟩

/-- C77. `keyd list-keys` prints each of them on a line of its own, and succeeds; no name has a newline in it. -/
theorem C77_lines (env : Env) (garbage stdin : Str) (rest : List Str) (con : Nat) (d : Daemon) :
    ∃ out, command env garbage (b!"list-keys" :: rest) stdin con d = .ok (some (.exits 0 out d)) ∧
      out = (listKeys.map (fun s => s ++ b!"\n")).flatten ∧ ∀ s ∈ listKeys, (10 : UInt8) ∉ s := by
  refine ⟨_, rfl, by rw [List.flatMap_def], ?_⟩
  have h : (listKeys.all fun s => !s.contains 10) = true := by decide +kernel
  intro s hs
  have := List.all_eq_true.1 h s hs
  simpa using this

theorem clearVkbd_replies (d : Daemon) : (clearVkbd d).replies = d.replies := by
  unfold clearVkbd
  generalize codes256 = l
  induction l generalizing d with
  | nil => rfl
  | cons c l ih =>
    rw [List.foldl_cons, ih]
    unfold clearStep
    split
    all_goals rfl

theorem loadConfigs_replies : ∀ (ts : List Str) (d d' : Daemon), loadConfigs ts d = .ok d' → d'.replies = d.replies
  | [], _, _, h => by cases h; rfl
  | t :: ts, d, d', h => by
    obtain ⟨d1, h1, h2⟩ := dbind_eq_ok.1 h
    rw [loadConfigs_replies ts d1 d' h2]
    obtain ⟨o, ho, h1⟩ := dbind_eq_ok.1 h1
    cases o <;> cases h1 <;> rfl

theorem reload_replies {env : Env} {d d' : Daemon} (h : reload env d = .ok d') : d'.replies = d.replies := by
  obtain ⟨d1, h1, h2⟩ := dbind_eq_ok.1 h
  have h2 := Except.ok.inj h2
  rw [← h2, clearVkbd_replies]
  have := loadConfigs_replies _ _ _ h1
  exact this

/-- C77. `keyd reload`, whatever arguments come after it: the daemon does what it does to reload its configuration (C46), and the command
succeeds and prints nothing. -/
theorem C77_reload {env : Env} {garbage stdin : Str} {rest : List Str} {con : Nat} {d : Daemon} {o : Option Outcome} (hg : garbage.length = 4096)
    (run : command env garbage (b!"reload" :: rest) stdin con d = .ok o) :
    ∃ d', reload env d = .ok d' ∧ o = some (.exits 0 [] (d'.reply con .success)) := by
  have hd : dispatch (b!"reload" :: rest) = some .reload := rfl
  unfold command at run
  rw [hd] at run
  dsimp only at run
  obtain ⟨o1, h1, h2⟩ := dbind_eq_ok.1 run
  cases h2
  obtain ⟨bytes, b1, b2, b3, b4, b5⟩ := request_decoded (garbage := garbage) .reload (data := []) (timeout := 0) hg (by simp) (by decide)
  have b4 : (decodeMsg bytes).sz = 0 := b4
  have hc : handleClient env d con (decodeMsg bytes) = (do .ok ((← reload env d).reply con .success)) := by
    unfold handleClient
    rw [if_neg (by omega), if_neg (by omega), b2]
  cases hr : reload env d with
  | error e =>
    exfalso
    rw [hr] at hc
    unfold reloadCommand ipcExec at h1
    rw [b1] at h1
    dsimp only at h1
    rw [hc] at h1
    cases h1
  | ok d' =>
    refine ⟨d', rfl, ?_⟩
    rw [hr] at hc
    have he := reload_replies hr
    unfold reloadCommand at h1
    rw [exec_answered b1 hc (r := .success) (by show (con, _) :: d'.replies = _; rw [he])] at h1
    cases h1
    rfl

/-- C77 fails for the empty lines it prints, and for the left-hand sides of bindings, where the names of shifted characters are not
known. -/
theorem C77_fails_listed : [] ∈ listKeys ∧ parseKeySequence [] = none ∧ b!"!" ∈ listKeys ∧ lookupKeycode b!"!" = 0 := by
  decide +kernel

/-! ### Concrete cases -/

/-- Running a command against a daemon with one keyboard: the status, the output, and what `a` and `b` are bound to in `main` afterwards. -/
def commandDemo (args : List Str) (stdin : Str) : Option (Option Int × Str × List VOut × List Desc) :=
  match reload demoEnv {} with
  | .ok d =>
    match command demoEnv (List.replicate 4096 7) args stdin 1 d with
    | .ok (some o) =>
      let (st, out) : Option Int × Str := match o with
        | .exits st out _ => (some st, out)
        | _ => (none, [])
      some (st, out, o.daemon.vout.reverse, match o.daemon.heap 0 with
        | some k => [(k.config.layer 0).keymap 30, (k.config.layer 0).keymap 48]
        | none => [])
    | _ => none
  | _ => none

/-- Two bindings; one that is not one; one of them too long for the daemon; none. -/
theorem C75_example :
    commandDemo [b!"bind", b!"a = c", b!"main.b = C-d"] [] = some (some 0, b!"Success\n", [], [.keyseq 46 0, .keyseq 32 MOD_CTRL]) ∧
    commandDemo [b!"bind", b!"a = nokey", b!"b = d"] [] = some (some (-1), [], [], [.overloadTimeout 1 0 200, .keyseq 32 0]) ∧
    commandDemo [b!"-e"] [] = some (some 0, b!"Success\n", [], [.overloadTimeout 1 0 200, .none]) := by
  refine ⟨?_, ?_, ?_⟩
  · set_option maxRecDepth 100000 in decide +kernel
  · set_option maxRecDepth 100000 in decide +kernel
  · set_option maxRecDepth 100000 in decide +kernel

/-- A reload undoes the bindings made by `bind`. -/
theorem C77_reload_example :
    (match reload demoEnv {} with
    | .ok d => match command demoEnv (List.replicate 4096 7) [b!"bind", b!"a = c"] [] 1 d with
      | .ok (some o) => match command demoEnv (List.replicate 4096 7) [b!"reload"] [] 2 o.daemon with
        | .ok (some (.exits 0 [] d)) => d.configs.map (fun e => (d.heap e.kbd).map (fun k => (k.config.layer 0).keymap 30))
        | _ => []
      | _ => []
    | _ => []) = [some (.overloadTimeout 1 0 200)] := by
  set_option maxRecDepth 100000 in decide +kernel

/-- C75 fails for an argument of more than 4096 bytes, which stops the command at an `assert`: the bindings before it have been made. -/
theorem C75_fails_long :
    (commandDemo [b!"bind", b!"b = d", List.replicate 4097 97] []).map (fun r => (r.1, r.2.2.2)) =
      some (none, [.overloadTimeout 1 0 200, .keyseq 32 0]) := by
  set_option maxRecDepth 100000 in decide +kernel

/-- Words, standard input, a delay; characters that cannot be typed; a macro with newlines after it; no macro. -/
theorem C76_example :
    (commandDemo [b!"input", b!"-t", b!"10", b!"a", b!"B"] []).map (fun r => (r.1, r.2.2.1.length)) = some (some 0, 8) ∧
    (commandDemo [b!"do"] b!"C-x\n\n").map (fun r => (r.1, r.2.2.1)) =
      some (some 0, [.key 29 true, .key 45 true, .key 45 false, .key 29 false]) ∧
    (commandDemo [b!"do", b!"a+nokey"] []).map (fun r => (r.1, r.2.2.1)) = some (some 1, []) ∧
    Invoked [b!"-t", b!"10", b!"a", b!"B"] 10 [b!"a", b!"B"] := by
  refine ⟨?_, ?_, ?_, ?_⟩
  · set_option maxRecDepth 100000 in decide +kernel
  · set_option maxRecDepth 100000 in decide +kernel
  · set_option maxRecDepth 100000 in decide +kernel
  · exact .timed _ 10 _ ⟨by decide, by decide, by decide +kernel⟩ (by decide)

end Keyd
