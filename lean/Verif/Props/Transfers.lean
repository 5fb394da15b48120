import Verif.Model.Ipc

/-
  C54: messages arrive as sent.
-/

set_option autoImplicit false

namespace Keyd

/-- The calls transfer something, as the kernel does unless the peer is gone. -/
def Moves (cs : List Call) : Prop := ∀ c ∈ cs, ∃ n, c = .bytes (n + 1)

theorem xread_done {sz : Nat} : ∀ (cs : List Call) (stream acc : Str), Moves cs → acc.length ≤ sz → sz - acc.length ≤ stream.length →
    sz - acc.length ≤ cs.length → ∃ cs', xread sz cs stream acc = .done (acc ++ stream.take (sz - acc.length), stream.drop (sz - acc.length)) cs'
  | [], stream, acc, _, h2, _, h4 => by
    have e : sz = acc.length := by simp at h4; omega
    unfold xread
    rw [if_pos e, show sz - acc.length = 0 by omega]
    exact ⟨[], by simp⟩
  | c :: cs, stream, acc, h1, h2, h3, h4 => by
    unfold xread
    by_cases e : sz = acc.length
    · rw [if_pos e, show sz - acc.length = 0 by omega]
      exact ⟨c :: cs, by simp⟩
    · rw [if_neg e]
      obtain ⟨n, rfl⟩ := h1 c (List.mem_cons_self ..)
      dsimp only
      obtain ⟨k, hk, k1, k2⟩ : ∃ k, min (n + 1) (sz - acc.length) = k ∧ 1 ≤ k ∧ k ≤ sz - acc.length := ⟨_, rfl, by omega, by omega⟩
      rw [hk]
      have hlen : (acc ++ stream.take k).length = acc.length + k := by
        rw [List.length_append, List.length_take]; omega
      rw [List.length_cons] at h4
      have k3 : acc.length + k ≤ sz := by omega
      have k4 : sz - (acc.length + k) ≤ stream.length - k := by omega
      have k5 : sz - (acc.length + k) ≤ cs.length := by omega
      obtain ⟨cs', h⟩ := xread_done cs (stream.drop k) (acc ++ stream.take k)
        (fun c hc => h1 c (List.mem_cons_of_mem _ hc)) (hlen ▸ k3) (by rw [hlen, List.length_drop]; exact k4)
        (by rw [hlen]; exact k5)
      refine ⟨cs', ?_⟩
      rw [h, hlen, List.drop_drop, List.append_assoc, ← List.take_add]
      have : k + (sz - (acc.length + k)) = sz - acc.length := by omega
      rw [this]

/-- C54. However the kernel splits what the peer sends, reading a message gives exactly its first `sz` bytes, and leaves the rest
unread. -/
theorem C54_read {sz : Nat} {cs : List Call} {stream : Str} (hm : Moves cs) (hs : sz ≤ stream.length) (hc : sz ≤ cs.length) :
    ∃ cs', xread sz cs stream [] = .done (stream.take sz, stream.drop sz) cs' := by
  obtain ⟨cs', h⟩ := xread_done (sz := sz) cs stream [] hm (Nat.zero_le _) (by simpa using hs) (by simpa using hc)
  exact ⟨cs', by simpa using h⟩

theorem xread_only {sz : Nat} : ∀ (cs : List Call) (stream acc : Str) (r : Str × Str) (cs' : List Call), xread sz cs stream acc = .done r cs' →
    acc.length ≤ sz → r.1.length = sz ∧ r.1 ++ r.2 = acc ++ stream
  | [], stream, acc, r, cs', h, _ => by
    unfold xread at h
    split at h
    · rename_i e
      injection h with h
      subst h
      exact ⟨e.symm, rfl⟩
    · cases h
  | c :: cs, stream, acc, r, cs', h, hl => by
    unfold xread at h
    split at h
    · rename_i e
      injection h with h
      subst h
      exact ⟨e.symm, rfl⟩
    · cases c with
      | fails => cases h
      | bytes n =>
        dsimp only at h
        obtain ⟨h1, h2⟩ := xread_only cs _ _ r cs' h (by rw [List.length_append, List.length_take]; omega)
        exact ⟨h1, by rw [h2, List.append_assoc, List.take_append_drop]⟩

/-- C54. Whatever the kernel does: if reading a message ends, the buffer holds exactly the next `sz` bytes of the stream. -/
theorem C54_read_exact {sz : Nat} {cs cs' : List Call} {stream buf rest : Str} (h : xread sz cs stream [] = .done (buf, rest) cs') :
    buf.length = sz ∧ buf ++ rest = stream := xread_only cs stream [] _ cs' h (Nat.zero_le _)

theorem xread_short {sz : Nat} : ∀ (cs : List Call) (stream acc : Str), (∀ c ∈ cs, c ≠ .fails) → acc.length + stream.length < sz →
    ∃ r, xread sz cs stream acc = .waiting r
  | [], stream, acc, _, h => by
    unfold xread
    rw [if_neg (by omega)]
    exact ⟨_, rfl⟩
  | c :: cs, stream, acc, h1, h => by
    unfold xread
    rw [if_neg (by omega)]
    cases c with
    | fails => exact absurd rfl (h1 _ (List.mem_cons_self ..))
    | bytes n =>
      dsimp only
      exact xread_short cs _ _ (fun c hc => h1 c (List.mem_cons_of_mem _ hc)) (by
        rw [List.length_append, List.length_take, List.length_drop]; omega)

/-- C54 fails for a client that closes the connection before it has sent a whole message: `handle_client` never returns from
reading it, so the daemon handles no more events. -/
theorem C54_fails_short {sz : Nat} {cs : List Call} {stream : Str} (hc : ∀ c ∈ cs, c ≠ .fails) (hs : stream.length < sz) :
    ∃ r, xread sz cs stream [] = .waiting r := xread_short cs stream [] hc (by simpa using hs)

theorem xwrite_done : ∀ (cs : List Call) (buf out : Str), Moves cs → buf.length ≤ cs.length → ∃ cs', xwrite cs buf out = .done (out ++ buf) cs'
  | [], buf, out, _, h => by
    have : buf = [] := by simpa using h
    subst this
    exact ⟨[], by unfold xwrite; simp⟩
  | c :: cs, buf, out, h1, h => by
    unfold xwrite
    by_cases e : buf = []
    · rw [if_pos e, e]
      exact ⟨c :: cs, by simp⟩
    · rw [if_neg e]
      obtain ⟨n, rfl⟩ := h1 c (List.mem_cons_self ..)
      dsimp only
      rw [List.length_cons] at h
      obtain ⟨cs', h2⟩ := xwrite_done cs (buf.drop (n + 1)) (out ++ buf.take (n + 1)) (fun c hc => h1 c (List.mem_cons_of_mem _ hc))
        (by rw [List.length_drop]; omega)
      exact ⟨cs', by rw [h2, List.append_assoc, List.take_append_drop]⟩

/-- C54. However the kernel splits the writes, the peer is given exactly the message. -/
theorem C54_write {cs : List Call} {buf : Str} (hm : Moves cs) (hc : buf.length ≤ cs.length) :
    ∃ cs', xwrite cs buf [] = .done buf cs' := by
  obtain ⟨cs', h⟩ := xwrite_done cs buf [] hm hc
  exact ⟨cs', by simpa using h⟩

/-- C54 fails for a client that is gone when the daemon replies: the failing write ends the daemon. -/
theorem C54_fails_gone {cs : List Call} {buf : Str} (h : buf ≠ []) : xwrite (.fails :: cs) buf [] = .exits := by
  unfold xwrite
  rw [if_neg h]

theorem leBytes_length : ∀ (n x : Nat), (leBytes n x).length = n
  | 0, _ => rfl
  | n+1, x => by unfold leBytes; rw [List.length_cons, leBytes_length]

theorem fromLe_leBytes : ∀ (n x : Nat), x < 256 ^ n → fromLe (leBytes n x) = x
  | 0, x, h => by
    have : x = 0 := by simpa using h
    subst this
    rfl
  | n+1, x, h => by
    unfold leBytes fromLe
    rw [fromLe_leBytes n (x / 256) (by rw [Nat.div_lt_iff_lt_mul (by decide)]; rw [Nat.pow_succ] at h; exact h)]
    have : (UInt8.ofNat (x % 256)).toNat = x % 256 := by
      rw [UInt8.toNat_ofNat']
      omega
    rw [this]
    omega

theorem decode_encode {type timeout sz : Nat} {data : Str} (h1 : type < 2 ^ 32) (h2 : timeout < 2 ^ 32) (h3 : data.length = 4096)
    (h4 : sz < 2 ^ 64) : decodeMsg (encodeMsg type timeout data sz) = ⟨.ofCode type, timeout, data, sz⟩ := by
  unfold decodeMsg encodeMsg
  have e1 : ((leBytes 4 type ++ leBytes 4 timeout ++ data ++ leBytes 8 sz).take 4) = leBytes 4 type := by
    rw [List.append_assoc, List.append_assoc, List.take_left' (leBytes_length 4 type)]
  have e2 : ((leBytes 4 type ++ leBytes 4 timeout ++ data ++ leBytes 8 sz).drop 4).take 4 = leBytes 4 timeout := by
    rw [List.append_assoc, List.append_assoc, List.drop_left' (leBytes_length 4 type), List.take_left' (leBytes_length 4 timeout)]
  have e3 : ((leBytes 4 type ++ leBytes 4 timeout ++ data ++ leBytes 8 sz).drop 8).take 4096 = data := by
    rw [List.append_assoc, List.drop_left' (by rw [List.length_append, leBytes_length, leBytes_length]), List.take_left' h3]
  have e4 : ((leBytes 4 type ++ leBytes 4 timeout ++ data ++ leBytes 8 sz).drop 4104).take 8 = leBytes 8 sz := by
    rw [List.drop_left' (by rw [List.length_append, List.length_append, leBytes_length, leBytes_length, h3]),
      List.take_of_length_le (Nat.le_of_eq (leBytes_length 8 sz))]
  rw [e1, e2, e3, e4, fromLe_leBytes 4 type h1, fromLe_leBytes 4 timeout h2, fromLe_leBytes 8 sz h4]

/-- C54. A request of a `keyd` command of up to 4096 bytes reaches `handle_client` as it was made, whatever the kernel does with
the writes of the client and the reads of the daemon, and whatever the client's message contained before: type, timeout, size
and data. -/
theorem C54_request {garbage : Str} {type : MsgType} {data : Str} {timeout : Nat} {ws rs : List Call} (hg : garbage.length = 4096)
    (hd : data.length ≤ 4096) (ht : timeout < 2 ^ 32) (hw : Moves ws) (hr : Moves rs) (hwl : MSG_SIZE ≤ ws.length) (hrl : MSG_SIZE ≤ rs.length) :
    ∃ bytes ws' rs' buf, ipcMessage garbage type data timeout = .ok bytes ∧ xwrite ws bytes [] = .done bytes ws' ∧
      xread MSG_SIZE rs bytes [] = .done (buf, []) rs' ∧ (decodeMsg buf).type = type ∧ (decodeMsg buf).timeout = timeout ∧
      (decodeMsg buf).sz = data.length ∧ (decodeMsg buf).data.take (decodeMsg buf).sz = data := by
  have hlen : (data ++ garbage.drop data.length).length = 4096 := by
    rw [List.length_append, List.length_drop]; omega
  have hb : (encodeMsg type.code timeout (data ++ garbage.drop data.length) data.length).length = MSG_SIZE := by
    unfold encodeMsg
    simp only [List.length_append, leBytes_length]
    rw [← List.length_append, hlen]
    rfl
  obtain ⟨ws', h1⟩ := C54_write (buf := encodeMsg type.code timeout (data ++ garbage.drop data.length) data.length) hw (by rw [hb]; exact hwl)
  obtain ⟨rs', h2⟩ := C54_read (sz := MSG_SIZE) (stream := encodeMsg type.code timeout (data ++ garbage.drop data.length) data.length) hr (by rw [hb]; exact Nat.le_refl _) hrl
  refine ⟨_, ws', rs', encodeMsg type.code timeout (data ++ garbage.drop data.length) data.length, ?_, h1, ?_, ?_⟩
  · unfold ipcMessage
    rw [if_neg (by omega)]
    rfl
  · rw [h2, List.take_of_length_le (Nat.le_of_eq hb), List.drop_of_length_le (Nat.le_of_eq hb)]
  · rw [decode_encode (by cases type <;> decide) ht hlen (by omega)]
    refine ⟨by cases type <;> rfl, rfl, rfl, ?_⟩
    exact List.take_left' rfl

/-- C54. The text of `keyd do` and `keyd input` given as arguments: the arguments separated by single spaces, if they fit. -/
theorem C54_arguments (bufsz : Nat) (args : List Str) (hb : 0 < bufsz) : readInputArgs bufsz args [] =
    if (List.intercalate [32] args).length < bufsz then some (List.intercalate [32] args) else none := by
  have key : ∀ (args : List Str) (acc : Str), acc.length < bufsz → readInputArgs bufsz args acc =
      if acc.length + (List.intercalate [32] args).length < bufsz then some (acc ++ List.intercalate [32] args) else none := by
    intro args
    induction args with
    | nil =>
      intro acc h
      rw [show List.intercalate [32] ([] : List Str) = [] from rfl, if_pos (by simpa using h)]
      simp [readInputArgs]
    | cons a as ih =>
      intro acc h
      cases as with
      | nil =>
        have e : List.intercalate [32] [a] = a := by simp [List.intercalate]
        rw [e]
        unfold readInputArgs
        by_cases hf : acc.length + a.length < bufsz
        · rw [if_neg (by omega), if_pos hf]
        · rw [if_pos (by omega), if_neg hf]
      | cons b bs =>
        have e : List.intercalate [32] (a :: b :: bs) = a ++ [32] ++ List.intercalate [32] (b :: bs) := by
          simp [List.intercalate, List.intersperse]
        rw [e]
        unfold readInputArgs
        by_cases hf : acc.length + a.length + 1 ≥ bufsz
        · rw [if_pos hf, if_neg]
          simp only [List.length_append, List.length_singleton]
          omega
        · rw [if_neg hf, ih _ (by simp only [List.length_append, List.length_singleton]; omega)]
          simp only [List.length_append, List.length_singleton, List.append_assoc]
          simp only [Nat.add_assoc]
  have := key args [] hb
  simpa using this

/-- The hypotheses can be met: one byte at a time. -/
theorem C54_example : (match xread 3 [.bytes 1, .bytes 1, .bytes 5] b!"abcd" [] with
    | .done r _ => decide (r = (b!"abc", b!"d")) | _ => false) = true ∧
    (match xwrite [.bytes 2, .bytes 5] b!"abc" [] with | .done r _ => decide (r = b!"abc") | _ => false) = true ∧
    readInputArgs 4096 [b!"C-x", b!"1ms", b!"y"] [] = some b!"C-x 1ms y" := by
  decide

end Keyd
