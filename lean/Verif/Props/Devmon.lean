import Verif.Model.Devmon
import Verif.Proofs.Sat

/-
  C94: every new device node is looked at once. 
-/

set_option autoImplicit false

namespace Keyd

/-! ### Specification -/

/-- The four bytes of a 32-bit number. -/
def bytes32 (n : Nat) : Str := [UInt8.ofNat n, UInt8.ofNat (n / 256), UInt8.ofNat (n / 65536), UInt8.ofNat (n / 16777216)]

/-- A notice of the kernel that a node has been created in /dev/input (inotify(7)): watch descriptor, mask and cookie (twelve bytes), the length of the name field, and the name
with at least one NUL after it. -/
structure Notice where
  head : Str
  name : Str
  pad : Nat

def Notice.bytes (n : Notice) : Str := n.head ++ (bytes32 (n.name.length + n.pad) ++ (n.name ++ List.replicate n.pad 0))

structure Notice.Ok (n : Notice) : Prop where
  head : n.head.length = 12
  clean : (0 : UInt8) ∉ n.name
  pad : 0 < n.pad
  short : n.name.length + n.pad < 2 ^ 32
  name : n.name.length ≤ 255

/-- What one `read` stores: some whole notices, as many as fit. -/
structure Batch (ns : List Notice) : Prop where
  ok : ∀ n ∈ ns, n.Ok
  some : ns ≠ []
  fits : (ns.flatMap Notice.bytes).length ≤ 4096

/-- The nodes to look at: those whose name begins with "event", in order. -/
def nodePaths (names : List Str) : List Str := (names.filter fun n => b!"event".isPrefixOf n).map fun n => b!"/dev/input/" ++ n

/-- The devices that `device_init` makes of these nodes, if it has been called `k` times before. -/
def madeOf {D : Type} (init : Nat → Str → Option D) : Nat → List Str → List D
  | _, [] => []
  | k, p :: ps => (init k p).toList ++ madeOf init (k + 1) ps

/-! ### Proofs -/

def looksAt (ns : List Notice) : List Str := (ns.filter fun n => eventName n.name).map fun n => inputPath n.name

theorem inputPath_short {n : Str} (h : n.length ≤ 255) : inputPath n = b!"/dev/input/" ++ n := by
  unfold inputPath
  rw [List.take_of_length_le]
  rw [List.length_append]
  show 11 + n.length ≤ 1023
  omega

theorem looksAt_eq : ∀ {ns : List Notice}, (∀ n ∈ ns, n.Ok) → looksAt ns = nodePaths (ns.map Notice.name)
  | [], _ => rfl
  | n :: ns, h => by
    have ih := looksAt_eq (ns := ns) (fun x hx => h x (List.mem_cons_of_mem _ hx))
    unfold looksAt nodePaths at ih ⊢
    have e : eventName n.name = b!"event".isPrefixOf n.name := rfl
    rw [List.map_cons, List.filter_cons, List.filter_cons, e]
    split
    · rw [List.map_cons, List.map_cons, ih, inputPath_short (h n List.mem_cons_self).name]
    · exact ih

theorem batches_ok {batches : List (List Notice)} (hb : ∀ b ∈ batches, Batch b) : ∀ n ∈ batches.flatten, n.Ok := by
  intro n hn
  obtain ⟨b, h1, h2⟩ := List.mem_flatten.1 hn
  exact (hb b h1).ok n h2

theorem le32_bytes32 {n : Nat} (h : n < 2 ^ 32) (s : Str) : le32 (bytes32 n ++ s) = n := by
  unfold bytes32 le32
  simp only [List.cons_append, List.nil_append, UInt8.toNat_ofNat']
  omega

theorem takeWhile_name {a : Str} (h : (0 : UInt8) ∉ a) (s : Str) : (a ++ (0 : UInt8) :: s).takeWhile (· ≠ 0) = a := by
  induction a with
  | nil => simp
  | cons x a ih =>
    have hx : x ≠ 0 := fun e => h (by rw [e]; exact List.mem_cons_self)
    rw [List.cons_append, List.takeWhile_cons, if_pos (by simpa using hx), ih (fun hh => h (List.mem_cons_of_mem _ hh))]

theorem Notice.length {n : Notice} (h : n.Ok) : n.bytes.length = 16 + (n.name.length + n.pad) := by
  unfold Notice.bytes bytes32
  simp [h.head]
  omega

theorem nameAt_notice {n : Notice} (h : n.Ok) (done rest : Str) : nameAt (done ++ (n.bytes ++ rest)) done.length = n.name := by
  unfold nameAt
  rw [← List.drop_drop, List.drop_left]
  obtain ⟨p, hp⟩ : ∃ p, n.pad = p + 1 := ⟨n.pad - 1, by have := h.pad; omega⟩
  have : n.bytes ++ rest = (n.head ++ bytes32 (n.name.length + n.pad)) ++ (n.name ++ (0 : UInt8) :: (List.replicate p 0 ++ rest)) := by
    unfold Notice.bytes
    rw [hp, List.replicate_succ]
    simp
  rw [this, List.drop_left' (by rw [List.length_append, h.head]; rfl), takeWhile_name h.clean]

theorem recordSize_notice {n : Notice} (h : n.Ok) (done rest : Str) : recordSize (done ++ (n.bytes ++ rest)) done.length = n.bytes.length := by
  unfold recordSize
  rw [← List.drop_drop, List.drop_left, Notice.length h]
  have : n.bytes ++ rest = n.head ++ (bytes32 (n.name.length + n.pad) ++ ((n.name ++ List.replicate n.pad 0) ++ rest)) := by
    unfold Notice.bytes
    simp
  rw [this, List.drop_left' h.head, le32_bytes32 h.short]

/-- The notices that are in the buffer and have not been looked at. -/
def Within (m : Devmon) (ns : List Notice) : Prop :=
  ∃ done stale, m.buf = done ++ (ns.flatMap Notice.bytes ++ stale) ∧ m.ptr = done.length ∧ m.sz = done.length + (ns.flatMap Notice.bytes).length

/-- What is still to be looked at: in the buffer and in the kernel. -/
def Queued (m : Devmon) (reads : List Str) (ns : List Notice) : Prop :=
  ∃ (here : List Notice) (batches : List (List Notice)), ns = here ++ batches.flatten ∧ Within m here ∧ (∀ n ∈ here, n.Ok) ∧ (∀ b ∈ batches, Batch b) ∧ reads = batches.map (fun b => b.flatMap Notice.bytes)

theorem within_next {m : Devmon} {n : Notice} {ns : List Notice} (h : Within m (n :: ns)) (hn : n.Ok) (reads : List Str) :
    ∃ m', devmonNext m reads = some (n.name, m', reads) ∧ Within m' ns := by
  obtain ⟨done, stale, h1, h2, h3⟩ := h
  have hl : 0 < n.bytes.length := by rw [Notice.length hn]; omega
  rw [List.flatMap_cons] at h1 h3
  rw [List.append_assoc] at h1
  unfold devmonNext
  rw [if_neg (by rw [h2, h3, List.length_append]; omega), h2, h1, nameAt_notice hn, recordSize_notice hn]
  refine ⟨_, rfl, done ++ n.bytes, stale, ?_, ?_, ?_⟩
  · simp
  · dsimp only; rw [List.length_append]
  · dsimp only; rw [h3, List.length_append, List.length_append]; omega

theorem batch_next {m : Devmon} {n : Notice} {ns : List Notice} (hm : Within m []) (hb : Batch (n :: ns)) (reads : List Str) :
    ∃ m', devmonNext m ((n :: ns).flatMap Notice.bytes :: reads) = some (n.name, m', reads) ∧ Within m' ns := by
  obtain ⟨done, stale, h1, h2, h3⟩ := hm
  have hn := hb.ok n List.mem_cons_self
  unfold devmonNext
  rw [if_pos (by rw [h2, h3]; simp)]
  dsimp only
  generalize m.buf.drop _ = st
  have e : (n :: ns).flatMap Notice.bytes ++ st = [] ++ (n.bytes ++ (ns.flatMap Notice.bytes ++ st)) := by
    rw [List.flatMap_cons, List.append_assoc]; rfl
  have a := nameAt_notice hn [] (ns.flatMap Notice.bytes ++ st)
  have b := recordSize_notice hn [] (ns.flatMap Notice.bytes ++ st)
  rw [List.length_nil] at a b
  rw [e, a, b]
  refine ⟨_, rfl, n.bytes, st, rfl, rfl, ?_⟩
  dsimp only
  rw [List.flatMap_cons, List.length_append]

theorem queued_cons {m : Devmon} {reads : List Str} {n : Notice} {ns : List Notice} (h : Queued m reads (n :: ns)) :
    n.Ok ∧ ∃ m' reads', devmonNext m reads = some (n.name, m', reads') ∧ Queued m' reads' ns := by
  obtain ⟨here, batches, h1, h2, h3, h4, h5⟩ := h
  cases here with
  | cons x here =>
    rw [List.cons_append] at h1
    injection h1 with e1 e2
    subst e1
    obtain ⟨m', h6, h7⟩ := within_next h2 (h3 _ List.mem_cons_self) reads
    exact ⟨h3 _ List.mem_cons_self, m', reads, h6, here, batches, e2, h7, fun y hy => h3 y (List.mem_cons_of_mem _ hy), h4, h5⟩
  | nil =>
    cases batches with
    | nil => simp at h1
    | cons b bs =>
      have hb := h4 b List.mem_cons_self
      cases b with
      | nil => exact absurd rfl hb.some
      | cons x b =>
        rw [List.nil_append, List.flatten_cons, List.cons_append] at h1
        injection h1 with e1 e2
        subst e1
        rw [List.map_cons] at h5
        subst h5
        obtain ⟨m', h6, h7⟩ := batch_next h2 hb (bs.map fun b => b.flatMap Notice.bytes)
        exact ⟨hb.ok _ List.mem_cons_self, m', _, h6, b, bs, e2, h7, fun y hy => hb.ok y (List.mem_cons_of_mem _ hy),
          fun y hy => h4 y (List.mem_cons_of_mem _ hy), rfl⟩

theorem queued_nil {m : Devmon} {reads : List Str} (h : Queued m reads []) : devmonNext m reads = none ∧ reads = [] := by
  obtain ⟨here, batches, h1, h2, h3, h4, h5⟩ := h
  obtain ⟨h6, h7⟩ := List.append_eq_nil_iff.1 h1.symm
  subst h6
  cases batches with
  | cons b bs =>
    rw [List.flatten_cons] at h7
    exact absurd (List.append_eq_nil_iff.1 h7).1 (h4 b List.mem_cons_self).some
  | nil =>
    obtain ⟨done, stale, h8, h9, h10⟩ := h2
    refine ⟨?_, h5⟩
    subst h5
    unfold devmonNext
    rw [if_pos (by rw [h9, h10]; simp)]
    rfl

/-- The first device made of these nodes, with what is left. -/
def firstDevice {D : Type} (init : Nat → Str → Option D) : List Notice → List Str → Option D × List Notice × List Str
  | [], calls => (none, [], calls)
  | n :: ns, calls =>
    if eventName n.name then
      match init calls.length (inputPath n.name) with
      | some d => (some d, ns, calls ++ [inputPath n.name])
      | none => firstDevice init ns (calls ++ [inputPath n.name])
    else firstDevice init ns calls

theorem devmonRead_spec {D : Type} (init : Nat → Str → Option D) : ∀ (ns : List Notice) (fuel : Nat) (m : Devmon) (reads : List Str) (calls : List Str),
    ns.length < fuel → Queued m reads ns →
    ∃ m' reads', devmonRead init fuel m reads calls = .ok ⟨(firstDevice init ns calls).1, m', reads', (firstDevice init ns calls).2.2⟩ ∧
      Queued m' reads' (firstDevice init ns calls).2.1
  | [], fuel + 1, m, reads, calls, _, h => by
    obtain ⟨h1, h2⟩ := queued_nil h
    refine ⟨{ m with sz := 0, ptr := 0 }, reads, ?_, ?_⟩
    · unfold devmonRead; rw [h1]; rfl
    · subst h2
      exact ⟨[], [], rfl, ⟨[], m.buf, rfl, rfl, rfl⟩, (fun _ h => by cases h), (fun _ h => by cases h), rfl⟩
  | n :: ns, fuel + 1, m, reads, calls, hf, h => by
    obtain ⟨_, m', reads', h1, h2⟩ := queued_cons h
    have hf' : ns.length < fuel := by simpa using hf
    unfold devmonRead firstDevice
    rw [h1]
    dsimp only
    by_cases he : eventName n.name = true
    · rw [if_pos he, if_pos he]
      cases init calls.length (inputPath n.name) with
      | some d => exact ⟨m', reads', rfl, h2⟩
      | none => exact devmonRead_spec init ns fuel m' reads' _ hf' h2
    · rw [if_neg he, if_neg he]
      exact devmonRead_spec init ns fuel m' reads' _ hf' h2

theorem madeOf_cons {D : Type} (init : Nat → Str → Option D) (k : Nat) (p : Str) (ps : List Str) :
    madeOf init k (p :: ps) = (init k p).toList ++ madeOf init (k + 1) ps := rfl

theorem firstDevice_spec {D : Type} (init : Nat → Str → Option D) : ∀ (ns : List Notice) (calls : List Str),
    (firstDevice init ns calls).2.2 ++ looksAt (firstDevice init ns calls).2.1 = calls ++ looksAt ns ∧
    madeOf init calls.length (looksAt ns) = (firstDevice init ns calls).1.toList ++ madeOf init (firstDevice init ns calls).2.2.length (looksAt (firstDevice init ns calls).2.1) ∧
    ((firstDevice init ns calls).1 = none → (firstDevice init ns calls).2.1 = []) ∧
    ((firstDevice init ns calls).1 ≠ none → (firstDevice init ns calls).2.1.length < ns.length)
  | [], calls => ⟨rfl, rfl, fun _ => rfl, fun h => absurd rfl h⟩
  | n :: ns, calls => by
    unfold firstDevice
    by_cases he : eventName n.name = true
    · have hl : looksAt (n :: ns) = inputPath n.name :: looksAt ns := by
        unfold looksAt; rw [List.filter_cons, if_pos he, List.map_cons]
      rw [if_pos he, hl]
      cases hi : init calls.length (inputPath n.name) with
      | some d =>
        refine ⟨?_, ?_, ?_, ?_⟩
        · dsimp only; simp
        · rw [madeOf_cons, hi]; dsimp only; rw [List.length_append]; rfl
        · intro e; cases e
        · intro _; dsimp only; rw [List.length_cons]; omega
      | none =>
        obtain ⟨h1, h2, h3, h4⟩ := firstDevice_spec init ns (calls ++ [inputPath n.name])
        dsimp only
        refine ⟨?_, ?_, h3, fun h => Nat.lt_succ_of_lt (h4 h)⟩
        · rw [h1]; simp
        · rw [madeOf_cons, hi]
          rw [List.length_append] at h2
          exact h2
    · have hl : looksAt (n :: ns) = looksAt ns := by
        unfold looksAt; rw [List.filter_cons, if_neg he]
      rw [if_neg he, hl]
      obtain ⟨h1, h2, h3, h4⟩ := firstDevice_spec init ns calls
      exact ⟨h1, h2, h3, fun h => Nat.lt_succ_of_lt (h4 h)⟩

theorem devmonDrain_spec {D : Type} (init : Nat → Str → Option D) : ∀ (fuel : Nat) (ns : List Notice) (m : Devmon) (reads : List Str) (calls : List Str) (table : List D),
    ns.length < fuel → Queued m reads ns → table.length + (madeOf init calls.length (looksAt ns)).length ≤ maxDevices →
    ∃ m', devmonDrain init fuel m reads calls table = .ok (table ++ madeOf init calls.length (looksAt ns), m', calls ++ looksAt ns) ∧ m'.ptr = 0 ∧ m'.sz = 0
  | fuel + 1, ns, m, reads, calls, table, hf, h, ht => by
    obtain ⟨m', reads', h1, h2⟩ := devmonRead_spec init ns (fuel + 1) m reads calls hf h
    obtain ⟨h3, h4, h5, h6⟩ := firstDevice_spec init ns calls
    have hz : (firstDevice init ns calls).1 = none → m'.ptr = 0 ∧ m'.sz = 0 := by
      intro e
      have key : ∀ (k : Nat) (m : Devmon) (reads calls : List Str) (r : DevmonResult D), devmonRead init k m reads calls = .ok r → r.found = none → r.mon.ptr = 0 ∧ r.mon.sz = 0 := by
        intro k
        induction k with
        | zero => intro m reads calls r h; cases h
        | succ k ih =>
          intro m reads calls r h hr
          unfold devmonRead at h
          split at h
          · cases h; exact ⟨rfl, rfl⟩
          · split at h
            · split at h
              · cases h; cases hr
              · exact ih _ _ _ _ h hr
            · exact ih _ _ _ _ h hr
      exact key _ _ _ _ _ h1 e
    unfold devmonDrain
    rw [h1]
    dsimp only [bind_ok]
    cases hfd : (firstDevice init ns calls).1 with
    | none =>
      rw [hfd, h5 hfd] at h4
      rw [h5 hfd] at h3
      have e1 : looksAt [] = [] := rfl
      rw [e1, List.append_nil] at h3
      rw [e1] at h4
      refine ⟨m', ?_, hz hfd⟩
      rw [h4, h3]
      simp [madeOf]
    | some d =>
      rw [hfd] at h4
      dsimp only
      rw [h4] at ht
      simp only [Option.toList_some, List.length_append, List.length_cons, List.length_nil] at ht
      rw [if_pos (by omega)]
      have hlt := h6 (by rw [hfd]; exact fun e => by cases e)
      obtain ⟨m2, h7, h8⟩ := devmonDrain_spec init fuel _ m' reads' (firstDevice init ns calls).2.2 (table ++ [d]) (by omega) h2
        (by rw [List.length_append]; simp only [List.length_cons, List.length_nil]; omega)
      refine ⟨m2, ?_, h8⟩
      rw [h7, h3, h4]
      simp

/-! ### C94 -/

/-- C94. Whatever the notices, the pieces in which `read` delivers them, and what an earlier delivery left in the buffer: the nodes are looked at one by one, in the order in which
they were created, each once; the devices made of them are added to the table in that order. -/
theorem C94_notices {D : Type} (init : Nat → Str → Option D) (m : Devmon) (hm : m.ptr = 0 ∧ m.sz = 0) (batches : List (List Notice)) (hb : ∀ b ∈ batches, Batch b)
    (calls : List Str) (table : List D) (paths : List Str) (hp : paths = nodePaths (batches.flatten.map Notice.name))
    (ht : table.length + (madeOf init calls.length paths).length ≤ 64) (fuel : Nat) (hf : batches.flatten.length < fuel) :
    ∃ m', devmonDrain init fuel m (batches.map fun b => b.flatMap Notice.bytes) calls table =
      .ok (table ++ madeOf init calls.length paths, m', calls ++ paths) ∧ m'.ptr = 0 ∧ m'.sz = 0 := by
  rw [← looksAt_eq (batches_ok hb)] at hp
  subst hp
  exact devmonDrain_spec init fuel _ m _ calls table hf ⟨[], batches, rfl, ⟨[], m.buf, rfl, hm.1, hm.2⟩, (fun _ h => by cases h), hb, rfl⟩ ht

theorem devmonDrain_full {D : Type} (init : Nat → Str → Option D) : ∀ (fuel : Nat) (ns : List Notice) (m : Devmon) (reads : List Str) (calls : List Str) (table : List D),
    ns.length < fuel → Queued m reads ns → table.length ≤ maxDevices → maxDevices < table.length + (madeOf init calls.length (looksAt ns)).length →
    devmonDrain init fuel m reads calls table = .error (.assertFail "evloop: device_table_sz < MAX_DEVICES")
  | fuel + 1, ns, m, reads, calls, table, hf, h, hle, ht => by
    obtain ⟨m', reads', h1, h2⟩ := devmonRead_spec init ns (fuel + 1) m reads calls hf h
    obtain ⟨h3, h4, h5, h6⟩ := firstDevice_spec init ns calls
    unfold devmonDrain
    rw [h1]
    dsimp only [bind_ok]
    cases hfd : (firstDevice init ns calls).1 with
    | none =>
      rw [hfd, h5 hfd] at h4
      rw [h4] at ht
      have e1 : looksAt [] = [] := rfl
      rw [e1] at ht
      simp [madeOf] at ht
      omega
    | some d =>
      rw [hfd] at h4
      dsimp only
      rw [h4] at ht
      simp only [Option.toList_some, List.length_append, List.length_cons, List.length_nil] at ht
      have hlt := h6 (by rw [hfd]; exact fun e => by cases e)
      by_cases hlen : table.length < maxDevices
      · rw [if_pos hlen]
        exact devmonDrain_full init fuel _ m' reads' (firstDevice init ns calls).2.2 (table ++ [d]) (by omega) h2
          (by rw [List.length_append]; simp only [List.length_cons, List.length_nil]; omega)
          (by rw [List.length_append]; simp only [List.length_cons, List.length_nil]; omega)
      · rw [if_neg hlen]

/-- C94, the limit. If the table cannot hold them all, the daemon stops at an assertion; it writes nothing past the table. -/
theorem C94_full {D : Type} (init : Nat → Str → Option D) (m : Devmon) (hm : m.ptr = 0 ∧ m.sz = 0) (batches : List (List Notice)) (hb : ∀ b ∈ batches, Batch b)
    (calls : List Str) (table : List D) (hle : table.length ≤ 64)
    (ht : 64 < table.length + (madeOf init calls.length (nodePaths (batches.flatten.map Notice.name))).length) (fuel : Nat) (hf : batches.flatten.length < fuel) :
    devmonDrain init fuel m (batches.map fun b => b.flatMap Notice.bytes) calls table = .error (.assertFail "evloop: device_table_sz < MAX_DEVICES") := by
  rw [← looksAt_eq (batches_ok hb)] at ht
  exact devmonDrain_full init fuel _ m _ calls table hf ⟨[], batches, rfl, ⟨[], m.buf, rfl, hm.1, hm.2⟩, (fun _ h => by cases h), hb, rfl⟩ hle ht

theorem scanWorkers_spec : ∀ (es : List InputEnt) (ws : List Str),
    let nodes := (es.filter fun e => !e.isDir && eventName e.name).map fun e => inputPath e.name
    (ws.length + nodes.length ≤ maxDevices → scanWorkers es ws = .ok (ws ++ nodes)) ∧
    (ws.length ≤ maxDevices → maxDevices < ws.length + nodes.length → scanWorkers es ws = .error (.assertFail "device_scan: n < MAX_DEVICES"))
  | [], ws => by
    dsimp only
    refine ⟨fun _ => by simp [scanWorkers], fun h1 h2 => ?_⟩
    simp at h2; omega
  | e :: es, ws => by
    dsimp only
    unfold scanWorkers
    by_cases h : e.isDir = false ∧ eventName e.name = true
    · have hc : (!e.isDir && eventName e.name) = true := by rw [h.1, h.2]; rfl
      rw [List.filter_cons, if_pos hc, List.map_cons, if_pos h]
      obtain ⟨i1, i2⟩ := scanWorkers_spec es (ws ++ [inputPath e.name])
      rw [List.length_append, List.length_singleton] at i1 i2
      rw [List.length_cons]
      refine ⟨fun hl => ?_, fun hw hl => ?_⟩
      · rw [if_pos (by omega), i1 (by omega), List.append_assoc]
        rfl
      · by_cases hlt : ws.length < maxDevices
        · rw [if_pos hlt]
          exact i2 (by omega) (by omega)
        · rw [if_neg hlt]
    · have hc : ¬ (!e.isDir && eventName e.name) = true := by
        intro hh
        rw [Bool.and_eq_true, Bool.not_eq_true'] at hh
        exact h hh
      rw [List.filter_cons, if_neg hc, if_neg h]
      exact scanWorkers_spec es ws

theorem slots_spec {D : Type} (init : Str → Option D) (ws : List Str) : ∀ (order : List Nat) (slots : Nat → Option D) (i : Nat),
    order.foldl (workerEnds init ws) slots i = if i ∈ order then (ws[i]?).bind init else slots i
  | [], slots, i => by rw [if_neg List.not_mem_nil]; rfl
  | j :: order, slots, i => by
    rw [List.foldl_cons, slots_spec init ws order _ i]
    by_cases h : i ∈ order
    · rw [if_pos h, if_pos (List.mem_cons_of_mem _ h)]
    · rw [if_neg h]
      unfold workerEnds
      by_cases e : i = j
      · rw [if_pos e, if_pos (by rw [e]; exact List.mem_cons_self), e]
      · rw [if_neg e, if_neg (by rw [List.mem_cons]; exact fun hh => hh.elim e h)]

theorem filterMap_same {A D : Type} {f g : A → Option D} : ∀ {l : List A}, (∀ a ∈ l, f a = g a) → l.filterMap f = l.filterMap g
  | [], _ => rfl
  | a :: l, h => by
    rw [List.filterMap_cons, List.filterMap_cons, h a List.mem_cons_self, filterMap_same (fun b hb => h b (List.mem_cons_of_mem _ hb))]

theorem filterMap_range {D : Type} (f : Str → Option D) : ∀ (ws : List Str), (List.range ws.length).filterMap (fun i => (ws[i]?).bind f) = ws.filterMap f
  | [] => rfl
  | w :: ws => by
    rw [List.length_cons, List.range_succ_eq_map, List.filterMap_cons, List.filterMap_map]
    have e : ((fun i => ((w :: ws)[i]?).bind f) ∘ Nat.succ) = fun i => (ws[i]?).bind f := rfl
    rw [e, filterMap_range f ws, List.filterMap_cons]
    rfl

theorem scan_paths : ∀ {ents : List InputEnt}, (∀ e ∈ ents, e.name.length ≤ 255) →
    ((ents.filter fun e => !e.isDir && eventName e.name).map fun e => inputPath e.name) = nodePaths ((ents.filter fun e => !e.isDir).map InputEnt.name)
  | [], _ => rfl
  | e :: ents, h => by
    have ih := scan_paths (ents := ents) (fun x hx => h x (List.mem_cons_of_mem _ hx))
    unfold nodePaths at ih ⊢
    have ee : eventName e.name = b!"event".isPrefixOf e.name := rfl
    rw [List.filter_cons, List.filter_cons, ee]
    cases e.isDir with
    | true => exact ih
    | false =>
      rw [Bool.not_false, Bool.true_and, if_pos rfl, List.map_cons, List.filter_cons]
      split
      · rw [List.map_cons, List.map_cons, ih, inputPath_short (h e List.mem_cons_self)]
      · exact ih

/-- C94, the start. Whatever the order in which the threads end: the devices found when the daemon starts are those made of the event nodes of the directory (subdirectories and other
nodes are ignored), in the order in which the directory lists them. -/
theorem C94_scan {D : Type} (init : Str → Option D) (ents : List InputEnt) (hn : ∀ e ∈ ents, e.name.length ≤ 255) (order : List Nat)
    (paths : List Str) (hp : paths = nodePaths ((ents.filter fun e => !e.isDir).map InputEnt.name)) (hall : ∀ i, i < paths.length → i ∈ order) (hmax : paths.length ≤ 64) :
    deviceScan init ents order = .ok (paths.filterMap init) := by
  rw [← scan_paths hn] at hp
  subst hp
  unfold deviceScan
  rw [(scanWorkers_spec ents []).1 (by rw [List.length_nil, Nat.zero_add]; exact hmax), bind_ok, List.nil_append]
  dsimp only
  rw [← filterMap_range init]
  congr 1
  refine filterMap_same ?_
  intro i hi
  rw [List.mem_range] at hi
  rw [slots_spec, if_pos (hall i hi)]

/-- C94, the limit at the start: with more than 64 event nodes the daemon does not start. -/
theorem C94_scan_full {D : Type} (init : Str → Option D) (ents : List InputEnt) (hn : ∀ e ∈ ents, e.name.length ≤ 255) (order : List Nat)
    (hmax : 64 < (nodePaths ((ents.filter fun e => !e.isDir).map InputEnt.name)).length) :
    deviceScan init ents order = .error (.assertFail "device_scan: n < MAX_DEVICES") := by
  rw [← scan_paths hn] at hmax
  unfold deviceScan
  rw [(scanWorkers_spec ents []).2 (by decide) (by rw [List.length_nil, Nat.zero_add]; exact hmax)]
  rfl

/-! ### Witnesses -/

/-- The kernel's notice that `name` has been created in a directory: watch 1, IN_CREATE, no cookie, the name field padded to 16 bytes. -/
def created (name : Str) : Notice := ⟨[1, 0, 0, 0, 0, 1, 0, 0, 0, 0, 0, 0], name, 16 - name.length⟩

theorem created_ok {name : Str} (h : (0 : UInt8) ∉ name) (hl : name.length < 16) : (created name).Ok :=
  ⟨rfl, h, by show 0 < 16 - name.length; omega, by show name.length + (16 - name.length) < 2 ^ 32; omega, by show name.length ≤ 255; omega⟩

/-- A keyboard with two nodes and a mouse node are plugged in; then another one. The node `event6` is not a keyboard. -/
theorem C94_example : (devmonDrain (fun _ p => if p = b!"/dev/input/event6" then none else some p) 10 {}
      [(created b!"event5").bytes ++ (created b!"mouse3").bytes, (created b!"event6").bytes ++ (created b!"event17").bytes] [] []).toOption.map (fun r => (r.1, r.2.2)) =
    some ([b!"/dev/input/event5", b!"/dev/input/event17"], [b!"/dev/input/event5", b!"/dev/input/event6", b!"/dev/input/event17"]) := by
  set_option maxRecDepth 20000 in decide +kernel

/-- The hypotheses of `C94_notices` hold of it. -/
theorem C94_example_batches : ∀ b ∈ [[created b!"event5", created b!"mouse3"], [created b!"event6", created b!"event17"]], Batch b := by
  intro b hb
  simp only [List.mem_cons, List.not_mem_nil, or_false] at hb
  rcases hb with rfl | rfl
  · refine ⟨?_, by simp, by decide⟩
    intro n hn
    simp only [List.mem_cons, List.not_mem_nil, or_false] at hn
    rcases hn with rfl | rfl <;> exact created_ok (by decide) (by decide)
  · refine ⟨?_, by simp, by decide⟩
    intro n hn
    simp only [List.mem_cons, List.not_mem_nil, or_false] at hn
    rcases hn with rfl | rfl <;> exact created_ok (by decide) (by decide)

/-- At the start: a directory with a subdirectory, two keyboards and a mouse node; the threads end in the opposite order. -/
theorem C94_example_scan : (deviceScan some [⟨b!"by-id", true⟩, ⟨b!"event3", false⟩, ⟨b!"mouse0", false⟩, ⟨b!"event12", false⟩] [1, 0]).toOption =
    some [b!"/dev/input/event3", b!"/dev/input/event12"] := by
  decide +kernel

/-- When the kernel's queue overflows it says so in a record without a name. The code reads a name all the same: the bytes that lie behind the record in the buffer, left there by
an earlier delivery. The node `event5`, which is in the table already, is opened a second time. -/
theorem C94_fails_overflow :
    let overflow : Str := [255, 255, 255, 255, 0, 64, 0, 0, 0, 0, 0, 0, 0, 0, 0, 0]
    ((devmonDrain (fun _ p => some p) 10 {} [(created b!"event5").bytes] [] []).toOption.bind fun r =>
      (devmonDrain (fun _ p => some p) 10 r.2.1 [overflow] r.2.2 r.1).toOption.map (fun r => r.1)) = some [b!"/dev/input/event5", b!"/dev/input/event5"] := by
  set_option maxRecDepth 20000 in decide +kernel

end Keyd
