import Verif.Proofs.Mapper
import Verif.Props.Cli

/-
  C85: the sections of app.conf that apply to a window.
  C86: focusing a window sets the bindings of its sections, whatever was focused before.
-/

set_option autoImplicit false

namespace Keyd

attribute [local irreducible] configInit

/-! ### C85 -/

/-- C85, the file. Lines that make up sections are read as these sections, whatever white space, empty lines and
comments there are. -/
theorem C85_file (py : Py) (ls : List PyStr) (ss : List AppSection) (hl : ∀ l ∈ ls, ∀ c ∈ l, c ≠ 10 ∧ c ≠ 13)
    (h : AppDoc py ls ss) : parseApp py (textOf ls) = some ss := by
  unfold parseApp
  cases ls with
  | nil =>
    cases h
    have e : (pyLines (textOf [])).foldlM (fun rev line => appLine py line rev) [] = some [] := by
      show ([[]] : List PyStr).foldlM (fun rev line => appLine py line rev) [] = some []
      rw [List.foldlM_cons, appLine_filler (line := []) (.inl ⟨[], [], rfl, by simp, by simp⟩)]
      rfl
    rw [e]
    rfl
  | cons l ls =>
    rw [pyLines_textOf _ (by simp) hl, appDoc_fold h []]
    simp

/-- C85, a binding above the first heading is not read: the script fails. -/
theorem C85_headless (py : Py) (fs ls : List PyStr) (l b : PyStr) (hl : ∀ m ∈ fs ++ l :: ls, ∀ c ∈ m, c ≠ 10 ∧ c ≠ 13)
    (hf : ∀ m ∈ fs, AppFiller py m) (hp : Padded py b l) (hb : AppBinding py b) : parseApp py (textOf (fs ++ l :: ls)) = none := by
  unfold parseApp
  rw [pyLines_textOf _ (by simp) hl]
  have e : (fs ++ l :: ls).foldlM (fun rev line => appLine py line rev) [] = none := by
    clear hl
    induction fs with
    | nil =>
      obtain ⟨x, y, rfl, hx, hy⟩ := hp
      obtain ⟨b1, b2, b3, b4⟩ := hb
      have e := strip_pad py.space x b y hx hy (fun c hc => (b2 c hc).1) b3
      rw [List.nil_append, List.foldlM_cons]
      have : appLine py (x ++ b ++ y) [] = none := by
        unfold appLine
        rw [e]
        dsimp only
        rw [if_neg b4, if_neg b1, if_neg (fun hc => (b2 35 hc).2 rfl)]
      rw [this]
      rfl
    | cons f fs ih =>
      rw [List.cons_append, List.foldlM_cons, appLine_filler (hf f (by simp))]
      exact ih (fun m hm => hf m (List.mem_cons_of_mem _ hm))
  rw [e]
  rfl

/-- The ASCII letters and digits, written out. -/
def plainLetters : List Nat :=
  "0123456789abcdefghijklmnopqrstuvwxyzABCDEFGHIJKLMNOPQRSTUVWXYZ".toList.map Char.toNat

theorem asciiAlnum_eq : asciiAlnum = fun c => decide (c ∈ plainLetters) := by
  funext c
  by_cases hc : c < 128
  · have : ∀ c : Fin 128, asciiAlnum c.1 = decide (c.1 ∈ plainLetters) := by decide +kernel
    exact this ⟨c, hc⟩
  · have h1 : asciiAlnum c = false := by
      unfold asciiAlnum
      have a : ¬ c ≤ 57 := by omega
      have b : ¬ c ≤ 90 := by omega
      have d : ¬ c ≤ 122 := by omega
      simp [a, b, d]
    have h2 : c ∉ plainLetters := fun hm =>
      hc (of_decide_eq_true (List.all_eq_true.1 (show (plainLetters.all fun x => decide (x < 128)) = true by decide +kernel) c hm))
    rw [h1, decide_eq_false h2]

/-- C85, the name a class is matched by: its words (ASCII letters and digits) joined by dashes, in lower case. -/
theorem C85_class (py : Py) (ws : List PyStr) (s : PyStr) (h : Spaced (fun c => decide (c ∈ plainLetters)) ws s) :
    normalizeClass py s = py.lower (dashJoin ws) := by
  rw [← asciiAlnum_eq] at h
  unfold normalizeClass
  rw [strip_dashed h (by decide)]

/-- C85, the name a title is matched by: its words (letters and digits of any script) joined by dashes, in lower case. -/
theorem C85_title (py : Py) (ws : List PyStr) (s : PyStr) (h : Spaced (fun c => py.word c && c ≠ 95) ws s) :
    normalizeTitle py s = py.lower (dashJoin ws) := by
  unfold normalizeTitle
  rw [strip_dashed h (by simp [py.dash])]

/-- Every class and every title consists of words in this way. -/
theorem C85_words (keep : Nat → Bool) (s : PyStr) : ∃ ws, Spaced keep ws s := spaced_exists keep s

/-- C85. When a window comes into focus, one command is run: `keyd bind reset` followed by the bindings of all sections of
the file both of whose patterns fit the window, in the order of the file, and no others. -/
theorem C85_command (py : Py) (ls cw tw : List PyStr) (ss config : List AppSection) (cls title : PyStr)
    (hl : ∀ l ∈ ls, ∀ c ∈ l, c ≠ 10 ∧ c ≠ 13) (hd : AppDoc py ls ss) (hp : parseApp py (textOf ls) = some config)
    (hc : Spaced (fun c => decide (c ∈ plainLetters)) cw cls) (ht : Spaced (fun c => py.word c && c ≠ 95) tw title) :
    ∃ bs, Collected py (py.lower (dashJoin cw)) (py.lower (dashJoin tw)) ss bs ∧
      (∀ bs', Collected py (py.lower (dashJoin cw)) (py.lower (dashJoin tw)) ss bs' → bs' = bs) ∧
      onWindowChange py config cls title = b!"bind" :: b!"reset" :: bs.map py.encode := by
  rw [C85_file py ls ss hl hd] at hp
  injection hp with hp
  subst hp
  refine ⟨_, (collected_iff py _ _ ss _).2 rfl, fun bs' h => ((collected_iff py _ _ ss _).1 h).symm, ?_⟩
  unfold onWindowChange
  rw [C85_class py cw cls hc, C85_title py tw title ht]

/-! ### C86 -/

/-- The bindings of a keyboard after `keyd bind` with the expressions `bs`, in order: each is added on top; one that is
not accepted may at most leave definitions behind (C26); `reset` returns to what was loaded. -/
def masked (loaded : Config) : List Str → Config → Res Config
  | [], c => .ok c
  | b :: bs, c =>
    if b = b!"reset" then masked loaded bs loaded
    else do
      let (c, _) ← configAddEntry c b
      masked loaded bs c

theorem evals_masked {exps : List Str} {k k' : Kbd} (h : Evals exps k k') :
    masked k.originalConfig exps k.config = .ok k'.config ∧ k' = { k with config := k'.config } := by
  induction h with
  | nil k => exact ⟨rfl, rfl⟩
  | @cons s ss k k1 k2 ok h t ih =>
    have hf := kbdEval_frame h
    have ho : k1.originalConfig = k.originalConfig := by rw [hf]
    obtain ⟨i1, i2⟩ := ih
    rw [ho] at i1
    refine ⟨?_, by rw [i2, hf]⟩
    unfold kbdEval at h
    unfold masked
    by_cases hs : s = b!"reset"
    · rw [if_pos hs] at h ⊢
      cases h
      exact i1
    · rw [if_neg hs] at h ⊢
      obtain ⟨⟨c, b⟩, h1, h2⟩ := bind_eq_ok.1 h
      rw [h1]
      cases h2
      exact i1

/-- C86. A window comes into focus, at any time, whatever happened before (earlier windows, bindings made by hand, keys
typed): afterwards each keyboard has the bindings loaded from its file with those of the window's sections on top, and
nothing else has changed: no key is sent, no layer entered or left, nothing that is held is let go. The command succeeds
just when each binding is accepted by some keyboard. -/
theorem C86_focus {env : Env} {garbage stdin : Str} {py : Py} {config : List AppSection} {cls title : PyStr} {con : Nat} {d : Daemon}
    {o : Option Outcome} (hg : garbage.length = 4096) (hd : DHistory d) (bs : List Str)
    (hb : bs = (appBindings py config (normalizeClass py cls) (normalizeTitle py title)).map py.encode)
    (hs : ∀ s ∈ bs, s.length < 4096 ∧ (0 : UInt8) ∉ s)
    (run : command env garbage (onWindowChange py config cls title) stdin con d = .ok o) :
    ∃ status out d', o = some (.exits status out d') ∧ (status = 0 ∨ status = -1) ∧
      d' = { d with heap := d'.heap, replies := d'.replies } ∧
      ∀ e ∈ d.configs, ∃ k c, d.heap e.kbd = some k ∧ masked e.config bs e.config = .ok c ∧
        d'.heap e.kbd = some { k with config := c } := by
  have hi := dinv_history hd
  unfold onWindowChange at run
  rw [← hb] at run
  obtain ⟨status, d', h1, h2, h3, h4, -⟩ := C75_bind (exps := b!"reset" :: bs) hg hd (by
    intro s hm
    rcases List.mem_cons.1 hm with rfl | hm
    · exact ⟨by decide, by decide⟩
    · exact hs s hm) run
  refine ⟨status, _, d', h1, h2, h3, fun e he => ?_⟩
  obtain ⟨k, k', g1, g2, g3⟩ := h4 e he
  obtain ⟨k0, g4, g5⟩ := hi.live e he
  rw [g1] at g4
  cases g4
  have ho : k.originalConfig = e.config := by
    have := C25_reset_restores e.config k g5
    unfold kbdEval at this
    rw [if_pos rfl] at this
    have := congrArg (fun r => r.1.config) (Except.ok.inj this)
    exact this
  obtain ⟨m1, m2⟩ := evals_masked g3
  rw [ho] at m1
  unfold masked at m1
  rw [if_pos rfl] at m1
  exact ⟨k, k'.config, g1, m1, by rw [g2]; exact congrArg some m2⟩

/-- C86, forgetting. What a keyboard's bindings are after a window comes into focus does not depend on what happened
before: two daemons, after whatever histories, that have loaded the same file have the same bindings. -/
theorem C86_forgets {env1 env2 : Env} {g1 g2 in1 in2 : Str} {py : Py} {config : List AppSection} {cls title : PyStr} {con1 con2 : Nat}
    {d1 d2 d1' d2' : Daemon} {s1 s2 : Int} {t1 t2 : Str} (hg1 : g1.length = 4096) (hg2 : g2.length = 4096)
    (hd1 : DHistory d1) (hd2 : DHistory d2) (bs : List Str)
    (hb : bs = (appBindings py config (normalizeClass py cls) (normalizeTitle py title)).map py.encode)
    (hs : ∀ s ∈ bs, s.length < 4096 ∧ (0 : UInt8) ∉ s)
    (run1 : command env1 g1 (onWindowChange py config cls title) in1 con1 d1 = .ok (some (.exits s1 t1 d1')))
    (run2 : command env2 g2 (onWindowChange py config cls title) in2 con2 d2 = .ok (some (.exits s2 t2 d2')))
    (e1 : Ent) (h1 : e1 ∈ d1.configs) (e2 : Ent) (h2 : e2 ∈ d2.configs) (he : e1.config = e2.config) :
    ∃ k1 k2, d1'.heap e1.kbd = some k1 ∧ d2'.heap e2.kbd = some k2 ∧ k1.config = k2.config := by
  obtain ⟨s, o, d, a1, -, -, a3⟩ := C86_focus hg1 hd1 bs hb hs run1
  cases a1
  obtain ⟨s, o, d, b1, -, -, b3⟩ := C86_focus hg2 hd2 bs hb hs run2
  cases b1
  obtain ⟨k1, c1, -, m1, n1⟩ := a3 e1 h1
  obtain ⟨k2, c2, -, m2, n2⟩ := b3 e2 h2
  rw [he, m2] at m1
  cases m1
  exact ⟨_, _, n1, n2, rfl⟩

/-! ### Examples -/

/-- Python restricted to ASCII. -/
def asciiPy : Py where
  word c := asciiAlnum c || c == 95
  space c := c == 32 || (9 ≤ c && c ≤ 13)
  lower s := s.map fun c => if 65 ≤ c ∧ c ≤ 90 then c + 32 else c
  inSet stuff c := stuff.contains c
  encode s := s.map UInt8.ofNat
  graph c h1 h2 := by
    have a : c ≠ 32 := by omega
    have b : ¬ c ≤ 13 := by omega
    simp [a, b]
  dash := by decide

def pyText (s : String) : PyStr := s.toList.map Char.toNat

def appText : String :=
  "# terminals\n[st-*]\n\nalt.1 = macro(Inside space st)\n  alt.] = C-tab  \n[kitty|*find?]\nx = y\n[k*]\ncontrol.1 = z\n"

/-- The file is read as the manual says, and the windows are matched as it says. -/
theorem C85_example :
    (parseApp asciiPy (pyText appText)).map (fun config =>
      (config.length,
       appBindings asciiPy config (normalizeClass asciiPy (pyText "St-256Color")) (normalizeTitle asciiPy (pyText "sh")),
       appBindings asciiPy config (normalizeClass asciiPy (pyText "kitty")) (normalizeTitle asciiPy (pyText " A_b: -- Find 2! ")),
       appBindings asciiPy config (normalizeClass asciiPy (pyText "kitty")) (normalizeTitle asciiPy (pyText "Find1")),
       normalizeTitle asciiPy (pyText " A_b: -- Find 2! "))) =
    some (3, [pyText "alt.1 = macro(Inside space st)", pyText "alt.] = C-tab"], [pyText "control.1 = z"],
      [pyText "x = y", pyText "control.1 = z"], pyText "a-b-find-2") := by decide +kernel

/-- A binding that begins with `[` and ends with `]` is taken for a heading: the binding of the key `[` to `]`, and those
below it, are lost. -/
theorem C85_fails_bracket :
    (parseApp asciiPy (pyText "[kitty]\n[ = ]\nx = y\n")).map (fun config =>
      appBindings asciiPy config (pyText "kitty") (pyText "sh")) = some [] := by decide +kernel

/-- Windows with these classes come into focus one after the other: what `a` and `b` are bound to in `main` afterwards. -/
def focusDemo (app : String) (windows : List String) : Option (List Desc) :=
  match reload demoEnv {}, parseApp asciiPy (pyText app) with
  | .ok d, some config =>
    match windows.foldlM (fun d cls =>
      match command demoEnv (List.replicate 4096 7) (onWindowChange asciiPy config (pyText cls) []) [] 1 d with
      | .ok (some o) => some o.daemon
      | _ => none) d with
    | some d => (d.heap 0).map fun k => [(k.config.layer 0).keymap 30, (k.config.layer 0).keymap 48]
    | none => none
  | _, _ => none

/-- `a` is bound in the file, `b` is not. Each window has its own bindings and none of the others'. -/
theorem C86_example :
    focusDemo "[kitty]\nb = d\n[st]\na = c\n" [] = some [.overloadTimeout 1 0 200, .none] ∧
    focusDemo "[kitty]\nb = d\n[st]\na = c\n" ["kitty"] = some [.overloadTimeout 1 0 200, .keyseq 32 0] ∧
    focusDemo "[kitty]\nb = d\n[st]\na = c\n" ["kitty", "St"] = some [.keyseq 46 0, .none] ∧
    focusDemo "[kitty]\nb = d\n[st]\na = c\n" ["kitty", "St", "xterm"] = some [.overloadTimeout 1 0 200, .none] := by
  refine ⟨?_, ?_, ?_, ?_⟩
  · set_option maxRecDepth 100000 in decide +kernel
  · set_option maxRecDepth 100000 in decide +kernel
  · set_option maxRecDepth 100000 in decide +kernel
  · set_option maxRecDepth 100000 in decide +kernel

end Keyd
