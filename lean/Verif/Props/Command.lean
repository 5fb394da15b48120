import Verif.Model.Command
import Mathlib.Tactic.Tauto

/-
  C107: the programs of `command` actions.
-/

set_option autoImplicit false

namespace Keyd

/-! ### Specification -/

/-- `q` is a child of `p` that has not been waited for. -/
def ChildOf (w : CmdWorld) (p q : Nat) : Prop := ∃ x, w q = some x ∧ x.parent = p

/-- Process `p` is at a stage. -/
def AtStage (w : CmdWorld) (p : Nat) (s : CmdStage) : Prop := ∃ x, w p = some x ∧ x.stage = s

/-- How many things have to happen before a process at this stage has ended: `fork`, `exit`. -/
def CmdStage.togo : CmdStage → Nat
  | .first _ => 2
  | .leaves => 1
  | _ => 0

def CmdStage.calm : CmdStage → Bool
  | .waits | .leaves => false
  | _ => true

def CmdStage.brief : CmdStage → Bool
  | .first _ | .leaves | .zombie => true
  | _ => false

/-- Some process has a descriptor of the open file `n`: the other end of a connection does not see its end. -/
def Held (w : CmdWorld) (n : Nat) : Prop := ∃ p x k e, w p = some x ∧ x.fds.get k = some e ∧ e.file = .other n

/-! ### Descriptors -/

theorem fd_get_nil (m : Nat) : FdTable.get [] m = none := by cases m <;> rfl

theorem fd_get_put (t : FdTable) (n m : Nat) (d : Option FdEntry) : (t.put n d).get m = if m = n then d else t.get m := by
  induction t generalizing n m with
  | nil =>
    induction n generalizing m with
    | zero => cases m with
      | zero => rfl
      | succ m => simp [FdTable.put, FdTable.get]
    | succ n ih => cases m with
      | zero => simp [FdTable.put, FdTable.get]
      | succ m => simpa [FdTable.put, FdTable.get, fd_get_nil] using ih m
  | cons x t ih =>
    cases n with
    | zero => cases m <;> simp [FdTable.put, FdTable.get]
    | succ n => cases m with
      | zero => simp [FdTable.put, FdTable.get]
      | succ m => simpa [FdTable.put, FdTable.get] using ih n m

theorem fd_get_exec (t : FdTable) (m : Nat) : t.exec.get m = (t.get m).filter fun e => !e.cloexec := by
  induction t generalizing m with
  | nil => simp [FdTable.exec, fd_get_nil]
  | cons x t ih => cases m with
    | zero => rfl
    | succ m => exact ih m

theorem fd_free (t : FdTable) : t.get t.free = none := by
  induction t with
  | nil => rfl
  | cons x t ih => cases x with
    | none => rfl
    | some x => exact ih

theorem fd_dup2 (t : FdTable) (a b m : Nat) (d : FdEntry) (h : t.get a = some d) (hab : a ≠ b) :
    (t.dup2 a b).get m = if m = b then some { d with cloexec := false } else t.get m := by
  unfold FdTable.dup2
  rw [h]
  dsimp only
  rw [if_neg hab, fd_get_put]

theorem fd_dup2_closed (t : FdTable) (a b : Nat) (h : t.get a = none) : t.dup2 a b = t := by
  unfold FdTable.dup2
  rw [h]

theorem std_free {t : FdTable} (h : t.std) : 3 ≤ t.free := by
  by_contra hc
  exact h t.free (by omega) (fd_free t)

theorem redirect_get {t : FdTable} (h : t.std) (m : Nat) :
    (redirect t).get m = if m < 3 ∨ m = t.free then some { file := .null } else t.get m := by
  have h3 := std_free h
  unfold redirect
  dsimp only
  generalize ht0 : ((((t.put t.free (some { file := .null })).put 0 none).put 1 none).put 2 none) = t0
  have g0 : ∀ m, t0.get m = if m < 3 then none else if m = t.free then some { file := .null } else t.get m := by
    intro m
    rw [← ht0]
    simp only [fd_get_put]
    by_cases h2 : m = 2
    · simp [h2]
    by_cases h1 : m = 1
    · simp [h1]
    by_cases h0 : m = 0
    · simp [h0]
    have : ¬ m < 3 := by omega
    simp [h0, h1, h2, this]
  have a0 : t0.get t.free = some { file := .null } := by rw [g0, if_neg (by omega), if_pos rfl]
  have g1 := fun m => fd_dup2 t0 t.free 0 m _ a0 (by omega)
  have a1 : (t0.dup2 t.free 0).get t.free = some { file := .null } := by rw [g1, if_neg (by omega), a0]
  have g2 := fun m => fd_dup2 _ t.free 1 m _ a1 (by omega)
  have a2 : ((t0.dup2 t.free 0).dup2 t.free 1).get t.free = some { file := .null } := by rw [g2, if_neg (by omega), a1]
  rw [fd_dup2 _ t.free 2 m _ a2 (by omega), g2, g1, g0]
  by_cases h2 : m = 2
  · simp [h2]
  by_cases h1 : m = 1
  · simp [h1]
  by_cases h0 : m = 0
  · simp [h0]
  have : ¬ m < 3 := by omega
  simp [h0, h1, h2, this]

theorem redirect_std {t : FdTable} (h : t.std) : (redirect t).std := by
  intro n hn
  rw [redirect_get h, if_pos (.inl hn)]
  exact fun h => by cases h

/-- C107. What a program started by a daemon with descriptors `t` finds open: `/dev/null` as standard input, output and error (and once more, where it was opened), and
otherwise exactly the descriptors of the daemon that are not marked close-on-exec. -/
theorem C107_descriptors (t : FdTable) (h : t.std) (n : Nat) :
    (redirect t).exec.get n = if n < 3 ∨ n = t.free then some { file := .null } else (t.get n).filter fun e => !e.cloexec := by
  rw [fd_get_exec, redirect_get h]
  split <;> rfl

/-! ### Processes -/

structure CmdInv (w : CmdWorld) : Prop where
  zero : w 0 = none
  self : ∀ q x, w q = some x → x.parent ≠ q
  parent : ∀ q x, w q = some x → x.parent ≠ 0 → ∃ y, w x.parent = some y
  calm : ∀ p y, w p = some y → y.stage.calm = true → ∀ q x, w q = some x → x.parent ≠ p
  one : ∀ p y, w p = some y → y.stage = .waits → ∀ q x q' x', w q = some x → x.parent = p → w q' = some x' → x'.parent = p → q = q'
  brief : ∀ p y, w p = some y → y.stage = .waits → ∀ q x, w q = some x → x.parent = p → x.stage.brief = true

theorem cmd_upd_same (w : CmdWorld) (p : Nat) (v : Option CmdProc) : Function.update w p v p = v := Function.update_self ..

theorem cmd_upd_other (w : CmdWorld) {p q : Nat} (v : Option CmdProc) (h : q ≠ p) : Function.update w p v q = w q := Function.update_of_ne h ..

/-- A process moves on. -/
theorem CmdInv.set {w : CmdWorld} (h : CmdInv w) {p par : Nat} {s s' : CmdStage} {t t' : FdTable} (hp : w p = some ⟨par, s, t⟩)
    (hc : s'.calm = true → s.calm = true ∨ ∀ q x, w q = some x → x.parent ≠ p)
    (hw : s' = .waits → s = .waits ∨ ∀ q x, w q = some x → x.parent ≠ p)
    (hb : s.brief = true → s'.brief = true ∨ ∀ y, w par = some y → y.stage ≠ .waits) :
    CmdInv (Function.update w p (some ⟨par, s', t'⟩)) := by
  have old : ∀ q x, Function.update w p (some ⟨par, s', t'⟩) q = some x → ∃ x0, w q = some x0 ∧ x0.parent = x.parent ∧ (q ≠ p → x0 = x) := by
    intro q x hq
    by_cases e : q = p
    · subst e
      rw [cmd_upd_same] at hq
      cases hq
      exact ⟨_, hp, rfl, fun h => absurd rfl h⟩
    · rw [cmd_upd_other _ _ e] at hq
      exact ⟨x, hq, rfl, fun _ => rfl⟩
  have hp0 : p ≠ 0 := fun e => by rw [e, h.zero] at hp; cases hp
  refine ⟨?_, ?_, ?_, ?_, ?_, ?_⟩
  · rw [cmd_upd_other _ _ (Ne.symm hp0)]
    exact h.zero
  · intro q x hq
    obtain ⟨x0, h0, h1, _⟩ := old q x hq
    rw [← h1]
    exact h.self q x0 h0
  · intro q x hq hn
    obtain ⟨x0, h0, h1, _⟩ := old q x hq
    by_cases e : x.parent = p
    · exact ⟨_, by rw [e]; exact cmd_upd_same _ _ _⟩
    · rw [cmd_upd_other _ _ e, ← h1]
      exact h.parent q x0 h0 (by rw [h1]; exact hn)
  · intro r y hr hcalm q x hq
    obtain ⟨x0, h0, h1, _⟩ := old q x hq
    rw [← h1]
    by_cases e : r = p
    · subst e
      rw [cmd_upd_same] at hr
      cases hr
      rcases hc hcalm with h2 | h2
      · exact h.calm r _ hp h2 q x0 h0
      · exact h2 q x0 h0
    · rw [cmd_upd_other _ _ e] at hr
      exact h.calm r y hr hcalm q x0 h0
  · intro r y hr hwt q x q' x' hq hx hq' hx'
    obtain ⟨x0, h0, h1, _⟩ := old q x hq
    obtain ⟨x0', h0', h1', _⟩ := old q' x' hq'
    by_cases e : r = p
    · subst e
      rw [cmd_upd_same] at hr
      cases hr
      rcases hw hwt with h2 | h2
      · exact h.one r _ hp h2 q x0 q' x0' h0 (h1.trans hx) h0' (h1'.trans hx')
      · exact absurd (h1.trans hx) (h2 q x0 h0)
    · rw [cmd_upd_other _ _ e] at hr
      exact h.one r y hr hwt q x0 q' x0' h0 (h1.trans hx) h0' (h1'.trans hx')
  · intro r y hr hwt q x hq hx
    obtain ⟨x0, h0, h1, h2⟩ := old q x hq
    have h3 : x0.parent = r := h1.trans hx
    by_cases e : r = p
    · subst e
      rw [cmd_upd_same] at hr
      cases hr
      have hqr : q ≠ r := fun e => h.self q x0 h0 (h3.trans e.symm)
      rw [← h2 hqr]
      rcases hw hwt with h4 | h4
      · exact h.brief r _ hp h4 q x0 h0 h3
      · exact absurd h3 (h4 q x0 h0)
    · rw [cmd_upd_other _ _ e] at hr
      have h4 := h.brief r y hr hwt q x0 h0 h3
      by_cases eq : q = p
      · subst eq
        rw [hp] at h0
        cases h0
        rw [cmd_upd_same] at hq
        cases hq
        rcases hb h4 with h5 | h5
        · exact h5
        · exact absurd hwt (h5 y (by rw [show par = r from h3]; exact hr))
      · rw [← h2 eq]
        exact h4

/-- A new process. -/
theorem CmdInv.add {w : CmdWorld} (h : CmdInv w) {p q : Nat} {y : CmdProc} {s : CmdStage} {t : FdTable} (hp : w p = some y) (hq : w q = none) (h0 : q ≠ 0)
    (hy : y.stage.calm = false) (hs : s ≠ .waits) (hb : y.stage = .waits → s.brief = true ∧ ∀ q x, w q = some x → x.parent ≠ p) :
    CmdInv (Function.update w q (some ⟨p, s, t⟩)) := by
  have hpq : p ≠ q := fun e => by rw [e, hq] at hp; cases hp
  have orphan : ∀ r x, w r = some x → x.parent ≠ q := by
    intro r x hr e
    obtain ⟨y', hy'⟩ := h.parent r x hr (by rw [e]; exact h0)
    rw [e, hq] at hy'
    cases hy'
  have old : ∀ r x, Function.update w q (some ⟨p, s, t⟩) r = some x → (r = q ∧ x = ⟨p, s, t⟩) ∨ (r ≠ q ∧ w r = some x) := by
    intro r x hr
    by_cases e : r = q
    · subst e
      rw [cmd_upd_same] at hr
      cases hr
      exact .inl ⟨rfl, rfl⟩
    · rw [cmd_upd_other _ _ e] at hr
      exact .inr ⟨e, hr⟩
  refine ⟨?_, ?_, ?_, ?_, ?_, ?_⟩
  · rw [cmd_upd_other _ _ (Ne.symm h0)]
    exact h.zero
  · intro r x hr
    rcases old r x hr with ⟨e, ex⟩ | ⟨_, hr⟩
    · rw [e, ex]; exact hpq
    · exact h.self r x hr
  · intro r x hr hn
    rcases old r x hr with ⟨e, ex⟩ | ⟨_, hr⟩
    · rw [ex]
      exact ⟨y, by rw [cmd_upd_other _ _ hpq]; exact hp⟩
    · obtain ⟨y', hy'⟩ := h.parent r x hr hn
      exact ⟨y', by rw [cmd_upd_other _ _ (orphan r x hr)]; exact hy'⟩
  · intro a ya ha hcalm r x hr e
    rcases old a ya ha with ⟨ea, eya⟩ | ⟨na, ha⟩
    · rcases old r x hr with ⟨er, ex⟩ | ⟨_, hr⟩
      · rw [ex, ea] at e; exact hpq e
      · exact orphan r x hr (e.trans ea)
    · rcases old r x hr with ⟨er, ex⟩ | ⟨_, hr⟩
      · rw [ex] at e
        change p = a at e
        rw [← e, hp] at ha
        cases ha
        rw [hy] at hcalm
        cases hcalm
      · exact h.calm a ya ha hcalm r x hr e
  · intro a ya ha hwt r x r' x' hr hx hr' hx'
    rcases old a ya ha with ⟨ea, eya⟩ | ⟨na, ha⟩
    · rw [eya] at hwt
      exact absurd hwt hs
    · rcases old r x hr with ⟨er, ex⟩ | ⟨nr, hr⟩ <;> rcases old r' x' hr' with ⟨er', ex'⟩ | ⟨nr', hr'⟩
      · rw [er, er']
      · rw [ex] at hx
        change p = a at hx
        rw [← hx, hp] at ha
        cases ha
        exact absurd (hx'.trans hx.symm) ((hb hwt).2 r' x' hr')
      · rw [ex'] at hx'
        change p = a at hx'
        rw [← hx', hp] at ha
        cases ha
        exact absurd (hx.trans hx'.symm) ((hb hwt).2 r x hr)
      · exact h.one a ya ha hwt r x r' x' hr hx hr' hx'
  · intro a ya ha hwt r x hr hx
    rcases old a ya ha with ⟨ea, eya⟩ | ⟨na, ha⟩
    · rw [eya] at hwt
      exact absurd hwt hs
    · rcases old r x hr with ⟨er, ex⟩ | ⟨nr, hr⟩
      · rw [ex] at hx ⊢
        change p = a at hx
        rw [← hx, hp] at ha
        cases ha
        exact (hb hwt).1
      · exact h.brief a ya ha hwt r x hr hx

/-- A process that has ended is waited for. -/
theorem CmdInv.drop {w : CmdWorld} (h : CmdInv w) {q : Nat} (hno : ∀ r x, w r = some x → x.parent ≠ q) : CmdInv (Function.update w q none) := by
  have old : ∀ r x, Function.update w q none r = some x → r ≠ q ∧ w r = some x := by
    intro r x hr
    by_cases e : r = q
    · subst e
      rw [cmd_upd_same] at hr
      cases hr
    · rw [cmd_upd_other _ _ e] at hr
      exact ⟨e, hr⟩
  refine ⟨?_, ?_, ?_, ?_, ?_, ?_⟩
  · by_cases e : 0 = q
    · rw [e]; exact cmd_upd_same _ _ _
    · rw [cmd_upd_other _ _ e]; exact h.zero
  · exact fun r x hr => h.self r x (old r x hr).2
  · intro r x hr hn
    obtain ⟨y, hy⟩ := h.parent r x (old r x hr).2 hn
    exact ⟨y, by rw [cmd_upd_other _ _ (hno r x (old r x hr).2)]; exact hy⟩
  · exact fun a ya ha hc r x hr => h.calm a ya (old a ya ha).2 hc r x (old r x hr).2
  · exact fun a ya ha hw r x r' x' hr hx hr' hx' => h.one a ya (old a ya ha).2 hw r x r' x' (old r x hr).2 hx (old r' x' hr').2 hx'
  · exact fun a ya ha hw r x hr hx => h.brief a ya (old a ya ha).2 hw r x (old r x hr).2 hx

theorem ends_cases {w : CmdWorld} {p q : Nat} {x : CmdProc} (h : w.ends p q = some x) : ∃ x0, w q = some x0 ∧
    ((q = p ∧ x = { x0 with stage := .zombie, fds := [] } ∧ x0.parent ≠ 0) ∨ (q ≠ p ∧ x0.parent = p ∧ x = { x0 with parent := 0 }) ∨ (q ≠ p ∧ x0.parent ≠ p ∧ x = x0)) := by
  unfold CmdWorld.ends at h
  cases hq : w q with
  | none => rw [hq] at h; cases h
  | some x0 =>
    rw [hq] at h
    dsimp only at h
    refine ⟨x0, rfl, ?_⟩
    by_cases e : q = p
    · rw [if_pos e] at h
      by_cases e0 : x0.parent = 0
      · rw [if_pos e0] at h; cases h
      · rw [if_neg e0] at h
        exact .inl ⟨e, (Option.some.inj h).symm, e0⟩
    · rw [if_neg e] at h
      by_cases e1 : x0.parent = p
      · rw [if_pos e1] at h
        by_cases e2 : x0.stage = .zombie
        · rw [if_pos e2] at h; cases h
        · rw [if_neg e2] at h
          exact .inr (.inl ⟨e, e1, (Option.some.inj h).symm⟩)
      · rw [if_neg e1] at h
        exact .inr (.inr ⟨e, e1, (Option.some.inj h).symm⟩)

/-- A process ends. -/
theorem CmdInv.ended {w : CmdWorld} (h : CmdInv w) {p : Nat} (hp0 : p ≠ 0) : CmdInv (w.ends p) := by
  -- a child afterwards was a child before, of a process other than `p`
  have kid : ∀ r x a, w.ends p r = some x → x.parent = a → a ≠ 0 → a ≠ p ∧ ∃ x0, w r = some x0 ∧ x0.parent = a ∧ (x.stage = x0.stage ∨ x.stage = .zombie) := by
    intro r x a hr hx ha
    obtain ⟨x0, h0, hc⟩ := ends_cases hr
    rcases hc with ⟨e, ex, _⟩ | ⟨_, _, ex⟩ | ⟨_, hn, ex⟩
    · subst ex
      refine ⟨?_, x0, h0, hx, .inr rfl⟩
      intro ea
      exact h.self r x0 h0 (hx.trans (ea.trans e.symm))
    · subst ex
      exact absurd hx.symm ha
    · subst ex
      exact ⟨fun ea => hn (hx.trans ea), x, h0, hx, .inl rfl⟩
  have src : ∀ a y, w.ends p a = some y → a ≠ 0 := by
    intro a y ha e
    obtain ⟨y0, h0, _⟩ := ends_cases ha
    rw [e, h.zero] at h0
    cases h0
  have stays : ∀ a y, w.ends p a = some y → a ≠ p → ∃ y0, w a = some y0 ∧ y0.stage = y.stage := by
    intro a y ha hn
    obtain ⟨y0, h0, hc⟩ := ends_cases ha
    rcases hc with ⟨e, _⟩ | ⟨_, _, ex⟩ | ⟨_, _, ex⟩
    · exact absurd e hn
    · exact ⟨y0, h0, by rw [ex]⟩
    · exact ⟨y0, h0, by rw [ex]⟩
  refine ⟨?_, ?_, ?_, ?_, ?_, ?_⟩
  · unfold CmdWorld.ends
    rw [h.zero]
  · intro q x hq e
    have hq0 := src q x hq
    obtain ⟨_, x0, h0, h1, _⟩ := kid q x q hq e hq0
    exact h.self q x0 h0 h1
  · intro q x hq hn
    obtain ⟨hap, x0, h0, h1, _⟩ := kid q x x.parent hq rfl hn
    obtain ⟨y, hy⟩ := h.parent q x0 h0 (by rw [h1]; exact hn)
    rw [h1] at hy
    unfold CmdWorld.ends
    rw [hy]
    dsimp only
    rw [if_neg hap]
    by_cases e : y.parent = p
    · rw [if_pos e]
      by_cases ez : y.stage = .zombie
      · exact absurd h1 (h.calm x.parent y hy (by rw [ez]; rfl) q x0 h0)
      · rw [if_neg ez]; exact ⟨_, rfl⟩
    · rw [if_neg e]; exact ⟨_, rfl⟩
  · intro a y ha hc r x hr e
    obtain ⟨hap, x0, h0, h1, _⟩ := kid r x a hr e (src a y ha)
    obtain ⟨y0, hy0, hs⟩ := stays a y ha hap
    exact h.calm a y0 hy0 (by rw [hs]; exact hc) r x0 h0 h1
  · intro a y ha hw r x r' x' hr hx hr' hx'
    obtain ⟨hap, x0, h0, h1, _⟩ := kid r x a hr hx (src a y ha)
    obtain ⟨_, x0', h0', h1', _⟩ := kid r' x' a hr' hx' (src a y ha)
    obtain ⟨y0, hy0, hs⟩ := stays a y ha hap
    exact h.one a y0 hy0 (hs.trans hw) r x0 r' x0' h0 h1 h0' h1'
  · intro a y ha hw r x hr hx
    obtain ⟨hap, x0, h0, h1, hst⟩ := kid r x a hr hx (src a y ha)
    obtain ⟨y0, hy0, hs⟩ := stays a y ha hap
    rcases hst with e | e
    · rw [e]; exact h.brief a y0 hy0 (hs.trans hw) r x0 h0 h1
    · rw [e]; rfl

theorem CmdInv.childless_set {w : CmdWorld} (h : CmdInv w) {p par : Nat} {s s' : CmdStage} {t t' : FdTable} (hp : w p = some ⟨par, s, t⟩)
    (hno : ∀ q x, w q = some x → x.parent ≠ p) : ∀ q x, Function.update w p (some ⟨par, s', t'⟩) q = some x → x.parent ≠ p := by
  intro q x hq
  by_cases e : q = p
  · subst e
    rw [cmd_upd_same] at hq
    cases hq
    exact h.self q ⟨par, s, t⟩ hp
  · rw [cmd_upd_other _ _ e] at hq
    exact hno q x hq

theorem cmdInv_step {w w' : CmdWorld} (h : CmdInv w) (hs : CmdStep w w') : CmdInv w' := by
  cases hs with
  | forks p q par t cmd hp hq h0 =>
    have hno := h.calm p _ hp rfl
    have h1 : CmdInv (Function.update w p (some ⟨par, .waits, t⟩)) :=
      h.set hp (fun h => by cases h) (fun _ => .inr hno) (fun h => by cases h)
    have hpq : q ≠ p := fun e => by rw [e, hp] at hq; cases hq
    refine h1.add (cmd_upd_same _ _ _) (by rw [cmd_upd_other _ _ hpq]; exact hq) h0 rfl (fun h => by cases h) ?_
    exact fun _ => ⟨rfl, h.childless_set hp hno⟩
  | forkFails p par t hp => exact h.set hp (fun h => by cases h) (fun _ => .inr (h.calm p _ hp rfl)) (fun h => by cases h)
  | reaps p q par t x hp hq hx hz =>
    have hpq : p ≠ q := fun e => by
      rw [e, hq] at hp
      cases hp
      cases hz
    rw [Function.update_comm hpq]
    have h1 : CmdInv (Function.update w q none) := h.drop (h.calm q x hq (by rw [hz]; rfl))
    refine h1.set (p := p) (by rw [cmd_upd_other _ _ hpq]; exact hp) (fun _ => .inr ?_) (fun h => by cases h) (fun h => by cases h)
    intro r y hr e
    by_cases er : r = q
    · rw [er, cmd_upd_same] at hr
      cases hr
    · rw [cmd_upd_other _ _ er] at hr
      exact er (h.one p _ hp rfl r y q x hr e hq hx)
  | childless p par t hp hno => exact h.set hp (fun _ => .inr hno) (fun h => by cases h) (fun h => by cases h)
  | forks2 q r par t cmd hq hr h0 =>
    have h1 : CmdInv (Function.update w q (some ⟨par, .leaves, t⟩)) :=
      h.set hq (fun h => by cases h) (fun h => by cases h) (fun _ => .inl rfl)
    have hpq : r ≠ q := fun e => by rw [e, hq] at hr; cases hr
    exact h1.add (cmd_upd_same _ _ _) (by rw [cmd_upd_other _ _ hpq]; exact hr) h0 rfl (fun h => by cases h) (fun h => by cases h)
  | fork2Fails q par t cmd hq => exact h.set hq (fun h => by cases h) (fun h => by cases h) (fun _ => .inl rfl)
  | execs r par t cmd hr => exact h.set hr (fun _ => .inl rfl) (fun h => by cases h) (fun h => by cases h)
  | misfires r par t cmd hr => exact h.set hr (fun _ => .inl rfl) (fun h => by cases h) (fun h => by cases h)
  | changes p par t t' hp ht => exact h.set hp (fun _ => .inl rfl) (fun h => by cases h) (fun h => by cases h)
  | ends p x hp hz => exact h.ended (fun e => by rw [e, h.zero] at hp; cases hp)

theorem cmdInv_reach {d : Nat} {t : FdTable} {w : CmdWorld} (hd : d ≠ 0) (h : CmdReach d t w) : CmdInv w := by
  induction h with
  | start =>
    have only : ∀ q x, (Function.update (fun _ => none) d (some ⟨0, .loop, t⟩) : CmdWorld) q = some x → q = d ∧ x = ⟨0, .loop, t⟩ := by
      intro q x hq
      by_cases e : q = d
      · rw [e, cmd_upd_same] at hq
        exact ⟨e, (Option.some.inj hq).symm⟩
      · rw [cmd_upd_other _ _ e] at hq
        cases hq
    refine ⟨cmd_upd_other _ _ (Ne.symm hd), ?_, ?_, ?_, ?_, ?_⟩
    · intro q x hq
      obtain ⟨e, ex⟩ := only q x hq
      rw [e, ex]
      exact Ne.symm hd
    · intro q x hq hn
      exact absurd (by rw [(only q x hq).2]) hn
    · intro p y hp _ q x hq
      rw [(only q x hq).2, (only p y hp).1]
      exact Ne.symm hd
    · intro p y hp _ q x q' x' hq _ hq' _
      rw [(only q x hq).1, (only q' x' hq').1]
    · intro p y hp hw
      rw [(only p y hp).2] at hw
      cases hw
  | step w w' _ hs ih => exact cmdInv_step ih hs

/-- C107. A daemon in its event loop has no children, dead or alive: no process is left behind unwaited for, whatever the programs, and whichever system calls fail. -/
theorem C107_reaped (d : Nat) (t : FdTable) (w : CmdWorld) (hd : d ≠ 0) (h : CmdReach d t w) (p : Nat) (hp : AtStage w p .loop) (q : Nat) : ¬ ChildOf w p q := by
  obtain ⟨y, h1, h2⟩ := hp
  rintro ⟨x, h3, h4⟩
  exact (cmdInv_reach hd h).calm p y h1 (by rw [h2]; rfl) q x h3 h4

/-- C107. A daemon never waits for a program: it only waits for its one child, which is about to fork, about to exit, or has ended; or it has no child, and then waiting fails at once. -/
theorem C107_waits (d : Nat) (t : FdTable) (w : CmdWorld) (hd : d ≠ 0) (h : CmdReach d t w) (p : Nat) (hp : AtStage w p .waits) (q : Nat) (hq : ChildOf w p q) :
    (∀ q', ChildOf w p q' → q' = q) ∧ ((∃ cmd, AtStage w q (.first cmd)) ∨ AtStage w q .leaves ∨ AtStage w q .zombie) := by
  obtain ⟨y, h1, h2⟩ := hp
  obtain ⟨x, h3, h4⟩ := hq
  have hi := cmdInv_reach hd h
  refine ⟨?_, ?_⟩
  · rintro q' ⟨x', h5, h6⟩
    exact hi.one p y h1 h2 q' x' q x h5 h6 h3 h4
  · have hb := hi.brief p y h1 h2 q x h3 h4
    cases hs : x.stage with
    | first cmd => exact .inl ⟨cmd, x, h3, hs⟩
    | leaves => exact .inr (.inl ⟨x, h3, hs⟩)
    | zombie => exact .inr (.inr ⟨x, h3, hs⟩)
    | loop => rw [hs] at hb; cases hb
    | waits => rw [hs] at hb; cases hb
    | second c => rw [hs] at hb; cases hb
    | program c => rw [hs] at hb; cases hb

/-- C107. Nothing that happens prolongs the wait: the child gets no new things to do, and there is no new child. -/
theorem C107_steady (w w' : CmdWorld) (hs : CmdStep w w') (p : Nat) (hp : AtStage w p .waits) (hp' : AtStage w' p .waits) (q : Nat) (x' : CmdProc) (hq : w' q = some x') (hx : x'.parent = p)
    (hp0 : p ≠ 0) : ∃ x, w q = some x ∧ x.parent = p ∧ x'.stage.togo ≤ x.stage.togo := by
  -- one process moves on
  have one : ∀ (a par : Nat) (s s' : CmdStage) (t t' : FdTable), w a = some ⟨par, s, t⟩ → s'.togo ≤ s.togo → ∀ r y, Function.update w a (some ⟨par, s', t'⟩) r = some y →
      ∃ x, w r = some x ∧ x.parent = y.parent ∧ y.stage.togo ≤ x.stage.togo := by
    intro a par s s' t t' ha hle r y hr
    by_cases e : r = a
    · rw [e, cmd_upd_same] at hr
      cases hr
      exact ⟨⟨par, s, t⟩, by rw [e]; exact ha, rfl, hle⟩
    · rw [cmd_upd_other _ _ e] at hr
      exact ⟨y, hr, rfl, Nat.le_refl _⟩
  obtain ⟨y, hy, hyw⟩ := hp
  cases hs with
  | forks a b par t cmd ha hb h0 =>
    by_cases e : q = b
    · rw [e, cmd_upd_same] at hq
      cases hq
      change a = p at hx
      rw [← hx, ha] at hy
      cases hy
      cases hyw
    · rw [cmd_upd_other _ _ e] at hq
      rw [← hx]
      exact one a par .loop .waits t t ha (Nat.le_refl _) q x' hq
  | forkFails a par t ha => rw [← hx]; exact one a par .loop .waits t t ha (Nat.le_refl _) q x' hq
  | reaps a b par t x ha hb _ _ =>
    by_cases e : q = b
    · rw [e, cmd_upd_same] at hq
      cases hq
    · rw [cmd_upd_other _ _ e] at hq
      rw [← hx]
      exact one a par .waits .loop t t ha (Nat.le_refl _) q x' hq
  | childless a par t ha _ => rw [← hx]; exact one a par .waits .loop t t ha (Nat.le_refl _) q x' hq
  | forks2 a b par t cmd ha hb h0 =>
    by_cases e : q = b
    · rw [e, cmd_upd_same] at hq
      cases hq
      change a = p at hx
      rw [← hx, ha] at hy
      cases hy
      cases hyw
    · rw [cmd_upd_other _ _ e] at hq
      rw [← hx]
      exact one a par (.first cmd) .leaves t t ha (Nat.le_succ 1) q x' hq
  | fork2Fails a par t cmd ha => rw [← hx]; exact one a par (.first cmd) .leaves t t ha (Nat.le_succ 1) q x' hq
  | execs a par t cmd ha => rw [← hx]; exact one a par (.second cmd) (.program cmd) t _ ha (Nat.le_refl _) q x' hq
  | misfires a par t cmd ha => rw [← hx]; exact one a par (.second cmd) .loop t _ ha (Nat.le_refl _) q x' hq
  | changes a par t t' ha _ => rw [← hx]; exact one a par .loop .loop t t' ha (Nat.le_refl _) q x' hq
  | ends a x ha hz =>
    obtain ⟨x0, h0, hc⟩ := ends_cases hq
    rcases hc with ⟨_, ex, _⟩ | ⟨_, _, ex⟩ | ⟨_, _, ex⟩
    · subst ex
      exact ⟨x0, h0, hx, Nat.zero_le _⟩
    · subst ex
      exact absurd hx.symm hp0
    · subst ex
      exact ⟨x', h0, hx, Nat.le_refl _⟩

/-- C107. A command that is not disturbed: at the end the daemon is back in its loop, and all that has changed is that there is one more process, adopted, which runs the command. -/
theorem C107_launched (d : Nat) (t : FdTable) (w : CmdWorld) (hd : d ≠ 0) (h : CmdReach d t w) (p q r par : Nat) (tp : FdTable) (cmd : Str)
    (hp : w p = some ⟨par, .loop, tp⟩) (hq : w q = none) (hr : w r = none) (hqr : q ≠ r) (hq0 : q ≠ 0) (hr0 : r ≠ 0) :
    CmdReach d t (Function.update w r (some ⟨0, .program cmd, (redirect tp).exec⟩)) := by
  have hi := cmdInv_reach hd h
  have hpq : p ≠ q := fun e => by rw [e, hq] at hp; cases hp
  have hpr : p ≠ r := fun e => by rw [e, hr] at hp; cases hp
  have hp0 : p ≠ 0 := fun e => by rw [e, hi.zero] at hp; cases hp
  have orphan : ∀ a, w a = none → a ≠ 0 → ∀ b x, w b = some x → x.parent ≠ a := by
    intro a ha ha0 b x hb e
    obtain ⟨y, hy⟩ := hi.parent b x hb (by rw [e]; exact ha0)
    rw [e, ha] at hy
    cases hy
  -- keyboard.c:373
  have s1 := CmdReach.step _ _ h (.forks w p q par tp cmd hp hq hq0)
  generalize e1 : Function.update (Function.update w p (some ⟨par, .waits, tp⟩)) q (some ⟨p, .first cmd, tp⟩) = w1 at s1
  have g1 : ∀ a, w1 a = if a = q then some ⟨p, .first cmd, tp⟩ else if a = p then some ⟨par, .waits, tp⟩ else w a := by
    intro a; rw [← e1]; simp only [Function.update_apply]
  -- keyboard.c:377
  have s2 := CmdReach.step _ _ s1 (.forks2 w1 q r p tp cmd (by rw [g1, if_pos rfl]) (by rw [g1, if_neg (Ne.symm hqr), if_neg (Ne.symm hpr)]; exact hr) hr0)
  generalize e2 : Function.update (Function.update w1 q (some ⟨p, .leaves, tp⟩)) r (some ⟨q, .second cmd, tp⟩) = w2 at s2
  have g2 : ∀ a, w2 a = if a = r then some ⟨q, .second cmd, tp⟩ else if a = q then some ⟨p, .leaves, tp⟩ else if a = p then some ⟨par, .waits, tp⟩ else w a := by
    intro a; rw [← e2]; simp only [Function.update_apply, g1]
    by_cases ha : a = r
    · simp [ha]
    · by_cases hb : a = q <;> simp [ha, hb]
  -- keyboard.c:378
  have s3 := CmdReach.step _ _ s2 (.ends w2 q ⟨p, .leaves, tp⟩ (by rw [g2, if_neg hqr, if_pos rfl]) (fun h => by cases h))
  have g3 : ∀ a, CmdWorld.ends w2 q a = if a = r then some ⟨0, .second cmd, tp⟩ else if a = q then some ⟨p, .zombie, []⟩ else if a = p then some ⟨par, .waits, tp⟩ else w a := by
    intro a
    unfold CmdWorld.ends
    rw [g2]
    by_cases ha : a = r
    · subst ha
      simp [Ne.symm hqr]
    · rw [if_neg ha, if_neg ha]
      by_cases hb : a = q
      · subst hb
        simp [hp0]
      · rw [if_neg hb, if_neg hb]
        by_cases hc : a = p
        · subst hc
          have : par ≠ q := orphan q hq hq0 a _ hp
          simp [hb, this]
        · rw [if_neg hc]
          cases hwa : w a with
          | none => rfl
          | some x =>
            have : x.parent ≠ q := orphan q hq hq0 a x hwa
            simp [hb, this]
  generalize CmdWorld.ends w2 q = w3 at s3 g3
  -- keyboard.c:374
  have s4 := CmdReach.step _ _ s3 (.reaps w3 p q par tp ⟨p, .zombie, []⟩ (by rw [g3, if_neg hpr, if_neg hpq, if_pos rfl]) (by rw [g3, if_neg hqr, if_pos rfl]) rfl rfl)
  generalize e4 : Function.update (Function.update w3 p (some ⟨par, .loop, tp⟩)) q none = w4 at s4
  -- keyboard.c:380-395
  have s5 := CmdReach.step _ _ s4 (.execs w4 r 0 tp cmd (by rw [← e4]; simp [Function.update_apply, g3, Ne.symm hqr, Ne.symm hpr]))
  have : Function.update w4 r (some ⟨0, .program cmd, (redirect tp).exec⟩) = Function.update w r (some ⟨0, .program cmd, (redirect tp).exec⟩) := by
    funext a
    simp only [Function.update_apply, ← e4, g3]
    by_cases ha : a = r
    · simp [ha]
    · by_cases hb : a = q
      · subst hb; simp [ha, hq]
      · by_cases hc : a = p
        · subst hc; simp [ha, hb, hp]
        · simp [ha, hb, hc]
  rw [this] at s5
  exact s5

/-- C107. Every program finds `/dev/null` as its standard input, output and error, if the daemon was started with its own open. -/
theorem C107_streams (d : Nat) (t : FdTable) (w : CmdWorld) (ht : t.std) (h : CmdReach d t w) (r : Nat) (x : CmdProc) (cmd : Str) (hr : w r = some x) (hx : x.stage = .program cmd)
    (n : Nat) (hn : n < 3) : x.fds.get n = some { file := .null } := by
  have inv : ∀ p x, w p = some x → (match x.stage with
      | .program _ => ∀ n, n < 3 → x.fds.get n = some { file := .null }
      | .zombie => True
      | _ => x.fds.std) := by
    clear hr hx x
    induction h with
    | start =>
      intro p x hp
      by_cases e : p = d
      · rw [e, cmd_upd_same] at hp
        cases hp
        exact ht
      · rw [cmd_upd_other _ _ e] at hp
        cases hp
    | step w w' _ hs ih =>
      have set : ∀ (w0 : CmdWorld) (a : Nat) (v : Option CmdProc), (∀ p x, w0 p = some x → (match x.stage with
            | .program _ => ∀ n, n < 3 → x.fds.get n = some { file := .null }
            | .zombie => True
            | _ => x.fds.std)) → (∀ x, v = some x → (match x.stage with
            | .program _ => ∀ n, n < 3 → x.fds.get n = some { file := .null }
            | .zombie => True
            | _ => x.fds.std)) → ∀ p x, Function.update w0 a v p = some x → (match x.stage with
            | .program _ => ∀ n, n < 3 → x.fds.get n = some { file := .null }
            | .zombie => True
            | _ => x.fds.std) := by
        intro w0 a v h0 hv p x hp
        by_cases e : p = a
        · rw [e, cmd_upd_same] at hp
          exact hv x hp
        · rw [cmd_upd_other _ _ e] at hp
          exact h0 p x hp
      cases hs with
      | forks p q par t cmd hp hq h0 =>
        have h1 := ih p _ hp
        exact set _ _ _ (set _ _ _ ih (fun x e => by cases e; exact h1)) (fun x e => by cases e; exact h1)
      | forkFails p par t hp =>
        have h1 := ih p _ hp
        exact set _ _ _ ih (fun x e => by cases e; exact h1)
      | reaps p q par t x hp hq hx hz =>
        have h1 := ih p _ hp
        exact set _ _ _ (set _ _ _ ih (fun x e => by cases e; exact h1)) (fun x e => by cases e)
      | childless p par t hp hno =>
        have h1 := ih p _ hp
        exact set _ _ _ ih (fun x e => by cases e; exact h1)
      | forks2 q r par t cmd hq hr h0 =>
        have h1 := ih q _ hq
        exact set _ _ _ (set _ _ _ ih (fun x e => by cases e; exact h1)) (fun x e => by cases e; exact h1)
      | fork2Fails q par t cmd hq =>
        have h1 := ih q _ hq
        exact set _ _ _ ih (fun x e => by cases e; exact h1)
      | execs r par t cmd hr =>
        have h1 : t.std := ih r _ hr
        refine set _ _ _ ih (fun x e => ?_)
        cases e
        intro n hn
        rw [C107_descriptors t h1, if_pos (.inl hn)]
      | misfires r par t cmd hr =>
        have h1 : t.std := ih r _ hr
        exact set _ _ _ ih (fun x e => by cases e; exact redirect_std h1)
      | changes p par t t' hp ht => exact set _ _ _ ih (fun x e => by cases e; exact ht)
      | ends p x hp hz =>
        intro q x hq
        obtain ⟨x0, h0, hc⟩ := ends_cases hq
        rcases hc with ⟨_, ex, _⟩ | ⟨_, _, ex⟩ | ⟨_, _, ex⟩
        · subst ex; trivial
        · subst ex; exact ih q x0 h0
        · subst ex; exact ih q x h0
  have := inv r x hr
  rw [hx] at this
  exact this n hn

/-- Descriptors of a daemon: standard streams, the socket and the lock file (ipc.c:50,63), the virtual keyboard and a device (close-on-exec), and the connection of a listener
(daemon.c:583). -/
def demoFds : FdTable :=
  [some ⟨.other 0, false⟩, some ⟨.other 1, false⟩, some ⟨.other 2, false⟩, some ⟨.other 3, false⟩, some ⟨.other 4, false⟩, some ⟨.other 5, true⟩, some ⟨.other 6, true⟩,
    some ⟨.other 7, false⟩]

theorem C107_example : demoFds.std ∧
    CmdReach 100 demoFds (Function.update (Function.update (fun _ => none) 100 (some ⟨0, .loop, demoFds⟩)) 102 (some ⟨0, .program b!"true", (redirect demoFds).exec⟩)) ∧
    (redirect demoFds).exec = [some ⟨.null, false⟩, some ⟨.null, false⟩, some ⟨.null, false⟩, some ⟨.other 3, false⟩, some ⟨.other 4, false⟩, none, none, some ⟨.other 7, false⟩,
      some ⟨.null, false⟩] := by
  refine ⟨?_, ?_, by decide⟩
  · unfold FdTable.std
    decide
  · exact C107_launched 100 demoFds _ (by decide) .start 100 101 102 0 demoFds b!"true" rfl rfl rfl (by decide) (by decide) (by decide)

/-- The daemon ends while a program runs: the connection of a listener stays open, so the listener does not notice. The device is let go of. -/
theorem C107_fails_listener : ∃ w, CmdReach 100 demoFds w ∧ w 100 = none ∧ Held w 7 ∧ ¬ Held w 6 := by
  refine ⟨_, .step _ _ C107_example.2.1 (.ends _ 100 _ rfl (fun h => by cases h)), rfl, ⟨102, _, 7, _, rfl, rfl, rfl⟩, ?_⟩
  rintro ⟨p, x, k, e, h1, h2, h3⟩
  obtain ⟨x0, h0, hc⟩ := ends_cases h1
  have hp : p = 102 := by
    by_contra hn
    rw [cmd_upd_other _ _ hn] at h0
    by_cases hd : p = 100
    · subst hd
      rw [cmd_upd_same] at h0
      cases h0
      rcases hc with ⟨_, _, h⟩ | ⟨h, _⟩ | ⟨h, _⟩
      · exact h rfl
      · exact h rfl
      · exact h rfl
    · rw [cmd_upd_other _ _ hd] at h0
      cases h0
  subst hp
  rw [cmd_upd_same] at h0
  cases h0
  have hx : x.fds = (redirect demoFds).exec := by
    rcases hc with ⟨h, _⟩ | ⟨_, _, ex⟩ | ⟨_, _, ex⟩
    · cases h
    · rw [ex]
    · rw [ex]
  rw [hx, C107_descriptors demoFds C107_example.1] at h2
  split at h2
  · cases h2
    cases h3
  · next hk =>
    have small : k < 8 := by
      by_contra hge
      have : demoFds.get k = none := by
        obtain ⟨m, rfl⟩ : ∃ m, k = m + 8 := ⟨k - 8, by omega⟩
        exact fd_get_nil m
      rw [this] at h2
      cases h2
    have : ∀ k, k < 8 → ((demoFds.get k).filter fun e => !e.cloexec) ≠ some ⟨.other 6, false⟩ ∧ ((demoFds.get k).filter fun e => !e.cloexec) ≠ some ⟨.other 6, true⟩ := by decide
    obtain ⟨f, c⟩ := e
    change f = _ at h3
    subst h3
    cases c
    · exact (this k small).1 h2
    · exact (this k small).2 h2

end Keyd
