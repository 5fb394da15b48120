import Verif.Spec.DaemonHistory
import Verif.Proofs.DaemonSat
import Mathlib.Tactic.ByContra

/-
  The invariant of the daemon: key tracking, ownership of keyboards, devices.
-/

set_option autoImplicit false

namespace Keyd

attribute [local irreducible] configInit

/-- The four codes that are scroll steps rather than keys. -/
def scrollCode (c : Code) : Bool :=
  c = KEYD.SCROLL_DOWN ∨ c = KEYD.SCROLL_UP ∨ c = KEYD.SCROLL_RIGHT ∨ c = KEYD.SCROLL_LEFT

/-- Every key that is down on the virtual keyboard is recorded in `keystate`. -/
def Tracked (d : Daemon) : Prop := ∀ c, DownAtVkbd c d.vout = true → d.keystate c = true ∧ scrollCode c = false

/-- The part of the invariant that does not speak of devices. -/
structure KInv (d : Daemon) : Prop where
  tracked : Tracked d
  fresh : ∀ a, d.next ≤ a → d.heap a = none
  nodup : (d.configs.map Ent.kbd).Nodup
  live : ∀ e ∈ d.configs, ∃ k, d.heap e.kbd = some k ∧ HistoryOf e.config k
  bound : ∀ e ∈ d.configs, Bound e.config
  owned : ∀ a, d.heap a ≠ none → ∃ e ∈ d.configs, e.kbd = a

/-- The device is treated as `configs` say: it is assigned to the keyboard of the config that
matches it, if it could be grabbed, and to none otherwise; it is grabbed just when it is assigned. -/
def Device.managed (configs : List Ent) (dev : Device) : Prop :=
  dev.isVirtual = false →
    dev.data = (match lookupConfigEnt configs dev.id (deviceFlags dev) with
      | some e => if dev.grabbed then some e.kbd else none
      | none => none) ∧
    dev.grabbed = dev.data.isSome

/-- The invariant. -/
structure DInv (d : Daemon) : Prop extends KInv d where
  devs : ∀ dev ∈ d.devices, ∀ a, dev.data = some a → ∃ e ∈ d.configs, e.kbd = a
  virt : ∀ dev ∈ d.devices, dev.isVirtual = true → dev.data = none
  managed : ∀ dev ∈ d.devices, dev.managed d.configs

/-- What `manage_device` decides for a device, and whether it is virtual. -/
def Device.shape (dev : Device) : Option Nat × Bool × Bool × Str × UInt8 := (dev.data, dev.isVirtual, dev.grabbed, dev.id, dev.capabilities)

/-- Steps that leave keyboards, configs and the assignment of devices alone. -/
structure Keeps (d d' : Daemon) : Prop where
  heap : d'.heap = d.heap
  next : d'.next = d.next
  configs : d'.configs = d.configs
  active : d'.active = d.active
  data : d'.devices.map Device.shape = d.devices.map Device.shape
  replies : d'.replies = d.replies
  time : d'.lastTime = d.lastTime ∧ d'.timeout = d.timeout
  lst : d'.listeners.Sublist d.listeners

theorem Keeps.refl (d : Daemon) : Keeps d d := ⟨rfl, rfl, rfl, rfl, rfl, rfl, ⟨rfl, rfl⟩, .refl _⟩

theorem Keeps.trans {a b c : Daemon} (h : Keeps a b) (h' : Keeps b c) : Keeps a c :=
  ⟨h'.1.trans h.1, h'.2.trans h.2, h'.3.trans h.3, h'.4.trans h.4, h'.5.trans h.5, h'.6.trans h.6,
    ⟨h'.7.1.trans h.7.1, h'.7.2.trans h.7.2⟩, h'.8.trans h.8⟩

theorem DInv.keeps {d d' : Daemon} (h : DInv d) (hk : Keeps d d') (ht : Tracked d') : DInv d' := by
  have dev : ∀ dev ∈ d'.devices, ∃ dev0 ∈ d.devices, dev0.data = dev.data ∧ dev0.isVirtual = dev.isVirtual ∧
      dev0.grabbed = dev.grabbed ∧ dev0.id = dev.id ∧ dev0.capabilities = dev.capabilities := by
    intro dev hd
    have : dev.shape ∈ d.devices.map Device.shape := by
      rw [← hk.data]; exact List.mem_map_of_mem hd
    obtain ⟨dev0, h0, e⟩ := List.mem_map.1 this
    unfold Device.shape at e
    simp only [Prod.mk.injEq] at e
    exact ⟨dev0, h0, e⟩
  refine ⟨⟨ht, ?_, ?_, ?_, ?_, ?_⟩, ?_, ?_, ?_⟩
  · rw [hk.heap, hk.next]; exact h.fresh
  · rw [hk.configs]; exact h.nodup
  · rw [hk.configs, hk.heap]; exact h.live
  · rw [hk.configs]; exact h.bound
  · rw [hk.configs, hk.heap]; exact h.owned
  · intro dv hd a ha
    obtain ⟨dev0, h0, e, _⟩ := dev dv hd
    rw [hk.configs]
    exact h.devs dev0 h0 a (e.trans ha)
  · intro dv hd hv
    obtain ⟨dev0, h0, e, e2, -⟩ := dev dv hd
    rw [← e]
    exact h.virt dev0 h0 (e2.trans hv)
  · intro dv hd hv
    obtain ⟨dev0, h0, e, e2, e3, e4, e5⟩ := dev dv hd
    have := h.managed dev0 h0 (e2.trans hv)
    unfold deviceFlags at this ⊢
    rw [e, e3, e4, e5] at this
    rw [hk.configs]
    exact this

theorem tracked_vscroll {d : Daemon} (x y : Int) (h : Tracked d) : Tracked (d.vscroll x y) := h

/-- A release is always tracked. -/
theorem tracked_vkey_up {d : Daemon} (c : Code) (h : Tracked d) : Tracked (d.vkey c false) := by
  intro c' hc'
  unfold Daemon.vkey at hc'
  simp only [DownAtVkbd] at hc'
  split at hc'
  · cases hc'
  · exact h c' hc'

/-- A press followed by a release leaves nothing untracked. -/
theorem tracked_vtap {d : Daemon} (c : Code) (h : Tracked d) : Tracked (d.vtap c) := by
  intro c' hc'
  unfold Daemon.vtap Daemon.vkey at hc'
  simp only [DownAtVkbd] at hc'
  split at hc'
  · cases hc'
  · exact h c' hc'

theorem tracked_shifted {d : Daemon} (s c : Code) (h : Tracked d) :
    Tracked ((((d.vkey s true).vkey c true).vkey c false).vkey s false) := by
  intro c' hc'
  unfold Daemon.vkey at hc'
  simp only [DownAtVkbd] at hc'
  split at hc'
  · cases hc'
  · split at hc'
    · cases hc'
    · exact h c' hc'

theorem tracked_sendKey {d : Daemon} (c : Code) (b : Bool) (h : Tracked d) : Tracked (daemonSendKey d c b) := by
  have scr : scrollCode c = true → Tracked { d with keystate := upd d.keystate c b } := by
    intro hs c' hc'
    obtain ⟨h1, h2⟩ := h c' hc'
    have : c' ≠ c := by rintro rfl; rw [hs] at h2; cases h2
    exact ⟨by show upd d.keystate c b c' = true; rw [upd_other _ _ this]; exact h1, h2⟩
  unfold daemonSendKey
  dsimp only
  by_cases h1 : c = KEYD.SCROLL_DOWN
  · rw [if_pos h1]
    have := scr (by simp [scrollCode, h1])
    split
    · exact tracked_vscroll _ _ this
    · exact this
  · rw [if_neg h1]
    by_cases h2 : c = KEYD.SCROLL_UP
    · rw [if_pos h2]
      have := scr (by simp [scrollCode, h2])
      split
      · exact tracked_vscroll _ _ this
      · exact this
    · rw [if_neg h2]
      by_cases h3 : c = KEYD.SCROLL_RIGHT
      · rw [if_pos h3]
        have := scr (by simp [scrollCode, h3])
        split
        · exact tracked_vscroll _ _ this
        · exact this
      · rw [if_neg h3]
        by_cases h4 : c = KEYD.SCROLL_LEFT
        · rw [if_pos h4]
          have := scr (by simp [scrollCode, h4])
          split
          · exact tracked_vscroll _ _ this
          · exact this
        · rw [if_neg h4]
          intro c' hc'
          unfold Daemon.vkey at hc' ⊢
          simp only [DownAtVkbd] at hc'
          split at hc'
          · rename_i e
            subst e
            subst hc'
            exact ⟨upd_same _ _ _, by simp [scrollCode, h1, h2, h3, h4]⟩
          · rename_i e
            obtain ⟨g1, g2⟩ := h c' hc'
            exact ⟨by show upd d.keystate c b c' = true; rw [upd_other _ _ (Ne.symm e)]; exact g1, g2⟩

theorem keeps_sendKey (d : Daemon) (c : Code) (b : Bool) : Keeps d (daemonSendKey d c b) := by
  unfold daemonSendKey Daemon.vscroll Daemon.vkey
  dsimp only
  repeat' split
  all_goals exact ⟨rfl, rfl, rfl, rfl, rfl, rfl, ⟨rfl, rfl⟩, .refl _⟩

theorem DInv.sendKey {d : Daemon} (h : DInv d) (c : Code) (b : Bool) : DInv (daemonSendKey d c b) :=
  h.keeps (keeps_sendKey d c b) (tracked_sendKey c b h.tracked)

theorem keeps_onLayerChange (env : Env) (d : Daemon) (a : Nat) (c : Config) (n : Nat → Nat) (i : Nat) (b : Bool) :
    Keeps d (onLayerChange env d a c n i b) ∧ (onLayerChange env d a c n i b).vout = d.vout ∧
      (onLayerChange env d a c n i b).keystate = d.keystate := by
  have led : ∀ (d : Daemon) (l : Code) (on : Bool), Keeps d (setLed d a l on) := by
    intro d l on
    refine ⟨rfl, rfl, rfl, rfl, ?_, rfl, ⟨rfl, rfl⟩, .refl _⟩
    unfold setLed
    rw [List.map_map]
    apply List.map_congr_left
    intro dev _
    dsimp only [Function.comp]
    split <;> rfl
  unfold onLayerChange broadcast
  dsimp only
  split
  · split
    · exact ⟨led _ _ _, rfl, rfl⟩
    · exact ⟨⟨rfl, rfl, rfl, rfl, (led d 1 _).data, rfl, ⟨rfl, rfl⟩, List.filter_sublist⟩, rfl, rfl⟩
  · split
    · exact ⟨Keeps.refl _, rfl, rfl⟩
    · exact ⟨⟨rfl, rfl, rfl, rfl, rfl, rfl, ⟨rfl, rfl⟩, List.filter_sublist⟩, rfl, rfl⟩

theorem keeps_applyOuts (env : Env) (a : Nat) (c : Config) : ∀ (os : List Out) (d : Daemon) (n : Nat → Nat),
    Keeps d (applyOuts env a c d n os) ∧ (Tracked d → Tracked (applyOuts env a c d n os))
  | [], d, n => ⟨Keeps.refl d, id⟩
  | o :: os, d, n => by
    cases o with
    | key x b =>
      have := keeps_applyOuts env a c os (daemonSendKey d x b) n
      exact ⟨(keeps_sendKey d x b).trans this.1, fun h => this.2 (tracked_sendKey x b h)⟩
    | layer i b =>
      have h1 := keeps_onLayerChange env d a c
        (if (c.layer i).type = .layout then n else upd n i (if b then n i + 1 else n i - 1)) i b
      have := keeps_applyOuts env a c os (onLayerChange env d a c
        (if (c.layer i).type = .layout then n else upd n i (if b then n i + 1 else n i - 1)) i b)
        (if (c.layer i).type = .layout then n else upd n i (if b then n i + 1 else n i - 1))
      refine ⟨h1.1.trans this.1, fun h => this.2 ?_⟩
      intro c' hc'
      rw [h1.2.1] at hc'
      rw [h1.2.2]
      exact h c' hc'
    | command s => exact keeps_applyOuts env a c os d n
    | sleep u => exact keeps_applyOuts env a c os d n

/-- Replacing a keyboard by a later state of itself. -/
theorem DInv.setKbd {d : Daemon} (h : DInv d) {a : Nat} {k k' : Kbd} (hk : d.heap a = some k)
    (hh : ∀ c, HistoryOf c k → HistoryOf c k') : DInv { d with heap := upd d.heap a (some k') } := by
  have hne : d.heap a ≠ none := by rw [hk]; simp
  refine ⟨⟨h.tracked, ?_, h.nodup, ?_, h.bound, ?_⟩, h.devs, h.virt, h.managed⟩
  · intro b hb
    have : b ≠ a := by rintro rfl; exact hne (h.fresh b hb)
    show upd d.heap a (some k') b = none
    rw [upd_other _ _ this]
    exact h.fresh b hb
  · intro e he
    obtain ⟨k0, h0, h1⟩ := h.live e he
    by_cases hea : e.kbd = a
    · refine ⟨k', ?_, ?_⟩
      · show upd d.heap a (some k') e.kbd = some k'
        rw [hea, upd_same]
      · rw [hea, hk] at h0
        injection h0 with h0
        subst h0
        exact hh _ h1
    · refine ⟨k0, ?_, h1⟩
      show upd d.heap a (some k') e.kbd = some k0
      rw [upd_other _ _ hea]; exact h0
  · intro b hb
    by_cases hba : b = a
    · subst hba; exact h.owned b hne
    · have : upd d.heap a (some k') b = d.heap b := upd_other _ _ hba
      exact h.owned b (by rw [← this]; exact hb)

/-- Frame of `kbdRun`: everything but the one keyboard, the logs and the listeners. -/
structure Ran (d d' : Daemon) : Prop where
  next : d'.next = d.next
  configs : d'.configs = d.configs
  active : d'.active = d.active
  data : d'.devices.map Device.shape = d.devices.map Device.shape
  replies : d'.replies = d.replies
  live : ∀ a, d.heap a ≠ none → d'.heap a ≠ none
  lst : d'.listeners.Sublist d.listeners

theorem Ran.refl (d : Daemon) : Ran d d := ⟨rfl, rfl, rfl, rfl, rfl, fun _ h => h, .refl _⟩

theorem Ran.trans {a b c : Daemon} (h : Ran a b) (h' : Ran b c) : Ran a c :=
  ⟨h'.1.trans h.1, h'.2.trans h.2, h'.3.trans h.3, h'.4.trans h.4, h'.5.trans h.5, fun x hx => h'.6 x (h.6 x hx), h'.7.trans h.7⟩

theorem Keeps.ran {d d' : Daemon} (h : Keeps d d') : Ran d d' :=
  ⟨h.next, h.configs, h.active, h.data, h.replies, fun a ha => by rw [h.heap]; exact ha, h.lst⟩

theorem Ran.of_set {d : Daemon} (a : Nat) (k : Kbd) : Ran d { d with heap := upd d.heap a (some k) } := by
  refine ⟨rfl, rfl, rfl, rfl, rfl, ?_, .refl _⟩
  intro b hb
  show upd d.heap a (some k) b ≠ none
  by_cases h : b = a
  · subst h; rw [upd_same]; simp
  · rw [upd_other _ _ h]; exact hb

/-- Errors: a freed keyboard is used only if `bad`. -/
def OnlyIf (bad : Prop) (e : DErr) : Prop := ∀ w, e = .freed w → bad

theorem OnlyIf.of_not {bad : Prop} {e : DErr} (h : NotFreed e) : OnlyIf bad e := fun w hw => absurd hw (h w)

theorem dsat_lift {α : Type} {r : Res α} {Q : α → Prop} {bad : Prop} (h : ∀ a, r = .ok a → Q a) :
    DSat (lift r) Q (OnlyIf bad) := by
  cases r with
  | ok a => exact h a rfl
  | error e => intro w hw; cases hw

theorem kbdRun_sat {env : Env} {d : Daemon} {a : Nat} {evs : List KeyEvent} (h : DInv d) :
    DSat (kbdRun env d a evs) (fun r => DInv r.1 ∧ Ran d r.1) (OnlyIf (d.heap a = none)) := by
  unfold kbdRun
  split
  · rename_i hn
    exact fun w _ => hn
  · rename_i k hk
    refine DSat.bind (Q := fun r => kbdProcessEvents env.fuel k evs = .ok r) (dsat_lift (fun r hr => hr)) ?_
    rintro ⟨k', w⟩ - hrun
    have h1 : DInv { d with heap := upd d.heap a (some k') } :=
      h.setKbd hk (fun c hc => HistoryOf.events env.fuel k evs k' w hc hrun)
    have h2 := keeps_applyOuts env a k.config (k'.trace.take (k'.trace.length - k.trace.length)).reverse
      { d with heap := upd d.heap a (some k') } (fun i => (k.layerState i).active)
    exact ⟨h1.keeps h2.1 (h2.2 h1.tracked), (Ran.of_set a k').trans h2.1.ran⟩

/-! ### Loading configs -/

theorem kinv_free {d : Daemon} (h : DInv d) : KInv (freeConfigs d) := by
  have hheap : ∀ a, (freeConfigs d).heap a = none := by
    intro a
    unfold freeConfigs
    dsimp only
    split
    · rfl
    · rename_i hn
      by_contra hne
      obtain ⟨e, he, ha⟩ := h.owned a hne
      apply hn
      rw [List.any_eq_true]
      exact ⟨e, he, by simpa using ha⟩
  refine ⟨h.tracked, fun a _ => hheap a, by simp [freeConfigs], ?_, ?_, fun a ha => absurd (hheap a) ha⟩
  · intro e he; cases he
  · intro e he; cases he

theorem kinv_load {d d' : Daemon} (h : KInv d) {t : Str} (run : loadConfig d t = .ok d') :
    KInv d' ∧ d'.devices = d.devices ∧ d'.active = d.active ∧ d'.vout = d.vout ∧ d'.keystate = d.keystate ∧
      d'.listeners = d.listeners ∧ d'.replies = d.replies ∧ d'.timeout = d.timeout ∧ d'.lastTime = d.lastTime := by
  unfold loadConfig at run
  obtain ⟨o, ho, run⟩ := dbind_eq_ok.1 run
  have ho := lift_ok.1 ho
  cases o with
  | none => injection run with run; subst run; exact ⟨h, rfl, rfl, rfl, rfl, rfl, rfl, rfl, rfl⟩
  | some c =>
    injection run with run; subst run
    have lt : ∀ e ∈ d.configs, e.kbd ≠ d.next := by
      intro e he hn
      obtain ⟨k, hk, _⟩ := h.live e he
      rw [hn, h.fresh d.next (Nat.le_refl _)] at hk
      cases hk
    refine ⟨⟨h.tracked, ?_, ?_, ?_, ?_, ?_⟩, rfl, rfl, rfl, rfl, rfl, rfl, rfl, rfl⟩
    · intro a ha
      have ha : d.next + 1 ≤ a := ha
      show upd d.heap d.next _ a = none
      rw [upd_other _ _ (by omega)]
      exact h.fresh a (by omega)
    · show (List.map Ent.kbd (⟨c, d.next⟩ :: d.configs)).Nodup
      rw [List.map_cons, List.nodup_cons]
      refine ⟨?_, h.nodup⟩
      intro hm
      obtain ⟨e, he, hn⟩ := List.mem_map.1 hm
      exact lt e he hn
    · intro e he
      rcases List.mem_cons.1 he with rfl | he
      · exact ⟨newKeyboard c, upd_same _ _ _, .start⟩
      · obtain ⟨k, hk, hh⟩ := h.live e he
        refine ⟨k, ?_, hh⟩
        show upd d.heap d.next _ e.kbd = some k
        rw [upd_other _ _ (lt e he)]; exact hk
    · intro e he
      rcases List.mem_cons.1 he with rfl | he
      · exact .parsed t c ho
      · exact h.bound e he
    · intro a ha
      by_cases hn : a = d.next
      · exact ⟨_, List.mem_cons_self, hn.symm⟩
      · have : upd d.heap d.next (some (newKeyboard c)) a = d.heap a := upd_other _ _ hn
        obtain ⟨e, he, hea⟩ := h.owned a (by rw [← this]; exact ha)
        exact ⟨e, List.mem_cons_of_mem _ he, hea⟩

theorem kinv_loadAll : ∀ (ts : List Str) {d d' : Daemon}, KInv d → loadConfigs ts d = .ok d' →
    KInv d' ∧ d'.devices = d.devices ∧ d'.active = d.active ∧ d'.vout = d.vout ∧ d'.keystate = d.keystate ∧
      d'.listeners = d.listeners ∧ d'.replies = d.replies ∧ d'.timeout = d.timeout ∧ d'.lastTime = d.lastTime
  | [], d, d', h, run => by
    unfold loadConfigs at run
    injection run with run; subst run
    exact ⟨h, rfl, rfl, rfl, rfl, rfl, rfl, rfl, rfl⟩
  | t :: ts, d, d', h, run => by
    unfold loadConfigs at run
    obtain ⟨d1, h1, run⟩ := dbind_eq_ok.1 run
    have a := kinv_load h h1
    have b := kinv_loadAll ts a.1 run
    obtain ⟨_, a1, a2, a3, a4, a5, a6, a7, a8⟩ := a
    obtain ⟨b0, b1, b2, b3, b4, b5, b6, b7, b8⟩ := b
    exact ⟨b0, b1.trans a1, b2.trans a2, b3.trans a3, b4.trans a4, b5.trans a5, b6.trans a6, b7.trans a7, b8.trans a8⟩

theorem loadConfigs_notFreed : ∀ (ts : List Str) (d : Daemon), DSat (loadConfigs ts d) (fun _ => True) NotFreed
  | [], _ => trivial
  | t :: ts, d => by
    unfold loadConfigs
    refine DSat.bind (Q := fun _ => True) ?_ (fun a _ _ => loadConfigs_notFreed ts a)
    unfold loadConfig
    refine DSat.bind (Q := fun _ => True) (DSat.lift (fun _ _ => trivial)) ?_
    intro o _ _
    cases o <;> trivial

theorem clearStep_spec {d : Daemon} (c : Code) (ht : Tracked d) :
    Keeps d (clearStep d c) ∧ Tracked (clearStep d c) ∧ (clearStep d c).listeners = d.listeners ∧
      (∀ x, (clearStep d c).keystate x = true → d.keystate x = true) ∧ (clearStep d c).keystate c = false := by
  unfold clearStep
  by_cases hx : d.keystate c = true
  · rw [if_pos hx]
    refine ⟨⟨rfl, rfl, rfl, rfl, rfl, rfl, ⟨rfl, rfl⟩, .refl _⟩, ?_, rfl, ?_, upd_same _ _ _⟩
    · intro x h
      simp only [DownAtVkbd] at h
      split at h
      · cases h
      · rename_i e
        obtain ⟨h1, h2⟩ := ht x h
        exact ⟨by show upd d.keystate c false x = true; rw [upd_other _ _ (Ne.symm e)]; exact h1, h2⟩
    · intro x h
      have h : upd d.keystate c false x = true := h
      by_cases e : x = c
      · subst e; exact hx
      · rw [upd_other _ _ e] at h; exact h
  · rw [if_neg hx]
    exact ⟨Keeps.refl d, ht, rfl, fun _ h => h, by simpa using hx⟩

theorem clearFold_spec : ∀ (l : List Code) (d : Daemon), Tracked d →
    Keeps d (l.foldl clearStep d) ∧ Tracked (l.foldl clearStep d) ∧ (l.foldl clearStep d).listeners = d.listeners ∧
      (∀ x, (l.foldl clearStep d).keystate x = true → d.keystate x = true) ∧
      ∀ c ∈ l, (l.foldl clearStep d).keystate c = false
  | [], d, ht => ⟨Keeps.refl d, ht, rfl, fun _ h => h, fun c hc => by cases hc⟩
  | x :: xs, d, ht => by
    obtain ⟨a1, a2, a3, a4, a5⟩ := clearStep_spec x ht
    obtain ⟨b1, b2, b3, b4, b5⟩ := clearFold_spec xs (clearStep d x) a2
    rw [List.foldl_cons]
    refine ⟨a1.trans b1, b2, b3.trans a3, fun c hc => a4 c (b4 c hc), ?_⟩
    intro c hc
    rcases List.mem_cons.1 hc with rfl | hc
    · cases e : (xs.foldl clearStep (clearStep d c)).keystate c
      · rfl
      · have := b4 c e
        rw [a5] at this; cases this
    · exact b5 c hc

theorem mem_codes256 (c : Code) : c ∈ codes256 := by
  unfold codes256
  rw [List.mem_map]
  exact ⟨c.toNat, List.mem_range.2 c.toNat_lt, by simp⟩

/-- What `clear_vkbd` does. -/
theorem clearVkbd_spec (d : Daemon) (ht : Tracked d) :
    Keeps d (clearVkbd d) ∧ (clearVkbd d).keystate = (fun _ => false) ∧ (clearVkbd d).listeners = d.listeners ∧
      (∀ c, DownAtVkbd c (clearVkbd d).vout = false) := by
  unfold clearVkbd
  obtain ⟨a1, a2, a3, a4, a5⟩ := clearFold_spec codes256 d ht
  refine ⟨a1, funext fun c => a5 c (mem_codes256 c), a3, ?_⟩
  intro c
  cases e : DownAtVkbd c (codes256.foldl clearStep d).vout
  · rfl
  · have := (a2 c e).1
    rw [a5 c (mem_codes256 c)] at this
    cases this

theorem manageDevice_data {env : Env} {configs : List Ent} {dev : Device}
    (hv : dev.isVirtual = true → dev.data = none) {a : Nat} (h : (manageDevice env configs dev).data = some a) :
    ∃ e ∈ configs, e.kbd = a := by
  unfold manageDevice at h
  split at h
  · rename_i hvirt
    rw [hv hvirt] at h; cases h
  · split at h
    · rename_i ent hl
      split at h
      · injection h with h
        refine ⟨ent, ?_, h⟩
        have mem : ∀ (es : List Ent) (acc : Option Ent × Nat), (∀ x, acc.1 = some x → x ∈ configs) → (∀ x ∈ es, x ∈ configs) →
            ∀ x, (lookupScan dev.id (deviceFlags dev) es acc).1 = some x → x ∈ configs := by
          intro es
          induction es with
          | nil => intro acc hacc _ x hx; exact hacc x hx
          | cons y ys ih =>
            rintro ⟨m, rk⟩ hacc hes x hx
            unfold lookupScan at hx
            dsimp only at hx
            refine ih _ ?_ (fun z hz => hes z (List.mem_cons_of_mem _ hz)) x hx
            intro z hz
            split at hz
            · injection hz with hz; subst hz; exact hes y List.mem_cons_self
            · exact hacc z hz
        unfold lookupConfigEnt at hl
        dsimp only at hl
        split at hl
        · cases hl
        · exact mem configs (none, 0) (fun x hx => by cases hx) (fun x hx => hx) ent hl
      · cases h
    · cases h

theorem manageDevice_virtual (env : Env) (configs : List Ent) (dev : Device) :
    (manageDevice env configs dev).isVirtual = dev.isVirtual ∧
      (dev.isVirtual = true → (manageDevice env configs dev).data = dev.data) := by
  unfold manageDevice
  split
  · exact ⟨rfl, fun _ => rfl⟩
  · rename_i hv
    split
    · split <;> exact ⟨rfl, fun h => absurd h hv⟩
    · exact ⟨rfl, fun h => absurd h hv⟩

theorem manageDevice_managed (env : Env) (configs : List Ent) (dev : Device) : (manageDevice env configs dev).managed configs := by
  intro hv
  rw [(manageDevice_virtual env configs dev).1] at hv
  unfold manageDevice
  rw [if_neg (by rw [hv]; decide)]
  cases hl : lookupConfigEnt configs dev.id (deviceFlags dev) with
  | none =>
    dsimp only
    unfold deviceFlags at hl ⊢
    dsimp only
    rw [hl]
    exact ⟨rfl, rfl⟩
  | some e =>
    dsimp only
    split
    · unfold deviceFlags at hl ⊢
      dsimp only
      rw [hl]
      exact ⟨rfl, rfl⟩
    · rename_i hg
      have hg : dev.grabbed = false := by
        cases h : dev.grabbed with
        | false => rfl
        | true => exact absurd (.inl h) hg
      unfold deviceFlags at hl ⊢
      dsimp only
      rw [hl, hg]
      exact ⟨rfl, rfl⟩

/-- Device assignment respects the invariant. -/
theorem DInv.manage {d : Daemon} (h : KInv d) (env : Env) (devs : List Device)
    (hv : ∀ dev ∈ devs, dev.isVirtual = true → dev.data = none) :
    DInv { d with devices := devs.map (manageDevice env d.configs) } := by
  refine ⟨⟨h.tracked, h.fresh, h.nodup, h.live, h.bound, h.owned⟩, ?_, ?_, ?_⟩
  rotate_left 2
  · intro dev hd
    obtain ⟨dev0, h0, e⟩ := List.mem_map.1 hd
    subst e
    exact manageDevice_managed env d.configs dev0
  · intro dev hd a ha
    obtain ⟨dev0, h0, e⟩ := List.mem_map.1 hd
    subst e
    exact manageDevice_data (hv dev0 h0) ha
  · intro dev hd hvirt
    obtain ⟨dev0, h0, e⟩ := List.mem_map.1 hd
    subst e
    have := manageDevice_virtual env d.configs dev0
    rw [this.1] at hvirt
    rw [this.2 hvirt]
    exact hv dev0 h0 hvirt

theorem reload_sat {env : Env} {d : Daemon} (h : DInv d) :
    DSat (reload env d) (fun d' => DInv d' ∧ (∀ c, DownAtVkbd c d'.vout = false) ∧ d'.active = d.active ∧
      d'.listeners = d.listeners ∧ d'.replies = d.replies ∧ d'.timeout = d.timeout ∧ d'.lastTime = d.lastTime) NotFreed := by
  unfold reload
  refine DSat.bind (loadConfigs_notFreed _ _) ?_
  intro d1 h1 _
  obtain ⟨k1, e1, e2, e3, e4, e5, e6, e7, e8⟩ := kinv_loadAll env.confs (kinv_free h) h1
  have hv : ∀ dev ∈ d1.devices, dev.isVirtual = true → dev.data = none := by
    rw [e1]; exact h.virt
  have h2 := DInv.manage k1 env d1.devices hv
  obtain ⟨c1, c2, c3, c4⟩ := clearVkbd_spec _ h2.tracked
  refine ⟨h2.keeps c1 ?_, c4, c1.active.trans e2, c3.trans e5, c1.replies.trans e6, c1.time.2.trans e7, c1.time.1.trans e8⟩
  intro c hc
  rw [c4 c] at hc; cases hc

/-! ### Clients -/

theorem addListener_sat {env : Env} {d : Daemon} {con : Nat} (h : DInv d) :
    DSat (addListener env d con) DInv (OnlyIf (¬ ActiveLive d)) := by
  unfold addListener
  split
  · exact ⟨⟨h.tracked, h.fresh, h.nodup, h.live, h.bound, h.owned⟩, h.devs, h.virt, h.managed⟩
  · split
    · exact ⟨⟨h.tracked, h.fresh, h.nodup, h.live, h.bound, h.owned⟩, h.devs, h.virt, h.managed⟩
    · rename_i a ha
      split
      · rename_i hn
        exact fun w _ hl => hl a ha hn
      · split
        · exact ⟨⟨h.tracked, h.fresh, h.nodup, h.live, h.bound, h.owned⟩, h.devs, h.virt, h.managed⟩
        · exact h

theorem keeps_vtap (d : Daemon) (c : Code) : Keeps d (d.vtap c) := ⟨rfl, rfl, rfl, rfl, rfl, rfl, ⟨rfl, rfl⟩, .refl _⟩

theorem inputChar_keeps {d d' : Daemon} {sz cp : Nat} (run : inputChar d sz cp = some d') (ht : Tracked d) :
    Keeps d d' ∧ Tracked d' ∧ d'.listeners = d.listeners := by
  have fold : ∀ (l : List Code) (d : Daemon), Tracked d → Keeps d (l.foldl Daemon.vtap d) ∧
      Tracked (l.foldl Daemon.vtap d) ∧ (l.foldl Daemon.vtap d).listeners = d.listeners := by
    intro l
    induction l with
    | nil => intro d ht; exact ⟨Keeps.refl d, ht, rfl⟩
    | cons x xs ih =>
      intro d ht
      obtain ⟨a, b, c⟩ := ih (d.vtap x) (tracked_vtap x ht)
      exact ⟨(keeps_vtap d x).trans a, b, c⟩
  unfold inputChar at run
  dsimp only at run
  have viaUnicode : ∀ r, (match unicodeLookupIndex cp with
      | none => none
      | some idx => some ((unicodeGetSequence idx).foldl Daemon.vtap d)) = some r →
      Keeps d r ∧ Tracked r ∧ r.listeners = d.listeners := by
    intro r hr
    split at hr
    · cases hr
    · injection hr with hr; subst hr; exact fold _ d ht
  by_cases hsz : sz = 1
  · rw [if_pos hsz] at run
    cases hp : parseKeySequence [UInt8.ofNat cp] with
    | some cm =>
      obtain ⟨code, mods⟩ := cm
      rw [hp] at run
      dsimp only at run
      by_cases hm : mods &&& MOD_SHIFT ≠ 0
      · rw [if_pos hm] at run
        injection run with run; subst run
        exact ⟨⟨rfl, rfl, rfl, rfl, rfl, rfl, ⟨rfl, rfl⟩, .refl _⟩, tracked_shifted _ _ ht, rfl⟩
      · rw [if_neg hm] at run
        injection run with run; subst run
        exact ⟨keeps_vtap d code, tracked_vtap code ht, rfl⟩
    | none =>
      rw [hp] at run
      dsimp only at run
      by_cases h1 : UInt8.ofNat cp = 32
      · rw [if_pos h1] at run
        injection run with run; subst run
        exact ⟨keeps_vtap d _, tracked_vtap _ ht, rfl⟩
      · rw [if_neg h1] at run
        by_cases h2 : UInt8.ofNat cp = 10
        · rw [if_pos h2] at run
          injection run with run; subst run
          exact ⟨keeps_vtap d _, tracked_vtap _ ht, rfl⟩
        · rw [if_neg h2] at run
          by_cases h3 : UInt8.ofNat cp = 9
          · rw [if_pos h3] at run
            injection run with run; subst run
            exact ⟨keeps_vtap d _, tracked_vtap _ ht, rfl⟩
          · rw [if_neg h3] at run
            exact viaUnicode d' run
  · rw [if_neg hsz] at run
    exact viaUnicode d' run

theorem inputLoop_sat : ∀ (n : Nat) (s : Str) (d : Daemon), Tracked d →
    DSat (inputLoop n s d) (fun r => Keeps d r.1 ∧ Tracked r.1 ∧ r.1.listeners = d.listeners) NotFreed
  | 0, _, d, ht => ⟨Keeps.refl d, ht, rfl⟩
  | n+1, s, d, ht => by
    unfold inputLoop
    refine DSat.bind (Q := fun _ => True) (DSat.lift (fun _ _ => trivial)) ?_
    rintro ⟨sz, cp⟩ - -
    dsimp only
    split
    · exact ⟨Keeps.refl d, ht, rfl⟩
    · split
      · exact ⟨Keeps.refl d, ht, rfl⟩
      · rename_i d1 h1
        obtain ⟨a, b, c⟩ := inputChar_keeps h1 ht
        exact (inputLoop_sat n _ d1 b).imp (fun r hr => ⟨a.trans hr.1, hr.2.1, hr.2.2.trans c⟩)

theorem execMacro_keeps : ∀ (l : List MacroOut) (d : Daemon), Keeps d (execMacro d l) ∧ (Tracked d → Tracked (execMacro d l))
  | [], d => ⟨Keeps.refl d, id⟩
  | o :: l, d => by
    cases o with
    | key c b =>
      have := execMacro_keeps l (daemonSendKey d c b)
      exact ⟨(keeps_sendKey d c b).trans this.1, fun h => this.2 (tracked_sendKey c b h)⟩
    | sleep u => exact execMacro_keeps l d

theorem bindAll_sat (exp : Str) : ∀ (es : List Ent) (d : Daemon), DInv d → (∀ e ∈ es, e ∈ d.configs) →
    DSat (bindAll exp es d) (fun r => DInv r.1 ∧ Ran d r.1 ∧ r.1.listeners = d.listeners ∧ r.1.vout = d.vout) NotFreed
  | [], d, h, _ => ⟨h, Ran.refl d, rfl, rfl⟩
  | e :: es, d, h, hm => by
    unfold bindAll
    obtain ⟨k, hk, _⟩ := h.live e (hm e List.mem_cons_self)
    rw [hk]
    dsimp only
    refine DSat.bind (Q := fun r => kbdEval k exp = .ok r) (DSat.lift (fun r hr => hr)) ?_
    rintro ⟨k', ok⟩ - hrun
    dsimp only
    have h1 : DInv { d with heap := upd d.heap e.kbd (some k') } :=
      h.setKbd hk (fun c hc => HistoryOf.bind k exp k' ok hc hrun)
    refine DSat.bind (bindAll_sat exp es _ h1 (fun x hx => hm x (List.mem_cons_of_mem _ hx))) ?_
    rintro ⟨d2, any⟩ - ⟨a, b, c, e'⟩
    exact ⟨a, (Ran.of_set e.kbd k').trans b, c, e'⟩

theorem DInv.reply {d : Daemon} (h : DInv d) (con : Nat) (r : Reply) : DInv (d.reply con r) :=
  ⟨⟨h.tracked, h.fresh, h.nodup, h.live, h.bound, h.owned⟩, h.devs, h.virt, h.managed⟩

theorem NotFreed.only {α : Type} {r : DRes α} {Q : α → Prop} {bad : Prop} (h : DSat r Q NotFreed) :
    DSat r Q (OnlyIf bad) := by
  cases r with
  | ok a => exact h
  | error e => exact OnlyIf.of_not h

theorem handleClient_sat {env : Env} {d : Daemon} {con : Nat} {msg : Msg} (h : DInv d) :
    DSat (handleClient env d con msg) DInv (OnlyIf (¬ ActiveLive d)) := by
  unfold handleClient
  split
  · exact h.reply con _
  split
  · exact h.reply con _
  dsimp only
  split
  · refine DSat.bind (Q := fun _ => True) (dsat_lift (fun _ _ => trivial)) ?_
    intro o _ _
    cases o with
    | none => exact h.reply con _
    | some m =>
      obtain ⟨a, b⟩ := execMacro_keeps (macroExecute m msg.timeout) d
      exact (h.keeps a (b h.tracked)).reply con _
  · refine DSat.bind (NotFreed.only (inputLoop_sat _ _ d h.tracked)) ?_
    rintro ⟨d1, ok⟩ - ⟨a, b, _⟩
    exact (h.keeps a b).reply con _
  · refine DSat.bind (NotFreed.only (reload_sat h)) ?_
    intro d1 _ h1
    exact h1.1.reply con _
  · exact addListener_sat h
  · refine DSat.bind (NotFreed.only (bindAll_sat _ _ d h (fun e he => he))) ?_
    rintro ⟨d1, ok⟩ - ⟨a, _⟩
    exact a.reply con _
  · exact h.reply con _

/-! ### Device events -/

theorem processKeypress_sat {env : Env} {d : Daemon} {a : Nat} {c : Code} {t : Int} (h : DInv d) :
    DSat (processKeypress env d a c t) (fun r => DInv r.1 ∧ Ran d r.1) (OnlyIf (d.heap a = none)) := by
  unfold processKeypress
  refine DSat.bind (kbdRun_sat h) ?_
  rintro ⟨d1, w⟩ hrun ⟨h1, r1⟩
  have h2 := kbdRun_sat (env := env) (a := a) (evs := [⟨c, false, t⟩]) h1
  dsimp only
  have live : d1.heap a ≠ none := by
    apply r1.live
    intro hn
    unfold kbdRun at hrun
    rw [hn] at hrun
    cases hrun
  cases hr : kbdRun env d1 a [⟨c, false, t⟩] with
  | ok r => rw [hr] at h2; exact ⟨h2.1, r1.trans h2.2⟩
  | error e => rw [hr] at h2; exact fun w hw => absurd (h2 w hw) live

theorem DInv.setTimeout {d : Daemon} (h : DInv d) (w : Int) : DInv { d with timeout := w } :=
  ⟨⟨h.tracked, h.fresh, h.nodup, h.live, h.bound, h.owned⟩, h.devs, h.virt, h.managed⟩

theorem DInv.setActive {d : Daemon} (h : DInv d) (a : Option Nat) : DInv { d with active := a } :=
  ⟨⟨h.tracked, h.fresh, h.nodup, h.live, h.bound, h.owned⟩, h.devs, h.virt, h.managed⟩

theorem Ran.setTimeout {d d' : Daemon} (h : Ran d d') (w : Int) : Ran d { d' with timeout := w } :=
  ⟨h.1, h.2, h.3, h.4, h.5, h.6, h.7⟩

theorem repeatKeypress_sat {env : Env} {a : Nat} {c : Code} {t : Int} : ∀ (n : Nat) {d : Daemon}, DInv d →
    d.heap a ≠ none → DSat (repeatKeypress env a c t n d) (fun d' => DInv d' ∧ Ran d d') NotFreed
  | 0, d, h, _ => ⟨h, Ran.refl d⟩
  | n+1, d, h, hl => by
    unfold repeatKeypress
    have h0 := processKeypress_sat (env := env) (a := a) (c := c) (t := t) h
    have h0' : DSat (processKeypress env d a c t) (fun r => DInv r.1 ∧ Ran d r.1) NotFreed := by
      cases hr : processKeypress env d a c t with
      | ok r => rw [hr] at h0; exact h0
      | error e => rw [hr] at h0; exact fun w hw => hl (h0 w hw)
    refine DSat.bind h0' ?_
    rintro ⟨d1, w⟩ - ⟨h1, r1⟩
    refine (repeatKeypress_sat n (h1.setTimeout w) (r1.live a hl)).imp ?_
    intro d2 h2
    exact ⟨h2.1, (r1.setTimeout w).trans h2.2⟩

theorem managedEvent_sat {env : Env} {d : Daemon} {a : Nat} {e : DevEvent} {t : Int} (h : DInv d) (hl : d.heap a ≠ none) :
    DSat (managedEvent env d a e t) (fun d' => DInv d' ∧ d'.active = some a ∧ d'.heap a ≠ none ∧ d'.listeners.Sublist d.listeners) NotFreed := by
  unfold managedEvent
  dsimp only
  have h0 : DInv { d with active := some a } := h.setActive _
  have toNF : ∀ {α : Type} {r : DRes α} {Q : α → Prop}, DSat r Q (OnlyIf (d.heap a = none)) → DSat r Q NotFreed := by
    intro α r Q h
    cases r with
    | ok x => exact h
    | error e => exact fun w hw => hl (h w hw)
  split
  · refine DSat.bind (toNF (kbdRun_sat h0)) ?_
    rintro ⟨d1, w⟩ - ⟨h1, r1⟩
    exact ⟨h1.setTimeout w, r1.active, r1.live a hl, r1.lst⟩
  · split
    · rename_i hn; exact absurd hn hl
    · rename_i k hk
      show DInv _ ∧ _
      split
      · unfold scrollMove
        split
        · exact ⟨h0, rfl, hl, .refl _⟩
        · have h1 := h0.setKbd hk (k' := { k with scroll :=
              { k.scroll with x := (k.scroll.x + e.x).tmod k.scroll.sensitivity, y := (k.scroll.y + e.y).tmod k.scroll.sensitivity } })
            (fun c hc => HistoryOf.scroll k _ hc)
          refine ⟨⟨⟨h1.tracked, h1.fresh, h1.nodup, h1.live, h1.bound, h1.owned⟩, h1.devs, h1.virt, h1.managed⟩, rfl, ?_, .refl _⟩
          show upd d.heap a _ a ≠ none
          rw [upd_same]; simp
      · exact ⟨⟨⟨h.tracked, h.fresh, h.nodup, h.live, h.bound, h.owned⟩, h.devs, h.virt, h.managed⟩, rfl, hl, .refl _⟩
  · exact ⟨⟨⟨h.tracked, h.fresh, h.nodup, h.live, h.bound, h.owned⟩, h.devs, h.virt, h.managed⟩, rfl, hl, .refl _⟩
  · refine DSat.bind (repeatKeypress_sat _ h0 hl) ?_
    intro d1 _ ⟨h1, r1⟩
    refine DSat.bind (repeatKeypress_sat _ h1 (r1.live a hl)) ?_
    intro d2 _ ⟨h2, r2⟩
    have r2 := r1.trans r2
    refine DSat.bind (repeatKeypress_sat _ h2 (r2.live a hl)) ?_
    intro d3 _ ⟨h3, r3⟩
    have r3 := r2.trans r3
    refine (repeatKeypress_sat _ h3 (r3.live a hl)).imp ?_
    intro d4 ⟨h4, r4⟩
    have r4 := r3.trans r4
    exact ⟨h4, r4.active, r4.live a hl, r4.lst⟩
  · exact ⟨h0, rfl, hl, .refl _⟩

theorem DInv.device_live {d : Daemon} (h : DInv d) {dev : Device} (hd : dev ∈ d.devices) {a : Nat} (ha : dev.data = some a) :
    d.heap a ≠ none := by
  obtain ⟨e, he, hea⟩ := h.devs dev hd a ha
  obtain ⟨k, hk, _⟩ := h.live e he
  rw [hea] at hk
  rw [hk]; simp

theorem Ran.activeLive {d d' : Daemon} (h : Ran d d') (hl : ActiveLive d) : ActiveLive d' := by
  intro a ha
  rw [h.active] at ha
  exact h.live a (hl a ha)

theorem deviceEvent_sat {env : Env} {d : Daemon} {dev : Device} {e : DevEvent} {t : Int} (h : DInv d)
    (hd : dev ∈ d.devices) : DSat (deviceEvent env d dev e t)
      (fun d' => DInv d' ∧ (ActiveLive d → ActiveLive d') ∧ d'.listeners.Sublist d.listeners) (OnlyIf (¬ ActiveLive d)) := by
  unfold deviceEvent
  split
  · rename_i a ha
    refine NotFreed.only ((managedEvent_sat h (h.device_live hd ha)).imp ?_)
    intro d' ⟨h1, h2, h3, h4⟩
    refine ⟨h1, fun _ b hb => ?_, h4⟩
    rw [h2] at hb
    injection hb with hb
    rw [← hb]; exact h3
  · split
    · split
      · rename_i a ha
        split
        · have hp := processKeypress_sat (env := env) (a := a) (c := KEYD.EXTERNAL_MOUSE_BUTTON) (t := t) h
          refine DSat.bind (Q := fun r => DInv r.1 ∧ Ran d r.1) ?_ ?_
          · cases hr : processKeypress env d a KEYD.EXTERNAL_MOUSE_BUTTON t with
            | ok r => rw [hr] at hp; exact hp
            | error e => rw [hr] at hp; exact fun w hw hl => hl a ha (hp w hw)
          · rintro ⟨d1, w⟩ - ⟨h1, r1⟩
            exact ⟨DInv.setTimeout h1 w, r1.activeLive, r1.lst⟩
        · exact ⟨h, id, .refl _⟩
      · exact ⟨h, id, .refl _⟩
    · split
      · refine ⟨h.keeps ⟨rfl, rfl, rfl, rfl, ?_, rfl, ⟨rfl, rfl⟩, .refl _⟩ h.tracked, id, .refl _⟩
        rw [List.map_map]
        apply List.map_congr_left
        intro dv _
        dsimp only [Function.comp]
        split <;> rfl
      · exact ⟨h, id, .refl _⟩

theorem DInv.tick {d : Daemon} (h : DInv d) (t : Int) : DInv (tick d t) :=
  ⟨⟨h.tracked, h.fresh, h.nodup, h.live, h.bound, h.owned⟩, h.devs, h.virt, h.managed⟩

theorem eventHandler_sat {env : Env} {d : Daemon} {ev : LoopEvent} {t : Int} (h : DInv d)
    (hf : ∀ dev, ev = .devAdd dev → dev.data = none) :
    DSat (eventHandler env d ev t) (fun r => DInv r.1) (OnlyIf (¬ ActiveLive d)) := by
  unfold eventHandler
  dsimp only
  have ht := h.tick t
  have hal : ActiveLive (tick d t) ↔ ActiveLive d := Iff.rfl
  split
  · split
    · exact ht
    · rename_i a ha
      have hk := kbdRun_sat (env := env) (a := a) (evs := [⟨0, false, t⟩]) ht
      refine DSat.bind (Q := fun r => DInv r.1) ?_ ?_
      · cases hr : kbdRun env (tick d t) a [⟨0, false, t⟩] with
        | ok r => rw [hr] at hk; exact hk.1
        | error e => rw [hr] at hk; exact fun w hw hl => hl a ha (hk w hw)
      · rintro ⟨d1, w⟩ - h1
        exact DInv.setTimeout h1 w
  · split
    · exact ht
    · rename_i dev hdev
      refine DSat.bind (deviceEvent_sat ht (List.mem_of_getElem? hdev)) ?_
      intro d1 _ h1
      exact h1.1
  · rename_i dev
    refine ⟨⟨ht.tracked, ht.fresh, ht.nodup, ht.live, ht.bound, ht.owned⟩, ?_, ?_, ?_⟩
    rotate_left 2
    · intro dv hd
      rcases List.mem_append.1 hd with hd | hd
      · exact ht.managed dv hd
      · simp only [List.mem_singleton] at hd
        subst hd
        exact manageDevice_managed env _ dev
    · intro dv hd a ha
      rcases List.mem_append.1 hd with hd | hd
      · exact ht.devs dv hd a ha
      · simp only [List.mem_singleton] at hd
        subst hd
        exact manageDevice_data (fun _ => hf dev rfl) ha
    · intro dv hd hv
      rcases List.mem_append.1 hd with hd | hd
      · exact ht.virt dv hd hv
      · simp only [List.mem_singleton] at hd
        subst hd
        have := manageDevice_virtual env (tick d t).configs dev
        rw [this.1] at hv
        rw [this.2 hv]
        exact hf dev rfl
  · exact ht
  · refine DSat.bind (handleClient_sat ht) ?_
    intro d1 _ h1
    exact h1

theorem dinv_init : DInv {} := by
  refine ⟨⟨?_, fun _ _ => rfl, List.nodup_nil, ?_, ?_, ?_⟩, ?_, ?_, fun _ hd => (by cases hd)⟩
  · intro c hc; cases hc
  · intro e he; cases he
  · intro e he; cases he
  · intro a ha; exact absurd rfl ha
  · intro dev hd; cases hd
  · intro dev hd; cases hd

theorem dinv_history {d : Daemon} (h : DHistory d) : DInv d := by
  induction h with
  | start env d run => exact ((reload_sat dinv_init).of_ok run).1
  | event env d ev t d' w _ run fresh ih => exact (eventHandler_sat ih fresh).of_ok run
  | remove d removed _ ih =>
    refine ⟨⟨ih.tracked, ih.fresh, ih.nodup, ih.live, ih.bound, ih.owned⟩, ?_, ?_, ?_⟩
    · intro dev hd
      obtain ⟨p, hp, e⟩ := List.mem_map.1 hd
      subst e
      exact ih.devs _ (List.fst_mem_of_mem_zipIdx (List.mem_filter.1 hp).1)
    · intro dev hd
      obtain ⟨p, hp, e⟩ := List.mem_map.1 hd
      subst e
      exact ih.virt _ (List.fst_mem_of_mem_zipIdx (List.mem_filter.1 hp).1)
    · intro dev hd
      obtain ⟨p, hp, e⟩ := List.mem_map.1 hd
      subst e
      exact ih.managed _ (List.fst_mem_of_mem_zipIdx (List.mem_filter.1 hp).1)

end Keyd
