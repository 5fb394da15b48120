import Verif.Props.Reload
import Verif.Props.Daemon
set_option autoImplicit false
/-!
# C37, for the whole life of the daemon

At any point of any history of the daemon, every device in the table is treated as the configs loaded
last say: the theorems about `manage_device` in `Props/Daemon.lean` speak of one call.
-/
namespace Keyd

/-- The config for a device: the first one in the list that lists it; failing that, unless the device is a mouse
and nothing else, the first that takes it by wildcard. -/
def configFor (configs : List Ent) (dev : Device) : Option Ent :=
  match configs.find? (fun e => Lists e.config dev.id (deviceFlags dev)) with
  | some e => some e
  | none => if deviceFlags dev = ID_MOUSE then none else configs.find? (fun e => ByWildcard e.config dev.id (deviceFlags dev))

/-- C37, at any time. A physical device is held exclusively by keyd just when keyd remaps it; it is remapped
only with the keyboard of the config for it, and if there is a config for it and keyd could take hold
of it, it is. -/
theorem C37_always {d : Daemon} (h : DHistory d) {dev : Device} (hd : dev ∈ d.devices) (hv : dev.isVirtual = false) :
    (dev.grabbed = true ↔ ∃ a, dev.data = some a) ∧
    (∀ a, dev.data = some a ↔ dev.grabbed = true ∧ ∃ e, configFor d.configs dev = some e ∧ e.kbd = a) ∧
    (configFor d.configs dev = none → dev.grabbed = false) := by
  obtain ⟨h1, h2⟩ := (dinv_history h).managed dev hd hv
  rw [C37_lookup] at h1
  change dev.data = (match configFor d.configs dev with
    | some e => if dev.grabbed then some e.kbd else none
    | none => none) at h1
  refine ⟨?_, fun a => ?_, fun hn => ?_⟩
  · rw [h2, Option.isSome_iff_exists]
  · cases hc : configFor d.configs dev with
    | none =>
      rw [hc] at h1
      rw [h1]
      exact ⟨fun h => (by cases h), fun ⟨_, e, he, _⟩ => (by cases he)⟩
    | some e =>
      rw [hc] at h1
      rw [h1]
      cases dev.grabbed with
      | false => exact ⟨fun h => (by cases h), fun h => (by cases h.1)⟩
      | true =>
        constructor
        · intro h
          exact ⟨rfl, e, rfl, Option.some.inj h⟩
        · rintro ⟨_, e', he, ha⟩
          cases he
          exact congrArg some ha
  · rw [hn] at h1
    rw [h2, h1]
    rfl

/-- C37, at any time: keyd's own virtual devices are never remapped. -/
theorem C37_own {d : Daemon} (h : DHistory d) {dev : Device} (hd : dev ∈ d.devices) (hv : dev.isVirtual = true) : dev.data = none :=
  (dinv_history h).virt dev hd hv

/-- A keyboard the configuration names, another it excludes, one that cannot be grabbed, and keyd's own. -/
def managedEnv : Env where
  confs := [b!"[ids]\n*\n-0001:0002\n[main]\na = b\n"]
  grab := fun id => decide (id ≠ b!"0001:0003")

def managedRun : DRes Daemon := do
  let d ← reload managedEnv {}
  daemonRun managedEnv [(.devAdd { id := b!"0001:0001", capabilities := CAP_KEYBOARD }, 1),
    (.devAdd { id := b!"0001:0002", capabilities := CAP_KEYBOARD }, 2), (.devAdd { id := b!"0001:0003", capabilities := CAP_KEYBOARD }, 3),
    (.devAdd { id := b!"0fac:0ade", isVirtual := true, capabilities := CAP_KEYBOARD }, 4)] d

def managedCheck : Bool := match managedRun with
  | .ok d => decide (d.devices.map (fun dev => (dev.isVirtual, dev.grabbed, dev.data, (configFor d.configs dev).isSome)) =
      [(false, true, some 0, true), (false, false, none, false), (false, false, none, true), (true, false, none, true)])
  | .error _ => false

theorem C37_always_example : managedCheck = true := by
  set_option maxRecDepth 100000 in decide +kernel

end Keyd
