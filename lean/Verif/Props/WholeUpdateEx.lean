import Verif.Props.WholeUpdate
import Verif.Props.EndToEndEx

/-!
# C100: a device that meets the hypotheses
-/

namespace Rauc.WholeUpdate

open Rauc.EndToEnd (exImg exData exDevice SlotData DevSteps)
open Rauc.Install (exManifest)
open Rauc.System (exW exChecked)
open Rauc.Boot (uboot ubEx anyEnv)

/-- two root file systems -/
def exConf : KeyFile :=
  [(c!"system", [(c!"compatible", c!"x")]), (c!"slot.rootfs.0", [(c!"device", c!"/dev/a"), (c!"type", c!"raw"), (c!"bootname", c!"A")]),
   (c!"slot.rootfs.1", [(c!"device", c!"/dev/b"), (c!"type", c!"raw"), (c!"bootname", c!"B")])]

def slotA : Slot := { name := c!"rootfs.0", sclass := c!"rootfs", device := c!"/dev/a", typ := c!"raw", bootname := some c!"A" }
def slotB : Slot := { name := c!"rootfs.1", sclass := c!"rootfs", device := c!"/dev/b", typ := c!"raw", bootname := some c!"B" }

def exSlots : List Slot := [slotA, slotB]

theorem ex_loaded : Config.loadSlots {} exConf [] = some exSlots := by decide +kernel

/-- the kernel command line of the running system -/
def exCmdline : Str := c!"quiet rauc.slot=A\n"

def exLoader : BootName.Backends := { loader := c!"uboot" }

def exState : Slot → Select.State := Select.stateOf slotA

theorem ex_booted : Booted exSlots exState slotA where
  config := ⟨{}, exConf, [], (by unfold KeyFile.GroupsNodup; decide +kernel), ex_loaded⟩
  running := by
    have ho : BootName.OnlySlot some c!"A" slotA exSlots := ⟨by decide, by decide, by decide⟩
    have hn : BootName.bootName some exLoader exSlots (some exCmdline) = some c!"A" := by decide +kernel
    refine ⟨some, exLoader, exCmdline, c!"A", hn, ho, ?_⟩
    unfold BootName.runningStates Select.slotStates
    simp only [hn, BootName.findBooted_only ho]
    rfl
  root := rfl

def exWorld : Install.World := { exW with group := Select.targetGroup false exState (fun _ => {}) exSlots }

def exPlans : List Select.Plan := [⟨exImg, .slot slotB .imgToRaw⟩]

theorem ex_installs : Installs exSlots exState exWorld (exChecked [exImg]) none exPlans where
  shared := rfl
  bundle := ⟨exManifest [exImg], rfl, rfl, by decide +kernel⟩
  targets := ⟨_, rfl⟩

theorem ex_reach : Install.Reach exWorld.st0 := by
  refine .init (fun n => ⟨fun h => ?_, fun h => ?_⟩) <;> simp [exWorld, exW, Install.exWorld, Install.exSt] at h

theorem ex_target : System.BootTarget exPlans slotB := ⟨_, List.mem_cons_self, .imgToRaw, rfl, rfl, by decide⟩

theorem ex_plain : Plain exDevice exPlans := by
  intro p hp s hd ht
  simp only [exPlans, List.mem_singleton] at hp
  subst hp
  cases ht
  exact ⟨c!"raw", exData, EndToEnd.ex_honest, EndToEnd.ex_covered⟩

/-- The power fails at any moment of the update: the device boots `A` with unchanged content, or `B` with the three bytes of the author. -/
example (dev dev' : Str → SlotData) (pre : List Install.Ev) (env' : (uboot {}).Env)
    (hi : System.Interrupted (uboot {}) exSlots ubEx (Install.install exWorld {} (exChecked [exImg]) none).1 pre env') (hdev : DevSteps exDevice dev pre dev') :
    ((uboot {}).getPrimary Boot.allRd exSlots env' = some slotA ∧ dev' c!"rootfs.0" = dev c!"rootfs.0") ∨
    ((uboot {}).getPrimary Boot.allRd exSlots env' = some slotB ∧ ∃ d, dev' c!"rootfs.1" = .raw d ∧ d.read 0 3 = [1, 2, 3]) := by
  rcases C100_update (System.atomic_uboot {} ⟨by decide, by decide⟩) ex_booted ex_installs ex_reach ex_target trivial (by decide) exDevice ex_plain
    (fun n dg h => by simp [exWorld, exW, Install.exWorld, Install.exSt] at h) hi hdev with ⟨h1, h2⟩ | ⟨h1, -, h2⟩ | h
  · exact Or.inl ⟨h1, h2 slotA (by decide) (Or.inl rfl)⟩
  · refine Or.inr ⟨h1, ?_⟩
    exact ((h2 _ List.mem_cons_self slotB .imgToRaw rfl c!"raw" exData EndToEnd.ex_honest EndToEnd.ex_covered).1 (Or.inl rfl)).2 (by decide)
  · exact absurd h EndToEnd.ex_no_collision

/-- and the update comes to its end if nothing fails -/
example : (Install.install exWorld {} (exChecked [exImg]) none).2 = .ok := by decide +kernel

/-- a life of the device: the update, interrupted anywhere -/
example (dev dev' : Str → SlotData) (pre : List Install.Ev) (env' : (uboot {}).Env)
    (hi : System.Interrupted (uboot {}) exSlots ubEx (Install.install exWorld {} (exChecked [exImg]) none).1 pre env') (hdev : DevSteps exDevice dev pre dev') :
    Life (uboot {}) anyEnv Create.toy exDevice.sha exSlots exWorld.st0 ubEx dev (Install.restart (Install.replay exWorld.cfg exWorld.st0 pre)) env' dev' :=
  .update exState exWorld {} (exChecked [exImg]) none exPlans slotA slotB EndToEnd.exFiles (fun _ => { slotType := c!"raw" }) pre .start (by decide) ex_booted ex_installs ex_target
    (by
      intro s hs hr
      have : ∀ s ∈ exSlots, (s.parent = none ∧ slotB = s) ∨ s.parent = some slotB.name → s = slotB := by decide
      have := this s hs (hr.imp_right And.left)
      subst this
      exact ⟨_, List.mem_cons_self, slotB, _, rfl, rfl⟩) trivial ex_plain hi hdev

end Rauc.WholeUpdate
