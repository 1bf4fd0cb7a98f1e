import Verif.Props.Redundant
import Verif.Props.LifeLongEx

/-!
# C107: no history locks a redundant device out of updates

Joins C103 (what a device boots after anything was offered to it, with power failures at any moment) and C107.
-/

namespace Rauc.LifeLong

open Rauc.Bundle (Crypto Dev)
open Rauc.Create (Tools)
open Rauc.EndToEnd (SlotData Sha)
open Rauc.Boot (Backend allRd)
open Rauc.System (Atomic Bootable)
open Rauc.Select (RightVariant FlatParents ClassInManifest targetGroup stateOf)
open Rauc.Authenticity
open Rauc.Install (World Args Checked install St)
open Rauc.Redundant (Sets Ready Holds)

theorem life_reach {B : Backend} {P : List Slot → B.Env → Slot → Prop} {S : Site} {T : Tools} {sha : Sha} {seen : Bytes → Prop} {devs : Dev → Prop} {trust : Crypto → Bundle.Config → Prop}
    {st0 st : St} {env0 env : B.Env} {dev0 dev : Str → SlotData} (h0 : Install.Sound st0) (h : Life B P S T sha seen devs trust st0 env0 dev0 st env dev) : Install.Reach st := by
  induction h with
  | start => exact .init h0
  | attempt _ hA hi _ ih => exact .installCrash _ _ _ _ _ hA.shared ih hi.prefix

/-- **C107, after any history.** Anybody has offered bundles to a redundant device, any number of times, and the power has failed at any moments (as in C103). The boot loader starts a system `b`; and
whichever bundle that is made for the device (and for `b` running) is installed then: if nothing fails, the installation succeeds, and the boot loader starts another system, which holds its image. -/
theorem C107_always {B : Backend} {P Q : List Slot → B.Env → Slot → Prop} (A : Atomic B P Q) {S : Site} {T : Tools} (hT : ∀ b, (T.sha b).length = 32) {sha : Sha} {seen : Bytes → Prop} {devs : Dev → Prop}
    {trust : Crypto → Bundle.Config → Prop} {releases : Release → Prop} (hR : ∀ K cfg, trust K cfg → OnlyReleases T K cfg releases) (hcare : ∀ R, releases R → Careful S T R) (hL : Layout S)
    (hwf : SlotsWF S.slots) (hf : FlatParents S.slots) (hS : Sets S.slots S.system) {st0 st : St} {env0 env : B.Env} {dev0 dev : Str → SlotData} (h0 : Install.Sound st0)
    (hb0 : Bootable B S.slots st0 env0) (h : Life B P S T sha seen devs trust st0 env0 dev0 st env dev) :
    (∃ b ∈ S.slots, b.parent = none ∧ B.getPrimary allRd S.slots env = some b ∧
      ∀ (w : World) (a : Args) (c : Checked) (inner : Option Manifest) (m : Manifest) (status : Slot → SlotStatus) (env' : B.Env), w.st0 = st → Ready S.slots S.system b w a c inner m →
        w.group = targetGroup false (stateOf b) status S.slots → ClassInManifest m.images S.system → w.cfg.perSlot = false → w.cfg.activateInstalled = true →
        (∀ t ∈ S.slots, t.sclass = S.system → P S.slots env t) → System.EnvSteps B S.slots env (install w a c inner).1 env' →
        (install w a c inner).2 = .ok ∧ ∃ t ∈ S.slots, t.sclass = S.system ∧ t ≠ b ∧ B.getPrimary allRd S.slots env' = some t ∧
          ∃ i ∈ m.images, i.slotclass = S.system ∧ RightVariant w.cfg.variant m.images i ∧ Holds w (install w a c inner).1 t i) ∨
    Broken T seen releases ∨ (∃ d, devs d ∧ OtherDepth releases d) ∨ EndToEnd.Clash sha := by
  rcases C103_life A hT hR hcare hL hwf hf h0 hb0 h with ⟨b, h1, h2, h3, -⟩ | h'
  · refine .inl ⟨b, h1, h2, h3, ?_⟩
    intro w a c inner m status env' hst R hg hsys hshared hact hP hs
    obtain ⟨hok, -⟩ := Redundant.C107_installed hS h2 R false status hg
    obtain ⟨t, t1, t2, -, t3, t4, t5, -⟩ := Redundant.C107_next A hS hwf h2 R status hg hsys (fun s hs hc => (hL.systems s hs hc).2) hshared (hst ▸ life_reach h0 h) hact hP hs
    exact ⟨hok, t, t1, t2, t3, t4, t5⟩
  · exact .inr h'

/-! ## Example: `rootfs` and `appfs`, twice -/

open Rauc.Install (exSlots)

def exTwice : Site := ⟨exSlots, fun _ => { slotType := c!"raw" }, c!"x", none, none, c!"rootfs"⟩

theorem exTwice_layout : Layout exTwice where
  some_system := ⟨exSlots[0], (show exSlots[0] ∈ exSlots by decide), rfl⟩
  systems := (show ∀ s ∈ exSlots, s.sclass = c!"rootfs" → s.parent = none ∧ s.bootname ≠ none by decide)
  classes s hs s' hs' r r' hc hr hr' h := by
    rcases (show ∀ s ∈ exSlots, s.sclass = c!"rootfs" ∨ s.sclass = c!"appfs" by decide) s hs with k | k
    · exact (Redundant.ex_inEvery (.inl k)).only s' hs' hc.symm r' hr'
    · exact (Redundant.ex_inEvery (.inr k)).only s' hs' hc.symm r' hr'
  single s hs s' hs' r hc hr hr' _ := by
    have key : ∀ s ∈ exSlots, ∀ s' ∈ exSlots, s.sclass = s'.sclass → (s.parent = none ↔ s'.parent = none) ∧ (s.parent ≠ none → s.parent = s'.parent → s = s') := by decide
    obtain ⟨k1, k2⟩ := key s hs s' hs' hc
    rcases hr with ⟨h1, rfl⟩ | ⟨h1, -⟩
    · rcases hr' with ⟨-, h2⟩ | ⟨h2, -⟩
      · exact h2
      · rw [k1.1 h1] at h2; cases h2
    · rcases hr' with ⟨h2, -⟩ | ⟨h2, -⟩
      · rw [k1.2 h2] at h1; cases h1
      · exact k2 (by rw [h1]; simp) (h1.trans h2.symm)

/-- the device in the state `st`, running from `b` -/
def exLater (b : Slot) (st : St) : World := { Redundant.exOn b with st0 := st }

/-- after any life of this device, the bundle of the example of C107 can be installed, and the boot loader then starts the other system -/
example {seen : Bytes → Prop} {devs : Dev → Prop} {trust : Crypto → Bundle.Config → Prop} {releases : Release → Prop} (hR : ∀ K cfg, trust K cfg → OnlyReleases Create.toy K cfg releases)
    (hcare : ∀ R, releases R → Careful exTwice Create.toy R) {st : St} {env : (Boot.uboot {}).Env} {dev0 dev : Str → SlotData}
    (h : Life (Boot.uboot {}) Boot.anyEnv exTwice Create.toy EndToEnd.exDevice.sha seen devs trust { Install.exW.st0 with content := fun _ => some none } Boot.ubEx dev0 st env dev) :
    (∃ b ∈ exSlots, (Boot.uboot {}).getPrimary allRd exSlots env = some b ∧ ∀ env', System.EnvSteps (Boot.uboot {}) exSlots env (install (exLater b st) {} ⟨some Redundant.exMan, false⟩ none).1 env' →
      (install (exLater b st) {} ⟨some Redundant.exMan, false⟩ none).2 = .ok ∧ ∃ t ∈ exSlots, t ≠ b ∧ (Boot.uboot {}).getPrimary allRd exSlots env' = some t) ∨
    Broken Create.toy seen releases ∨ (∃ d, devs d ∧ OtherDepth releases d) ∨ EndToEnd.Clash EndToEnd.exDevice.sha := by
  rcases C107_always (System.atomic_uboot {} ⟨by decide, by decide⟩) Create.toy_sound.sha hR hcare exTwice_layout System.exSlots_wf (Select.flat_of (by decide)) Redundant.ex_sets
    (by
      intro n
      constructor <;> intro h <;> simp [Install.exW, Install.exWorld, Install.exSt] at h)
    ⟨exSlots[0], (show exSlots[0] ∈ exSlots by decide), rfl, by decide, fun s _ _ => by simp⟩ h with ⟨b, h1, h2, h3, h4⟩ | h'
  · refine .inl ⟨b, h1, h3, fun env' hs => ?_⟩
    have R := Redundant.ex_ready b
    obtain ⟨k1, t, k2, -, k3, k4, -⟩ := h4 (exLater b st) {} ⟨some Redundant.exMan, false⟩ none Redundant.exMan (fun _ => {}) env' rfl
      ⟨⟨fun _ => rfl, fun _ _ => rfl, rfl⟩, R.manifest, R.read, ⟨R.acceptable.pinned, R.acceptable.crypt, R.acceptable.compatible, R.acceptable.version⟩, R.default, R.repos,
        ⟨R.made.nonempty, fun cls hc => by
          obtain ⟨k1, i, k2, k3, k4, k5⟩ := R.made.images cls hc
          exact ⟨k1, i, k2, k3, k4, fun s g1 g2 g3 => by obtain ⟨f1, f2, f3, f4, f5⟩ := k5 s g1 g2 g3; exact ⟨f1, f2, f3, f4, f5⟩⟩, R.made.artifacts⟩⟩ rfl Redundant.ex_classes rfl rfl (fun _ _ _ => trivial) hs
    exact ⟨k1, t, k2, k3, k4⟩
  · exact .inr h'

end Rauc.LifeLong
