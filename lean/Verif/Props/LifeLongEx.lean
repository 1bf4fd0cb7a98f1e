import Verif.Props.LifeLong
import Verif.Props.AuthenticEx

/-!
# C103: example
-/

namespace Rauc.LifeLong

open Rauc.Bundle (checkBundle)
open Rauc.Create (toy toy_sound loadText openFile)
open Rauc.EndToEnd (SlotData DevSteps)
open Rauc.Boot (uboot ubEx anyEnv)
open Rauc.WholeUpdate (exSlots exState slotA slotB)
open Rauc.Authenticity
open Rauc.Install (install replay restart)

/-- the device of the example of C100; in the factory, `A` was written -/
def exSite (m : Manifest) : Site := ⟨exSlots, fun _ => { slotType := c!"raw" }, m.compatible, none, none, c!"rootfs"⟩

def exSt : Install.St := { WholeUpdate.exWorld.st0 with content := fun _ => some none }

def exWorld (m : Manifest) : Install.World :=
  { WholeUpdate.exWorld with cfg := { WholeUpdate.exWorld.cfg with compatible := m.compatible, minBundleVersion := none, variant := none }, st0 := exSt }

theorem ex_primary : (uboot {}).getPrimary Boot.allRd exSlots ubEx = some slotA := by decide

theorem ex_layout (m : Manifest) : Layout (exSite m) where
  some_system := ⟨slotA, (show slotA ∈ exSlots by decide), rfl⟩
  systems := (show ∀ s ∈ exSlots, s.sclass = c!"rootfs" → s.parent = none ∧ s.bootname ≠ none by decide)
  classes s _ s' hs' r r' _ _ hr' _ := by
    have h : ∀ s ∈ exSlots, s.parent = none ∧ s.sclass = c!"rootfs" := by decide
    rcases hr' with ⟨-, rfl⟩ | ⟨h1, -⟩
    · exact (h _ hs').2
    · rw [(h _ hs').1] at h1; cases h1
  single s hs s' hs' r _ hr hr' _ := by
    have h : ∀ s ∈ exSlots, s.parent = none := by decide
    rcases hr with ⟨-, rfl⟩ | ⟨h1, -⟩
    · rcases hr' with ⟨-, rfl⟩ | ⟨h1, -⟩
      · rfl
      · rw [h _ hs'] at h1; cases h1
    · rw [h _ hs] at h1; cases h1

/-- The hypotheses of `C103_life` are met: the bundle of the author (see C101) is offered to a device whose both slots hold the factory's content, and the installation ends anywhere. -/
example : ∃ exSig m files releases seen d, (∀ R, releases R → Careful (exSite m) toy R ∧ R.files = files) ∧
    ∀ (dev dev' : Str → SlotData) (pre : List Install.Ev) (env' : (uboot {}).Env),
    System.Interrupted (uboot {}) exSlots ubEx (install (exWorld m) {} ⟨some m, false⟩ none).1 pre env' → DevSteps (exDevice files) dev pre dev' →
    Life (uboot {}) anyEnv (exSite m) toy EndToEnd.exDevice.sha seen (· = d) (fun K cfg => K = exK exSig ∧ cfg = Create.toyConfig) exSt ubEx dev
      (restart (replay (exWorld m).cfg exSt pre)) env' dev' ∧
    ((∃ r ∈ exSlots, r.parent = none ∧ (uboot {}).getPrimary Boot.allRd exSlots env' = some r ∧
      ∀ s ∈ exSlots, Select.HasRoot exSlots s r → dev' s.name = dev s.name ∨ Released (exSite m) toy releases s (dev' s.name)) ∨ Broken toy seen releases ∨ OtherDepth releases d) := by
  obtain ⟨exFile, exSig, b, m, files, n, hb, hm, h1, h2, h3, hR, hd, seen, hsh⟩ := ex_meets
  have hcare : ∀ R, exReleases exFile m files n R → Careful (exSite m) toy R ∧ R.files = files := by
    rintro R ⟨h4, -, -, h5⟩
    rw [h5] at h1 h2
    refine ⟨⟨?_, h2, ?_, ?_⟩, h4⟩
    · intro s hs _ _ _
      rw [show R.manifest.images = [exImage] from h1]
      have : ∀ s ∈ exSlots, s.sclass = c!"rootfs" := by decide
      exact ⟨exImage, List.mem_singleton_self _, rfl, (this s hs).symm⟩
    · intro i hi s _ _
      rw [show R.manifest.images = [exImage] from h1, List.mem_singleton] at hi
      subst hi
      exact ⟨c!"raw", ex_covered⟩
    · intro i hi g _
      rw [show R.manifest.images = [exImage] from h1, List.mem_singleton] at hi
      subst hi
      rw [h4]
      exact ⟨_, ex_stated h3⟩
  refine ⟨exSig, m, files, exReleases exFile m files n, seen, exDev b m, hcare, ?_⟩
  intro dev dev' pre env' hi hdev
  have hpl : Install.plansOf (exWorld m) m = some exPlans := by
    unfold Install.plansOf
    rw [h1]
    change Select.makePlans none WholeUpdate.exWorld.group WholeUpdate.exWorld.cfg.repos WholeUpdate.exWorld.artifactsOk [exImage] = some exPlans
    decide +kernel
  have hA : Attempt (uboot {}) anyEnv (exSite m) toy seen (· = exDev b m) (fun K cfg => K = exK exSig ∧ cfg = Create.toyConfig) ubEx (exWorld m) {} ⟨some m, false⟩ none files pre := by
    refine ⟨rfl, ⟨rfl, rfl, rfl⟩, ⟨rfl, rfl⟩, ⟨exState, _, slotA, ex_primary, WholeUpdate.ex_booted, rfl⟩, ?_, ?_, ?_⟩
    · intro _
      exact ⟨_, _, _, ⟨rfl, rfl⟩, rfl, _, _, _, _, _, b, hd, hb, hm.symm, hsh, by intro mi h; cases h⟩
    · intro t _ _
      trivial
    · intro s i hw
      obtain ⟨p, hp, hd', ht, rfl⟩ := (EndToEnd.install_writes (a := {}) (w := exWorld m) (c := ⟨some m, false⟩) (inner := none) rfl h2 hpl _ (hi.prefix.subset hw)).2 s i rfl
      simp only [exPlans, List.mem_singleton] at hp
      subst hp
      exact ⟨c!"r.img", _, rfl, h3⟩
  have hlife := Life.attempt (B := uboot {}) (P := anyEnv) (sha := EndToEnd.exDevice.sha) (dev0 := dev) .start hA hi hdev
  refine ⟨hlife, ?_⟩
  obtain ⟨g1, g2, -⟩ := WholeUpdate.ex_booted.facts
  rcases C103_life (System.atomic_uboot {} ⟨by decide, by decide⟩) toy_sound.sha (releases := exReleases exFile m files n) (by rintro K cfg ⟨rfl, rfl⟩; exact hR) (fun R hr => (hcare R hr).1) (ex_layout m) g1 g2
    (by
      intro n
      constructor <;> intro h <;> simp [exWorld, exSt, WholeUpdate.exWorld, System.exW, Install.exWorld, Install.exSt] at h)
    ⟨slotA, (show slotA ∈ exSlots by decide), by decide, ex_primary, fun s _ _ => by simp [exWorld, exSt]⟩ hlife with h | h | ⟨d, rfl, h⟩ | h
  · exact Or.inl h
  · exact Or.inr (Or.inl h)
  · exact Or.inr (Or.inr h)
  · exact absurd h EndToEnd.ex_no_collision

end Rauc.LifeLong
