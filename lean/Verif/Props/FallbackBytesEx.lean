import Verif.Props.FallbackBytes
import Verif.Props.LifeLongEx

/-!
# C110: example
-/

namespace Rauc.LifeLong

open Rauc.Create (toy toy_sound loadText openFile)
open Rauc.EndToEnd (SlotData DevSteps)
open Rauc.Boot (uboot ubEx anyEnv ubootSh)
open Rauc.WholeUpdate (exSlots exState slotA slotB)
open Rauc.System (exNames ubootLoader UbZero BootSlot)
open Rauc.Authenticity
open Rauc.Install (install replay restart)

theorem ex_boots : ubootSh exNames ubEx = (some c!"A", System.exDay1) := by
  have h1 : (ubootSh exNames ubEx).1 = some c!"A" := by decide
  have h2 : (ubootSh exNames ubEx).2 = System.exDay1 := rfl
  rw [← h1, ← h2]

/-- The hypotheses of `C110_fallback` are met: U-Boot's script boots `A`, the bundle of the author (see C101) is offered, and the installation ends anywhere; then the script chooses. -/
example : ∃ exSig m files releases seen d, (∀ R, releases R → (Careful (exSite m) toy R ∧ OnlySystem (exSite m) R) ∧ R.files = files) ∧
    ∀ (dev dev' : Str → SlotData) (pre : List Install.Ev) (env' : (uboot {}).Env),
    System.Interrupted (uboot {}) exSlots System.exDay1 (install (exWorld m) {} ⟨some m, false⟩ none).1 pre env' → DevSteps (exDevice files) dev pre dev' →
    Life2 (uboot {}) anyEnv (ubootLoader exNames) (exSite m) toy EndToEnd.exDevice.sha seen (· = d) (fun K cfg => K = exK exSig ∧ cfg = Create.toyConfig) exSt ubEx dev
      (some slotA) (restart (replay (exWorld m).cfg exSt pre)) env' dev' ∧
    ((∀ r env'', BootSlot exSlots r → ubootLoader (cfg := {}) exNames exSlots (some r) env' env'' → FromRelease (exSite m) toy releases dev dev' r) ∨ Broken toy seen releases ∨ OtherDepth releases d) := by
  obtain ⟨exFile, exSig, b, m, files, n, hb, hm, h1, h2, h3, hR, hd, seen, hsh⟩ := ex_meets
  have hcare : ∀ R, exReleases exFile m files n R → (Careful (exSite m) toy R ∧ OnlySystem (exSite m) R) ∧ R.files = files := by
    rintro R ⟨h4, -, -, h5⟩
    rw [h5] at h1 h2
    refine ⟨⟨⟨?_, h2, ?_, ?_⟩, ?_⟩, h4⟩
    · intro s hs _ _ _
      rw [show R.manifest.images = [exImage] from h1]
      have : ∀ s ∈ exSlots, s.sclass = c!"rootfs" := by decide
      exact ⟨exImage, List.mem_singleton_self _, rfl, (this s hs).symm⟩
    · intro i hi s _ _
      rw [show R.manifest.images = [exImage] from h1, List.mem_singleton] at hi
      subst hi
      exact ⟨c!"raw", ex_covered⟩
    · intro i hi g _
      rw [show R.manifest.images = [exImage] from h1, List.mem_singleton] at hi
      subst hi
      rw [h4]
      exact ⟨_, ex_stated h3⟩
    · intro i _ s _ _ r hr _
      have hall : ∀ s ∈ exSlots, s.sclass = c!"rootfs" ∧ s.parent = none := by decide
      rcases hr with ⟨-, rfl⟩ | ⟨-, h⟩
      · exact (hall r (by assumption)).1
      · exact (hall r h).1
  refine ⟨exSig, m, files, exReleases exFile m files n, seen, exDev b m, hcare, ?_⟩
  intro dev dev' pre env' hi hdev
  have hpl : Install.plansOf (exWorld m) m = some exPlans := by
    unfold Install.plansOf
    rw [h1]
    change Select.makePlans none WholeUpdate.exWorld.group WholeUpdate.exWorld.cfg.repos WholeUpdate.exWorld.artifactsOk [exImage] = some exPlans
    decide +kernel
  have hA : Try (uboot {}) anyEnv (exSite m) toy seen (· = exDev b m) (fun K cfg => K = exK exSig ∧ cfg = Create.toyConfig) slotA System.exDay1 (exWorld m) {} ⟨some m, false⟩ none files pre := by
    refine ⟨rfl, ⟨rfl, rfl, rfl⟩, ⟨rfl, rfl⟩, ⟨exState, _, WholeUpdate.ex_booted, rfl⟩, ?_, ?_, ?_⟩
    · intro _
      exact ⟨_, _, _, ⟨rfl, rfl⟩, rfl, _, _, _, _, _, b, hd, hb, hm.symm, hsh, by intro mi h; cases h⟩
    · intro t _ _
      trivial
    · intro s i hw
      obtain ⟨p, hp, hd', ht, rfl⟩ := (EndToEnd.install_writes (a := {}) (w := exWorld m) (c := ⟨some m, false⟩) (inner := none) rfl h2 hpl _ (hi.prefix.subset hw)).2 s i rfl
      simp only [exPlans, List.mem_singleton] at hp
      subst hp
      exact ⟨c!"r.img", _, rfl, h3⟩
  have hboot : Life2 (uboot {}) anyEnv (ubootLoader exNames) (exSite m) toy EndToEnd.exDevice.sha seen (· = exDev b m) (fun K cfg => K = exK exSig ∧ cfg = Create.toyConfig) exSt ubEx dev
      (some slotA) (restart exSt) System.exDay1 dev :=
    .boot .start ⟨(show slotA ∈ exSlots by decide), by decide, by decide⟩ ⟨slotA, c!"A", rfl, by decide, ex_boots⟩
  have hlife := Life2.attempt (B := uboot {}) (P := anyEnv) (L := ubootLoader exNames) (w := exWorld m) (sha := EndToEnd.exDevice.sha) (dev0 := dev) hboot hA hi hdev (.inl rfl)
  refine ⟨hlife, ?_⟩
  obtain ⟨g1, g2, -⟩ := WholeUpdate.ex_booted.facts
  rcases C110_fallback (System.marked_uboot_zero {}) toy_sound.sha (releases := exReleases exFile m files n) (by rintro K cfg ⟨rfl, rfl⟩; exact hR) (fun R hr => (hcare R hr).1) (ex_layout m) g1 g2
    (System.fair_uboot {} exNames exSlots)
    (by
      intro n
      constructor <;> intro h <;> simp [exSt, WholeUpdate.exWorld, System.exW, Install.exWorld, Install.exSt] at h)
    (fun r _ => .inl (fun s _ _ => by simp [exSt])) hlife with h | h | ⟨d, rfl, h⟩ | h
  · exact Or.inl (fun r env'' hr hl => h.2.1 r env'' hr hl)
  · exact Or.inr (Or.inl h)
  · exact Or.inr (Or.inr h)
  · exact absurd h EndToEnd.ex_no_collision

end Rauc.LifeLong
