import Verif.Props.EndToEnd
import Verif.Props.CreateEx

/-!
# C98: a bundle and a device that meet the hypotheses
-/

namespace Rauc.EndToEnd

open Rauc.Install (exSlots exWorld exManifest exSt exGroup)
open Rauc.System (exW exT exChecked exSlots_wf exGroup_ok exSound)
open Rauc.Create (toy shaHex openFile)
open Rauc.Update (Target updateSlot)

/-- Installing is always possible to follow: when each handler that reports success has done its steps, there is a result. -/
theorem devSteps_exist {D : Device} (dev : Str → SlotData) : ∀ {evs : List Install.Ev},
    (∀ s img, Install.Ev.writeEnd s img true ∈ evs → ∃ x o tr y, updateSlot img (D.target s) o = some (tr, true) ∧ Steps (D.source img) false x tr y) →
    ∃ dev', DevSteps D dev evs dev' := by
  intro evs
  induction evs generalizing dev with
  | nil => intro _; exact ⟨dev, .nil dev⟩
  | cons e es ih =>
    intro h
    have step : ∃ d1, DevStep D dev e d1 := by
      cases e with
      | writeEnd s img b =>
        cases b with
        | false => exact ⟨dev, rfl⟩
        | true =>
          obtain ⟨x, o, tr, y, h1, h2⟩ := h s img (by simp)
          refine ⟨fun n => if n = s.name then y else dev n, fun n hn => if_neg hn, Or.inr ⟨x, o, tr, h1, ?_⟩⟩
          show Steps _ _ _ _ (if s.name = s.name then y else dev s.name)
          rw [if_pos rfl]; exact h2
      | writeStart s _ _ => exact ⟨dev, fun _ _ => rfl⟩
      | customStart => exact ⟨dev, trivial⟩
      | customEnd b => exact ⟨dev, trivial⟩
      | _ => exact ⟨dev, rfl⟩
    obtain ⟨d1, h1⟩ := step
    obtain ⟨d2, h2⟩ := ih d1 (fun s img hm => h s img (List.mem_cons_of_mem _ hm))
    exact ⟨d2, .cons h1 h2⟩

/-- the author's directory of the example of C61 -/
def exFiles : Create.Dir := Create.exDir c!"verity"

def exData : Bytes := (openFile exFiles c!"r.img").getD []

/-- the entry that `rauc bundle` puts into the manifest -/
def exImg : Image := { Create.exImage with digest := some (shaHex toy exData), size := exData.length }

def exDevice : Device := ⟨toy, ⟨fun b => b.foldr (fun x n => n * 256 + x.toNat) 1, fun b => b.length = 4096⟩, exFiles, fun _ => { slotType := c!"raw" }⟩

def exPlans : List Select.Plan := [⟨exImg, .slot exT .imgToRaw⟩]

theorem ex_update : System.Update exSlots exW (exChecked [exImg]) none (exManifest [exImg]) exPlans :=
  ⟨exSlots_wf, exGroup_ok, rfl, exSound, rfl, rfl, by decide +kernel⟩

theorem ex_covered : Covered exImg { slotType := c!"raw" } c!"raw" where
  typ := rfl
  kind := by decide
  name := by intro f h; cases h; decide
  noInstall := rfl
  noPost := rfl
  noResize := rfl
  slot := by decide

theorem ex_honest : Honest exDevice exImg exData := ⟨⟨c!"r.img", rfl, by decide +kernel⟩, rfl, rfl⟩

/-- what happens on the slot when the image is written -/
theorem ex_written : ∃ x o tr y, updateSlot exImg { slotType := c!"raw" } o = some (tr, true) ∧ Steps (exDevice.source exImg) false x tr y := by
  refine ⟨.raw (fun _ => 7), fun _ _ => true, [(.openDev, true), (.checkSize, true), (.copyRaw, true), (.closeDev, true)],
    .raw (Copy.apply (fun _ => 7) (Copy.copyRaw Copy.noFail Copy.goodIo exData.length 0 512 0 exData).ops), by decide +kernel, ?_⟩
  rw [ex_honest.source]
  have hok := Copy.copyRaw_total Copy.goodIo (fun _ => ⟨by simp [Copy.goodIo], rfl⟩) 0 512 0 (Or.inl rfl) exData
  exact .cons rfl (.cons rfl (.cons (fun _ => ⟨_, _, _, _, rfl, hok, rfl⟩) (.cons rfl (.nil _ _))))

theorem ex_sha {a b : Bytes} (hl : a.length = b.length) (h : exDevice.sha.hash a = exDevice.sha.hash b) : a = b := by
  induction a generalizing b with
  | nil => cases b with
    | nil => rfl
    | cons y b => simp at hl
  | cons x a ih => cases b with
    | nil => simp at hl
    | cons y b =>
      simp only [exDevice, List.foldr_cons] at h ih
      have hx := x.toNat_lt
      have hy := y.toNat_lt
      have h1 : x = y := UInt8.toNat_inj.1 (by omega)
      rw [h1, ih (by simpa using hl) (by omega)]

theorem ex_no_collision : ¬ EndToEnd.Clash exDevice.sha := by
  rintro ⟨a, b, h1, h2, h3, h4⟩
  change a.length = 4096 at h2
  change b.length = 4096 at h3
  exact h1 (ex_sha (h2.trans h3.symm) h4)

theorem ex_ok : (Install.install exW {} (exChecked [exImg]) none).2 = .ok := by decide +kernel

/-- The example: the three bytes of the author are on `rootfs.1` after the installation, whatever was there before. -/
example (dev : Str → SlotData) : ∃ dev', DevSteps exDevice dev (Install.install exW {} (exChecked [exImg]) none).1 dev' ∧
    ∃ d, dev' c!"rootfs.1" = .raw d ∧ d.read 0 3 = [1, 2, 3] := by
  have hw := install_writes (a := {}) ex_update.manifest ex_update.noHandler ex_update.plans
  obtain ⟨dev', hd⟩ := devSteps_exist (D := exDevice) dev (evs := (Install.install exW {} (exChecked [exImg]) none).1) (by
    intro s img hm
    obtain ⟨p, hp, k, hk, rfl⟩ := (hw _ hm).2 s img rfl
    simp only [exPlans, List.mem_singleton] at hp
    subst hp
    exact ex_written)
  refine ⟨dev', hd, ?_⟩
  rcases C98_install ex_update exDevice (p := ⟨exImg, .slot exT .imgToRaw⟩) (by simp [exPlans]) rfl ex_honest ex_covered ex_ok hd with ⟨h, -⟩ | h
  · exact (h (Or.inr (by decide +kernel))).2 (by decide)
  · exact absurd h ex_no_collision

/-- and the status file does not lie about it, should the power fail at any moment -/
example (dev dev' : Str → SlotData) (pre : List Install.Ev) (hpre : pre <+: (Install.install exW {} (exChecked [exImg]) none).1)
    (hdev : DevSteps exDevice dev pre dev') : Life toy exDevice.sha c!"rootfs.1" (Install.restart (Install.replay exW.cfg exW.st0 pre)) dev' :=
  .install (files := exFiles) (target := fun _ => { slotType := c!"raw" }) pre true
    (.start (by intro n; constructor <;> intro h <;> simp [exW, exWorld, exSt] at h) (by intro dg h; simp [exW, exWorld, exSt] at h)) ex_update
    (by
      intro p hp s hd ht _
      simp only [exPlans, List.mem_singleton] at hp
      subst hp
      cases ht
      exact ⟨c!"raw", exData, ex_honest, ex_covered⟩) hpre hdev

/-- an archive on an ext4 slot: formatted, mounted, unpacked, unmounted -/
example (t : Create.Tools) (data : Bytes) (tree : Create.Dir) (h : t.tar data = some tree) (x : SlotData) :
    ∃ tr, updateSlot { slotclass := c!"rootfs", typ := some c!"tar", filename := some c!"rootfs.tar" } { slotType := c!"ext4" } (fun _ _ => true) = some (tr, true) ∧
      Steps ⟨t, ⟨fun _ => 0, fun _ => True⟩, data, data.length⟩ false x tr (.fs (some .ext4) tree) := by
  refine ⟨[(.mkfs .ext4, true), (.mount, true), (.untar, true), (.umount, true)], by decide +kernel, ?_⟩
  refine .cons (y := .fs (some .ext4) []) (fun _ => rfl) (.cons (y := .fs (some .ext4) []) (fun _ _ _ => rfl) (.cons (y := .fs (some .ext4) tree) ?_ (.cons (fun _ _ _ => rfl) (.nil _ _))))
  intro _ k hk
  cases hk
  exact ⟨tree, h, rfl⟩

end Rauc.EndToEnd
