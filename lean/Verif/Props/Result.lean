import Verif.Model.Result
import Verif.Props.Redundant
import Verif.Props.Rollout

/-!
# C54, C108: what the poller is told about an installation; and the way of a release from the server to the running system
-/

namespace Rauc.Install

open Rauc.Select (Plan ClassInManifest)

/-! ## The flags -/

theorem loopFlags_ok {w : World} {m : Manifest} {txn : Str} : ∀ {ps : List Plan} {h : List Ev} {f : Bool × Bool}, (plansLoop w m txn ps h).2 = true →
    loopFlags w m txn ps h f = (f.1 || ps.any (fun p => match p.target with | .slot _ _ => true | .repo _ => false), f.2 || ps.any (fun p => match p.target with | .slot _ _ => false | .repo _ => true))
  | [], _, f, _ => by simp [loopFlags]
  | p :: ps, h, f, hk => by
    unfold plansLoop at hk
    unfold loopFlags
    cases ht : p.target with
    | slot s hd =>
      simp only [ht] at hk ⊢
      by_cases hr : (slotPlan w m txn p.image s h).2 = true
      · rw [if_pos hr] at hk ⊢
        rw [loopFlags_ok hk]
        simp [ht]
      · rw [if_neg hr] at hk
        exact absurd hk hr
    | repo n =>
      simp only [ht] at hk ⊢
      by_cases hr : w.ok (h ++ [.artifactStart n p.image]) = true
      · rw [if_pos hr] at hk ⊢
        rw [loopFlags_ok hk]
        simp [ht]
      · rw [if_neg hr] at hk
        cases hk

theorem updateSlots_loop {w : World} {m : Manifest} {txn : Str} {ps : List Plan} {b : Option Slot} {h : List Ev} (hk : (updateSlots w m txn ps b h).2 = .ok) :
    (plansLoop w m txn ps h).2 = true := by
  unfold updateSlots at hk
  by_cases hr : (plansLoop w m txn ps h).2 = true
  · exact hr
  · dsimp only at hk
    rw [if_neg hr] at hk
    cases hk

/-- the plans of a manifest have a slot as target if there is an image for a class, and a repository if there is an artifact -/
theorem plans_any {w : World} {m : Manifest} {plans : List Plan} (hp : Select.makePlans w.cfg.variant w.group w.cfg.repos w.artifactsOk m.images = some plans) :
    ((plans.any (fun p => match p.target with | .slot _ _ => true | .repo _ => false)) = true ↔ ∃ cls, ClassInManifest m.images cls) ∧
    ((plans.any (fun p => match p.target with | .slot _ _ => false | .repo _ => true)) = true ↔ ∃ i ∈ m.images, i.artifact ≠ none) := by
  obtain ⟨ps, as, rfl, hps, has, -, -⟩ := Select.makePlans_split hp
  obtain ⟨h1, h2⟩ := Select.planClasses_spec hps
  obtain ⟨h3, -⟩ := Select.planArtifacts_spec has
  have hS : ∀ p ∈ ps, ∃ t hd, p.target = .slot t hd := fun p hpm => by
    obtain ⟨-, -, -, t, hd, ht, -⟩ := Select.planClass_spec (h2 p hpm)
    exact ⟨t, hd, ht⟩
  have hA : ∀ p ∈ as, ∃ i ∈ m.images, i.artifact ≠ none ∧ p.target = .repo i.slotclass := fun p hpm => by
    rw [h3] at hpm
    obtain ⟨i, hi, rfl⟩ := List.mem_map.1 hpm
    obtain ⟨k1, k2⟩ := List.mem_filter.1 hi
    exact ⟨i, k1, Option.isSome_iff_ne_none.1 k2, rfl⟩
  refine ⟨⟨fun h => ?_, fun ⟨cls, hc⟩ => ?_⟩, ⟨fun h => ?_, fun ⟨i, hi, ha⟩ => ?_⟩⟩
  · obtain ⟨p, hpm, ht⟩ := List.any_eq_true.1 h
    rcases List.mem_append.1 hpm with hpm | hpm
    · have := List.mem_map_of_mem (f := fun p : Plan => p.image.slotclass) hpm
      rw [h1] at this
      exact ⟨_, (Select.mem_manifestClasses m.images _).1 this⟩
    · obtain ⟨i, -, -, e⟩ := hA p hpm
      rw [e] at ht
      cases ht
  · have := (Select.mem_manifestClasses m.images cls).2 hc
    rw [← h1, List.mem_map] at this
    obtain ⟨p, hpm, -⟩ := this
    obtain ⟨t, hd, ht⟩ := hS p hpm
    exact List.any_eq_true.2 ⟨p, List.mem_append_left _ hpm, by rw [ht]⟩
  · obtain ⟨p, hpm, ht⟩ := List.any_eq_true.1 h
    rcases List.mem_append.1 hpm with hpm | hpm
    · obtain ⟨t, hd, e⟩ := hS p hpm
      rw [e] at ht
      cases ht
    · obtain ⟨i, hi, ha, -⟩ := hA p hpm
      exact ⟨i, hi, ha⟩
  · have hmem : (⟨i, .repo i.slotclass⟩ : Plan) ∈ as := by
      rw [h3]
      exact List.mem_map_of_mem (f := fun i => (⟨i, .repo i.slotclass⟩ : Plan)) (List.mem_filter.2 ⟨hi, Option.isSome_iff_ne_none.2 ha⟩)
    exact List.any_eq_true.2 ⟨_, List.mem_append_right _ hmem, rfl⟩

theorem defaultFlags_ok {w : World} {m : Manifest} {txn : Str} {h : List Ev} (hk : (defaultHandler w m txn h).2 = .ok) :
    ((defaultFlags w m txn h).1 = true ↔ ∃ cls, ClassInManifest m.images cls) ∧ ((defaultFlags w m txn h).2 = true ↔ ∃ i ∈ m.images, i.artifact ≠ none) := by
  unfold defaultHandler at hk
  unfold defaultFlags
  cases hp : Select.makePlans w.cfg.variant w.group w.cfg.repos w.artifactsOk m.images with
  | none => rw [hp] at hk; cases hk
  | some plans =>
    obtain ⟨p1, p2⟩ := plans_any hp
    rw [hp] at hk
    dsimp only at hk ⊢
    cases hb : bootMarkSlot plans with
    | none => rw [hb] at hk; cases hk
    | some boot =>
      rw [hb] at hk
      dsimp only at hk ⊢
      cases hc : preChecks w plans with
      | failed => rw [hc] at hk; cases hk
      | abort => rw [hc] at hk; cases hk
      | ok =>
        rw [hc] at hk
        dsimp only at hk ⊢
        cases boot with
        | none =>
          dsimp only at hk ⊢
          rw [loopFlags_ok (updateSlots_loop hk)]
          simpa using ⟨by simpa using p1, by simpa using p2⟩
        | some s =>
          dsimp only at hk ⊢
          by_cases hw : w.ok h = true
          · rw [if_pos hw] at hk ⊢
            rw [loopFlags_ok (updateSlots_loop hk)]
            simpa using ⟨by simpa using p1, by simpa using p2⟩
          · rw [if_neg hw] at hk; cases hk

theorem installFlags_ok {w : World} {a : Args} {c : Checked} {inner : Option Manifest} {m : Manifest} (hm : manifestOf c inner = some m) (hk : (install w a c inner).2 = .ok) :
    (m.handlerName.isSome = true → installFlags w a c inner = (false, false)) ∧
    (m.handlerName = none → ((installFlags w a c inner).1 = true ↔ ∃ cls, ClassInManifest m.images cls) ∧ ((installFlags w a c inner).2 = true ↔ ∃ i ∈ m.images, i.artifact ≠ none)) := by
  unfold install at hk
  unfold installFlags
  by_cases h1 : w.ok [] = true
  · rw [if_neg (by simp [h1])] at hk ⊢
    dsimp only at hk ⊢
    by_cases h2 : w.ok [.extMounts true] = true
    · rw [if_neg (by simp [h2])] at hk ⊢
      by_cases h3 : acceptable a c = true
      · rw [if_neg (by simp [h3])] at hk ⊢
        generalize hr : mountBundle w c inner ([.extMounts true] ++ [.check true]) = r at hk ⊢
        obtain ⟨r1, r2⟩ := r
        cases r2 with
        | none => cases hk
        | some m' =>
          have hmm : m' = m := by
            unfold mountBundle at hr
            unfold manifestOf at hm
            cases hc : c.manifest with
            | some x =>
              rw [hc] at hr hm
              dsimp only at hr
              cases hm
              split at hr <;> cases hr
              rfl
            | none =>
              rw [hc] at hr hm
              dsimp only at hr
              simp only [Option.isSome_none, Bool.false_eq_true, if_false] at hm
              subst hm
              split at hr <;> cases hr
              rfl
          subst hmm
          dsimp only at hk ⊢
          have hk' : (mounted w a m' r1).2 = .ok := by
            cases hx : (mounted w a m' r1).2 with
            | ok => rfl
            | failed => rw [hx] at hk; cases hk
            | abort => rw [hx] at hk; dsimp only at hk; rw [hx] at hk; cases hk
          unfold mounted at hk'
          dsimp only at hk'
          generalize handler w w.cfg.preHandler .preHandler r1 = q1 at hk' ⊢
          by_cases h4 : q1.2 = true
          · rw [if_neg (by simp [h4])] at hk' ⊢
            generalize compatStep w a m' q1.1 = q2 at hk' ⊢
            by_cases h5 : q2.2 = true
            · rw [if_neg (by simp [h5])] at hk' ⊢
              by_cases h6 : Semver.checkVersionLimits w.cfg.minBundleVersion a.ignoreVersionLimit m'.version = true
              · rw [if_neg (by simp [h6])] at hk' ⊢
                refine ⟨fun h => by rw [if_pos h], fun h => ?_⟩
                rw [if_neg (by simp [h])]
                refine defaultFlags_ok ?_
                unfold mainStep at hk'
                rw [if_neg (by simp [h])] at hk'
                cases hx : (defaultHandler w m' a.transaction q2.1).2 with
                | ok => rfl
                | failed => rw [hx] at hk'; dsimp only at hk'; cases hk'
                | abort => rw [hx] at hk'; dsimp only at hk'; cases hk'
              · rw [if_pos (by simp [h6])] at hk'; cases hk'
            · rw [if_pos (by simp [h5])] at hk'; cases hk'
          · rw [if_pos (by simp [h4])] at hk'; cases hk'
      · rw [if_pos (by simp [h3])] at hk; cases hk
    · rw [if_pos (by simp [h2])] at hk; cases hk
  · rw [if_pos (by simp [h1])] at hk; cases hk

/-- **C54** After a successful installation without a custom handler, the criterion `updated-slots` is met if and only if the bundle has an image for a slot class, and `updated-artifacts` if and only if it
has an artifact. -/
theorem C54_updated {w : World} {a : Args} {c : Checked} {inner : Option Manifest} {m : Manifest} (hm : manifestOf c inner = some m) (hn : m.handlerName = none)
    (hk : (install w a c inner).2 = .ok) :
    ((installFlags w a c inner).1 = true ↔ ∃ i ∈ m.images, i.artifact = none) ∧ ((installFlags w a c inner).2 = true ↔ ∃ i ∈ m.images, i.artifact ≠ none) := by
  obtain ⟨h1, h2⟩ := (installFlags_ok hm hk).2 hn
  refine ⟨h1.trans ⟨fun ⟨_, i, hi, ha, _⟩ => ⟨i, hi, ha⟩, fun ⟨i, hi, ha⟩ => ⟨i.slotclass, i, hi, ha, rfl⟩⟩, h2⟩

/-- **C54, finding** An update that is carried out by a custom handler meets neither criterion, whatever it wrote: the device is not rebooted. -/
theorem C54_finding_custom_handler {w : World} {a : Args} {c : Checked} {inner : Option Manifest} {m : Manifest} (hm : manifestOf c inner = some m) (hn : m.handlerName.isSome = true)
    (hk : (install w a c inner).2 = .ok) (cfg : Daemon.Cfg) :
    Daemon.checkReboot cfg 0 (installFlags w a c inner).1 (installFlags w a c inner).2 = false := by
  rw [(installFlags_ok hm hk).1 hn]
  unfold Daemon.checkReboot
  cases cfg.reboot <;> simp

/-- the slots hold the images of the bundle already -/
def exSame : World :=
  { exW with
    group := fun c => (Select.targetGroup false (Select.stateOf exSlots[0]) (fun _ => {}) exSlots c).map fun s => { s with installSame := false }
    st0 := { exW.st0 with mem := fun n => if n = c!"rootfs.1" then { status := some c!"ok", digest := exRoot.digest } else { status := some c!"ok", digest := exApp.digest } } }

/-- **C54, finding** The criterion `updated-slots` is met even if all slots held their images already and nothing was written. -/
theorem C54_finding_unchanged : (install exSame {} exChecked none).2 = .ok ∧ (installFlags exSame {} exChecked none).1 = true ∧
    (install exSame {} exChecked none).1.all (fun e => match e with | .writeStart _ _ _ => false | _ => true) = true := by
  decide +kernel

end Rauc.Install

/-! ## C108: from the server to the running system -/

namespace Rauc.Redundant

open Rauc.Install
open Rauc.Boot (Backend allRd)
open Rauc.Select (targetGroup stateOf ClassInManifest RightVariant)
open Rauc.Daemon (Man Timed longest Idle Wanted Calm FiresAfter final trace acts)

variable {slots : List Slot} {system : Str} {b : Slot}

/-- **C108** A redundant device, running from `b`, polls a server; the server offers a release `pm` that its criteria accept, which was not tried before and is made for this device. Then, within the longest
poll interval, the installation of exactly this release is started; if `install w a c inner` is the installation that was started (bound to the hash of this release), and nothing fails in it, then it
ends with success, the device is rebooted, and the boot loader then starts another system than `b`, which holds the image of the release. -/
theorem C108_release {B : Backend} {P Q : List Slot → B.Env → Slot → Prop} (A : System.Atomic B P Q) (S : Sets slots system) (hwf : SlotsWF slots) (hp : b.parent = none)
    (hboot : ∀ s ∈ slots, s.sclass = system → s.bootname ≠ none)
    {w : World} {a : Args} {c : Checked} {inner : Option Manifest} {m : Manifest} (R : Ready slots system b w a c inner m) (status : Slot → SlotStatus)
    (hg : w.group = targetGroup false (stateOf b) status slots) (hsys : ClassInManifest m.images system) (hshared : w.cfg.perSlot = false) (hr : Reach w.st0) (hact : w.cfg.activateInstalled = true)
    {env0 env' : B.Env} (hP : ∀ t ∈ slots, t.sclass = system → P slots env0 t) (hs : System.EnvSteps B slots env0 (install w a c inner).1 env')
    (cfg : Daemon.Cfg) {t0 t : Int} {before : List Daemon.Ev} {s0 : Daemon.St} (h0 : s0.next ≤ t0 + longest cfg) (hb : Timed t0 before t) (hi : Idle (final cfg s0 before)) {pm : Man}
    (hm : Wanted cfg pm) (ha : (final cfg s0 before).attempted ≠ some pm.hash) (hcrit : ∃ crit, cfg.reboot = some crit ∧ c!"updated-slots" ∈ crit)
    {during after : List Daemon.Ev} {r : Nat} {now : Int} (hc : ∀ ev ∈ during, Calm (final cfg s0 before).manifest pm ev) (hf : FiresAfter (t + longest cfg) during)
    (hd : ∀ n a b z, Daemon.Ev.done n a b z ∉ during) (hq : a.requireManifestHash = some pm.hash) (hres : statusResult (install w a c inner).2 = some r)
    (hc' : ∀ ev ∈ after, Calm (some pm) pm ev) (hf' : FiresAfter (now + 30000000) after) :
    (∃ x y z, acts (trace cfg (final cfg s0 before) (during ++ .done r (installFlags w a c inner).1 (installFlags w a c inner).2 now :: after)) =
        x ++ .start ⟨.poller, some pm.hash⟩ (some pm) :: y ++ .completed 0 :: z ∧ .reboot ∈ z) ∧
    m.hash = some pm.hash ∧
    ∃ t ∈ slots, t.sclass = system ∧ t ≠ b ∧ B.getPrimary allRd slots env' = some t ∧
      ∃ i ∈ m.images, i.slotclass = system ∧ RightVariant w.cfg.variant m.images i ∧ Holds w (install w a c inner).1 t i := by
  have hok := (C107_installed S hp R false status hg).1
  rw [hok] at hres
  cases hres
  have hfl : (installFlags w a c inner).1 = true := by
    obtain ⟨i, h1, h2, -⟩ := hsys
    exact ((C54_updated R.manifest R.default hok).1).2 ⟨i, h1, h2⟩
  have hreb : Daemon.checkReboot cfg 0 (installFlags w a c inner).1 (installFlags w a c inner).2 = true := by
    obtain ⟨crit, h1, h2⟩ := hcrit
    unfold Daemon.checkReboot
    rw [h1, hfl]
    simp [h2]
  refine ⟨Daemon.C105_rollout cfg h0 hb hi hm ha hc hf hd hreb hc' hf', (R.acceptable.pinned _ hq).2, ?_⟩
  obtain ⟨t, h1, h2, -, h3, h4, h5, -⟩ := C107_next A S hwf hp R status hg hsys hboot hshared hr hact hP hs
  exact ⟨t, h1, h2, h3, h4, h5⟩

/-! ### Example -/

/-- the release of the server: the manifest of the bundle has the hash `aa` -/
def exRel : Manifest := { exMan with hash := some c!"aa" }

def exArgs : Args := { requireManifestHash := some c!"aa" }

theorem ex_rel (b : Slot) : Ready exSlots c!"rootfs" b (exOn b) exArgs ⟨some exRel, false⟩ none exRel where
  healthy := ⟨fun _ => rfl, fun _ _ => rfl, rfl⟩
  manifest := rfl
  read := (ex_ready b).read
  acceptable := ⟨(fun _ h => ⟨rfl, h⟩), (ex_ready b).acceptable.crypt ∘ fun _ => rfl, (ex_ready b).acceptable.compatible, .inl rfl⟩
  default := (ex_ready b).default
  repos := (ex_ready b).repos
  made := ⟨(ex_madeFor b).nonempty, (ex_madeFor b).images, (ex_madeFor b).artifacts⟩

/-- all hypotheses are met by a device that runs from `rootfs.0`, and it is `rootfs.1` that is started after the update -/
example (env' : Boot.KvEnv) (h : System.EnvSteps (Boot.uboot {}) exSlots Boot.ubEx (install (exOn exSlots[0]) exArgs ⟨some exRel, false⟩ none).1 env') :
    ∃ t ∈ exSlots, t ≠ exSlots[0] ∧ (Boot.uboot {}).getPrimary allRd exSlots env' = some t := by
  have := C108_release (System.atomic_uboot {} ⟨by decide, by decide⟩) ex_sets System.exSlots_wf (b := exSlots[0]) rfl (by decide) (ex_rel _) _ rfl ex_classes rfl System.exSound rfl
    (fun _ _ _ => trivial) h Daemon.exCfg (t0 := 0) (t := 0) (s0 := {}) (before := [.mark true .good true]) (by decide) (.mark (.nil 0)) ⟨rfl, rfl, ⟨rfl, rfl, rfl⟩, rfl, rfl⟩
    (pm := Daemon.manA) ⟨c!"1.1.0", rfl, by decide, by decide⟩ (by decide) ⟨_, rfl, by decide⟩ (during := Daemon.exDuring) (after := Daemon.exAfter) (r := 0) (now := 100000000001)
    (by
      intro ev h
      simp only [Daemon.exDuring, Daemon.exTick, List.mem_cons, List.not_mem_nil, or_false] at h
      rcases h with rfl | rfl | rfl | rfl | rfl
      · trivial
      · exact ⟨rfl, .inl rfl, rfl⟩
      · exact ⟨rfl, .inl rfl, rfl⟩
      · trivial
      · exact ⟨rfl, .inl rfl, rfl⟩)
    ⟨_, List.mem_cons_of_mem _ (List.mem_cons_of_mem _ (List.mem_cons_of_mem _ (List.mem_cons_of_mem _ (List.mem_cons_self ..)))), by decide⟩
    (by
      intro n a b z h
      unfold Daemon.exDuring Daemon.exTick at h
      rcases h with _ | ⟨_, _ | ⟨_, _ | ⟨_, _ | ⟨_, _ | ⟨_, h⟩⟩⟩⟩⟩
      cases h)
    rfl (by rw [(C107_installed ex_sets rfl (ex_rel _) false _ rfl).1]; rfl)
    (by
      intro ev h
      simp only [Daemon.exAfter, Daemon.exTick, List.mem_cons, List.not_mem_nil, or_false] at h
      rcases h with rfl | rfl | rfl
      · exact ⟨rfl, .inr ⟨rfl, rfl⟩, rfl⟩
      · trivial
      · exact ⟨rfl, .inr ⟨rfl, rfl⟩, rfl⟩)
    ⟨_, List.mem_cons_of_mem _ (List.mem_cons_of_mem _ (List.mem_cons_self ..)), by decide⟩
  obtain ⟨-, -, t, h1, -, h2, h3, -⟩ := this
  exact ⟨t, h1, h2, h3⟩

end Rauc.Redundant
