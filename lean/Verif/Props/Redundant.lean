import Verif.Props.Succeeds
import Verif.Props.WholeUpdate

/-!
# C107: a redundant device can always be updated, from either side, whatever its history

Joins C09-C11 (which slots are targets), C106 (an update that suits the device is installed) and C68 (what the boot loader then starts).
-/

namespace Rauc.Redundant

open Rauc.Select (targetGroup stateOf InBootedGroup HasRoot FlatParents UniqueNames ClassInManifest RightVariant Candidate State)
open Rauc.Install
open Rauc.Boot (Backend allRd)

/-! ## Specification -/

/-- A device with two or more slots of the class `system` that a system is started from; the other slots belong to one of them, or to something else. -/
structure Sets (slots : List Slot) (system : Str) : Prop where
  names : UniqueNames slots
  parents : FlatParents slots
  two : ∃ r ∈ slots, ∃ r' ∈ slots, r ≠ r' ∧ r.sclass = system ∧ r'.sclass = system
  systems : ∀ s ∈ slots, s.sclass = system → s.parent = none

/-- Every system has a slot of this class, and there is none elsewhere. -/
structure InEverySet (slots : List Slot) (system cls : Str) : Prop where
  has : ∀ r ∈ slots, r.sclass = system → ∃ s ∈ slots, s.sclass = cls ∧ HasRoot slots s r
  only : ∀ s ∈ slots, s.sclass = cls → ∀ r, HasRoot slots s r → r.sclass = system

/-- The bundle is made for this device: it has images for classes that every system has, each of which could be installed to any slot of its class that is not in use by the running system `b`. -/
structure MadeFor (slots : List Slot) (system : Str) (b : Slot) (w : World) (m : Manifest) : Prop where
  nonempty : m.images ≠ []
  images : ∀ cls, ClassInManifest m.images cls → InEverySet slots system cls ∧
    ∃ i ∈ m.images, i.slotclass = cls ∧ RightVariant w.cfg.variant m.images i ∧ ∀ s ∈ slots, s.sclass = cls → ¬ InBootedGroup slots b s → SlotFits w i s
  artifacts : ∀ i ∈ m.images, i.artifact ≠ none → i.slotclass ∈ w.cfg.repos ∧ w.repoExists i.slotclass = true ∧ DataThere w i

/-! ## Proofs -/

variable {slots : List Slot} {system : Str} {b : Slot}

/-- the target of a class that every system has -/
theorem target (S : Sets slots system) (hp : b.parent = none) (perSlot : Bool) (status : Slot → SlotStatus) {cls : Str} (hc : InEverySet slots system cls) :
    ∃ t, targetGroup perSlot (stateOf b) status slots cls = some t ∧ t ∈ slots ∧ t.sclass = cls ∧ ¬ InBootedGroup slots b t := by
  obtain ⟨r, hr, r', hr', hne, hc1, hc2⟩ := S.two
  have hin : ∃ q ∈ slots, q ≠ b ∧ q.sclass = system := by
    by_cases h : r = b
    · exact ⟨r', hr', fun h' => hne (h.trans h'.symm), hc2⟩
    · exact ⟨r, hr, h, hc1⟩
  obtain ⟨q, hq, hqb, hqc⟩ := hin
  have hcand : Candidate (stateOf b) slots system q := by
    refine ⟨hq, ?_, hqc⟩
    unfold stateOf
    rw [if_neg hqb, if_neg (by rw [S.systems q hq hqc]; simp)]
  obtain ⟨r0, h0⟩ := Select.select_complete (perSlot := perSlot) (stateOf b) status system slots q hcand none
  obtain ⟨k1, k2, k3⟩ := Select.C11_selected_is_candidate _ status system slots perSlot r0 h0
  obtain ⟨s, hs, hsc, hsr⟩ := hc.has r0 k1 k3
  obtain ⟨t, ht⟩ := Select.C10_complete perSlot (stateOf b) status slots S.names S.parents s r0 hs hsr (by rw [k3]; exact h0)
  rw [hsc] at ht
  refine ⟨t, ht, ?_⟩
  obtain ⟨t1, t2, ρ, t3, -, t4, -⟩ := Select.C10_consistent perSlot _ status slots S.names S.parents cls t ht
  refine ⟨t1, t2, ?_⟩
  have hρ : ρ ≠ b := by
    rintro rfl
    simp [stateOf] at t4
  rintro (rfl | ⟨r', h1, h2⟩)
  · exact hρ (t3.unique S.names (Or.inl ⟨hp, rfl⟩))
  · have : r' = b := h2.unique S.names (Or.inl ⟨hp, rfl⟩)
    subst this
    exact hρ (t3.unique S.names h1)

/-- **C107** Whichever system of a redundant device is running, and whatever is recorded about the slots: a bundle that is made for the device has its place on it, and never in the running system. -/
theorem C107_place (S : Sets slots system) (hp : b.parent = none) {w : World} {m : Manifest} (perSlot : Bool) (status : Slot → SlotStatus)
    (hg : w.group = targetGroup perSlot (stateOf b) status slots) (hm : MadeFor slots system b w m) :
    Fits w m ∧ ∀ cls t, w.group cls = some t → ¬ InBootedGroup slots b t := by
  refine ⟨⟨hm.nonempty, ?_, hm.artifacts, ?_⟩, ?_⟩
  · intro cls hc
    obtain ⟨h1, i, hi, hic, hr, hf⟩ := hm.images cls hc
    obtain ⟨t, ht, t1, t2, t3⟩ := target S hp perSlot status h1
    exact ⟨i, t, hi, hic, hr, by rw [hg]; exact ht, hf t t1 t2 t3⟩
  · intro cls cls' t t' hc hc' ht ht' hb hb'
    rw [hg] at ht ht'
    obtain ⟨t1, t2, -⟩ := Select.targetGroup_facts ht
    obtain ⟨t1', t2', -⟩ := Select.targetGroup_facts ht'
    have e := (hm.images cls hc).1.only t t1 t2 t (Or.inl ⟨hb.1, rfl⟩)
    have e' := (hm.images cls' hc').1.only t' t1' t2' t' (Or.inl ⟨hb'.1, rfl⟩)
    rw [← t2, ← t2', e, e']
  · intro cls t ht
    rw [hg] at ht
    obtain ⟨t1, t2, ρ, t3, -, t4, -⟩ := Select.C10_consistent perSlot _ status slots S.names S.parents cls t ht
    have hρ : ρ ≠ b := by
      rintro rfl
      simp [stateOf] at t4
    rintro (rfl | ⟨r', h1, h2⟩)
    · exact hρ (t3.unique S.names (Or.inl ⟨hp, rfl⟩))
    · have : r' = b := h2.unique S.names (Or.inl ⟨hp, rfl⟩)
      subst this
      exact hρ (t3.unique S.names h1)

/-- the bundle is acceptable here: the right one, for this device, not too old -/
structure Acceptable (w : World) (a : Args) (c : Checked) (m : Manifest) : Prop where
  pinned : ∀ r, a.requireManifestHash = some r → c.manifest = some m ∧ m.hash = some r
  crypt : c.manifest = some m → m.format = .crypt → c.wasEncrypted = true
  compatible : m.installCheck = true ∨ a.ignoreCompatible = true ∨ w.cfg.compatible = m.compatible
  version : w.cfg.minBundleVersion = none ∨ a.ignoreVersionLimit = true ∨ ∃ lim v, w.cfg.minBundleVersion = some lim ∧ m.version = some v ∧ Semver.lessEqual lim v = some true

/-- the slot holds the image now: it was written to its end, or the slot held it already, which was recorded -/
def Holds (w : World) (evs : List Ev) (t : Slot) (i : Image) : Prop :=
  .writeEnd t i true ∈ evs ∨
    (t.installSame = false ∧ ∃ pre, pre <+: evs ∧ ((w.cur pre).mem t.name).status = some c!"ok" ∧ ((w.cur pre).mem t.name).digest = i.digest)

/-- everything that is needed, `b` being the running system: the bundle is the one that was asked for, read from a file, acceptable and made for this device, and nothing fails -/
structure Ready (slots : List Slot) (system : Str) (b : Slot) (w : World) (a : Args) (c : Checked) (inner : Option Manifest) (m : Manifest) : Prop where
  healthy : Healthy w
  manifest : manifestOf c inner = some m
  read : ReadManifest m
  acceptable : Acceptable w a c m
  default : m.handlerName = none
  repos : ∀ s ∈ slots, s.sclass ∉ w.cfg.repos
  made : MadeFor slots system b w m

theorem installed_aux (S : Sets slots system) (hp : b.parent = none) {w : World} {a : Args} {c : Checked} {inner : Option Manifest} {m : Manifest}
    (R : Ready slots system b w a c inner m) (perSlot : Bool) (status : Slot → SlotStatus) (hg : w.group = targetGroup perSlot (stateOf b) status slots) :
    (install w a c inner).2 = .ok ∧
    ∀ cls, ClassInManifest m.images cls → ∃ i t, i ∈ m.images ∧ i.slotclass = cls ∧ RightVariant w.cfg.variant m.images i ∧ w.group cls = some t ∧ t ∈ slots ∧ t.sclass = cls ∧
      ¬ InBootedGroup slots b t ∧ Holds w (install w a c inner).1 t i := by
  obtain ⟨hf, hout⟩ := C107_place S hp perSlot status hg R.made
  have hu : Unambiguous m := unambiguous_of_fits R.read (fun cls t ht => by
    rw [hg] at ht
    obtain ⟨t1, rfl, -⟩ := Select.targetGroup_facts ht
    exact R.repos t t1) hf
  have ha := R.acceptable
  have hs : Suitable w a c m := ⟨ha.pinned, ha.crypt, ha.compatible, ha.version, .inr hf⟩
  refine ⟨(succeeds_iff R.healthy a c inner (fun m' hm' _ => by have := R.manifest; rw [this] at hm'; cases hm'; exact hu)).2 ⟨m, R.manifest, hs⟩, ?_⟩
  intro cls hc
  obtain ⟨h, -, -⟩ := C106_done R.healthy R.manifest hu hs R.default
  obtain ⟨i, t, h1, h2, h3, h4, h5, -⟩ := h cls hc
  have h4' := h4
  rw [hg] at h4'
  obtain ⟨t1, t2, -⟩ := Select.targetGroup_facts h4'
  exact ⟨i, t, h1, h2, h3, h4, t1, t2, hout cls t h4, h5⟩

/-- **C107** If nothing fails, the installation succeeds; every class of the bundle has its image afterwards, in a slot of that class outside of the running system. -/
theorem C107_installed (S : Sets slots system) (hp : b.parent = none) {w : World} {a : Args} {c : Checked} {inner : Option Manifest} {m : Manifest}
    (R : Ready slots system b w a c inner m) (perSlot : Bool) (status : Slot → SlotStatus) (hg : w.group = targetGroup perSlot (stateOf b) status slots) :
    (install w a c inner).2 = .ok ∧
    ∀ cls, ClassInManifest m.images cls → ∃ i t, i ∈ m.images ∧ i.slotclass = cls ∧ RightVariant w.cfg.variant m.images i ∧ t ∈ slots ∧ t.sclass = cls ∧
      ¬ InBootedGroup slots b t ∧ Holds w (install w a c inner).1 t i := by
  obtain ⟨h1, h2⟩ := installed_aux S hp R perSlot status hg
  refine ⟨h1, fun cls hc => ?_⟩
  obtain ⟨i, t, k1, k2, k3, -, k4⟩ := h2 cls hc
  exact ⟨i, t, k1, k2, k3, k4⟩

/-- **C107** After such an update of the system itself, the boot loader starts another system of the device than the one which was running; it holds its image, and all that was said holds for that one
again. -/
theorem C107_next {B : Backend} {P Q : List Slot → B.Env → Slot → Prop} (A : System.Atomic B P Q) (S : Sets slots system) (hwf : SlotsWF slots) (hp : b.parent = none)
    {w : World} {a : Args} {c : Checked} {inner : Option Manifest} {m : Manifest} (R : Ready slots system b w a c inner m) (status : Slot → SlotStatus)
    (hg : w.group = targetGroup false (stateOf b) status slots) (hsys : ClassInManifest m.images system)
    (hboot : ∀ s ∈ slots, s.sclass = system → s.bootname ≠ none) (hshared : w.cfg.perSlot = false) (hr : Reach w.st0) (hact : w.cfg.activateInstalled = true)
    {env0 env' : B.Env} (hP : ∀ t ∈ slots, t.sclass = system → P slots env0 t) (hs : System.EnvSteps B slots env0 (install w a c inner).1 env') :
    ∃ t ∈ slots, t.sclass = system ∧ t.parent = none ∧ t ≠ b ∧ B.getPrimary allRd slots env' = some t ∧
      (∃ i ∈ m.images, i.slotclass = system ∧ RightVariant w.cfg.variant m.images i ∧ Holds w (install w a c inner).1 t i) ∧
      ∀ (w' : World) (m' : Manifest) (perSlot : Bool) (status' : Slot → SlotStatus), w'.group = targetGroup perSlot (stateOf t) status' slots → MadeFor slots system t w' m' → Fits w' m' := by
  obtain ⟨hf, hout⟩ := C107_place S hp false status hg R.made
  obtain ⟨hok, hall⟩ := installed_aux S hp R false status hg
  obtain ⟨i, t, i1, i2, i3, g4, t1, t2, t3, t4⟩ := hall system hsys
  have hu : Unambiguous m := unambiguous_of_fits R.read (fun cls t ht => by
    rw [hg] at ht
    obtain ⟨t1, rfl, -⟩ := Select.targetGroup_facts ht
    exact R.repos t t1) hf
  obtain ⟨plans, hpl, -, -⟩ := plans_of_fits R.healthy hu hf
  have hmo' : (c.manifest <|> inner) = some m := by
    have hmo := R.manifest
    unfold manifestOf at hmo
    cases hc : c.manifest with
    | none => rw [hc] at hmo; exact hmo
    | some x => rw [hc] at hmo; exact hmo
  have U : System.Update slots w c inner m plans := ⟨hwf, fun cls s hcs => by
    rw [hg] at hcs
    exact ⟨(Select.targetGroup_facts hcs).1, (Select.targetGroup_facts hcs).2.1⟩, hshared, hr, hmo', R.default, hpl⟩
  have hmp := hpl
  unfold plansOf at hmp
  obtain ⟨ps, as, rfl, hps, -, -, -⟩ := Select.makePlans_split hmp
  obtain ⟨h1, h2⟩ := Select.planClasses_spec hps
  have hin : system ∈ ps.map (fun p => p.image.slotclass) := by
    rw [h1]
    exact (Select.mem_manifestClasses m.images system).2 hsys
  obtain ⟨p, hpp, hpc⟩ := List.mem_map.1 hin
  obtain ⟨-, -, -, t', hd, ht, g4', -⟩ := Select.planClass_spec (h2 p hpp)
  rw [hpc, g4] at g4'
  cases g4'
  have tp := S.systems t t1 t2
  have hbt : System.BootTarget (ps ++ as) t := ⟨p, List.mem_append_left _ hpp, hd, ht, tp, hboot t t1 t2⟩
  obtain ⟨hprim, -⟩ := System.C68_success A U hbt (hP t t1 t2) hact hs hok
  refine ⟨t, t1, t2, tp, fun h => t3 (Or.inl h), hprim, ⟨i, i1, i2, i3, t4⟩, ?_⟩
  intro w' m' ps' st' hg' hm'
  exact (C107_place S tp ps' st' hg' hm').1

/-! ## Examples: `rootfs` and `appfs`, twice -/

theorem ex_sets : Sets exSlots c!"rootfs" where
  names := by unfold UniqueNames; decide
  parents := Select.flat_of (by decide)
  two := ⟨exSlots[0], by decide, exSlots[1], by decide, by decide, rfl, rfl⟩
  systems := by decide

theorem ex_inEvery {cls : Str} (h : cls = c!"rootfs" ∨ cls = c!"appfs") : InEverySet exSlots c!"rootfs" cls := by
  have key : ∀ cls ∈ [c!"rootfs", c!"appfs"], (∀ r ∈ exSlots, r.sclass = c!"rootfs" → ∃ s ∈ exSlots, s.sclass = cls ∧ ((s.parent = none ∧ r = s) ∨ s.parent = some r.name)) ∧
      ∀ s ∈ exSlots, s.sclass = cls → (s.parent = none → s.sclass = c!"rootfs") ∧ ∀ r ∈ exSlots, s.parent = some r.name → r.sclass = c!"rootfs" := by decide
  obtain ⟨k1, k2⟩ := key cls (by rcases h with rfl | rfl <;> simp)
  refine ⟨fun r hr hc => ?_, fun s hs hc r hr => ?_⟩
  · obtain ⟨s, hs, hsc, h⟩ := k1 r hr hc
    exact ⟨s, hs, hsc, h.imp_right fun h => ⟨h, hr⟩⟩
  · rcases hr with ⟨h1, rfl⟩ | ⟨h1, h2⟩
    · exact (k2 r hs hc).1 h1
    · exact (k2 s hs hc).2 r h2 h1

/-- the device running from `b` -/
def exOn (b : Slot) : World := { exW with group := targetGroup false (stateOf b) (fun _ => {}) exSlots }

/-- the bundle, as it is read from a file -/
def exMan : Manifest := exParsed c!"raw"

theorem exMan_facts : (∀ i ∈ exMan.images, (i.slotclass = c!"rootfs" ∨ i.slotclass = c!"appfs") ∧ i.variant = none ∧ i.artifact = none ∧ i.typ = some c!"raw" ∧ i.filename.isSome = true ∧
    i.converted = none) ∧ (∃ i ∈ exMan.images, i.slotclass = c!"rootfs") ∧ ∃ i ∈ exMan.images, i.slotclass = c!"appfs" := by
  decide +kernel

theorem ex_madeFor (b : Slot) : MadeFor exSlots c!"rootfs" b (exOn b) exMan where
  nonempty := by
    obtain ⟨-, ⟨i, h, -⟩, -⟩ := exMan_facts
    exact List.ne_nil_of_mem h
  images := by
    rintro cls ⟨i0, h1, -, h2⟩
    obtain ⟨hk, hr, ha⟩ := exMan_facts
    have hs : ∀ i ∈ exMan.images, RightVariant (exOn b).cfg.variant exMan.images i := fun i hi =>
      .inr ⟨(hk i hi).2.1, fun j hj _ v h => by rw [(hk j hj).2.1] at h; cases h⟩
    have fit : ∀ i ∈ exMan.images, ∀ s ∈ exSlots, SlotFits (exOn b) i s := by
      have hsl : ∀ s ∈ exSlots, s.readonly = false ∧ c!"raw" ∈ Handlers.acceptedImages s.typ := by decide
      intro i hi s hs
      obtain ⟨-, -, -, t1, t3, t4⟩ := hk i hi
      obtain ⟨f, hff⟩ := Option.isSome_iff_exists.1 t3
      obtain ⟨u1, u2⟩ := hsl s hs
      exact ⟨u1, .inr ⟨_, t1, u2⟩, rfl, .inl rfl, .inr ⟨f, hff, .inl rfl, by rw [t4]; simp⟩⟩
    have hcls : cls = c!"rootfs" ∨ cls = c!"appfs" := h2 ▸ (hk i0 h1).1
    refine ⟨ex_inEvery hcls, ?_⟩
    rcases hcls with rfl | rfl
    · obtain ⟨i, hi, hc⟩ := hr
      exact ⟨i, hi, hc, hs i hi, fun s h1 _ _ => fit i hi s h1⟩
    · obtain ⟨i, hi, hc⟩ := ha
      exact ⟨i, hi, hc, hs i hi, fun s h1 _ _ => fit i hi s h1⟩
  artifacts := fun i hi ha => absurd (exMan_facts.1 i hi).2.2.1 ha

theorem ex_ready (b : Slot) : Ready exSlots c!"rootfs" b (exOn b) {} ⟨some exMan, false⟩ none exMan where
  healthy := ⟨fun _ => rfl, fun _ _ => rfl, rfl⟩
  manifest := rfl
  read := exRead _ (by decide +kernel)
  acceptable := ⟨(fun r h => by cases h), (fun _ h => by
    have : exMan.format ≠ .crypt := by decide +kernel
    exact absurd h this), .inr (.inr (show c!"x" = exMan.compatible by decide +kernel)), .inl rfl⟩
  default := by decide +kernel
  repos := fun s _ => by show s.sclass ∉ []; simp
  made := ex_madeFor b

theorem ex_classes : ClassInManifest exMan.images c!"rootfs" := by
  obtain ⟨hk, ⟨i, hi, hc⟩, -⟩ := exMan_facts
  exact ⟨i, hi, (hk i hi).2.2.1, hc⟩

/-- from either side, the bundle is installed to the other one -/
example : (install (exOn exSlots[0]) {} ⟨some exMan, false⟩ none).2 = .ok ∧ (install (exOn exSlots[1]) {} ⟨some exMan, false⟩ none).2 = .ok :=
  ⟨(C107_installed ex_sets rfl (ex_ready exSlots[0]) false _ rfl).1, (C107_installed ex_sets rfl (ex_ready exSlots[1]) false _ rfl).1⟩

/-- the running system is `rootfs.0`; after the update, the boot loader starts another one -/
example (env' : Boot.KvEnv) (h : System.EnvSteps (Boot.uboot {}) exSlots Boot.ubEx (install (exOn exSlots[0]) {} ⟨some exMan, false⟩ none).1 env') :
    ∃ t ∈ exSlots, t ≠ exSlots[0] ∧ (Boot.uboot {}).getPrimary allRd exSlots env' = some t := by
  obtain ⟨t, t1, -, -, t2, t3, -⟩ := C107_next (System.atomic_uboot {} ⟨by decide, by decide⟩) ex_sets System.exSlots_wf rfl (ex_ready exSlots[0]) _ rfl ex_classes
    (by decide) rfl System.exSound rfl (fun _ _ _ => trivial) h
  exact ⟨t, t1, t2, t3⟩

/-- with a single system there is no place for an update -/
example : targetGroup false (stateOf exSlots[0]) (fun _ => {}) [exSlots[0]] c!"rootfs" = none := by decide

end Rauc.Redundant
