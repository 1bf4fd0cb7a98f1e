import Verif.Props.InstallChecks
import Verif.Props.Plans
import Verif.Props.Handlers
import Verif.Lemmas.System
import Verif.Props.ManifestText
import Verif.Props.Config

/-!
# C106: an update that suits the device is installed, and no other
-/

namespace Rauc.Install

open Rauc.Select (Plan Target ClassInManifest RightVariant)

/-! ## Specification -/

/-- no operation that RAUC asks for fails: mounting, writing, saving the status, hooks and handlers, the boot loader -/
structure Healthy (w : World) : Prop where
  ok : ∀ h, w.ok h = true
  free : ∀ h n, w.stuck h n = false
  artifacts : w.artifactsOk = true

/-- the data of the image is in the bundle: the file or, if it was converted, everything it was converted to; only an image that is installed by a hook needs no file -/
def DataThere (w : World) (i : Image) : Prop :=
  (i.filename = none ∧ i.hooks.install = true) ∨
  ∃ f, i.filename = some f ∧ (w.fileExists f = true ∨ i.converted.getD [] ≠ []) ∧ ∀ x ∈ i.converted.getD [], w.fileExists x = true

/-- the image can be installed to the slot -/
structure SlotFits (w : World) (i : Image) (t : Slot) : Prop where
  writable : t.readonly = false
  handler : i.hooks.install = true ∨ ∃ ty, i.typ = some ty ∧ ty ∈ Handlers.acceptedImages t.typ
  device : w.deviceExists t.device = true
  unused : w.slotMounted t.name = false ∨ (w.cfg.allowMounted t.name = true ∧ i.hooks.install = true)
  data : DataThere w i

/-- a slot the boot loader can start -/
def BootSlot (t : Slot) : Prop := t.parent = none ∧ t.bootname ≠ none

/-- everything in the bundle has its place on the device -/
structure Fits (w : World) (m : Manifest) : Prop where
  nonempty : m.images ≠ []
  slots : ∀ cls, ClassInManifest m.images cls → ∃ i t, i ∈ m.images ∧ i.slotclass = cls ∧ RightVariant w.cfg.variant m.images i ∧ w.group cls = some t ∧ SlotFits w i t
  artifacts : ∀ i ∈ m.images, i.artifact ≠ none → i.slotclass ∈ w.cfg.repos ∧ w.repoExists i.slotclass = true ∧ DataThere w i
  oneBoot : ∀ cls cls' t t', ClassInManifest m.images cls → ClassInManifest m.images cls' → w.group cls = some t → w.group cls' = some t' → BootSlot t → BootSlot t' → cls = cls'

/-- the bundle is one for this device, and it is the one that is asked for -/
structure Suitable (w : World) (a : Args) (c : Checked) (m : Manifest) : Prop where
  pinned : ∀ r, a.requireManifestHash = some r → c.manifest = some m ∧ m.hash = some r
  crypt : c.manifest = some m → m.format = .crypt → c.wasEncrypted = true
  compatible : m.installCheck = true ∨ a.ignoreCompatible = true ∨ w.cfg.compatible = m.compatible
  version : w.cfg.minBundleVersion = none ∨ a.ignoreVersionLimit = true ∨ ∃ lim v, w.cfg.minBundleVersion = some lim ∧ m.version = some v ∧ Semver.lessEqual lim v = some true
  place : m.handlerName ≠ none ∨ Fits w m

/-- the manifest of the bundle: the signed one or, for plain bundles, the one inside -/
def manifestOf (c : Checked) (inner : Option Manifest) : Option Manifest := if c.manifest.isSome then c.manifest else inner

/-- no slot class has two images for the same variant -/
def Unambiguous (m : Manifest) : Prop := ∀ i ∈ m.images, ∀ j ∈ m.images, ClassInManifest m.images i.slotclass → i.slotclass = j.slotclass → i.variant = j.variant → i = j

/-! ## Proofs -/

theorem slotPlan_healthy {w : World} (hw : Healthy w) (m : Manifest) (txn : Str) (img : Image) (s : Slot) (h : List Ev) : (slotPlan w m txn img s h).2 = true := by
  unfold slotPlan
  simp only [hw.ok, hw.free, Bool.false_eq_true, if_false, Bool.not_true, Bool.and_false, Bool.and_true]
  split <;> rfl

theorem plansLoop_healthy {w : World} (hw : Healthy w) (m : Manifest) (txn : Str) (ps : List Plan) (h : List Ev) : (plansLoop w m txn ps h).2 = true := by
  induction ps generalizing h with
  | nil => rfl
  | cons p ps ih =>
    unfold plansLoop
    split
    · dsimp only
      rw [if_pos (slotPlan_healthy hw ..)]
      exact ih _
    · dsimp only
      rw [if_pos (hw.ok _)]
      exact ih _

theorem updateSlots_healthy {w : World} (hw : Healthy w) (m : Manifest) (txn : Str) (ps : List Plan) (b : Option Slot) (h : List Ev) : (updateSlots w m txn ps b h).2 = .ok := by
  unfold updateSlots
  dsimp only
  rw [if_pos (plansLoop_healthy hw ..), if_pos (hw.ok _)]
  split
  · rfl
  · split
    · simp [markActive, hw.ok, ofBool]
    · rfl

theorem preChecks_iff {w : World} {ps : List Plan} : preChecks w ps = .ok ↔ ∀ p ∈ ps, preCheck w p = .ok := by
  induction ps with
  | nil => simp [preChecks]
  | cons p ps ih =>
    unfold preChecks
    cases hp : preCheck w p with
    | ok => simp [ih, hp]
    | failed => simp [hp]
    | abort => simp [hp]

theorem preCheck_files {w : World} {p : Plan} (h : DataThere w p.image) : preCheck w p =
    (match p.target with
      | .slot s _ => if w.deviceExists s.device && mountStatusOk w s p.image then .ok else .failed
      | .repo n => if w.repoExists n then .ok else .failed) := by
  unfold preCheck
  rcases h with ⟨hf, hh⟩ | ⟨f, hf, h1, h2⟩
  · simp only [hf, hh, if_true]; cases p.target <;> rfl
  · have ha : (p.image.converted.getD []).all w.fileExists = true := List.all_eq_true.2 h2
    have hb : (!w.fileExists f && (p.image.converted.getD []).isEmpty) = false := by
      rcases h1 with h1 | h1
      · simp [h1]
      · rw [Bool.and_eq_false_iff]
        right
        cases hc : p.image.converted.getD [] with
        | nil => exact absurd hc h1
        | cons x l => rfl
    simp only [hf, ha, hb, Bool.false_eq_true, if_false, if_true]; cases p.target <;> rfl

theorem preCheck_noFiles {w : World} {p : Plan} (h : ¬ DataThere w p.image) : preCheck w p ≠ .ok := by
  intro hk
  apply h
  unfold preCheck at hk
  dsimp only at hk
  cases hf : p.image.filename with
  | none =>
    cases hh : p.image.hooks.install with
    | true => exact .inl ⟨hf, hh⟩
    | false => simp only [hf, hh, Bool.false_eq_true, if_false] at hk; cases hk
  | some f =>
    simp only [hf] at hk
    by_cases c1 : (!w.fileExists f && (p.image.converted.getD []).isEmpty) = true
    · simp only [c1, if_true] at hk; cases hk
    · by_cases c2 : (p.image.converted.getD []).all w.fileExists = true
      · refine .inr ⟨f, hf, ?_, List.all_eq_true.1 c2⟩
        cases he : w.fileExists f with
        | true => exact .inl rfl
        | false =>
          right
          intro hn
          rw [he, hn] at c1
          exact c1 rfl
      · simp only [c1, c2, if_false] at hk; cases hk

theorem preCheck_iff {w : World} {p : Plan} : preCheck w p = .ok ↔ DataThere w p.image ∧
    (∀ s hd, p.target = .slot s hd → w.deviceExists s.device = true ∧ (w.slotMounted s.name = false ∨ (w.cfg.allowMounted s.name = true ∧ p.image.hooks.install = true))) ∧
    ∀ n, p.target = .repo n → w.repoExists n = true := by
  by_cases hd : DataThere w p.image
  rotate_left
  · exact ⟨fun h => absurd h (preCheck_noFiles hd), fun h => absurd h.1 hd⟩
  rw [preCheck_files hd]
  cases ht : p.target with
  | slot s q =>
    dsimp only
    constructor
    · intro h
      refine ⟨hd, ?_, fun n hn => by cases hn⟩
      split at h
      · rename_i hb
        intro s' hd' he
        cases he
        rw [Bool.and_eq_true] at hb
        refine ⟨hb.1, ?_⟩
        have := hb.2
        unfold mountStatusOk at this
        simpa using this
      · cases h
    · rintro ⟨-, h, -⟩
      obtain ⟨h1, h2⟩ := h s q rfl
      rw [if_pos]
      rw [Bool.and_eq_true]
      refine ⟨h1, ?_⟩
      unfold mountStatusOk
      simpa using h2
  | repo n =>
    dsimp only
    constructor
    · intro h
      refine ⟨hd, (fun _ _ hn => by cases hn), ?_⟩
      intro n' he
      cases he
      split at h
      · assumption
      · cases h
    · rintro ⟨-, -, h⟩
      rw [if_pos (h n rfl)]

theorem bootTarget_iff {p : Plan} {s : Slot} : bootTarget p = some s ↔ (∃ hd, p.target = .slot s hd) ∧ BootSlot s := by
  unfold bootTarget BootSlot
  cases ht : p.target with
  | repo n => simp
  | slot t hd =>
    dsimp only
    constructor
    · intro h
      split at h
      · rename_i hb
        cases h
        refine ⟨⟨hd, rfl⟩, ?_⟩
        simp only [Bool.and_eq_true, Option.isNone_iff_eq_none] at hb
        exact ⟨hb.1, by intro h; rw [h] at hb; simp at hb⟩
      · cases h
    · rintro ⟨⟨q, hq⟩, h1, h2⟩
      cases hq
      rw [if_pos]
      simp only [Bool.and_eq_true, Option.isNone_iff_eq_none]
      exact ⟨h1, Option.isSome_iff_ne_none.2 h2⟩

theorem filterMap_two {α β : Type} {f : α → Option β} {l : List α} {x y : β} {r : List β} (h : l.filterMap f = x :: y :: r) :
    ∃ a b, [a, b].Sublist l ∧ f a = some x ∧ f b = some y := by
  induction l with
  | nil => cases h
  | cons c l ih =>
    cases hc : f c with
    | none =>
      rw [List.filterMap_cons_none hc] at h
      obtain ⟨a, b, hs, h1, h2⟩ := ih h
      exact ⟨a, b, hs.cons _, h1, h2⟩
    | some z =>
      rw [List.filterMap_cons_some hc] at h
      rw [List.cons.injEq] at h
      have : y ∈ l.filterMap f := by rw [h.2]; exact List.mem_cons_self ..
      obtain ⟨b, hb, hy⟩ := List.mem_filterMap.1 this
      exact ⟨c, b, List.Sublist.cons_cons _ (List.singleton_sublist.2 hb), by rw [hc, h.1], hy⟩

theorem filterMap_mem_one {α β : Type} {f : α → Option β} {l : List α} {z : β} (h : l.filterMap f = [z]) {a b : α} (ha : a ∈ l) (hb : b ∈ l) {x y : β} (hx : f a = some x) (hy : f b = some y) : a = b := by
  induction l with
  | nil => cases ha
  | cons c l ih =>
    cases hc : f c with
    | none =>
      rw [List.filterMap_cons_none hc] at h
      rcases List.mem_cons.1 ha with rfl | ha
      · rw [hc] at hx; cases hx
      · rcases List.mem_cons.1 hb with rfl | hb
        · rw [hc] at hy; cases hy
        · exact ih h ha hb
    | some q =>
      rw [List.filterMap_cons_some hc] at h
      have hn : l.filterMap f = [] := by rw [List.cons.injEq] at h; exact h.2
      have hno : ∀ a ∈ l, f a = none := List.filterMap_eq_nil_iff.1 hn
      rcases List.mem_cons.1 ha with rfl | ha
      · rcases List.mem_cons.1 hb with rfl | hb
        · rfl
        · rw [hno b hb] at hy; cases hy
      · rw [hno a ha] at hx; cases hx

theorem matchImage_right {variant : Option Str} {images : List Image} {cls : Str} {i : Image} (hi : i ∈ images) (hc : i.slotclass = cls) (hv : RightVariant variant images i) :
    ∃ j, Select.matchImage variant cls none images = some j ∧ j ∈ images ∧ j.slotclass = cls ∧ RightVariant variant images j := by
  have hv' : i.variant = none ∨ ∃ v, i.variant = some v ∧ variant = some v := by
    rcases hv with h | h
    · exact .inr h
    · exact .inl h.1
  obtain ⟨j, hj⟩ := Select.matchImage_complete variant cls images i hi hc hv' none
  exact ⟨j, hj, Select.matchImage_spec hj⟩

/-- with unambiguous images, the right one is unique -/
theorem right_unique {variant : Option Str} {m : Manifest} (hu : Unambiguous m) {i j : Image} (hi : i ∈ m.images) (hj : j ∈ m.images) (hc : ClassInManifest m.images i.slotclass)
    (he : i.slotclass = j.slotclass) (h1 : RightVariant variant m.images i) (h2 : RightVariant variant m.images j) : i = j := by
  refine hu i hi j hj hc he ?_
  rcases h1 with ⟨v, h1, h1'⟩ | ⟨h1, h1'⟩
  · rcases h2 with ⟨u, h2, h2'⟩ | ⟨h2, h2'⟩
    · rw [h1, h2, ← h1', ← h2']
    · exact absurd h1' (h2' i hi he v h1)
  · rcases h2 with ⟨u, h2, h2'⟩ | ⟨h2, h2'⟩
    · exact absurd h2' (h1' j hj he.symm u h2)
    · rw [h1, h2]

theorem getUpdateHandler_fits {w : World} {i : Image} {t : Slot} (h : SlotFits w i t) : ∃ hd, Handlers.getUpdateHandler i t.typ = some hd :=
  Option.isSome_iff_exists.1 ((Handlers.C48_found_iff i t.typ).2 h.handler)

/-- planning succeeds, and every slot plan fits -/
theorem plans_of_fits {w : World} (hw : Healthy w) {m : Manifest} (hu : Unambiguous m) (hf : Fits w m) : ∃ plans, plansOf w m = some plans ∧ preChecks w plans = .ok ∧ ∃ b, bootMarkSlot plans = some b := by
  have hcl : ∀ cls, ClassInManifest m.images cls → ∃ i t hd, i ∈ m.images ∧ i.slotclass = cls ∧ Select.planClass w.cfg.variant w.group m.images cls = some ⟨i, .slot t hd⟩ ∧ w.group cls = some t ∧ SlotFits w i t := by
    intro cls hc
    obtain ⟨i, t, hi, hic, hr, hg, hs⟩ := hf.slots cls hc
    obtain ⟨j, hj, hjm, hjc, hjr⟩ := matchImage_right hi hic hr
    have hij : i = j := right_unique hu hi hjm (by rw [hic]; exact hc) (by rw [hic, hjc]) hr hjr
    subst hij
    obtain ⟨hd, hh⟩ := getUpdateHandler_fits hs
    refine ⟨i, t, hd, hi, hic, ?_, hg, hs⟩
    unfold Select.planClass
    rw [hj]
    dsimp only
    rw [hic, hg]
    dsimp only
    rw [if_neg (by rw [hs.writable]; simp), hh]
  have hps : ∀ cs : List Str, (∀ c ∈ cs, ClassInManifest m.images c) → ∃ ps, Select.planClasses w.cfg.variant w.group m.images cs = some ps := by
    intro cs
    induction cs with
    | nil => intro _; exact ⟨[], rfl⟩
    | cons c cs ih =>
      intro h
      obtain ⟨ps, hps⟩ := ih (fun x hx => h x (List.mem_cons_of_mem _ hx))
      obtain ⟨i, t, hd, -, -, hp, -⟩ := hcl c (h c (List.mem_cons_self ..))
      exact ⟨⟨i, .slot t hd⟩ :: ps, by simp only [Select.planClasses, hp, hps]⟩
  obtain ⟨ps, hps⟩ := hps (Select.manifestClasses m.images) (fun c hc => (Select.mem_manifestClasses m.images c).1 hc)
  have hart : ∀ l : List Image, (∀ i ∈ l, i.artifact ≠ none → i.slotclass ∈ w.cfg.repos) → ∃ as, Select.planArtifacts w.cfg.repos l = some as := by
    intro l
    induction l with
    | nil => intro _; exact ⟨[], rfl⟩
    | cons i l ih =>
      intro hl
      obtain ⟨as, has⟩ := ih (fun j hj => hl j (List.mem_cons_of_mem _ hj))
      cases hia : i.artifact with
      | none => exact ⟨as, by simp [Select.planArtifacts, hia, has]⟩
      | some a =>
        have := hl i List.mem_cons_self (by rw [hia]; simp)
        exact ⟨⟨i, .repo i.slotclass⟩ :: as, by simp [Select.planArtifacts, hia, has, this]⟩
  obtain ⟨as, has⟩ := hart m.images (fun i hi ha => (hf.artifacts i hi ha).1)
  obtain ⟨h1, h2⟩ := Select.planClasses_spec hps
  obtain ⟨h3, -⟩ := Select.planArtifacts_spec has
  have hne : (ps ++ as).isEmpty = false := by
    obtain ⟨i, hi⟩ := List.exists_mem_of_ne_nil _ hf.nonempty
    rw [Bool.eq_false_iff, ne_eq, List.isEmpty_iff, List.append_eq_nil_iff]
    rintro ⟨rfl, rfl⟩
    cases hia : i.artifact with
    | none =>
      have : i.slotclass ∈ Select.manifestClasses m.images := (Select.mem_manifestClasses m.images _).mpr ⟨i, hi, hia, rfl⟩
      rw [← h1] at this
      exact absurd this (by simp)
    | some a =>
      have : (⟨i, .repo i.slotclass⟩ : Plan) ∈ (m.images.filter (fun i => i.artifact.isSome)).map (fun i => ⟨i, .repo i.slotclass⟩) :=
        List.mem_map_of_mem (f := fun i => (⟨i, .repo i.slotclass⟩ : Plan)) (by simp [List.mem_filter, hi, hia])
      rw [← h3] at this
      exact absurd this (by simp)
  have hcm : ∀ p ∈ ps, ClassInManifest m.images p.image.slotclass := by
    intro p hp
    have : p.image.slotclass ∈ Select.manifestClasses m.images := by rw [← h1]; exact List.mem_map_of_mem (f := fun p : Plan => p.image.slotclass) hp
    exact (Select.mem_manifestClasses m.images _).1 this
  have hps' : ∀ p ∈ ps, ∃ t hd, p.target = .slot t hd ∧ w.group p.image.slotclass = some t ∧ SlotFits w p.image t := by
    intro p hp
    obtain ⟨i, t, hd, -, -, hpl, hg, hs⟩ := hcl _ (hcm p hp)
    rw [h2 p hp] at hpl
    cases hpl
    exact ⟨t, hd, rfl, hg, hs⟩
  have has' : ∀ p ∈ as, ∃ i ∈ m.images, i.artifact ≠ none ∧ p = ⟨i, .repo i.slotclass⟩ := by
    intro p hp
    rw [h3, List.mem_map] at hp
    obtain ⟨i, hi, rfl⟩ := hp
    simp only [List.mem_filter] at hi
    exact ⟨i, hi.1, (by intro h; rw [h] at hi; simp at hi), rfl⟩
  refine ⟨ps ++ as, by simp [plansOf, Select.makePlans, hps, has, hne, hw.artifacts], ?_, ?_⟩
  · rw [preChecks_iff]
    intro p hp
    rw [preCheck_iff]
    rcases List.mem_append.1 hp with hp | hp
    · obtain ⟨t, hd, ht, -, hs⟩ := hps' p hp
      refine ⟨hs.data, ?_, ?_⟩
      · intro s q he
        rw [ht] at he
        cases he
        exact ⟨hs.device, hs.unused⟩
      · intro n he
        rw [ht] at he
        cases he
    · obtain ⟨i, hi, ha, rfl⟩ := has' p hp
      obtain ⟨-, k2, k3⟩ := hf.artifacts i hi ha
      refine ⟨k3, ?_, ?_⟩
      · intro s q he
        cases he
      · intro n he
        cases he
        exact k2
  · unfold bootMarkSlot
    rcases hb : (ps ++ as).filterMap bootTarget with _ | ⟨x, _ | ⟨y, r⟩⟩
    · exact ⟨_, rfl⟩
    · exact ⟨_, rfl⟩
    · exfalso
      have hasn : as.filterMap bootTarget = [] := by
        rw [List.filterMap_eq_nil_iff]
        intro p hp
        obtain ⟨i, -, -, rfl⟩ := has' p hp
        rfl
      rw [List.filterMap_append, hasn, List.append_nil] at hb
      obtain ⟨p, q, hsub, hx, hy⟩ := filterMap_two hb
      obtain ⟨⟨hd, ht⟩, hbx⟩ := bootTarget_iff.1 hx
      obtain ⟨⟨hd', ht'⟩, hby⟩ := bootTarget_iff.1 hy
      have hp : p ∈ ps := hsub.subset (by simp)
      have hq : q ∈ ps := hsub.subset (by simp)
      obtain ⟨t, _, e1, g1, -⟩ := hps' p hp
      obtain ⟨t', _, e2, g2, -⟩ := hps' q hq
      rw [ht] at e1
      rw [ht'] at e2
      cases e1
      cases e2
      have heq := hf.oneBoot _ _ _ _ (hcm p hp) (hcm q hq) g1 g2 hbx hby
      have hnd : (ps.map (fun p => p.image.slotclass)).Nodup := by rw [h1]; exact Select.manifestClasses_nodup _
      have := (hsub.map (fun p : Plan => p.image.slotclass)).nodup hnd
      simp [heq] at this

/-- and the other way round -/
theorem fits_of_plans {w : World} {m : Manifest} {plans : List Plan} {b : Option Slot} (hp : plansOf w m = some plans) (hc : preChecks w plans = .ok) (hb : bootMarkSlot plans = some b) : Fits w m := by
  have hc' := preChecks_iff.1 hc
  obtain ⟨ps, as, rfl, hps, has, hne, -⟩ := Select.makePlans_split hp
  obtain ⟨h1, h2⟩ := Select.planClasses_spec hps
  obtain ⟨h3, h4⟩ := Select.planArtifacts_spec has
  have hcls : ∀ cls, ClassInManifest m.images cls → ∃ p ∈ ps, p.image.slotclass = cls := by
    intro cls h
    have := (Select.mem_manifestClasses m.images cls).2 h
    rw [← h1, List.mem_map] at this
    obtain ⟨p, hp, he⟩ := this
    exact ⟨p, hp, he⟩
  refine ⟨?_, ?_, ?_, ?_⟩
  · intro hn
    rw [hn] at hps has
    cases hps
    cases has
    exact hne rfl
  · intro cls h
    obtain ⟨p, hpm, rfl⟩ := hcls cls h
    obtain ⟨g1, -, g3, t, hd, ht, g4, g5, g6⟩ := Select.planClass_spec (h2 p hpm)
    obtain ⟨k1, k2, -⟩ := preCheck_iff.1 (hc' p (List.mem_append_left _ hpm))
    obtain ⟨k3, k4⟩ := k2 t hd ht
    exact ⟨p.image, t, g1, rfl, g3, g4, g5, (Handlers.C48_found_iff p.image t.typ).1 (by rw [g6]; rfl), k3, k4, k1⟩
  · intro i hi ha
    have hm : (⟨i, .repo i.slotclass⟩ : Plan) ∈ as := by
      rw [h3]
      exact List.mem_map_of_mem (f := fun i => (⟨i, .repo i.slotclass⟩ : Plan)) (List.mem_filter.2 ⟨hi, Option.isSome_iff_ne_none.2 ha⟩)
    obtain ⟨k1, -, k3⟩ := preCheck_iff.1 (hc' _ (List.mem_append_right _ hm))
    exact ⟨h4 i hi ha, k3 _ rfl, k1⟩
  · intro cls cls' t t' hcl hcl' hg hg' hbt hbt'
    obtain ⟨p, hpm, rfl⟩ := hcls cls hcl
    obtain ⟨q, hqm, rfl⟩ := hcls cls' hcl'
    obtain ⟨-, -, -, u, hd, ht, g4, -⟩ := Select.planClass_spec (h2 p hpm)
    obtain ⟨-, -, -, u', hd', ht', g4', -⟩ := Select.planClass_spec (h2 q hqm)
    rw [hg] at g4
    rw [hg'] at g4'
    cases g4
    cases g4'
    have e1 : bootTarget p = some t := bootTarget_iff.2 ⟨⟨hd, ht⟩, hbt⟩
    have e2 : bootTarget q = some t' := bootTarget_iff.2 ⟨⟨hd', ht'⟩, hbt'⟩
    unfold bootMarkSlot at hb
    split at hb
    · rename_i hn
      have : t ∈ (ps ++ as).filterMap bootTarget := List.mem_filterMap.2 ⟨p, List.mem_append_left _ hpm, e1⟩
      rw [hn] at this
      cases this
    · rename_i s hs
      rw [filterMap_mem_one hs (List.mem_append_left _ hpm) (List.mem_append_left _ hqm) e1 e2]
    · cases hb

theorem defaultHandler_healthy {w : World} (hw : Healthy w) {m : Manifest} (hu : Fits w m → Unambiguous m) (txn : Str) (h : List Ev) : (defaultHandler w m txn h).2 = .ok ↔ Fits w m := by
  constructor
  · intro hk
    unfold defaultHandler at hk
    split at hk
    · cases hk
    · rename_i plans hp
      split at hk
      · cases hk
      · rename_i b hb
        cases hc : preChecks w plans with
        | ok => exact fits_of_plans hp hc hb
        | failed => rw [hc] at hk; cases hk
        | abort => rw [hc] at hk; cases hk
  · intro hf
    obtain ⟨plans, hp, hc, b, hb⟩ := plans_of_fits hw (hu hf) hf
    unfold plansOf at hp
    unfold defaultHandler
    rw [hp]
    dsimp only
    rw [hb]
    dsimp only
    rw [hc]
    dsimp only
    cases b with
    | none => exact updateSlots_healthy hw ..
    | some s =>
      dsimp only
      rw [if_pos (hw.ok _)]
      exact updateSlots_healthy hw ..

theorem version_iff {w : World} {a : Args} {m : Manifest} : Semver.checkVersionLimits w.cfg.minBundleVersion a.ignoreVersionLimit m.version = true ↔
    (w.cfg.minBundleVersion = none ∨ a.ignoreVersionLimit = true ∨ ∃ lim v, w.cfg.minBundleVersion = some lim ∧ m.version = some v ∧ Semver.lessEqual lim v = some true) := by
  constructor
  · exact version_guard
  · rintro (h | h | ⟨lim, v, h1, h2, h3⟩)
    · exact Semver.C22_off _ _ _ (.inl h)
    · exact Semver.C22_off _ _ _ (.inr h)
    · unfold Semver.checkVersionLimits
      rw [h1, h2]
      dsimp only
      rw [h3]
      split <;> rfl

theorem handler_healthy {w : World} (hw : Healthy w) (e : Bool) (mk : Bool → Ev) (h : List Ev) : (handler w e mk h).2 = true := by
  unfold handler
  split
  · exact hw.ok _
  · rfl

theorem compatStep_healthy {w : World} (hw : Healthy w) {a : Args} {m : Manifest} (h : List Ev) : (compatStep w a m h).2 = true ↔ (m.installCheck = true ∨ a.ignoreCompatible = true ∨ w.cfg.compatible = m.compatible) := by
  unfold compatStep
  cases hi : m.installCheck with
  | true => simp [hw.ok]
  | false => simp [verifyCompatible]

theorem mounted_healthy {w : World} (hw : Healthy w) {a : Args} {m : Manifest} (hu : Fits w m → Unambiguous m) (h : List Ev) : (mounted w a m h).2 = .ok ↔
    (m.installCheck = true ∨ a.ignoreCompatible = true ∨ w.cfg.compatible = m.compatible) ∧
    (w.cfg.minBundleVersion = none ∨ a.ignoreVersionLimit = true ∨ ∃ lim v, w.cfg.minBundleVersion = some lim ∧ m.version = some v ∧ Semver.lessEqual lim v = some true) ∧
    (m.handlerName ≠ none ∨ Fits w m) := by
  unfold mounted
  dsimp only
  rw [if_neg (by rw [handler_healthy hw]; simp)]
  rw [← compatStep_healthy hw (handler w w.cfg.preHandler .preHandler h).1, ← version_iff]
  by_cases c1 : (compatStep w a m (handler w w.cfg.preHandler .preHandler h).1).2 = true
  rotate_left
  · rw [if_pos (by simpa using c1)]
    exact ⟨(fun h => by cases h), (fun h => absurd h.1 c1)⟩
  rw [if_neg (by simp [c1])]
  by_cases c2 : Semver.checkVersionLimits w.cfg.minBundleVersion a.ignoreVersionLimit m.version = true
  rotate_left
  · rw [if_pos (by simpa using c2)]
    exact ⟨(fun h => by cases h), (fun h => absurd h.2.1 c2)⟩
  rw [if_neg (by simp [c2])]
  have hm : (mainStep w a m (compatStep w a m (handler w w.cfg.preHandler .preHandler h).1).1).2 = .ok ↔ (m.handlerName ≠ none ∨ Fits w m) := by
    unfold mainStep
    cases hn : m.handlerName with
    | none =>
      rw [if_neg (by simp), defaultHandler_healthy hw hu]
      simp
    | some x =>
      rw [if_pos (by simp)]
      simp [hw.ok, ofBool]
  rw [← hm]
  refine ⟨fun hk => ⟨c1, c2, ?_⟩, fun hk => ?_⟩
  · cases hr : (mainStep w a m (compatStep w a m (handler w w.cfg.preHandler .preHandler h).1).1).2 with
    | ok => rfl
    | failed => rw [hr] at hk; cases hk
    | abort => rw [hr] at hk; cases hk
  · rw [hk.2.2]
    simp [handler_healthy hw, ofBool]

/-- a manifest that was read from a file, in which no group occurs twice, and checked -/
def ReadManifest (m : Manifest) : Prop :=
  ∃ kf m0, kf.GroupsNodup ∧ ManifestFile.parse kf = some m0 ∧ (m.images = m0.images ∨ ManifestFile.checkImages m0.images = some m.images)

theorem succeeds_iff {w : World} (hw : Healthy w) (a : Args) (c : Checked) (inner : Option Manifest) (hu : ∀ m, manifestOf c inner = some m → Fits w m → Unambiguous m) :
    (install w a c inner).2 = .ok ↔ ∃ m, manifestOf c inner = some m ∧ Suitable w a c m := by
  have hx : ∀ {o : Outcome} {l l' : List Ev}, (match o with | .abort => (l, o) | o => (l', o)).2 = o := by
    intro o l l'
    cases o <;> rfl
  have hacc : acceptable a c = true ↔ (∀ r, a.requireManifestHash = some r → ∃ m, c.manifest = some m ∧ m.hash = some r) ∧ (∀ m, c.manifest = some m → m.format = .crypt → c.wasEncrypted = true) := by
    unfold acceptable
    rw [Bool.and_eq_true]
    refine and_congr ?_ ?_
    · cases a.requireManifestHash with
      | none => simp
      | some r => cases c.manifest with
        | none => simp
        | some m => simp
    · cases c.manifest with
      | none => simp
      | some m => cases hwe : c.wasEncrypted <;> simp
  have hres : ∀ (m : Manifest) (h : List Ev) (l : List Ev), manifestOf c inner = some m →
      ((match (mounted w a m h).2 with
        | .abort => mounted w a m h
        | o => (l, o)).2 = .ok ↔ (mounted w a m h).2 = .ok) := by
    intro m h l _
    cases ho : (mounted w a m h).2 with
    | ok => simp
    | failed => simp
    | abort => simp [ho]
  unfold install
  rw [if_neg (by simp [hw.ok])]
  dsimp only
  rw [if_neg (by simp [hw.ok])]
  by_cases ha : acceptable a c = true
  rotate_left
  · rw [if_pos (by simpa using ha)]
    refine ⟨(fun h => by cases h), ?_⟩
    rintro ⟨m, hm, hs⟩
    refine absurd (hacc.2 ⟨fun r hr => ⟨m, hs.pinned r hr⟩, fun m' hm' hf => ?_⟩) ha
    have : m' = m := by
      unfold manifestOf at hm
      rw [hm'] at hm
      simpa using hm
    subst this
    exact hs.crypt hm' hf
  · rw [if_neg (by simp [ha])]
    obtain ⟨p1, p2⟩ := hacc.1 ha
    have fin : ∀ m, manifestOf c inner = some m → (c.manifest = some m ∨ c.manifest = none) → ∀ h, ((mounted w a m h).2 = .ok ↔ ∃ m, manifestOf c inner = some m ∧ Suitable w a c m) := by
      intro m hm hor h
      rw [mounted_healthy hw (hu m hm)]
      constructor
      · rintro ⟨k1, k2, k3⟩
        refine ⟨m, hm, ?_, ?_, k1, k2, k3⟩
        · intro r hr
          obtain ⟨m', hm', hh⟩ := p1 r hr
          rcases hor with ho | ho
          · rw [ho] at hm'; cases hm'; exact ⟨ho, hh⟩
          · rw [ho] at hm'; cases hm'
        · intro hcm hf
          exact p2 m hcm hf
      · rintro ⟨m', hm', hs⟩
        rw [hm] at hm'
        cases hm'
        exact ⟨hs.compatible, hs.version, hs.place⟩
    unfold mountBundle
    cases hcm : c.manifest with
    | some m =>
      have hmo : manifestOf c inner = some m := by unfold manifestOf; rw [hcm]; rfl
      dsimp only
      rw [if_pos (hw.ok _)]
      dsimp only
      rw [← fin m hmo (.inl hcm) _]
      exact hres m _ _ hmo
    | none =>
      have hmo : manifestOf c inner = inner := by unfold manifestOf; rw [hcm]; rfl
      dsimp only
      rw [if_pos (hw.ok _)]
      cases hin : inner with
      | none =>
        dsimp only
        refine ⟨(fun h => by cases h), ?_⟩
        rintro ⟨m, hm, -⟩
        rw [← hin, hmo, hin] at hm
        cases hm
      | some m =>
        dsimp only
        have := fin m (by rw [hmo, hin]) (.inr hcm)
        rw [hin] at this
        rw [← this _]
        have hr := hres m
        rw [hin] at hr
        exact hr _ _ (by rw [← hin, hmo, hin])

theorem install_last {w : World} (hw : Healthy w) {a : Args} {c : Checked} {inner : Option Manifest} (hok : (install w a c inner).2 = .ok) : (install w a c inner).1.getLast? = some (.umount true) := by
  unfold install at hok ⊢
  rw [if_neg (by simp [hw.ok])] at hok ⊢
  dsimp only at hok ⊢
  rw [if_neg (by simp [hw.ok])] at hok ⊢
  by_cases ha : acceptable a c = true
  rotate_left
  · rw [if_pos (by simpa using ha)] at hok; cases hok
  rw [if_neg (by simp [ha])] at hok ⊢
  generalize mountBundle w c inner _ = r at hok ⊢
  cases hr : r.2 with
  | none => rw [hr] at hok; cases hok
  | some m =>
    rw [hr] at hok
    dsimp only at hok ⊢
    cases ho : (mounted w a m r.1).2 with
    | ok =>
      dsimp only
      rw [hw.ok, List.getLast?_append]
      rfl
    | failed => rw [ho] at hok; cases hok
    | abort => rw [ho] at hok; dsimp only at hok; rw [ho] at hok; cases hok

theorem parseImage_target {rest : Str} {kvs : ManifestFile.Kvs} {i : Image} (h : ManifestFile.parseImage rest kvs = some i) : ManifestFile.imageTarget i = rest := by
  unfold ManifestFile.parseImage at h
  dsimp only at h
  split at h
  · cases h
  · split at h
    · cases h
    · split at h
      · cases h
      · split at h
        · cases h
        · rw [Option.ite_none_right_eq_some] at h
          obtain ⟨-, h⟩ := h
          cases h
          unfold ManifestFile.imageTarget
          dsimp only
          have h1 := (ManifestFile.cutFirst_spec '.' rest).2
          have h2 := (ManifestFile.cutFirst_spec '/' (ManifestFile.cutFirst '.' rest).1).2
          exact ((congrArg (· ++ _) h2).symm.trans h1.symm)

/-- the images come from different groups -/
theorem parseGroups_nodup {kf : KeyFile} : ∀ {imgs : List Image} {metas : List (Str × ManifestFile.Kvs)}, kf.GroupsNodup → ManifestFile.parseGroups kf = some (imgs, metas) →
    (imgs.map ManifestFile.imageTarget).Nodup ∧ ∀ i ∈ imgs, c!"image." ++ ManifestFile.imageTarget i ∈ kf.groups := by
  induction kf with
  | nil => intro imgs metas _ h; cases h; exact ⟨.nil, by simp⟩
  | cons g l ih =>
    obtain ⟨g, kvs⟩ := g
    intro imgs metas hn h
    unfold KeyFile.GroupsNodup KeyFile.groups at hn
    rw [List.map_cons, List.nodup_cons] at hn
    unfold ManifestFile.parseGroups at h
    cases hl : ManifestFile.parseGroups l with
    | none => rw [hl] at h; cases h
    | some r =>
      obtain ⟨is, ms⟩ := r
      obtain ⟨k1, k2⟩ := ih hn.2 hl
      have up : ∀ i ∈ is, c!"image." ++ ManifestFile.imageTarget i ∈ KeyFile.groups ((g, kvs) :: l) := fun i hi => List.mem_cons_of_mem _ (k2 i hi)
      rw [hl] at h
      dsimp only at h
      split at h
      · cases h; exact ⟨k1, up⟩
      · split at h
        · rename_i rest hs
          split at h
          · cases h
          · rename_i i hi
            cases h
            have ht := parseImage_target hi
            have hg := ManifestFile.stripPrefix_some hs
            refine ⟨?_, ?_⟩
            · rw [List.map_cons, List.nodup_cons]
              refine ⟨fun hm => ?_, k1⟩
              obtain ⟨j, hj, he⟩ := List.mem_map.1 hm
              have := k2 j hj
              rw [he, ht, ← hg] at this
              exact hn.1 this
            · intro j hj
              rcases List.mem_cons.1 hj with rfl | hj
              · rw [ht, ← hg]; exact List.mem_cons_self
              · exact up j hj
        · split at h
          · split at h
            · cases h
            · cases h; exact ⟨k1, up⟩
          · cases h

theorem checkImages_targets {l l' : List Image} (h : ManifestFile.checkImages l = some l') : l'.map ManifestFile.imageTarget = l.map ManifestFile.imageTarget := by
  induction l generalizing l' with
  | nil => cases h; rfl
  | cons i l ih =>
    unfold ManifestFile.checkImages at h
    split at h
    · cases h
    · rename_i i' hi
      split at h
      · cases h
      · rename_i l'' hl
        cases h
        rw [List.map_cons, List.map_cons, ih hl]
        congr 1
        unfold ManifestFile.checkImage at hi
        split at hi
        · cases hi; rfl
        · split at hi
          · cases hi
          · split at hi
            · cases hi
            · split at hi
              · cases hi
              · split at hi
                · cases hi
                · split at hi
                  · cases hi; rfl
                  · cases hi

theorem read_nodup {m : Manifest} (h : ReadManifest m) : (m.images.map ManifestFile.imageTarget).Nodup := by
  obtain ⟨kf, m0, hn, hp, hm⟩ := h
  have key : (m0.images.map ManifestFile.imageTarget).Nodup := by
    unfold ManifestFile.parse at hp
    dsimp only at hp
    split at hp
    · cases hp
    · split at hp
      · cases hp
      · split at hp
        · cases hp
        · split at hp
          · cases hp
          · split at hp
            · cases hp
            · split at hp
              · cases hp
              · rename_i hg
                cases hp
                exact (parseGroups_nodup hn hg).1
  rcases hm with h | h
  · rw [h]; exact key
  · rw [checkImages_targets h]; exact key

/-- images for the same place that are different cannot both have their place on a device whose repositories are not named like its slot classes -/
theorem unambiguous_of_fits {w : World} {m : Manifest} (hr : ReadManifest m) (hd : ∀ cls t, w.group cls = some t → cls ∉ w.cfg.repos) (hf : Fits w m) : Unambiguous m := by
  intro i hi j hj hc he hv
  obtain ⟨-, t, -, -, -, ht, -⟩ := hf.slots _ hc
  have hnr := hd _ _ ht
  have hi0 : i.artifact = none := Classical.byContradiction fun h => hnr (hf.artifacts i hi h).1
  have hj0 : j.artifact = none := Classical.byContradiction fun h => hnr (he ▸ (hf.artifacts j hj h).1)
  have htgt : ManifestFile.imageTarget i = ManifestFile.imageTarget j := by
    unfold ManifestFile.imageTarget
    rw [hi0, hj0, he, hv]
  exact List.inj_on_of_nodup_map (read_nodup hr) hi hj htgt

/-- **C106** If nothing fails on the device, an installation succeeds if and only if the bundle suits it. The manifest is one that was read from a file, and no artifact repository has the name of a
slot class (which the configuration parser guarantees, `C106_disjoint`). -/
theorem C106_succeeds_iff {w : World} (hw : Healthy w) (a : Args) (c : Checked) (inner : Option Manifest) (hr : ∀ m, manifestOf c inner = some m → ReadManifest m)
    (hd : ∀ cls t, w.group cls = some t → cls ∉ w.cfg.repos) :
    (install w a c inner).2 = .ok ↔ ∃ m, manifestOf c inner = some m ∧ Suitable w a c m :=
  succeeds_iff hw a c inner fun m hm hf => unambiguous_of_fits (hr m hm) hd hf

/-- **C106** On a device whose configuration was accepted, no repository has the name of the class of a target. -/
theorem C106_disjoint {E : Config.Env} {kf : KeyFile} {repos : List Str} {slots : List Slot} (hk : kf.GroupsNodup) (h : Config.loadSlots E kf repos = some slots)
    {perSlot : Bool} {state : Slot → Select.State} {status : Slot → SlotStatus} {w : World} (hg : w.group = Select.targetGroup perSlot state status slots) (hrep : w.cfg.repos = repos) :
    ∀ cls t, w.group cls = some t → cls ∉ w.cfg.repos := by
  intro cls t ht
  rw [hg] at ht
  obtain ⟨t1, rfl, -⟩ := Select.targetGroup_facts ht
  rw [hrep]
  exact ((Config.C23_loaded_wf hk h).2.2 t t1).2

/-- **C106** And then it has been done: each slot class of the bundle got its image (written to its end, unless the slot held it already), each artifact is in its repository, the boot loader was told to
start the updated boot slot, and the bundle is unmounted. -/
theorem C106_done {w : World} (hw : Healthy w) {a : Args} {c : Checked} {inner : Option Manifest} {m : Manifest} (hm : manifestOf c inner = some m) (hu : Unambiguous m) (hs : Suitable w a c m)
    (hn : m.handlerName = none) :
    (∀ cls, ClassInManifest m.images cls → ∃ i t, i ∈ m.images ∧ i.slotclass = cls ∧ RightVariant w.cfg.variant m.images i ∧ w.group cls = some t ∧
      (.writeEnd t i true ∈ (install w a c inner).1 ∨
        (t.installSame = false ∧ ∃ pre, pre <+: (install w a c inner).1 ∧ ((w.cur pre).mem t.name).status = some c!"ok" ∧ ((w.cur pre).mem t.name).digest = i.digest)) ∧
      (BootSlot t → w.cfg.activateInstalled = true → .setPrimary t true ∈ (install w a c inner).1)) ∧
    (∀ i ∈ m.images, i.artifact ≠ none → .artifactEnd i.slotclass i true ∈ (install w a c inner).1) ∧
    (install w a c inner).1.getLast? = some (.umount true) := by
  have hok : (install w a c inner).2 = .ok := (succeeds_iff hw a c inner (fun m' hm' _ => by rw [hm] at hm'; cases hm'; exact hu)).2 ⟨m, hm, hs⟩
  have hm' : (c.manifest <|> inner) = some m := by
    unfold manifestOf at hm
    cases hc : c.manifest with
    | none => rw [hc] at hm; exact hm
    | some x => rw [hc] at hm; exact hm
  obtain ⟨h, dh, post, he, -, -, -, hd⟩ := System.install_core w a c inner m hm' hn
  obtain ⟨hd1, hd2⟩ := hd hok
  obtain ⟨evs, plans, e1, hp, hco, hact⟩ := C13_success w m a.transaction h hd2
  rw [hd1] at e1
  have := List.append_cancel_left e1
  subst this
  have hin : ∀ e ∈ dh, e ∈ (install w a c inner).1 := fun e hx => by rw [he]; simp [hx]
  obtain ⟨ps, as, rfl, hps, has, -, -⟩ := Select.makePlans_split hp
  obtain ⟨h1, h2⟩ := Select.planClasses_spec hps
  obtain ⟨h3, -⟩ := Select.planArtifacts_spec has
  refine ⟨?_, ?_, ?_⟩
  · intro cls hcl
    have := (Select.mem_manifestClasses m.images cls).2 hcl
    rw [← h1, List.mem_map] at this
    obtain ⟨p, hpm, rfl⟩ := this
    obtain ⟨g1, -, g3, t, hd, ht, g4, -, -⟩ := Select.planClass_spec (h2 p hpm)
    refine ⟨p.image, t, g1, rfl, g3, g4, ?_, ?_⟩
    · have := hco p (List.mem_append_left _ hpm)
      unfold CarriedOut at this
      rw [ht] at this
      rcases this with k | ⟨k1, pre, k2, k3, k4⟩
      · exact .inl (hin _ k)
      · refine .inr ⟨k1, h ++ pre, ?_, k3, k4⟩
        rw [he, List.append_assoc]
        exact (List.prefix_append_right_inj h).2 (k2.trans (List.prefix_append _ _))
    · intro hb ha
      exact hin _ (hact p t hd (List.mem_append_left _ hpm) ht hb.1 hb.2 ha)
  · intro i hi ha
    have hmem : (⟨i, .repo i.slotclass⟩ : Plan) ∈ as := by
      rw [h3]
      exact List.mem_map_of_mem (f := fun i => (⟨i, .repo i.slotclass⟩ : Plan)) (List.mem_filter.2 ⟨hi, Option.isSome_iff_ne_none.2 ha⟩)
    exact hin _ (hco _ (List.mem_append_right _ hmem))
  · exact install_last hw hok

/-! ## Examples -/

def exChecked : Checked := ⟨some (exManifest [exRoot, exApp]), false⟩

def exW : World := { exWorld with cfg := { compatible := c!"x" } }

theorem exHealthy : Healthy exW := ⟨fun _ => rfl, fun _ _ => rfl, rfl⟩

theorem exClasses {cls : Str} (h : ClassInManifest (exManifest [exRoot, exApp]).images cls) : cls = c!"rootfs" ∨ cls = c!"appfs" := by
  obtain ⟨i, hi, -, rfl⟩ := h
  simp only [exManifest, List.mem_cons, List.not_mem_nil, or_false] at hi
  rcases hi with rfl | rfl
  · exact .inl rfl
  · exact .inr rfl

theorem exFits : Fits exW (exManifest [exRoot, exApp]) := by
  refine ⟨by simp [exManifest], ?_, ?_, ?_⟩
  · intro cls h
    have hs : ∀ i ∈ [exRoot, exApp], RightVariant exW.cfg.variant (exManifest [exRoot, exApp]).images i := by
      intro i hi
      right
      have hv : ∀ j ∈ [exRoot, exApp], j.variant = none := by decide
      exact ⟨hv i hi, fun j hj _ v h => by rw [hv j hj] at h; cases h⟩
    rcases exClasses h with rfl | rfl
    · exact ⟨exRoot, exSlots[1], by simp [exManifest], rfl, hs _ (by simp), rfl, rfl, .inr ⟨c!"raw", rfl, by decide⟩, rfl, .inl rfl, .inr ⟨_, rfl, .inl rfl, by simp [exRoot]⟩⟩
    · exact ⟨exApp, exSlots[3], by simp [exManifest], rfl, hs _ (by simp), rfl, rfl, .inr ⟨c!"raw", rfl, by decide⟩, rfl, .inl rfl, .inr ⟨_, rfl, .inl rfl, by simp [exApp]⟩⟩
  · intro i hi ha
    have hv : ∀ j ∈ [exRoot, exApp], j.artifact = none := by decide
    exact absurd (hv i hi) ha
  · intro cls cls' t t' h h' hg hg' hb hb'
    rcases exClasses h with rfl | rfl <;> rcases exClasses h' with rfl | rfl
    · rfl
    · have : exGroup c!"appfs" = some t' := hg'
      rw [show exGroup c!"appfs" = some exSlots[3] from rfl] at this
      cases this
      exact absurd hb'.2 (by decide)
    · have : exGroup c!"appfs" = some t := hg
      rw [show exGroup c!"appfs" = some exSlots[3] from rfl] at this
      cases this
      exact absurd hb.2 (by decide)
    · rfl

theorem exUnambiguous : Unambiguous (exManifest [exRoot, exApp]) := by
  intro i hi j hj _ hc _
  have : ∀ i ∈ [exRoot, exApp], ∀ j ∈ [exRoot, exApp], i.slotclass = j.slotclass → i = j := by decide
  exact this i hi j hj hc

example : Suitable exW {} exChecked (exManifest [exRoot, exApp]) :=
  ⟨(fun r h => by cases h), (fun _ h => by cases h), .inr (.inr rfl), .inl rfl, .inr exFits⟩

/-- a manifest as it is read from a file -/
def exText (typ : Str) : KeyFile :=
  [(c!"update", [(c!"compatible", c!"x")]), (c!"image.rootfs", [(c!"filename", c!"rootfs.img"), (c!"type", typ), (c!"sha256", c!"d1")]),
   (c!"image.appfs", [(c!"filename", c!"appfs.img"), (c!"type", c!"raw"), (c!"sha256", c!"d2")])]

def exParsed (typ : Str) : Manifest := (ManifestFile.parse (exText typ)).getD (exManifest [])

theorem exRead (typ : Str) (h : (ManifestFile.parse (exText typ)).isSome = true) : ReadManifest (exParsed typ) := by
  obtain ⟨m, hm⟩ := Option.isSome_iff_exists.1 h
  refine ⟨exText typ, m, ?_, hm, .inl ?_⟩
  · show ([c!"update", c!"image.rootfs", c!"image.appfs"] : List Str).Nodup
    decide
  · unfold exParsed; rw [hm]; rfl

theorem exGroup_class (cls : Str) (t : Slot) (_ : exW.group cls = some t) : cls ∉ exW.cfg.repos := by
  show cls ∉ []
  simp

/-- a tar archive cannot be installed to a raw slot: then the installation fails, and the theorem says why -/
example : (install exW {} ⟨some (exParsed c!"raw"), false⟩ none).2 = .ok ∧ (install exW {} ⟨some (exParsed c!"tar"), false⟩ none).2 = .failed ∧
    ¬ Suitable exW {} ⟨some (exParsed c!"tar"), false⟩ (exParsed c!"tar") := by
  have h2 : (install exW {} ⟨some (exParsed c!"tar"), false⟩ none).2 = .failed := by decide +kernel
  refine ⟨by decide +kernel, h2, fun h => ?_⟩
  have := (C106_succeeds_iff exHealthy {} ⟨some (exParsed c!"tar"), false⟩ none (fun m hm => by cases hm; exact exRead _ (by decide +kernel)) exGroup_class).2 ⟨_, rfl, h⟩
  rw [h2] at this
  cases this

/-- with another compatible, the same bundle is not installed -/
example : (install { exW with cfg := { compatible := c!"y" } } {} exChecked none).2 = .failed := by decide

end Rauc.Install
