import Verif.Props.Select

/-!
# C12: install plans
-/

namespace Rauc.Select

/-! ## Specification -/

/-- the slot classes a manifest has images for -/
def ClassInManifest (images : List Image) (c : Str) : Prop := ∃ i ∈ images, i.artifact = none ∧ i.slotclass = c

/-- The image is the right one for the system's variant: it carries the system's variant, or
it carries none and the manifest has no image of that class for the system's variant. -/
def RightVariant (variant : Option Str) (images : List Image) (i : Image) : Prop :=
  (∃ v, i.variant = some v ∧ variant = some v) ∨
  (i.variant = none ∧ ∀ j ∈ images, j.slotclass = i.slotclass → ∀ v, j.variant = some v → variant ≠ some v)

/-- the slot plans of a list of plans -/
def isSlotPlan (p : Plan) : Bool := match p.target with | .slot _ _ => true | .repo _ => false

/-! ## Lemmas -/

theorem matchImage_acc (variant : Option Str) (cls : Str) (is : List Image) (m : Option Image) (i : Image)
    (h : matchImage variant cls m is = some i) :
    (i ∈ is ∧ i.slotclass = cls ∧ ∃ v, i.variant = some v ∧ variant = some v) ∨
    ((∀ j ∈ is, j.slotclass = cls → ∀ v, j.variant = some v → variant ≠ some v) ∧
      (m = some i ∨ (m = none ∧ i ∈ is ∧ i.slotclass = cls ∧ i.variant = none))) := by
  induction is generalizing m with
  | nil => exact Or.inr ⟨by simp, Or.inl h⟩
  | cons a is ih =>
    rw [matchImage] at h
    by_cases hc : a.slotclass = cls
    · rw [if_neg (by simpa using hc)] at h
      cases hv : a.variant with
      | none =>
        rw [hv] at h
        simp only [] at h
        rcases ih _ h with ⟨h1, h2⟩ | ⟨h1, h2⟩
        · exact Or.inl ⟨List.mem_cons_of_mem _ h1, h2⟩
        · refine Or.inr ⟨?_, ?_⟩
          · intro j hj hjc v hjv
            rcases List.mem_cons.mp hj with rfl | hj
            · rw [hv] at hjv; exact absurd hjv (by simp)
            · exact h1 j hj hjc v hjv
          · cases m with
            | none =>
              simp only [Option.getD_none] at h2
              rcases h2 with h2 | ⟨h2, -⟩
              · cases h2
                exact Or.inr ⟨rfl, List.mem_cons_self, hc, hv⟩
              · exact absurd h2 (by simp)
            | some x =>
              simp only [Option.getD_some] at h2
              rcases h2 with h2 | ⟨h2, -⟩
              · exact Or.inl h2
              · exact absurd h2 (by simp)
      | some v =>
        rw [hv] at h
        simp only [] at h
        by_cases hvv : variant = some v
        · rw [if_pos hvv] at h
          cases h
          exact Or.inl ⟨List.mem_cons_self, hc, v, hv, hvv⟩
        · rw [if_neg hvv] at h
          rcases ih _ h with ⟨h1, h2⟩ | ⟨h1, h2⟩
          · exact Or.inl ⟨List.mem_cons_of_mem _ h1, h2⟩
          · refine Or.inr ⟨?_, ?_⟩
            · intro j hj hjc w hjv
              rcases List.mem_cons.mp hj with rfl | hj
              · rw [hv] at hjv; cases hjv; exact hvv
              · exact h1 j hj hjc w hjv
            · rcases h2 with h2 | ⟨h2, h3, h4⟩
              · exact Or.inl h2
              · exact Or.inr ⟨h2, List.mem_cons_of_mem _ h3, h4⟩
    · rw [if_pos hc] at h
      rcases ih _ h with ⟨h1, h2⟩ | ⟨h1, h2⟩
      · exact Or.inl ⟨List.mem_cons_of_mem _ h1, h2⟩
      · refine Or.inr ⟨?_, ?_⟩
        · intro j hj hjc w hjv
          rcases List.mem_cons.mp hj with rfl | hj
          · exact absurd hjc hc
          · exact h1 j hj hjc w hjv
        · rcases h2 with h2 | ⟨h2, h3, h4⟩
          · exact Or.inl h2
          · exact Or.inr ⟨h2, List.mem_cons_of_mem _ h3, h4⟩

theorem matchImage_spec {variant : Option Str} {cls : Str} {is : List Image} {i : Image}
    (h : matchImage variant cls none is = some i) : i ∈ is ∧ i.slotclass = cls ∧ RightVariant variant is i := by
  rcases matchImage_acc variant cls is none i h with ⟨h1, h2, h3⟩ | ⟨h1, h2 | ⟨-, h2, h3, h4⟩⟩
  · exact ⟨h1, h2, Or.inl h3⟩
  · exact absurd h2 (by simp)
  · exact ⟨h2, h3, Or.inr ⟨h4, by rw [h3]; exact h1⟩⟩

theorem matchImage_some (variant : Option Str) (cls : Str) (is : List Image) (x : Image) :
    ∃ i, matchImage variant cls (some x) is = some i := by
  induction is generalizing x with
  | nil => exact ⟨x, rfl⟩
  | cons a is ih =>
    rw [matchImage]
    split
    · exact ih x
    · split
      · exact ih x
      · split
        · exact ⟨a, rfl⟩
        · exact ih x

theorem matchImage_complete (variant : Option Str) (cls : Str) (is : List Image) (i : Image) (hi : i ∈ is)
    (hc : i.slotclass = cls) (hv : i.variant = none ∨ ∃ v, i.variant = some v ∧ variant = some v) (m : Option Image) :
    ∃ j, matchImage variant cls m is = some j := by
  induction is generalizing m with
  | nil => exact absurd hi (by simp)
  | cons a is ih =>
    rw [matchImage]
    by_cases ha : a.slotclass = cls
    · rw [if_neg (by simpa using ha)]
      rcases List.mem_cons.mp hi with rfl | hi
      · rcases hv with hv | ⟨v, hv, hvv⟩
        · rw [hv]
          cases m with
          | none => exact matchImage_some variant cls is i
          | some x => exact matchImage_some variant cls is x
        · rw [hv]
          exact ⟨i, by simp only [if_pos hvv]⟩
      · cases hav : a.variant with
        | none => exact ih hi _
        | some w =>
          by_cases hw : variant = some w
          · exact ⟨a, by simp only [if_pos hw]⟩
          · simp only [if_neg hw]; exact ih hi _
    · rw [if_pos ha]
      rcases List.mem_cons.mp hi with rfl | hi
      · exact absurd hc ha
      · exact ih hi _

theorem planClass_spec {variant : Option Str} {group : Str → Option Slot} {images : List Image} {cls : Str} {p : Plan}
    (h : planClass variant group images cls = some p) :
    p.image ∈ images ∧ p.image.slotclass = cls ∧ RightVariant variant images p.image ∧
      ∃ t hd, p.target = .slot t hd ∧ group cls = some t ∧ t.readonly = false ∧
        Handlers.getUpdateHandler p.image t.typ = some hd := by
  unfold planClass at h
  split at h
  · exact absurd h (by simp)
  · rename_i img himg
    obtain ⟨m1, m2, m3⟩ := matchImage_spec himg
    split at h
    · exact absurd h (by simp)
    · rename_i t ht
      split at h
      · exact absurd h (by simp)
      · rename_i hro
        split at h
        · exact absurd h (by simp)
        · rename_i hd hhd
          cases h
          exact ⟨m1, m2, m3, t, hd, rfl, by rw [← m2]; exact ht, by simpa using hro, hhd⟩

theorem planClasses_spec {variant : Option Str} {group : Str → Option Slot} {images : List Image} {cs : List Str}
    {ps : List Plan} (h : planClasses variant group images cs = some ps) :
    ps.map (fun p => p.image.slotclass) = cs ∧ ∀ p ∈ ps, planClass variant group images p.image.slotclass = some p := by
  induction cs generalizing ps with
  | nil => cases h; exact ⟨rfl, by simp⟩
  | cons c cs ih =>
    rw [planClasses] at h
    split at h
    · exact absurd h (by simp)
    · rename_i p hp
      split at h
      · exact absurd h (by simp)
      · rename_i ps' hps
        cases h
        obtain ⟨i1, i2⟩ := ih hps
        have hc := (planClass_spec hp).2.1
        refine ⟨by rw [List.map_cons, i1, hc], ?_⟩
        intro q hq
        rcases List.mem_cons.mp hq with rfl | hq
        · rw [hc]; exact hp
        · exact i2 q hq

theorem planArtifacts_spec {repos : List Str} {images : List Image} {as : List Plan}
    (h : planArtifacts repos images = some as) :
    as = (images.filter (fun i => i.artifact.isSome)).map (fun i => ⟨i, .repo i.slotclass⟩) ∧
      ∀ i ∈ images, i.artifact ≠ none → i.slotclass ∈ repos := by
  induction images generalizing as with
  | nil => cases h; exact ⟨rfl, by simp⟩
  | cons i is ih =>
    rw [planArtifacts] at h
    split at h
    · rename_i hn
      rw [Option.isNone_iff_eq_none] at hn
      obtain ⟨h1, h2⟩ := ih h
      refine ⟨by rw [h1]; simp [hn], ?_⟩
      intro j hj hja
      rcases List.mem_cons.mp hj with rfl | hj
      · exact absurd hn hja
      · exact h2 j hj hja
    · rename_i hn
      split at h
      · rename_i hr
        split at h
        · exact absurd h (by simp)
        · rename_i ps hps
          cases h
          obtain ⟨h1, h2⟩ := ih hps
          have hsome : i.artifact.isSome = true := by
            cases ha : i.artifact
            · rw [ha] at hn; exact absurd rfl hn
            · rfl
          refine ⟨by rw [h1]; simp [hsome], ?_⟩
          intro j hj hja
          rcases List.mem_cons.mp hj with rfl | hj
          · exact hr
          · exact h2 j hj hja
      · exact absurd h (by simp)

theorem makePlans_split {variant : Option Str} {group : Str → Option Slot} {repos : List Str} {aok : Bool}
    {images : List Image} {plans : List Plan} (h : makePlans variant group repos aok images = some plans) :
    ∃ ps as, plans = ps ++ as ∧ planClasses variant group images (manifestClasses images) = some ps ∧
      planArtifacts repos images = some as ∧ ps ++ as ≠ [] ∧ aok = true := by
  unfold makePlans at h
  split at h
  · exact absurd h (by simp)
  · rename_i ps hps
    split at h
    · exact absurd h (by simp)
    · rename_i hao
      split at h
      · exact absurd h (by simp)
      · rename_i as has
        split at h
        · exact absurd h (by simp)
        · rename_i hne
          cases h
          exact ⟨ps, as, rfl, hps, has, by simpa using hne, by simpa using hao⟩

/-! ## Theorems -/

section
variable (variant : Option Str) (group : Str → Option Slot) (repos : List Str) (aok : Bool) (images : List Image)
  (plans : List Plan)

/-- Each slot class of the manifest has exactly one slot plan, and there are no other slot plans. -/
theorem C12_exactly_once (h : makePlans variant group repos aok images = some plans) (c : Str) :
    (plans.filter (fun p => isSlotPlan p && decide (p.image.slotclass = c))).length =
      (if decide (∃ i ∈ images, i.artifact = none ∧ i.slotclass = c) then 1 else 0) := by
  obtain ⟨ps, as, rfl, hps, has, -, -⟩ := makePlans_split h
  obtain ⟨h1, h2⟩ := planClasses_spec hps
  obtain ⟨h3, -⟩ := planArtifacts_spec has
  have e1 : as.filter (fun p => isSlotPlan p && decide (p.image.slotclass = c)) = [] := by
    rw [List.filter_eq_nil_iff, h3]
    intro p hp
    rw [List.mem_map] at hp
    obtain ⟨i, -, rfl⟩ := hp
    simp [isSlotPlan]
  have e2 : ps.filter (fun p => isSlotPlan p && decide (p.image.slotclass = c)) =
      ps.filter (fun p => decide (p.image.slotclass = c)) := by
    apply List.filter_congr
    intro p hp
    obtain ⟨-, -, -, t, hd, ht, -⟩ := planClass_spec (h2 p hp)
    simp [isSlotPlan, ht]
  have e3 : (ps.filter (fun p => decide (p.image.slotclass = c))).length =
      ((ps.map (fun p => p.image.slotclass)).filter (fun x => decide (x = c))).length := by
    rw [List.filter_map, List.length_map]; rfl
  rw [List.filter_append, e1, List.append_nil, e2, e3, h1]
  have e4 : ((manifestClasses images).filter (fun x => decide (x = c))).length = (manifestClasses images).count c := by
    rw [List.count_eq_countP, List.countP_eq_length_filter]
    congr 1
    apply List.filter_congr
    intro x _
    by_cases hx : x = c <;> simp [hx]
  rw [e4, (manifestClasses_nodup images).count]
  have := mem_manifestClasses images c
  by_cases hm : c ∈ manifestClasses images
  · rw [if_pos hm, if_pos (decide_eq_true (this.mp hm))]
  · rw [if_neg hm, if_neg]
    intro hd
    exact hm (this.mpr (of_decide_eq_true hd))

/-- Every slot plan takes an image of the manifest with the right variant; its target is the member of the target
group for the image's class, not read-only, and the handler is the one for the image and the slot. -/
theorem C12_plan_ok (h : makePlans variant group repos aok images = some plans) (p : Plan) (hp : p ∈ plans)
    (t : Slot) (hd : Handlers.Handler) (ht : p.target = .slot t hd) :
    p.image ∈ images ∧ ClassInManifest images p.image.slotclass ∧ RightVariant variant images p.image ∧
      group p.image.slotclass = some t ∧ t.readonly = false ∧ Handlers.getUpdateHandler p.image t.typ = some hd := by
  obtain ⟨ps, as, rfl, hps, has, -, -⟩ := makePlans_split h
  obtain ⟨h1, h2⟩ := planClasses_spec hps
  obtain ⟨h3, -⟩ := planArtifacts_spec has
  rcases List.mem_append.mp hp with hp | hp
  · obtain ⟨g1, g2, g3, t', hd', ht', g4, g5, g6⟩ := planClass_spec (h2 p hp)
    rw [ht] at ht'
    cases ht'
    refine ⟨g1, ?_, g3, g4, g5, g6⟩
    rw [ClassInManifest, ← mem_manifestClasses, ← h1]
    exact List.mem_map_of_mem (f := fun p => p.image.slotclass) hp
  · rw [h3, List.mem_map] at hp
    obtain ⟨i, -, rfl⟩ := hp
    exact absurd ht (by simp)

/-- Artifact images are planned one by one, in manifest order, after all slot plans, each into its configured
repository. -/
theorem C12_artifacts (h : makePlans variant group repos aok images = some plans) :
    ∃ ps, plans = ps ++ (images.filter (fun i => i.artifact.isSome)).map (fun i => ⟨i, .repo i.slotclass⟩) ∧
      (∀ p ∈ ps, isSlotPlan p = true) ∧ ∀ i ∈ images, i.artifact ≠ none → i.slotclass ∈ repos := by
  obtain ⟨ps, as, rfl, hps, has, -, -⟩ := makePlans_split h
  obtain ⟨h1, h2⟩ := planClasses_spec hps
  obtain ⟨h3, h4⟩ := planArtifacts_spec has
  refine ⟨ps, by rw [h3], ?_, h4⟩
  intro p hp
  obtain ⟨-, -, -, t, hd, ht, -⟩ := planClass_spec (h2 p hp)
  simp [isSlotPlan, ht]

/-- A slot plan never installs an artifact image, if no repository shares its name with a slot class of the manifest. -/
theorem C12_no_artifact_in_slot (h : makePlans variant group repos aok images = some plans)
    (hsep : ∀ i ∈ images, i.artifact ≠ none → ¬ ClassInManifest images i.slotclass)
    (p : Plan) (hp : p ∈ plans) (hs : isSlotPlan p = true) : p.image.artifact = none := by
  cases ht : p.target with
  | repo n => rw [isSlotPlan, ht] at hs; exact absurd hs (by simp)
  | slot t hd =>
    obtain ⟨h1, h2, -⟩ := C12_plan_ok variant group repos aok images plans h p hp t hd ht
    cases ha : p.image.artifact with
    | none => rfl
    | some a => exact absurd h2 (hsep p.image h1 (by rw [ha]; simp))

theorem C12_never_empty (h : makePlans variant group repos aok images = some plans) : plans ≠ [] := by
  obtain ⟨ps, as, rfl, -, -, hne, -⟩ := makePlans_split h
  exact hne

/-- Planning fails if, for some class of the manifest, no image fits the variant, or there is no target, or it is
read-only, or (with a hook-less image) the types do not fit. -/
theorem C12_refused (c : Str) (hc : ClassInManifest images c)
    (hbad : (∀ i ∈ images, i.slotclass = c → ¬ RightVariant variant images i) ∨ group c = none ∨
      (∃ t, group c = some t ∧ (t.readonly = true ∨
        ∀ i ∈ images, i.slotclass = c → Handlers.getUpdateHandler i t.typ = none))) :
    makePlans variant group repos aok images = none := by
  cases h : makePlans variant group repos aok images with
  | none => rfl
  | some plans =>
    exfalso
    have hone := C12_exactly_once variant group repos aok images plans h c
    have hc' : ∃ i ∈ images, i.artifact = none ∧ i.slotclass = c := hc
    rw [if_pos (decide_eq_true hc')] at hone
    obtain ⟨p, hp⟩ := List.exists_mem_of_length_pos (by rw [hone]; exact Nat.one_pos)
    simp only [List.mem_filter, Bool.and_eq_true, decide_eq_true_eq] at hp
    obtain ⟨hpm, hps, hpc⟩ := hp
    cases ht : p.target with
    | repo n => rw [isSlotPlan, ht] at hps; exact absurd hps (by simp)
    | slot t hd =>
      obtain ⟨g1, -, g3, g4, g5, g6⟩ := C12_plan_ok variant group repos aok images plans h p hpm t hd ht
      rw [hpc] at g4
      rcases hbad with hb | hb | ⟨t', ht', hb⟩
      · exact hb _ g1 hpc g3
      · rw [g4] at hb; exact absurd hb (by simp)
      · rw [g4] at ht'; cases ht'
        rcases hb with hb | hb
        · rw [g5] at hb; exact absurd hb (by simp)
        · rw [hb _ g1 hpc] at g6; exact absurd g6 (by simp)

theorem planClasses_complete (hall : ∀ c, ClassInManifest images c →
      (∃ i ∈ images, i.slotclass = c ∧ (i.variant = none ∨ ∃ v, i.variant = some v ∧ variant = some v)) ∧
      ∃ t, group c = some t ∧ t.readonly = false ∧
        ∀ i ∈ images, i.slotclass = c → (Handlers.getUpdateHandler i t.typ).isSome)
    (cs : List Str) (hcs : ∀ c ∈ cs, ClassInManifest images c) :
    ∃ ps, planClasses variant group images cs = some ps := by
  induction cs with
  | nil => exact ⟨[], rfl⟩
  | cons c cs ih =>
    obtain ⟨ps, hps⟩ := ih (fun c hc => hcs c (List.mem_cons_of_mem _ hc))
    obtain ⟨⟨i, hi, hic, hiv⟩, t, ht, hro, hh⟩ := hall c (hcs c List.mem_cons_self)
    obtain ⟨j, hj⟩ := matchImage_complete variant c images i hi hic hiv none
    obtain ⟨j1, j2, -⟩ := matchImage_spec hj
    obtain ⟨hd, hhd⟩ := Option.isSome_iff_exists.mp (hh j j1 j2)
    have : planClass variant group images c = some ⟨j, .slot t hd⟩ := by
      simp [planClass, hj, j2, ht, hro, hhd]
    exact ⟨⟨j, .slot t hd⟩ :: ps, by simp only [planClasses, this, hps]⟩

/-- Conversely, planning succeeds whenever everything fits. -/
theorem C12_accepted (hne : images ≠ []) (hok : aok = true)
    (hall : ∀ c, ClassInManifest images c →
      (∃ i ∈ images, i.slotclass = c ∧ (i.variant = none ∨ ∃ v, i.variant = some v ∧ variant = some v)) ∧
      ∃ t, group c = some t ∧ t.readonly = false ∧
        ∀ i ∈ images, i.slotclass = c → (Handlers.getUpdateHandler i t.typ).isSome)
    (hrep : ∀ i ∈ images, i.artifact ≠ none → i.slotclass ∈ repos) :
    ∃ plans, makePlans variant group repos aok images = some plans := by
  obtain ⟨ps, hps⟩ := planClasses_complete variant group images hall (manifestClasses images)
    (fun c hc => (mem_manifestClasses images c).mp hc)
  have hart : ∀ l : List Image, (∀ i ∈ l, i.artifact ≠ none → i.slotclass ∈ repos) → ∃ as, planArtifacts repos l = some as := by
    intro l
    induction l with
    | nil => intro _; exact ⟨[], rfl⟩
    | cons i l ih =>
      intro hl
      obtain ⟨as, has⟩ := ih (fun j hj => hl j (List.mem_cons_of_mem _ hj))
      cases hia : i.artifact with
      | none => exact ⟨as, by simp [planArtifacts, hia, has]⟩
      | some a =>
        have := hl i List.mem_cons_self (by rw [hia]; simp)
        exact ⟨⟨i, .repo i.slotclass⟩ :: as, by simp [planArtifacts, hia, has, this]⟩
  obtain ⟨as, has⟩ := hart images hrep
  refine ⟨ps ++ as, ?_⟩
  have hnn : (ps ++ as).isEmpty = false := by
    obtain ⟨i, hi⟩ := List.exists_mem_of_ne_nil _ hne
    obtain ⟨h1, -⟩ := planClasses_spec hps
    obtain ⟨h3, -⟩ := planArtifacts_spec has
    rw [Bool.eq_false_iff, ne_eq, List.isEmpty_iff, List.append_eq_nil_iff]
    rintro ⟨rfl, rfl⟩
    cases hia : i.artifact with
    | none =>
      have : i.slotclass ∈ manifestClasses images := (mem_manifestClasses images _).mpr ⟨i, hi, hia, rfl⟩
      rw [← h1] at this
      exact absurd this (by simp)
    | some a =>
      have : (⟨i, .repo i.slotclass⟩ : Plan) ∈ (images.filter (fun i => i.artifact.isSome)).map (fun i => ⟨i, .repo i.slotclass⟩) :=
        List.mem_map_of_mem (f := fun i => (⟨i, .repo i.slotclass⟩ : Plan)) (by simp [List.mem_filter, hi, hia])
      rw [← h3] at this
      exact absurd this (by simp)
  simp [makePlans, hps, hok, has, hnn]

end

/-! ## Concrete cases -/

namespace ExPlans
def img (v : Option Str) (f : Str) : Image :=
  { slotclass := c!"rootfs", variant := v, filename := some f, typ := some (c!"ext4") }
def art : Image := { slotclass := c!"repo", artifact := some (c!"app"), filename := some (c!"app.img") }
def images : List Image := [img none (c!"d.ext4"), img (some (c!"x")) (c!"x.ext4"), art]
def group : Str → Option Slot := fun c => if c = c!"rootfs" then some Ex.r1 else none

example : makePlans (some (c!"x")) group [c!"repo"] true images =
    some [⟨img (some (c!"x")) (c!"x.ext4"), .slot Ex.r1 .imgToRaw⟩, ⟨art, .repo (c!"repo")⟩] := by decide
example : makePlans (some (c!"y")) group [c!"repo"] true images =
    some [⟨img none (c!"d.ext4"), .slot Ex.r1 .imgToRaw⟩, ⟨art, .repo (c!"repo")⟩] := by decide
example : makePlans none group [] true images = none := by decide
example : ∀ i ∈ images, i.artifact ≠ none → ¬ ClassInManifest images i.slotclass := by
  unfold ClassInManifest; decide
end ExPlans

/-- Remark: when a repository has the name of a slot class (nothing in the configuration forbids it), an
artifact image can be chosen for the slot and is then installed twice, in the slot and in the repository. -/
theorem C12_artifact_image_in_slot : ∃ plans p,
    makePlans (some (c!"x")) ExPlans.group [c!"rootfs"] true
      [ExPlans.img none (c!"d.ext4"),
       { slotclass := c!"rootfs", artifact := some (c!"app"), variant := some (c!"x"), filename := some (c!"app.img"),
         hooks := { install := true } }] = some plans ∧
    p ∈ plans ∧ isSlotPlan p = true ∧ p.image.artifact = some (c!"app") := by
  let a : Image := { slotclass := c!"rootfs", artifact := some (c!"app"), variant := some (c!"x"),
                     filename := some (c!"app.img"), hooks := { install := true } }
  exact ⟨[⟨a, .slot Ex.r1 .hookInstall⟩, ⟨a, .repo (c!"rootfs")⟩], ⟨a, .slot Ex.r1 .hookInstall⟩, by decide, by decide,
    by decide, by decide⟩

end Rauc.Select
