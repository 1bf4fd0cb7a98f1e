import Verif.Model.Handlers

/-!
# C48: handler choice is determined by image and slot type
-/

namespace Rauc.Handlers

/-! ## Specification -/

/-- The supported combinations, by slot type: which image types may be installed there. -/
def acceptedImages (slotType : Str) : List Str :=
  if slotType = c!"raw" then
    [c!"raw", c!"ext4", c!"vfat", c!"squashfs", c!"raw-caibx", c!"ext4-caibx", c!"vfat-caibx", c!"squashfs-caibx"]
  else if slotType = c!"ext4" then
    [c!"ext4", c!"raw", c!"tar", c!"emptyfs", c!"catar", c!"caidx", c!"ext4-caibx", c!"raw-caibx"]
  else if slotType = c!"vfat" then [c!"vfat", c!"raw", c!"tar", c!"caidx", c!"raw-caibx"]
  else if slotType = c!"jffs2" then [c!"raw", c!"tar", c!"raw-caibx"]
  else if slotType = c!"nor" ∨ slotType = c!"nand" then [c!"raw", c!"raw-caibx"]
  else if slotType = c!"ubivol" then
    [c!"raw", c!"squashfs", c!"ubifs", c!"raw-caibx", c!"squashfs-caibx", c!"ubifs-caibx"]
  else if slotType = c!"ubifs" then [c!"raw", c!"ubifs", c!"tar", c!"caidx", c!"raw-caibx", c!"ubifs-caibx"]
  else if slotType = c!"boot-emmc" ∨ slotType = c!"boot-raw-fallback" then [c!"raw"]
  else if slotType = c!"boot-mbr-switch" then [c!"raw", c!"vfat"]
  else if slotType = c!"boot-gpt-switch" then [c!"raw", c!"vfat", c!"ext4"]
  else []

/-- all image types occurring in `acceptedImages` -/
def IsImageType (t : Str) : Prop := ∃ st, t ∈ acceptedImages st

/-! ## Lemmas -/

def slotTypes : List Str := [c!"raw", c!"ext4", c!"vfat", c!"jffs2", c!"nor", c!"nand", c!"ubivol", c!"ubifs",
  c!"boot-emmc", c!"boot-raw-fallback", c!"boot-mbr-switch", c!"boot-gpt-switch"]

theorem accepted_slotTypes {st t : Str} (h : t ∈ acceptedImages st) : st ∈ slotTypes := by
  by_cases hn : st ∈ slotTypes
  · exact hn
  · simp only [slotTypes, List.mem_cons, List.not_mem_nil, or_false, not_or] at hn
    obtain ⟨h1, h2, h3, h4, h5, h6, h7, h8, h9, h10, h11, h12⟩ := hn
    rw [acceptedImages, if_neg h1, if_neg h2, if_neg h3, if_neg h4, if_neg (not_or.mpr ⟨h5, h6⟩), if_neg h7, if_neg h8,
      if_neg (not_or.mpr ⟨h9, h10⟩), if_neg h11, if_neg h12] at h
    exact absurd h List.not_mem_nil

theorem row_accepted : ∀ e ∈ imageTypeMap, e.1 ∈ acceptedImages e.2.1 := by decide

theorem accepted_row : ∀ st ∈ slotTypes, ∀ t ∈ acceptedImages st, (handlerFromType (some t) st).isSome := by decide

/-! ## Theorems -/

/-- An update handler is found iff the image has an install hook or its type is accepted by the slot type. -/
theorem C48_found_iff (img : Image) (st : Str) :
    (getUpdateHandler img st).isSome ↔
      img.hooks.install = true ∨ ∃ t, img.typ = some t ∧ t ∈ acceptedImages st := by
  unfold getUpdateHandler
  cases hi : img.hooks.install
  · simp only [Bool.false_eq_true, ↓reduceIte, false_or]
    constructor
    · intro h
      cases ht : img.typ with
      | none => rw [ht] at h; simp [handlerFromType] at h
      | some t =>
        refine ⟨t, rfl, ?_⟩
        rw [ht] at h
        simp only [handlerFromType, Option.isSome_map] at h
        obtain ⟨e, he⟩ := Option.isSome_iff_exists.mp h
        have hm := List.mem_of_find?_eq_some he
        have hp := List.find?_some he
        simp only [Bool.and_eq_true, beq_iff_eq] at hp
        rw [← hp.1, ← hp.2]
        exact row_accepted e hm
    · rintro ⟨t, ht, ha⟩
      rw [ht]
      exact accepted_row st (accepted_slotTypes ha) t ha
  · simp

/-- With an install hook, the hook is used, whatever the types are. -/
theorem C48_hook (img : Image) (st : Str) (h : img.hooks.install = true) :
    getUpdateHandler img st = some .hookInstall := by simp [getUpdateHandler, h]

/-- No two rows of the table disagree: every row of the table is the answer for its pair, so the result
does not depend on the order of the table. -/
theorem C48_unique_handler : ∀ e ∈ imageTypeMap, handlerFromType (some e.1) e.2.1 = some e.2.2 := by decide

/-- The handler follows the destination: boot partition slots are written only by the handler of their own
kind, never by a plain raw copy. -/
theorem C48_boot_slots (img : Image) (st : Str) (hd : Handler) (hh : img.hooks.install = false)
    (h : getUpdateHandler img st = some hd) :
    (st = c!"boot-emmc" ↔ hd = .bootEmmc) ∧ (st = c!"boot-mbr-switch" ↔ hd = .bootMbrSwitch) ∧
    (st = c!"boot-gpt-switch" ↔ hd = .bootGptSwitch) ∧ (st = c!"boot-raw-fallback" ↔ hd = .bootRawFallback) := by
  simp only [getUpdateHandler, hh, Bool.false_eq_true, ↓reduceIte] at h
  cases ht : img.typ with
  | none => rw [ht] at h; simp [handlerFromType] at h
  | some t =>
    rw [ht] at h
    simp only [handlerFromType, Option.map_eq_some_iff] at h
    obtain ⟨e, he, rfl⟩ := h
    have hm := List.mem_of_find?_eq_some he
    have hp := List.find?_some he
    simp only [Bool.and_eq_true, beq_iff_eq] at hp
    obtain ⟨-, rfl⟩ := hp
    revert hm
    have : ∀ e ∈ imageTypeMap, (e.2.1 = c!"boot-emmc" ↔ e.2.2 = .bootEmmc) ∧
        (e.2.1 = c!"boot-mbr-switch" ↔ e.2.2 = .bootMbrSwitch) ∧
        (e.2.1 = c!"boot-gpt-switch" ↔ e.2.2 = .bootGptSwitch) ∧
        (e.2.1 = c!"boot-raw-fallback" ↔ e.2.2 = .bootRawFallback) := by decide
    exact this e

/-- `is_image_type_supported` accepts exactly the types some slot type accepts. -/
theorem C48_supported_iff (t : Str) : typeSupported t = true ↔ IsImageType t := by
  constructor
  · intro h
    simp only [typeSupported, List.any_eq_true, beq_iff_eq] at h
    obtain ⟨e, he, rfl⟩ := h
    exact ⟨e.2.1, row_accepted e he⟩
  · rintro ⟨st, h⟩
    have : ∀ st ∈ slotTypes, ∀ t ∈ acceptedImages st, typeSupported t = true := by decide
    exact this st (accepted_slotTypes h) t h

/-- The type derived from a file name is always a supported image type. -/
theorem C48_derived_supported (f t : Str) (h : deriveType f = some t) : IsImageType t := by
  rw [← C48_supported_iff]
  simp only [deriveType, Option.map_eq_some_iff] at h
  obtain ⟨e, he, rfl⟩ := h
  have : ∀ e ∈ extTypeMap, typeSupported e.2 = true := by decide
  exact this e (List.mem_of_find?_eq_some he)

theorem anyTail_iff (f : Str → Bool) (s : Str) : anyTail f s = true ↔ ∃ a b, s = a ++ b ∧ f b = true := by
  induction s with
  | nil =>
    simp only [anyTail]
    constructor
    · intro h; exact ⟨[], [], rfl, h⟩
    · rintro ⟨a, b, hs, h⟩
      have : b = [] := by
        have := congrArg List.length hs
        simp only [List.length_nil, List.length_append] at this
        exact List.length_eq_zero_iff.mp (by omega)
      rwa [this] at h
  | cons c s ih =>
    simp only [anyTail, Bool.or_eq_true, ih]
    constructor
    · rintro (h | ⟨a, b, rfl, h⟩)
      · exact ⟨[], _, rfl, h⟩
      · exact ⟨c :: a, b, rfl, h⟩
    · rintro ⟨a, b, hs, h⟩
      cases a with
      | nil => left; rw [show c :: s = b from hs]; exact h
      | cons d a => injection hs with _ hs; exact Or.inr ⟨a, b, hs, h⟩

/-- what `*` means -/
theorem glob_star (p s : Str) : globMatch ('*' :: p) s = true ↔ ∃ a b, s = a ++ b ∧ globMatch p b = true := by
  rw [globMatch, anyTail_iff]

/-- The derived type is that of the most specific matching pattern: if a pattern of the table matches the name
and covers only names which the pattern that was used covers too, it denotes the same type. -/
theorem C48_most_specific (f : Str) (p q : Str × Str) (hp : extTypeMap.find? (fun e => globMatch e.1 f) = some p)
    (hq : q ∈ extTypeMap) (hm : globMatch q.1 f = true)
    (hs : ∀ x, globMatch q.1 x = true → globMatch p.1 x = true) :
    deriveType f = some q.2 := by
  have hd : deriveType f = some p.2 := by simp [deriveType, hp]
  rw [hd]
  obtain ⟨-, as, bs, heq, hbefore⟩ := List.find?_eq_some_iff_append.mp hp
  -- q is not before p, and any later row of another type covers a name `p` does not
  have key : ∀ as bs, extTypeMap = as ++ p :: bs → ∀ q ∈ bs, p.2 = q.2 ∨
      globMatch p.1 (q.1.filter (· ≠ '*')) = false := by
    have : ∀ n, n < extTypeMap.length → ∀ q ∈ extTypeMap.drop (n + 1),
        (extTypeMap[n]!).2 = q.2 ∨ globMatch (extTypeMap[n]!).1 (q.1.filter (· ≠ '*')) = false := by decide
    intro as bs h q hq
    have hn : as.length < extTypeMap.length := by rw [h]; simp
    have := this as.length hn q (by rw [h]; simpa using hq)
    have e : extTypeMap[as.length]! = p := by rw [getElem!_pos extTypeMap as.length hn]; simp [h]
    rwa [e] at this
  have self : ∀ q ∈ extTypeMap, globMatch q.1 (q.1.filter (· ≠ '*')) = true := by decide
  rw [heq] at hq
  simp only [List.mem_append, List.mem_cons] at hq
  rcases hq with h | rfl | h
  · have := hbefore q h
    simp [hm] at this
  · rfl
  · rcases key as bs heq q h with e | e
    · rw [e]
    · have := hs _ (self q (by rw [heq]; simp [h]))
      rw [e] at this
      exact absurd this (by decide)

theorem glob_lit (l s : Str) (hl : '*' ∉ l) : globMatch l s = true ↔ s = l := by
  induction l generalizing s with
  | nil => simp [globMatch]
  | cons c l ih =>
    simp only [List.mem_cons, not_or] at hl
    cases s with
    | nil =>
      have : globMatch (c :: l) [] = false := by
        unfold globMatch
        split <;> simp_all
      simp [this]
    | cons d s =>
      have : globMatch (c :: l) (d :: s) = (c == d && globMatch l s) := by
        rw [globMatch]
        intro h; exact hl.1 h.symm
      rw [this, Bool.and_eq_true, beq_iff_eq, ih s hl.2]
      constructor
      · rintro ⟨rfl, rfl⟩; rfl
      · intro h; injection h with h1 h2; exact ⟨h1.symm, h2⟩

theorem glob_suffix (l s : Str) (hl : '*' ∉ l) : globMatch ('*' :: l) s = true ↔ l <:+ s := by
  rw [glob_star]
  constructor
  · rintro ⟨a, b, rfl, h⟩; rw [(glob_lit l b hl).mp h]; exact ⟨a, rfl⟩
  · rintro ⟨a, rfl⟩; exact ⟨a, l, rfl, (glob_lit l l hl).mpr rfl⟩

theorem glob_append (l p s : Str) (hl : '*' ∉ l) :
    globMatch (l ++ p) s = true ↔ ∃ b, s = l ++ b ∧ globMatch p b = true := by
  induction l generalizing s with
  | nil => simp
  | cons c l ih =>
    simp only [List.mem_cons, not_or] at hl
    cases s with
    | nil =>
      have : globMatch (c :: (l ++ p)) [] = false := by
        unfold globMatch
        split <;> simp_all
      simp [this]
    | cons d s =>
      have : globMatch (c :: (l ++ p)) (d :: s) = (c == d && globMatch (l ++ p) s) := by
        rw [globMatch]
        intro h; exact hl.1 h.symm
      rw [List.cons_append, this, Bool.and_eq_true, beq_iff_eq, ih s hl.2]
      constructor
      · rintro ⟨rfl, b, rfl, h⟩; exact ⟨b, rfl, h⟩
      · rintro ⟨b, h, h'⟩; injection h with h1 h2; exact ⟨h1.symm, b, h2, h'⟩

theorem glob_infix (l p s : Str) (hl : '*' ∉ l) (h : globMatch ('*' :: (l ++ '*' :: p)) s = true) : l <:+: s := by
  obtain ⟨a, b, rfl, h'⟩ := (glob_star _ _).mp h
  obtain ⟨c, rfl, -⟩ := (glob_append l _ b hl).mp h'
  exact ⟨a, c, by simp⟩

/-- In terms of file names: a name ending in one of the well-known extensions, and containing neither
".tar" nor ".squashfs-" elsewhere, gets the type of its extension. -/
theorem C48_extension (f : Str) (e : Str × Str)
    (he : e ∈ [(c!".ext4", c!"ext4"), (c!".vfat", c!"vfat"), (c!".img", c!"raw"), (c!".squashfs", c!"squashfs"),
      (c!".ubifs", c!"ubifs"), (c!".tgz", c!"tar"), (c!".catar", c!"catar"), (c!".caidx", c!"caidx")])
    (hs : e.1 <:+ f) (ht : ¬ c!".tar" <:+: f) (hq : ¬ c!".squashfs-" <:+: f) :
    deriveType f = some e.2 := by
  have comp : ∀ l : Str, l <:+ f → l <:+ e.1 ∨ e.1 <:+ l := fun l h => List.suffix_or_suffix_of_suffix h hs
  have no : ∀ l : Str, '*' ∉ l → ¬ l <:+ e.1 → ¬ e.1 <:+ l → globMatch ('*' :: l) f = false := by
    intro l hl h1 h2
    rw [Bool.eq_false_iff]
    intro h
    rcases comp l ((glob_suffix l f hl).mp h) with h | h
    · exact h1 h
    · exact h2 h
  have yes : '*' ∉ e.1 → globMatch ('*' :: e.1) f = true := fun h => (glob_suffix _ _ h).mpr hs
  have notar : globMatch (c!"*.tar*") f = false := by
    rw [Bool.eq_false_iff]; intro h
    exact ht (glob_infix (c!".tar") [] f (by decide) h)
  have nosq1 : globMatch (c!"*.squashfs-*.caibx") f = false := by
    rw [Bool.eq_false_iff]; intro h
    exact hq (glob_infix (c!".squashfs-") (c!".caibx") f (by decide) h)
  have nosq2 : globMatch (c!"*.squashfs-*") f = false := by
    rw [Bool.eq_false_iff]; intro h
    exact hq (glob_infix (c!".squashfs-") [] f (by decide) h)
  unfold deriveType extTypeMap
  simp only [List.mem_cons, List.not_mem_nil, or_false] at he
  rcases he with rfl | rfl | rfl | rfl | rfl | rfl | rfl | rfl <;>
  · simp only [List.find?_cons, notar, nosq1, nosq2]
    repeat
      first
      | rw [no _ (by decide) (by decide) (by decide)]
      | rw [yes (by decide)]
      | rfl

/-! ## Concrete cases -/

example : getUpdateHandler { slotclass := c!"rootfs", typ := some (c!"raw") } (c!"ext4") = some .imgToFs := by decide
example : getUpdateHandler { slotclass := c!"rootfs", typ := some (c!"ubifs") } (c!"ext4") = none := by decide
example : deriveType (c!"rootfs.squashfs-zstd.caibx") = some (c!"squashfs-caibx") := by decide
example : deriveType (c!"rootfs.img") = some (c!"raw") := by decide
example : deriveType (c!"rootfs.txt") = none := by decide
/-- hypotheses of `C48_extension` -/
example : c!".img" <:+ c!"a.img" ∧ ¬ c!".tar" <:+: c!"a.img" ∧ ¬ c!".squashfs-" <:+: c!"a.img" := by decide
/-- hypotheses of `C48_most_specific`: `*.squashfs-*.caibx` is used rather than `*.squashfs-*` -/
example : extTypeMap.find? (fun e => globMatch e.1 (c!"a.squashfs-x.caibx")) =
    some (c!"*.squashfs-*.caibx", c!"squashfs-caibx") := by decide
/-- Remark: `*.tar*` matches anywhere in the name and comes before the plain extensions, so this
raw image is taken for an archive (no pattern is more specific than the other). -/
example : deriveType (c!"my.target.img") = some (c!"tar") := by decide

end Rauc.Handlers
