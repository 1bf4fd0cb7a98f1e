import Verif.Model.ManifestFile
import Verif.Props.Utils

/-!
# C35: checks of manifests before installation
-/

namespace Rauc.ManifestFile

open Utils

/-! ## Specification -/

/-- Specification: hexadecimal notation with `n` digits -/
def HexStr (n : Nat) (s : Str) : Prop := s.length = n ∧ ∀ c ∈ s, c ∈ c!"0123456789abcdefABCDEF"

/-- Specification: an image that is safe to install -/
structure ImageOk (i : Image) : Prop where
  /-- a file name never leaves the bundle directory through a path separator -/
  name : ∀ f, i.filename = some f → '/' ∉ f
  /-- there is a SHA-256 digest in hexadecimal notation -/
  digest : i.filename ≠ none → i.sha256 = true ∧ ∃ d, i.digest = some d ∧ HexStr 64 d
  /-- the size is known -/
  size : i.filename ≠ none → 0 ≤ i.size
  /-- each converted variant has a file name without a separator -/
  converted : i.filename ≠ none → ∀ cs, i.convert = some cs →
    ∃ os, i.converted = some os ∧ os.length = cs.length ∧ ∀ o ∈ os, '/' ∉ o
  /-- only `emptyfs` images and those with an install hook come without a file; `emptyfs` images never have one -/
  missing : i.filename = none → i.typ = some c!"emptyfs" ∨ i.hooks.install = true
  notEmptyfs : i.typ = some c!"emptyfs" → i.filename = none
  adaptive : i.filename = none → i.adaptive = none ∧ i.convert = none

/-- Specification: hooks are used only with a hook file -/
def HooksOk (m : Manifest) : Prop :=
  (m.installCheck = true ∨ ∃ i ∈ m.images, i.hooks.preInstall = true ∨ i.hooks.install = true ∨ i.hooks.postInstall = true) →
    m.hookName ≠ none

/-- Specification: the running version is new enough (`minRaucVersion` in the range the field is defined for) -/
def VersionOk (running : Str) (m : Manifest) : Prop :=
  ∀ v, m.minRaucVersion = some v →
    Semver.lessEqual c!"0" v = some true ∧ Semver.lessEqual v running = some true ∧ Semver.lessEqual v c!"1.13" ≠ some true

/-- Specification: the checks change nothing except that a missing size may become zero -/
def SameButSize (m m' : Manifest) : Prop :=
  { m' with images := m.images } = m ∧ m'.images.length = m.images.length ∧
  ∀ j (h : j < m.images.length) (h' : j < m'.images.length),
    { m'.images[j] with size := m.images[j].size } = m.images[j] ∧
    (m'.images[j].size = m.images[j].size ∨
      (m.images[j].size < 0 ∧ m.images[j].hooks.install = true ∧ m'.images[j].size = 0))

/-! ## Proofs -/

theorem xdigit_isSome {c : Char} : (xdigit c).isSome = true ↔ c ∈ c!"0123456789abcdefABCDEF" := by
  constructor
  · intro h
    unfold xdigit digitVal at h
    have hc := Char.ofNat_toNat c
    by_cases h1 : '0' ≤ c ∧ c ≤ '9'
    · have := char_range h1.1 h1.2
      rw [← hc]
      generalize c.toNat = n at *
      simp only [show '0'.toNat = 48 from rfl, show '9'.toNat = 57 from rfl] at this
      obtain ⟨l, u⟩ := this
      clear h hc h1
      interval_cases n <;> decide
    · rw [if_neg h1] at h
      by_cases h2 : 'a' ≤ c ∧ c ≤ 'z'
      · have := char_range h2.1 h2.2
        rw [if_pos h2] at h
        rw [← hc] at h ⊢
        generalize c.toNat = n at *
        simp only [show 'a'.toNat = 97 from rfl, show 'z'.toNat = 122 from rfl] at this
        obtain ⟨l, u⟩ := this
        clear hc h1 h2
        interval_cases n <;> first | (revert h; decide) | decide
      · rw [if_neg h2] at h
        by_cases h3 : 'A' ≤ c ∧ c ≤ 'Z'
        · have := char_range h3.1 h3.2
          rw [if_pos h3] at h
          rw [← hc] at h ⊢
          generalize c.toNat = n at *
          simp only [show 'A'.toNat = 65 from rfl, show 'Z'.toNat = 90 from rfl] at this
          obtain ⟨l, u⟩ := this
          clear hc h1 h2 h3
          interval_cases n <;> first | (revert h; decide) | decide
        · rw [if_neg h3] at h; simp at h
  · have : ∀ c ∈ c!"0123456789abcdefABCDEF", (xdigit c).isSome = true := by decide
    exact this c

theorem validDigest_iff {s : Str} : validDigest s = true ↔ HexStr 64 s := by
  simp only [validDigest, HexStr, Bool.and_eq_true, beq_iff_eq, List.all_eq_true, xdigit_isSome]

theorem decodeLoop_isSome : ∀ (n : Nat) (s : Str), s.length = n * 2 →
    ((decodeLoop s).isSome = true ↔ ∀ c ∈ s, (xdigit c).isSome = true)
  | 0, s, h => by
    have : s = [] := List.length_eq_zero_iff.mp (by omega)
    subst this; simp [decodeLoop]
  | n + 1, [], h => by simp at h
  | n + 1, [_], h => by simp at h; omega
  | n + 1, u :: l :: r, h => by
    have ih := decodeLoop_isSome n r (by simp at h; omega)
    simp only [decodeLoop, List.mem_cons, forall_eq_or_imp, ← ih]
    cases xdigit u <;> cases xdigit l <;> cases decodeLoop r <;> simp

theorem validHex32_iff {s : Option Str} : validHex32 s = true ↔ ∃ h, s = some h ∧ HexStr 64 h := by
  cases s with
  | none => simp [validHex32]
  | some h =>
    simp only [validHex32, hexDecode, Option.some.injEq, exists_eq_left', HexStr]
    by_cases hl : h.length = 64
    · rw [if_neg (by omega)]
      rw [decodeLoop_isSome 32 h (by omega)]
      simp only [xdigit_isSome, hl, true_and]
    · rw [if_pos (by omega)]
      exact ⟨fun h => absurd h (by simp), fun h => absurd h.1 hl⟩

theorem convertOk_iff {c d : Option (List Str)} : convertOk c d = true ↔
    ∀ cs, c = some cs → ∃ os, d = some os ∧ os.length = cs.length ∧ ∀ o ∈ os, '/' ∉ o := by
  cases c <;> cases d <;> simp [convertOk]
  exact fun _ => eq_comm

theorem filenameOk_iff {i : Image} : filenameOk i = true ↔
    (i.filename = none → i.typ = some c!"emptyfs" ∨ i.hooks.install = true) ∧
    (i.typ = some c!"emptyfs" → i.filename = none) ∧ (i.filename = none → i.adaptive = none ∧ i.convert = none) := by
  unfold filenameOk
  by_cases he : i.typ = some c!"emptyfs" <;> cases hf : i.filename <;> cases ha : i.adaptive <;> cases hc : i.convert <;>
    cases hi : i.hooks.install <;> simp [he]

theorem checkImage_sound {i i' : Image} (hf : filenameOk i = true) (h : checkImage i = some i') :
    ImageOk i' ∧ { i' with size := i.size } = i ∧
      (i'.size = i.size ∨ (i.size < 0 ∧ i.hooks.install = true ∧ i'.size = 0)) := by
  obtain ⟨f1, f2, f3⟩ := filenameOk_iff.mp hf
  unfold checkImage at h
  cases hn : i.filename with
  | none =>
    simp only [hn] at h
    cases h
    exact ⟨⟨by simp [hn], by simp [hn], by simp [hn], by simp [hn], f1, f2, f3⟩, rfl, Or.inl rfl⟩
  | some f =>
    simp only [hn] at h
    split at h
    · cases h
    · rename_i h1
      simp only [Bool.or_eq_true, decide_eq_true_eq, Bool.not_eq_true', not_or, Bool.not_eq_false] at h1
      cases hd : i.digest with
      | none => simp only [hd] at h; cases h
      | some d =>
        simp only [hd] at h
        split at h
        · cases h
        · rename_i h2
          split at h
          · cases h
          · rename_i h3
            split at h
            · rename_i h4
              cases h
              simp only [Bool.not_eq_true', Bool.not_eq_false] at h2
              simp only [Bool.and_eq_true, decide_eq_true_eq, Bool.not_eq_true', not_and, Bool.not_eq_false] at h3
              obtain ⟨sc, ar, va, sh, di, si, fi, ty, te, ho, ad, co, cd⟩ := i
              simp only at hn hd
              subst hn; subst hd
              simp only at h1 h3 h4 f1 f2 f3 ⊢
              refine ⟨⟨?_, ?_, ?_, ?_, ?_, ?_, ?_⟩, trivial, ?_⟩
              · intro f' e; cases e; exact h1.1
              · intro _; exact ⟨h1.2, d, rfl, validDigest_iff.mp h2⟩
              · intro _; show 0 ≤ (if si < 0 then (0 : Int) else si); split <;> omega
              · intro _; exact convertOk_iff.mp h4
              · exact f1
              · exact f2
              · exact f3
              · by_cases hs : si < 0
                · exact Or.inr ⟨hs, h3 hs, by simp [hs]⟩
                · exact Or.inl (by simp [hs])
            · cases h

theorem checkImage_complete {i : Image} (h : ImageOk i) : checkImage i = some i := by
  unfold checkImage
  cases hn : i.filename with
  | none => rfl
  | some f =>
    have hne : i.filename ≠ none := by simp [hn]
    obtain ⟨hs, d, hd, hx⟩ := h.digest hne
    have hsz := h.size hne
    simp only [hd]
    rw [if_neg (by simp [h.name f hn, hs]), if_neg (by simp [validDigest_iff.mpr hx]), if_neg (by simp; omega),
      if_pos (convertOk_iff.mpr (h.converted hne))]
    rw [if_neg (by omega)]
    cases i; simp_all

theorem checkImages_sound : ∀ {l l' : List Image}, (∀ i ∈ l, filenameOk i = true) → checkImages l = some l' →
    (∀ i ∈ l', ImageOk i) ∧ l'.length = l.length ∧ ∀ (j : Nat) (h : j < l.length) (h' : j < l'.length),
      { l'[j] with size := l[j].size } = l[j] ∧
      (l'[j].size = l[j].size ∨ (l[j].size < 0 ∧ l[j].hooks.install = true ∧ l'[j].size = 0))
  | [], l', _, h => by simp only [checkImages] at h; cases h; simp
  | i :: l, l', hf, h => by
    simp only [checkImages] at h
    cases hi : checkImage i with
    | none => simp only [hi] at h; cases h
    | some i' =>
      simp only [hi] at h
      cases hl : checkImages l with
      | none => simp only [hl] at h; cases h
      | some l'' =>
        simp only [hl] at h
        cases h
        obtain ⟨a, b, c⟩ := checkImages_sound (fun i hi => hf i (List.mem_cons_of_mem _ hi)) hl
        obtain ⟨a', b', c'⟩ := checkImage_sound (hf i (by simp)) hi
        refine ⟨?_, by simp [b], ?_⟩
        · intro x hx
          rcases List.mem_cons.mp hx with rfl | hx
          · exact a'
          · exact a x hx
        · intro j h1 h2
          cases j with
          | zero => exact ⟨b', c'⟩
          | succ j => exact c j (by simpa using h1) (by simpa using h2)

theorem checkImages_complete : ∀ {l : List Image}, (∀ i ∈ l, ImageOk i) → checkImages l = some l
  | [], _ => rfl
  | i :: l, h => by
    simp only [checkImages, checkImage_complete (h i (by simp)),
      checkImages_complete (l := l) (fun i hi => h i (List.mem_cons_of_mem _ hi))]

theorem minVersionOk_iff {r : Str} {m : Manifest} : minVersionOk r m = true ↔ VersionOk r m := by
  unfold minVersionOk VersionOk
  cases m.minRaucVersion <;> simp [and_assoc]

theorem usesHooks_iff {m : Manifest} : (!(usesHooks m && m.hookName.isNone)) = true ↔ HooksOk m := by
  unfold usesHooks HooksOk
  cases m.hookName <;> simp [or_assoc, not_or]

theorem checkCommon_iff {r : Str} {m : Manifest} : checkCommon r m = true ↔
    VersionOk r m ∧ HooksOk m ∧ ∀ i ∈ m.images, filenameOk i = true := by
  unfold checkCommon
  rw [Bool.and_eq_true, Bool.and_eq_true, minVersionOk_iff, usesHooks_iff, List.all_eq_true, and_assoc]

theorem checkBundled_sound {m m' : Manifest} (hf : ∀ i ∈ m.images, filenameOk i = true) (h : checkBundled m = some m') :
    (∀ i ∈ m'.images, ImageOk i) ∧ SameButSize m m' := by
  unfold checkBundled at h
  cases hc : checkImages m.images with
  | none => simp [hc] at h
  | some l =>
    simp only [hc, Option.map_some, Option.some.injEq] at h
    subst h
    obtain ⟨a, b, c⟩ := checkImages_sound hf hc
    exact ⟨a, rfl, b, c⟩

/-- C35, external manifests (verity and crypt bundles): whatever is accepted has only safe images, valid parameters for the payload,
hooks only with a hook file and a version that runs here; the checks do not alter the manifest otherwise. -/
theorem C35_external (running : Str) (m m' : Manifest) (h : checkExternal running m = some m') :
    (∀ i ∈ m'.images, ImageOk i) ∧ SameButSize m m' ∧ HooksOk m ∧ VersionOk running m ∧
    m.format ≠ .plain ∧ (∃ x, m.verityHash = some x ∧ HexStr 64 x) ∧ (∃ x, m.veritySalt = some x ∧ HexStr 64 x) ∧
    0 < m.veritySize ∧ 4096 ∣ m.veritySize ∧ (m.format = .crypt → ∃ x, m.cryptKey = some x ∧ HexStr 64 x) := by
  unfold checkExternal at h
  split at h
  · cases h
  rename_i h1
  split at h
  · cases h
  rename_i h2
  split at h
  · cases h
  rename_i h3
  split at h
  · cases h
  rename_i h4
  simp only [Bool.not_eq_true', Bool.not_eq_false] at h1
  obtain ⟨hv, hh, hf⟩ := checkCommon_iff.mp h1
  obtain ⟨a, b⟩ := checkBundled_sound hf h
  simp only [Bool.or_eq_true, Bool.not_eq_true', not_or, Bool.not_eq_false, beq_iff_eq, bne_iff_ne, ne_eq, Decidable.not_not,
    validHex32_iff] at h4
  obtain ⟨⟨⟨c1, c2⟩, c3⟩, c4⟩ := h4
  refine ⟨a, b, hh, hv, h2, c1, c2, by omega, Nat.dvd_of_mod_eq_zero c4, fun hc => ?_⟩
  simp only [hc, decide_true, Bool.true_and, Bool.not_eq_true', Bool.not_eq_false, validHex32_iff] at h3
  exact h3

/-- C35, internal manifests (plain bundles): only safe images, no artifacts and converted images, and none of the data that only an external
manifest can vouch for. -/
theorem C35_internal (running : Str) (m m' : Manifest) (h : checkInternal running m = some m') :
    (∀ i ∈ m'.images, ImageOk i) ∧ SameButSize m m' ∧ HooksOk m ∧ VersionOk running m ∧
    m.format = .plain ∧ m.verityHash = none ∧ m.veritySalt = none ∧ m.veritySize = 0 ∧ m.cryptKey = none ∧
    (∀ i ∈ m'.images, i.artifact = none ∧ i.convert = none ∧ (i.converted = none ∨ i.converted = some [])) := by
  unfold checkInternal at h
  split at h
  · cases h
  rename_i h1
  simp only [Bool.or_eq_true, Bool.not_eq_true', decide_eq_true_eq, ne_eq, not_or, Bool.not_eq_false, Decidable.not_not] at h1
  obtain ⟨hv, hh, hf⟩ := checkCommon_iff.mp h1.1
  cases hb : checkBundled m with
  | none => simp only [hb] at h; cases h
  | some m'' =>
    simp only [hb] at h
    split at h
    · rename_i h2
      cases h
      obtain ⟨a, b⟩ := checkBundled_sound hf hb
      simp only [Bool.and_eq_true, Option.isNone_iff_eq_none, beq_iff_eq, checkPlain, List.all_eq_true] at h2
      obtain ⟨⟨⟨⟨c1, c2⟩, c3⟩, c4⟩, c5⟩ := h2
      have e := b.1
      refine ⟨a, b, hh, hv, h1.2, ?_, ?_, ?_, ?_, ?_⟩
      · rw [← e]; exact c3
      · rw [← e]; exact c4
      · rw [← e]; exact c5
      · rw [← e]; exact c2
      · intro i hi
        obtain ⟨⟨d1, d2⟩, d3⟩ := c1 i hi
        refine ⟨d1, d2, ?_⟩
        cases hc : i.converted with
        | none => exact Or.inl rfl
        | some l => rw [hc] at d3; simp at d3; exact Or.inr (by rw [d3])
    · cases h

/-- C35: every manifest that meets the conditions is accepted unchanged, so the checks are exact (up to the missing size of an image with an
install hook). -/
theorem C35_external_complete (running : Str) (m : Manifest) (hi : ∀ i ∈ m.images, ImageOk i) (hh : HooksOk m) (hv : VersionOk running m)
    (hf : m.format ≠ .plain) (h1 : ∃ x, m.verityHash = some x ∧ HexStr 64 x) (h2 : ∃ x, m.veritySalt = some x ∧ HexStr 64 x)
    (h3 : 0 < m.veritySize) (h4 : 4096 ∣ m.veritySize) (h5 : m.format = .crypt → ∃ x, m.cryptKey = some x ∧ HexStr 64 x) :
    checkExternal running m = some m := by
  have hfn : ∀ i ∈ m.images, filenameOk i = true := fun i h => filenameOk_iff.mpr ⟨(hi i h).missing, (hi i h).notEmptyfs, (hi i h).adaptive⟩
  unfold checkExternal
  rw [if_neg (by simp [checkCommon_iff.mpr ⟨hv, hh, hfn⟩]), if_neg hf]
  rw [if_neg (by
    intro h
    simp only [Bool.and_eq_true, decide_eq_true_eq, Bool.not_eq_true'] at h
    rw [validHex32_iff.mpr (h5 h.1)] at h
    exact absurd h.2 (by decide))]
  rw [if_neg (by
    rw [validHex32_iff.mpr h1, validHex32_iff.mpr h2]
    have := Nat.mod_eq_zero_of_dvd h4
    simp [this]; omega)]
  unfold checkBundled
  rw [checkImages_complete hi]
  rfl

/-- C35: and the same for internal manifests. -/
theorem C35_internal_complete (running : Str) (m : Manifest) (hi : ∀ i ∈ m.images, ImageOk i) (hh : HooksOk m) (hv : VersionOk running m)
    (hf : m.format = .plain) (h1 : m.verityHash = none) (h2 : m.veritySalt = none) (h3 : m.veritySize = 0) (h5 : m.cryptKey = none)
    (h6 : ∀ i ∈ m.images, i.artifact = none ∧ i.convert = none ∧ (i.converted = none ∨ i.converted = some [])) :
    checkInternal running m = some m := by
  have hfn : ∀ i ∈ m.images, filenameOk i = true := fun i h => filenameOk_iff.mpr ⟨(hi i h).missing, (hi i h).notEmptyfs, (hi i h).adaptive⟩
  unfold checkInternal
  rw [if_neg (by simp [checkCommon_iff.mpr ⟨hv, hh, hfn⟩, hf])]
  unfold checkBundled
  rw [checkImages_complete hi]
  simp only [Option.map_some]
  rw [if_pos]
  simp only [Bool.and_eq_true, Option.isNone_iff_eq_none, beq_iff_eq, checkPlain, List.all_eq_true]
  refine ⟨⟨⟨⟨fun i h => ?_, h5⟩, h1⟩, h2⟩, h3⟩
  obtain ⟨a, b, c⟩ := h6 i h
  refine ⟨⟨a, b⟩, ?_⟩
  rcases c with c | c <;> simp [c]

/-! A concrete manifest that passes, and the limits of the checks -/

def digest0 : Str := List.replicate 64 'a'

def sampleImage : Image :=
  { slotclass := c!"rootfs", sha256 := true, digest := some digest0, size := 4096, filename := some c!"rootfs.ext4",
    typ := some c!"ext4", typeFromExt := true }

def sample : Manifest :=
  { compatible := c!"Test", format := .verity, formatExplicit := true, verityHash := some digest0, veritySalt := some digest0, veritySize := 8192,
    minRaucVersion := some c!"1.14", images := [sampleImage, { slotclass := c!"appfs", typ := some c!"emptyfs" }] }

example : checkExternal c!"1.15" sample = some sample := by decide
example : checkExternal c!"1.13" sample = none := by decide
example : checkExternal c!"1.15" { sample with images := [{ sampleImage with filename := some c!"../rootfs.ext4" }] } = none := by decide
example : checkInternal c!"1.15" { sample with format := .plain, verityHash := none, veritySalt := none, veritySize := 0 } =
    some { sample with format := .plain, verityHash := none, veritySalt := none, veritySize := 0 } := by decide

/-- Finding: `..` is accepted as the name of an image file, and the names of hook and handler may contain separators. -/
theorem C35_finding_names :
    checkExternal c!"1.15"
      { sample with
        hookName := some c!"../../bin/sh"
        handlerName := some c!"../../bin/sh"
        images := [{ sampleImage with filename := some c!".." }] } ≠ none := by decide

end Rauc.ManifestFile
