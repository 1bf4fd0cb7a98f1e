import Verif.Props.Casync
import Verif.Props.CreateEx

/-!
# C63: examples that meet the hypotheses
-/

namespace Rauc.Create

open Bundle (Bundle Res checkBundle)
open ManifestFile (prepare ManifestWf ImageWf)

/-- a store of numbered chunks, the index is the number (unary) -/
def toyCasync : Casync where
  blob b st := some (List.replicate st.length 0, st ++ [([], .file b)])
  arch b st := (toy.tar b).map (fun t => (List.replicate st.length 0, st ++ [([], .dir t)]))

def toyBlob (x : Bytes) (st : Dir) : Option Bytes := match st[x.length]? with | some (_, .file b) => some b | _ => none
def toyArch (x : Bytes) (st : Dir) : Option Dir := match st[x.length]? with | some (_, .dir b) => some b | _ => none

theorem toyBlob_mono {st st' : Dir} {y c : Bytes} (h : toyBlob y st = some c) : toyBlob y (st ++ st') = some c := by
  unfold toyBlob at h ⊢
  split at h
  · rename_i hx
    rw [List.getElem?_append_left (List.getElem?_eq_some_iff.1 hx).1, hx]
    exact h
  · cases h

theorem toyArch_mono {st st' : Dir} {y : Bytes} {c : Dir} (h : toyArch y st = some c) : toyArch y (st ++ st') = some c := by
  unfold toyArch at h ⊢
  split at h
  · rename_i hx
    rw [List.getElem?_append_left (List.getElem?_eq_some_iff.1 hx).1, hx]
    exact h
  · cases h

theorem toyCasync_restores : Restores toy toyCasync toyBlob toyArch where
  blobs b st x st' h := by
    simp only [toyCasync, Option.some.injEq, Prod.mk.injEq] at h
    obtain ⟨rfl, rfl⟩ := h
    exact ⟨by simp [toyBlob], fun _ _ h => toyBlob_mono h, fun _ _ h => toyArch_mono h⟩
  archs b st x st' h := by
    simp only [toyCasync, Option.map_eq_some_iff, Prod.mk.injEq] at h
    obtain ⟨t, ht, rfl, rfl⟩ := h
    exact ⟨⟨t, ht, by simp [toyArch]⟩, fun _ _ h => toyBlob_mono h, fun _ _ h => toyArch_mono h⟩

/-- the content of a bundle with one image -/
def cvImage (f typ : Str) : Image := { slotclass := c!"rootfs", filename := some f, typ := some typ, typeFromExt := true, sha256 := true, digest := some (shaHex toy [1, 2, 3]), size := 3 }
def cvManifest (fmt : Format) (f typ : Str) : Manifest := { compatible := c!"x", format := fmt, formatExplicit := true, images := [cvImage f typ] }
def cvDir (fmt : Format) (f typ : Str) : Dir := [(f, .file [1, 2, 3]), (c!"manifest.raucm", .file (toy.text (prepare (cvManifest fmt f typ))))]
def cvBundle (fmt : Format) (f typ : Str) : Bundle :=
  { stream := toy.pack false (cvDir fmt f typ), size := 0, sig := [], wasEncrypted := false, verificationDisabled := false, payloadVerified := true }

def cvDone (r : Res (Bool × Option Bytes × Dir × List Str)) : Bool := match r with | .ok (true, some _, _, _) => true | _ => false

theorem cvDone_iff {r : Res (Bool × Option Bytes × Dir × List Str)} (h : cvDone r = true) : ∃ f st o, r = .ok (true, some f, st, o) := by
  unfold cvDone at h
  split at h
  · exact ⟨_, _, _, rfl⟩
  · cases h

set_option maxRecDepth 100000 in
theorem cv_plain : cvDone (casync toy exRun toyCasync (fun _ => none) c!"1.14" [] [] (cvBundle .plain c!"r.img" c!"raw") none) = true := by decide +kernel

set_option maxRecDepth 100000 in
theorem cv_verity : cvDone (casync toy exRun toyCasync (fun _ => none) c!"1.14" [] [] (cvBundle .verity c!"r.img" c!"raw") none) = true := by decide +kernel

/-- `C63_finding_type`: the conversion of `r.tgz` reports success -/
theorem cv_tgz : cvDone (casync toy exRun toyCasync (fun _ => none) c!"1.14" [] [] (cvBundle .plain c!"r.tgz" c!"tar") none) = true := by decide +kernel

theorem cvImage_wf : ImageWf (cvImage c!"r.img" c!"raw") where
  slotclass := by decide
  artifact := by intro a h; cases h
  sha256 := by decide
  digest := ManifestFile.val_of (by decide) (by decide) (by decide)
  size := by decide
  filename := ManifestFile.val_of (by decide) (by decide) (by decide)
  artType := by decide
  derived := fun _ => ⟨by decide, c!"r.img", c!"raw", rfl, by decide, rfl⟩
  typ := ManifestFile.val_of (by decide) (by decide) (by decide)
  known := fun _ _ => ⟨c!"raw", rfl, by decide⟩
  adaptive := by intro l h; cases h
  convert := by intro l h; cases h
  converted := by intro l h; cases h
  convertedNonempty := by decide
  content := by decide

theorem cvManifest_wf (f : Format) : ManifestWf (cvManifest f c!"r.img" c!"raw") where
  compatible := ⟨by simp [cvManifest], ManifestFile.clean_of (by simp [cvManifest, ManifestFile.FF]) (by simp [cvManifest, ManifestFile.FF])⟩
  version := ManifestFile.val_none
  description := ManifestFile.val_none
  build := ManifestFile.val_none
  plain := fun _ => ⟨rfl, rfl, rfl⟩
  explicit := fun _ => rfl
  key := fun _ => rfl
  verityHash := ManifestFile.val_none
  veritySalt := ManifestFile.val_none
  cryptKey := ManifestFile.val_none
  veritySize := by show 0 < 2 ^ 64; decide
  handler := ⟨ManifestFile.val_none, ManifestFile.val_none, fun h => absurd rfl h⟩
  hook := ManifestFile.val_none
  images := by
    intro i hi
    simp only [cvManifest, List.mem_cons, List.not_mem_nil, or_false] at hi
    subst hi
    exact cvImage_wf
  targets := by simp [cvManifest]
  metas := by intro g hg; cases hg
  metaNames := by simp [cvManifest]
  meta' := ⟨rfl, rfl⟩

/-- All hypotheses of `C63_convert_partial` are met: -/
theorem cv_holds {fmt : Format} (hs : cvDone (casync toy exRun toyCasync (fun _ => none) c!"1.14" [] [] (cvBundle fmt c!"r.img" c!"raw") none) = true) (hcr : fmt ≠ .crypt) :
    ∃ m o b' d' st m' t, casync toy exRun toyCasync (fun _ => none) c!"1.14" [] [] (cvBundle fmt c!"r.img" c!"raw") none = .ok (true, some o, st, []) ∧
      checkBundle toyCrypto toyConfig (loadText toy) {} { enforce := true, check := true } (.file true o) = some b' ∧ extract toy c!"1.14" b' = .ok d' ∧
      lookup d' c!"manifest.raucm" = some (.file t) ∧ loadText toy t = some m' ∧ Reindexed toy toyBlob toyArch [] (cvDir fmt c!"r.img" c!"raw") d' st m m' := by
  obtain ⟨o, st, outside, h⟩ := cvDone_iff hs
  have hd : extract toy c!"1.14" (cvBundle fmt c!"r.img" c!"raw") = .ok (cvDir fmt c!"r.img" c!"raw") := by
    obtain ⟨p, hp⟩ : ∃ p, toy.pack false (cvDir fmt c!"r.img" c!"raw") = some p := ⟨_, rfl⟩
    refine extract_plain rfl rfl (f := p) hp ?_
    have := (toy_sound.pack _ _ _ hp).2 []
    rwa [List.append_nil] at this
  have hm : (openFile (cvDir fmt c!"r.img" c!"raw") c!"manifest.raucm").bind (loadText toy) =
      some { cvManifest fmt c!"r.img" c!"raw" with hash := some (shaHex toy (toy.text (prepare (cvManifest fmt c!"r.img" c!"raw")))) } := by
    have e : openFile (cvDir fmt c!"r.img" c!"raw") c!"manifest.raucm" = some (toy.text (prepare (cvManifest fmt c!"r.img" c!"raw"))) := by
      simp [openFile, cvDir, target, maxLinks, lookup, workName]
    rw [e, Option.bind_some]
    exact load_text toy_sound (m := cvManifest fmt c!"r.img" c!"raw") (cvManifest_wf fmt)
  have hto : toConvert [] ({ cvManifest fmt c!"r.img" c!"raw" with hash := some (shaHex toy (toy.text (prepare (cvManifest fmt c!"r.img" c!"raw")))) } : Manifest).images = [c!"r.img"] := by
    simp [toConvert, cvManifest, cvImage]
  have himg : ∀ i ∈ ({ cvManifest fmt c!"r.img" c!"raw" with hash := some (shaHex toy (toy.text (prepare (cvManifest fmt c!"r.img" c!"raw")))) } : Manifest).images, i = cvImage c!"r.img" c!"raw" := by
    intro i hi
    simpa [cvManifest] using hi
  obtain ⟨-, h2, -, -, o', b', d', e1, e2, e3, ⟨t, m', e4, e5, e6⟩, -, -, -⟩ := C63_convert_partial toy toy_sound toyCasync toyBlob toyArch toyCasync_restores toyCrypto toyConfig toy_trusted exRun
    (by intro s h; cases h; rfl) _ c!"1.14" [] [] st _ none _ outside h _ hd _ hm (cvManifest_wf fmt)
    (by intro i hi _; rw [himg i hi]; decide)
    (by
      rw [hto, independent_iff]
      refine ⟨?_, by simp⟩
      intro f hf
      rw [List.mem_singleton] at hf
      subst hf
      refine ⟨by decide, ?_⟩
      rw [show casyncName c!"r.img" = c!"r.img.caibx" by decide]
      simp [cvDir, lookup])
    (by rw [hto]; decide)
    (by
      intro i hi _ _ g n hg hn
      rw [himg i hi] at hg
      cases hg
      rw [indexName_iff.1 hn]
      decide)
    hcr rfl { enforce := true, check := true } ⟨rfl, rfl⟩
  cases e1
  rw [h2] at h
  exact ⟨_, o, b', d', st, m', t, h, e2, e3, e4, e5, e6⟩

example := cv_holds cv_plain (by decide)
example := cv_holds cv_verity (by decide)

/-- `C63_finding_shared`: two slots with the same file -/
example (s : CState) : (casyncImages toyCasync (fun _ => none) [] s [cvImage c!"r.img" c!"raw", { cvImage c!"r.img" c!"raw" with slotclass := c!"rescue" }]).2 = none :=
  C63_finding_shared _ _ _ c!"r.img" (by decide) _ _ rfl (by decide) ⟨{ cvImage c!"r.img" c!"raw" with slotclass := c!"rescue" }, List.mem_singleton.2 rfl, rfl, by decide⟩ (by
    intro g hg
    rw [indexName_iff]
    simp only [toConvert, cvImage, List.filterMap_cons, List.not_mem_nil, if_false, List.filterMap_nil, List.mem_singleton] at hg
    subst hg
    decide) s

end Rauc.Create
