import Verif.Props.Resign
import Verif.Props.ManifestText

/-!
# C61, C62: the conditions on the manifest, stated for its text
-/

namespace Rauc.Create

open Bundle (Bundle Crypto checkBundle)
open ManifestFile (prepare TextOk parse)

/-- the manifest of a content directory whose text can be written without loss -/
theorem content_wf {T : Tools} {R : Run} {running : Str} {depth : Nat} {content : Dir} {existing : Option Bytes} {f : Bytes} (h : create T R running depth content existing = (true, some f))
    {w : Dir} (hl : linkDir depth true content = some w) {t : Bytes} (ht : openFile w c!"manifest.raucm" = some t) {kf : KeyFile} (hk : T.keyFile t = some kf) (hok : TextOk kf)
    (hcv : ∀ g ∈ kf, (c!"convert", []) ∉ g.2) :
    ∃ m, loadText T t = some m ∧ ManifestFile.ManifestWf { m with hash := none } ∧ (∀ i ∈ m.images, i.convert ≠ some []) ∧ ∃ m0, parse kf = some m0 ∧ m = { m0 with hash := some (shaHex T t) } := by
  obtain ⟨-, w_, m, m1, w1, w2, imgs, p, m3, p1, hl', hm', hin, -⟩ := create_cases h
  rw [hl] at hl'
  cases hl'
  have hm : loadText T t = some m := by
    rw [show openFile w manifestName = some t from ht] at hm'
    exact hm'
  refine ⟨m, hm, ?_⟩
  unfold loadText ManifestFile.load at hm
  rw [hk] at hm
  simp only at hm
  split at hm
  · cases hm
  rename_i m0 hm0
  cases hm
  have hcom : ManifestFile.checkCommon running { m0 with hash := some (shaHex T t) } = true := by
    unfold ManifestFile.checkInput at hin
    simp only [Bool.and_eq_true] at hin
    exact hin.1.1
  have hfn := (ManifestFile.checkCommon_iff.1 hcom).2.2
  have hwf : ManifestFile.ManifestWf m0 := by
    refine ManifestFile.parse_wf hm0 hok ?_
    intro i hi hf
    have := hfn i hi
    unfold ManifestFile.filenameOk at this
    simp only [Bool.and_eq_true] at this
    have := this.1.1
    by_cases he : i.typ = some c!"emptyfs"
    · exact .inl he
    · rw [if_neg he, hf] at this
      exact .inr (by simpa using this)
  refine ⟨?_, ?_, m0, hm0, rfl⟩
  · have : ({ m0 with hash := none } : Manifest) = m0 := by
      have e := hwf.meta'.2
      rw [← e]
    show ManifestFile.ManifestWf { m0 with hash := none }
    rw [this]
    exact hwf
  · intro i hi e
    unfold parse at hm0
    simp only at hm0
    split at hm0
    · cases hm0
    split at hm0
    · cases hm0
    split at hm0
    · cases hm0
    split at hm0
    · cases hm0
    split at hm0
    · cases hm0
    split at hm0
    · cases hm0
    rename_i imgs metas hgs
    cases hm0
    obtain ⟨g, hg, rest, hr, hpi⟩ := ManifestFile.parseGroups_mem hgs i hi
    obtain ⟨-, -, -, -, -, -, -, -, -, h9, -⟩ := ManifestFile.parseImage_fields hpi
    rw [e] at h9
    unfold ManifestFile.strList at h9
    have h9 := h9.symm
    rw [Option.bind_eq_some_iff] at h9
    obtain ⟨raw, hraw, hp⟩ := h9
    rw [ManifestFile.parseList_nil _ _ hp] at hraw
    exact hcv g hg (ManifestFile.gget_mem hraw)

/-- **C61** (partial) A bundle that was created from a content directory with a manifest whose text can be written without loss (`TextOk`): the device accepts it, and it contains the content. -/
theorem C61_text_partial (T : Tools) (hT : Sound T) (K : Crypto) (cfg : Bundle.Config) (hK : Trusts K cfg T) (R : Run)
    (hsalt : ∀ s, R.salt = some s → s.length = 32) (hkey : ∀ k, R.key = some k → k.length = 32) (running : Str) (depth : Nat) (content : Dir)
    (existing : Option Bytes) (f : Bytes) (h : create T R running depth content existing = (true, some f))
    (w : Dir) (hl : linkDir depth true content = some w) (t : Bytes) (ht : openFile w c!"manifest.raucm" = some t) (kf : KeyFile) (hk : T.keyFile t = some kf) (hok : TextOk kf)
    (hcv : ∀ g ∈ kf, (c!"convert", []) ∉ g.2) (hsz : ∀ n b, openFile w n = some b → b.length < 2 ^ 63) (acc : Bundle.AccessResults) (ha : acc.enforce = true ∧ acc.check = true) :
    existing = none ∧ ∃ m0 m, parse kf = some m0 ∧ m = { m0 with hash := some (shaHex T t) } ∧ (cfg.formats m.format = true →
      ∃ b w', checkBundle K cfg (loadText T) {} acc (.file true f) = some b ∧ extract T running b = .ok w' ∧
        (m.format = .plain → b.manifest = none) ∧ (m.format ≠ .plain → ∃ m', b.manifest = some m' ∧ Completed T w m m' ∧ T.sign false (T.text (prepare m')) = some b.sig) ∧
        Holds T w m w' ∧ SelfContained T f b) := by
  obtain ⟨m, hm, hwf, hconv, m0, hp, e⟩ := content_wf h hl ht hk hok hcv
  refine ⟨(create_cases h).1, m0, m, hp, e, ?_⟩
  intro hfmt
  exact (C61_create_partial T hT K cfg hK R hsalt hkey running depth content existing f h w hl m (by rw [ht]; exact hm) hwf hsz hconv hfmt acc ha).2

end Rauc.Create
