import Verif.Model.Resign
import Verif.Props.Create

/-!
# C62: tools for existing bundles
-/

namespace Rauc.Create

open Bundle (Bundle Res Params AccessResults Crypto Config SignatureOk checkBundle checkPayload verityFile fileDisk BundleFile Authentic appendSignature)
open ManifestFile (checkInternal checkExternal prepare ManifestWf SameButSize)

/-! ## The steps -/

theorem copyOut_self {S : Steps} {f out : Bytes} {n : Nat} (h : copyOut S f n = some out) (hn : n ≤ f.length) : out = f.take n := by
  unfold copyOut Bundle.truncateBundle at h
  split at h
  · cases h
    rw [Nat.sub_eq_zero_of_le hn]
    simp
  · cases h

theorem finish_ok {S : Steps} {f : Bytes} {s : Option Bytes} {out : Option Bytes} (h : finish S f s = .ok (true, out)) :
    ∃ x, s = some x ∧ out = some (appendSignature f x) := by
  unfold finish at h
  split at h
  · simp [failed] at h
  · rename_i x
    split at h
    · simp only [Res.ok.injEq, Prod.mk.injEq, true_and] at h
      exact ⟨x, rfl, h.symm⟩
    · simp [failed] at h

/-- what `resign_bundle` goes through when it succeeds -/
theorem resign_cases {T : Tools} {app : Bytes → Option Bytes} {running : Str} {S : Steps} {append : Bool} {b : Bundle} {path : Bytes} {existing out : Option Bytes}
    (h : resign T app running S append b path existing = .ok (true, out)) :
    existing = none ∧ ∃ b1 m f s, checkPayload running (verityFile T.sha fileDisk) b = .ok b1 ∧ manifestOf T running b1 = .ok m ∧ copyOut S path b1.size = some f ∧
      (if append then app b1.sig else generateSignature T running m f) = some s ∧ out = some (appendSignature f s) := by
  unfold resign at h
  split at h
  · simp at h
  refine ⟨rfl, ?_⟩
  split at h
  · simp [failed] at h
  · cases h
  rename_i b1 hb1
  split at h
  · simp [failed] at h
  · cases h
  rename_i m hm
  split at h
  · simp [failed] at h
  rename_i f hf
  obtain ⟨s, hs, ho⟩ := finish_ok h
  exact ⟨b1, m, f, s, hb1, hm, hf, hs, ho⟩

theorem disabled_of {K : Crypto} {cfg : Config} {load : Bytes → Option Manifest} {p : Params} {acc : AccessResults} {src : Bundle.Source} {b : Bundle}
    (h : checkBundle K cfg load p acc src = some b) (hv : p.noVerify = false) : b.verificationDisabled = false := by
  obtain ⟨-, stream, o, typ, det, sig, enc, b1, text, -, -, -, -, hs, hf⟩ := Bundle.checkBundle_cases h hv
  have h1 : b1.verificationDisabled = false := by
    unfold Bundle.verifyStep at hs
    split at hs
    · cases hs
    split at hs
    · split at hs
      · cases hs
      split at hs
      · cases hs
      split at hs
      · cases hs
      split at hs
      · cases hs
      split at hs
      · cases hs; rfl
      · cases hs
    · split at hs
      · cases hs
      split at hs
      · cases hs; rfl
      · cases hs
  unfold Bundle.finishCheck at hf
  split at hf
  · split at hf
    · cases hf; exact h1
    · cases hf
  · split at hf
    · cases hf
    split at hf
    · cases hf
    split at hf
    · cases hf; exact h1
    · cases hf

/-- an accepted local bundle: file and payload -/
theorem local_bundle {K : Crypto} {cfg : Config} {load : Bytes → Option Manifest} {p : Params} {acc : AccessResults} {f : Bytes} {b : Bundle}
    (h : checkBundle K cfg load p acc (.file true f) = some b) (hv : p.noVerify = false) :
    b.stream = some f ∧ b.verificationDisabled = false ∧ b.size ≤ f.length := by
  obtain ⟨raw, ho, -⟩ := (Bundle.C33_check_bundle K cfg load p acc _ b hv h).opened
  unfold Bundle.openBundle at ho
  simp only [] at ho
  split at ho
  · cases ho
  rename_i o hop
  simp only [Option.some.injEq, Prod.mk.injEq] at ho
  obtain ⟨ho1, rfl⟩ := ho
  obtain ⟨-, q, hq, hl, -⟩ := (Bundle.C32_open_local _ _ _ _ _).1 hop
  refine ⟨ho1.symm, disabled_of h hv, ?_⟩
  rw [hq, List.length_append, List.length_append]
  omega

/-- a verified bundle of a file with another signature -/
theorem verify_take {sha : Bytes → Bytes} {p rest : Bytes} {n : Nat} {root salt : Bytes} (h : verityFile sha fileDisk p n root salt = true) :
    verityFile sha fileDisk (p ++ rest) n root salt = true := by
  have e : Verity.Ext (fileDisk p) (fileDisk (p ++ rest)) := by
    have := ext_append (fileDisk p) rest
    rwa [show bytesOf (fileDisk p) = p from read_fileDisk p] at this
  exact e.verify h

theorem decrypt_take {D : Bytes → Bytes} {p r r' : Bytes} (hp : p.length % 4096 = 0) (h0 : p ≠ []) (hr : 4096 ≤ r.length) (hr' : 4096 ≤ r'.length) :
    Crypt.decrypt D p.length (p ++ r) none none = Crypt.decrypt D p.length (p ++ r') none none := by
  have hpos : 0 < p.length := List.length_pos_iff.2 h0
  unfold Crypt.decrypt Crypt.cryptFile
  simp only []
  have hS : Crypt.secSize = 4096 := rfl
  rw [Crypt.loop_max _ p.length (p.length / 4096) 0 p r [] (by rw [hS]; omega) (by rw [hS]; exact hr) (by rw [hS]; omega) (by rw [hS]; omega) hpos,
    Crypt.loop_max _ p.length (p.length / 4096) 0 p r' [] (by rw [hS]; omega) (by rw [hS]; exact hr') (by rw [hS]; omega) (by rw [hS]; omega) hpos]

theorem payload_ok' {T : Tools} {running : Str} {b : Bundle} {F root salt : Bytes} {m : Manifest} (h1 : b.stream = some F)
    (h3 : b.exclusiveVerified = true) (h4 : b.manifest = some m) (h5 : checkExternal running m = some m) (h6 : m.verityHash.bind (Utils.hexDecode · 32) = some root)
    (h7 : m.veritySalt.bind (Utils.hexDecode · 32) = some salt) (hv : b.verificationDisabled = false) (hp : b.payloadVerified = false) (hle : m.veritySize ≤ b.size)
    (hm : 4096 ∣ b.size) (ht : 4096 ∣ m.veritySize) (hver : verityFile T.sha fileDisk F ((b.size - m.veritySize) / 4096) root salt = true) :
    checkPayload running (verityFile T.sha fileDisk) b = .ok { b with manifest := some m, payloadVerified := true } := by
  have hsub : Bundle.sub64 b.size m.veritySize = b.size - m.veritySize := by
    unfold Bundle.sub64
    rw [if_pos hle]
  unfold Bundle.checkPayload
  rw [hv, hp]
  simp only [Bool.or_self, Bool.false_eq_true, if_false, h1, h3, Bool.not_true, h4, h5, h6, h7, hsub, hver, if_true]
  rw [if_neg]
  simp only [Bool.or_eq_true, decide_eq_true_eq]
  omega

/-- the extraction of a bundle with verity data depends on the payload only -/
theorem extract_verity {T : Tools} {running : Str} {b b1 : Bundle} {p rest rest' : Bytes} {m : Manifest} (hb : checkPayload running (verityFile T.sha fileDisk) b = .ok b1)
    (h1 : b1.stream = some (p ++ rest)) (h2 : b1.size = p.length) (h3 : b1.manifest = some m) (hle : m.veritySize < p.length) (hm : p.length % 4096 = 0)
    (h0 : 0 < m.veritySize) (ht : m.veritySize % 4096 = 0) (hun : m.format ≠ .crypt → ∀ r r', T.unpack (p ++ r) = T.unpack (p ++ r')) :
    extract T running b =
      (if m.format = .crypt then
        match m.cryptKey.bind (Utils.hexDecode · 32) with
        | none => .abort
        | some k =>
          if !(Crypt.decrypt (T.dec k) (p.length - m.veritySize) (p ++ rest') none none).ok then .error
          else
            match T.unpack (Crypt.decrypt (T.dec k) (p.length - m.veritySize) (p ++ rest') none none).out with
            | none => .error
            | some d => .ok d
      else
        match T.unpack (p ++ rest') with
        | none => .error
        | some d => .ok d) := by
  unfold extract
  rw [hb]
  have hsub : Bundle.sub64 b1.size m.veritySize = p.length - m.veritySize := by
    unfold Bundle.sub64
    rw [h2, if_pos (by omega)]
  have hdec : ∀ D, Crypt.decrypt D (p.length - m.veritySize) (p ++ rest) none none = Crypt.decrypt D (p.length - m.veritySize) (p ++ rest') none none := by
    intro D
    have hq : (p.take (p.length - m.veritySize)).length = p.length - m.veritySize := by rw [List.length_take]; omega
    have hd : (p.drop (p.length - m.veritySize)).length = m.veritySize := by rw [List.length_drop]; omega
    have := decrypt_take (D := D) (p := p.take (p.length - m.veritySize)) (r := p.drop (p.length - m.veritySize) ++ rest) (r' := p.drop (p.length - m.veritySize) ++ rest')
      (by rw [hq]; omega) (by intro e; rw [e] at hq; simp at hq; omega) (by rw [List.length_append]; omega) (by rw [List.length_append]; omega)
    rwa [hq, ← List.append_assoc, ← List.append_assoc, List.take_append_drop] at this
  by_cases hc : m.format = .crypt
  · simp only [h1, h3, hsub, hdec, if_pos hc]
    rfl
  · simp only [h1, h3, if_neg hc, hun hc rest rest']
    rfl

theorem wf_sized {m m' : Manifest} (h : ManifestWf m) (hs : SameButSize m m') : ManifestWf m' := by
  obtain ⟨h1, h2, h3⟩ := hs
  have e : ∀ j (h : j < m.images.length) (h' : j < m'.images.length), { m'.images[j] with size := m.images[j].size } = m.images[j] := fun j a b => (h3 j a b).1
  have himg : m'.images.map ManifestFile.target = m.images.map ManifestFile.target := by
    apply List.ext_getElem
    · simp [h2]
    intro j a b
    simp only [List.getElem_map]
    have := e j (by simpa using b) (by simpa using a)
    conv => rhs; rw [← this]
    rfl
  have him : ∀ i ∈ m'.images, ManifestFile.ImageWf i := by
    intro i hi
    obtain ⟨j, hj, rfl⟩ := List.getElem_of_mem hi
    have hw := h.images _ (List.getElem_mem (h2 ▸ hj))
    have he := e j (h2 ▸ hj) hj
    have hsz := (h3 j (h2 ▸ hj) hj).2
    generalize m'.images[j] = x at *
    generalize m.images[j]'(h2 ▸ hj) = y at *
    rw [← he] at hw
    have hy : y.size = -1 ∨ (0 ≤ y.size ∧ y.size < 2 ^ 63) := hw.size
    exact {
      slotclass := hw.slotclass, artifact := hw.artifact, sha256 := hw.sha256, digest := hw.digest
      size := by
        rcases hsz with a | ⟨-, -, a⟩
        · rw [a]; exact hy
        · rw [a]; right; decide
      filename := hw.filename, artType := hw.artType, derived := hw.derived, typ := hw.typ, known := hw.known, adaptive := hw.adaptive, convert := hw.convert
      converted := hw.converted, convertedNonempty := hw.convertedNonempty, content := hw.content }
  rw [← h1] at h
  exact { h with images := him, targets := by have := h.targets; rwa [show ({ m' with images := m.images } : Manifest).images.map ManifestFile.target = m'.images.map ManifestFile.target from himg.symm] at this }

/-- **C62** (partial) What `rauc resign` reports as done is a bundle with the same payload, the same manifest and a new signature. A device that trusts the new signature accepts it, and what it extracts is what the original contains.
Assumed: the format is one that the device allows, the texts in the manifest survive being written (C50), and the payload of the original can be verified and unpacked without looking at the old signature behind it. (Created bundles meet this, `C62_created_partial`.) -/
theorem C62_resign_partial (T : Tools) (hT : Sound T) (K0 : Crypto) (cfg0 : Config) (p : Params) (acc0 : AccessResults) (f : Bytes) (b : Bundle)
    (hnv : p.noVerify = false) (h0 : checkBundle K0 cfg0 (loadText T) p acc0 (.file true f) = some b)
    (app : Bytes → Option Bytes) (running : Str) (S : Steps) (existing out : Option Bytes) (h : resign T app running S false b f existing = .ok (true, out))
    (K : Crypto) (cfg : Config) (hK : Trusts K cfg T) (acc : AccessResults) (ha : acc.enforce = true ∧ acc.check = true)
    (hfmt : cfg.formats ((b.manifest.map (·.format)).getD .plain) = true) (hself : SelfContained T f b) :
    existing = none ∧ ∃ o s b', out = some o ∧ BundleFile o (f.take b.size) s ∧ checkBundle K cfg (loadText T) {} acc (.file true o) = some b' ∧ b'.size = b.size ∧
      (b.manifest = none → b'.manifest = none) ∧
      (∀ m, b.manifest = some m → ∃ m', b'.manifest = some m' ∧ SameButSize { m with minRaucVersion := none, hash := m'.hash, wasEncrypted := false } m' ∧
        ((∀ i ∈ m.images, i.filename ≠ none → 0 ≤ i.size) → m' = { m with minRaucVersion := none, hash := m'.hash, wasEncrypted := false })) ∧
      extract T running b' = extract T running b := by
  obtain ⟨hex, b1, m, g, s, hb1, hm, hg, hs, rfl⟩ := resign_cases h
  obtain ⟨hst, hvd, hle⟩ := local_bundle h0 hnv
  have hauth := Bundle.C33_check_bundle K0 cfg0 _ p acc0 _ b hnv h0
  have hpne : f.take b.size ≠ [] := by
    intro e
    have := congrArg List.length e
    rw [List.length_take, Nat.min_eq_left hle] at this
    exact hself.size this
  have hlen : (f.take b.size).length = b.size := by rw [List.length_take, Nat.min_eq_left hle]
  have hsplit : f = f.take b.size ++ f.drop b.size := (List.take_append_drop _ _).symm
  refine ⟨hex, appendSignature g s, s, ?_⟩
  rcases hauth.either with hpl | hmo
  · -- plain
    have hb1' : b1 = b := by
      unfold Bundle.checkPayload at hb1
      rw [hpl.payload, Bool.or_true, if_pos rfl] at hb1
      simp only [Res.ok.injEq] at hb1
      exact hb1.symm
    subst hb1'
    have hg' := copyOut_self hg hle
    subst hg'
    have hmp : m.format = .plain := by
      unfold manifestOf at hm
      rw [hpl.noManifest] at hm
      simp only [loadInternal, hb1] at hm
      split at hm
      · split at hm
        · cases hm
        rename_i t ht m2 hm2
        cases hm
        rw [Option.bind_eq_some_iff] at hm2
        obtain ⟨m3, -, hm3⟩ := hm2
        unfold checkInternal at hm3
        split at hm3
        · cases hm3
        rename_i hf
        split at hm3
        · cases hm3
        rename_i m4 hm4
        split at hm3
        · cases hm3
          unfold ManifestFile.checkBundled at hm4
          rw [Option.map_eq_some_iff] at hm4
          obtain ⟨l, -, rfl⟩ := hm4
          simp only [Bool.or_eq_true, decide_eq_true_eq, not_or, Decidable.not_not] at hf
          exact hf.2
        · cases hm3
      · cases hm
    simp only [Bool.false_eq_true, if_false] at hs
    unfold generateSignature at hs
    rw [if_pos hmp] at hs
    split at hs
    · cases hs
    split at hs
    · cases hs
    rename_i hl
    rw [hpl.noManifest] at hfmt
    have hchk := check_plain hK (loadText T) ha.1 hs hpne (by omega) hfmt
    refine ⟨_, rfl, rfl, hchk, hlen, fun _ => rfl, fun m hm => (by rw [hpl.noManifest] at hm; cases hm), ?_⟩
    unfold extract
    rw [hb1]
    simp only [Bundle.checkPayload, Bool.or_true, if_true, hst, hpl.noManifest]
    have e1 : T.unpack f = T.unpack (appendSignature (f.take b1.size) s) := by
      conv => lhs; rw [hsplit]
      unfold Bundle.appendSignature
      rw [List.append_assoc]
      exact hself.unpack (fun m hm => by rw [hpl.noManifest] at hm; cases hm) _ _
    rw [e1]
  · -- verity and crypt
    obtain ⟨fs, mm, m', root, salt, hfs, hexcl, hmm, hext, hroot, hsalt, hdvd, hver, rfl⟩ := Bundle.C33_payload_checked running _ b b1 hvd hmo.payload hb1
    rw [hst] at hfs
    cases hfs
    simp only [manifestOf, Res.ok.injEq] at hm
    subst hm
    have hg' := copyOut_self hg hle
    subst hg'
    obtain ⟨himg, hsame, hhook, -, hnp, hvh, hvs, hv0, hv4, hck⟩ := ManifestFile.C35_external running mm m' hext
    have hm'f : m'.format = mm.format := by have := hsame.1; rw [← this]
    have hsz : ∀ i ∈ m'.images, i.filename ≠ none → 0 ≤ i.size := fun i hi => (himg i hi).size
    simp only [Bool.false_eq_true, if_false] at hs
    unfold generateSignature at hs
    rw [if_neg (by rw [hm'f]; exact hnp)] at hs
    split at hs
    · cases hs
    rename_i m2 hm2
    obtain ⟨he2, -, -, hagain⟩ := external_complete hsz hm2
    rw [he2] at hs
    obtain ⟨hvle, hself'⟩ := hself.verity mm root salt hmm hroot hsalt
    have hsz0 : 4096 * ((b.size - mm.veritySize) / 4096) ≠ 0 := by
      have : Verity.sizesOk Verity.code ((b.size - mm.veritySize) / 4096) = true := by
        unfold Bundle.verityFile Verity.verify at hself'
        simp only [Bool.and_eq_true] at hself'
        exact hself'.1.1
      have := Verity.sizesOk_iff.1 this
      omega
    have hfacts : m'.verityHash = mm.verityHash ∧ m'.veritySalt = mm.veritySalt ∧ m'.veritySize = mm.veritySize := by
      have := hsame.1
      refine ⟨?_, ?_, ?_⟩ <;> rw [← this]
    have hsame2 : ∀ x y z, SameButSize { mm with minRaucVersion := x, hash := y, wasEncrypted := z } { m' with minRaucVersion := x, hash := y, wasEncrypted := z } := by
      intro x y z
      refine ⟨?_, hsame.2⟩
      have := hsame.1
      conv => rhs; rw [← this]
    have hwf' : ManifestWf { m' with hash := none, wasEncrypted := false } := wf_sized (hself.manifest mm hmm) (by
      refine ⟨?_, hsame.2⟩
      have := hsame.1
      conv => rhs; rw [← this])
    have hld := load_text hT (m := { m' with wasEncrypted := false }) hwf'
    rw [show prepare { m' with wasEncrypted := false } = prepare m' from rfl] at hld
    have hchk := check_external hK (loadText T) (acc := acc) hs (f.take b.size) hld (by show m'.format ≠ .plain; rw [hm'f]; exact hnp) (by
      show cfg.formats m'.format = true
      rw [hmm] at hfmt
      rw [hm'f]; exact hfmt)
    rw [ha.2] at hchk
    refine ⟨_, rfl, rfl, hchk, hlen, fun e => (by rw [hmm] at e; cases e), ?_, ?_⟩
    · intro m0 hm0
      rw [hmm] at hm0
      cases hm0
      refine ⟨_, rfl, hsame2 none _ false, ?_⟩
      intro hpos
      obtain ⟨e, -⟩ := external_complete hpos hext
      subst e
      rfl
    · have hpay := payload_ok' (T := T) (running := running) (b := ⟨some (appendSignature (f.take b.size) s), (f.take b.size).length, s, false, false, true, false, true, some
          { m' with minRaucVersion := none, wasEncrypted := false, hash := some (shaHex T (T.text (prepare m'))) }⟩) (root := root) (salt := salt) rfl rfl rfl (hagain _ _)
          (by rw [← hroot]; exact congrArg (Option.bind · _) hfacts.1) (by rw [← hsalt]; exact congrArg (Option.bind · _) hfacts.2.1) rfl rfl
          (by rw [hlen]; show m'.veritySize ≤ _; rw [hfacts.2.2]; exact hvle) (by rw [hlen]; exact hdvd) (by show 4096 ∣ m'.veritySize; rw [hfacts.2.2]; exact hv4) (by
          rw [hlen]
          show verityFile T.sha fileDisk _ ((b.size - m'.veritySize) / 4096) root salt = true
          rw [hfacts.2.2]
          unfold Bundle.appendSignature
          rw [List.append_assoc]
          exact verify_take hself')
      have hvlt : m'.veritySize < (f.take b.size).length := by rw [hlen, hfacts.2.2]; omega
      have hv0' : 0 < m'.veritySize := by rw [hfacts.2.2]; exact hv0
      have hv4' : m'.veritySize % 4096 = 0 := by rw [hfacts.2.2]; omega
      have hdl : (f.take b.size).length % 4096 = 0 := by rw [hlen]; omega
      have hun' : m'.format ≠ .crypt → ∀ r r', T.unpack (f.take b.size ++ r) = T.unpack (f.take b.size ++ r') := by
        intro hc
        refine hself.unpack ?_
        intro m0 hm0
        rw [hmm] at hm0
        cases hm0
        rw [← hm'f]; exact hc
      rw [extract_verity (rest := s ++ Bundle.beBytes 8 s.length) (rest' := []) hpay (by simp only [Bundle.appendSignature, List.append_assoc]) rfl rfl hvlt hdl hv0' hv4' hun',
        extract_verity (m := m') (rest := f.drop b.size) (rest' := []) hb1 (by rw [← hsplit]; exact hst) hlen.symm rfl hvlt hdl hv0' hv4' hun']

/-- **C62** (partial) A bundle that was created, and then signed again by somebody else (`sign` is the signing function with their key), is accepted by the devices that trust the new signer; they extract the same content and see the manifest of the creation. Assumed: as for C61. -/
theorem C62_created_partial (T : Tools) (hT : Sound T) (K0 : Crypto) (cfg0 : Config) (hK0 : Trusts K0 cfg0 T) (R : Run)
    (hsalt : ∀ s, R.salt = some s → s.length = 32) (hkey : ∀ k, R.key = some k → k.length = 32) (running : Str) (depth : Nat) (content : Dir)
    (existing : Option Bytes) (f : Bytes) (hcreate : create T R running depth content existing = (true, some f))
    (w : Dir) (hl : linkDir depth true content = some w) (m : Manifest) (hm : (openFile w c!"manifest.raucm").bind (loadText T) = some m)
    (hwf : ManifestWf { m with hash := none }) (hsz : ∀ n b, openFile w n = some b → b.length < 2 ^ 63) (hconv : ∀ i ∈ m.images, i.convert ≠ some [])
    (hfmt0 : cfg0.formats m.format = true) (acc0 acc : AccessResults) (ha0 : acc0.enforce = true ∧ acc0.check = true) (ha : acc.enforce = true ∧ acc.check = true)
    (sign : Bool → Bytes → Option Bytes) (K : Crypto) (cfg : Config) (hK : Trusts K cfg { T with sign := sign }) (hfmt : cfg.formats m.format = true) :
    ∃ b, checkBundle K0 cfg0 (loadText T) {} acc0 (.file true f) = some b ∧ ∀ (app : Bytes → Option Bytes) (S : Steps) (existing' out : Option Bytes),
      resign { T with sign := sign } app running S false b f existing' = .ok (true, out) →
      ∃ o b' w', out = some o ∧ checkBundle K cfg (loadText T) {} acc (.file true o) = some b' ∧ extract T running b' = .ok w' ∧ Holds T w m w' ∧
        (m.format = .plain → b'.manifest = none) ∧ (m.format ≠ .plain → ∃ m', b'.manifest = some m' ∧ Completed T w m m') := by
  obtain ⟨-, b, w', h1, h2, h3, h4, h5, h6⟩ := C61_create_partial T hT K0 cfg0 hK0 R hsalt hkey running depth content existing f hcreate w hl m hm hwf hsz hconv hfmt0 acc0 ha0
  refine ⟨b, h1, ?_⟩
  intro app S existing' out h
  have hfb : (b.manifest.map (·.format)).getD .plain = m.format := by
    by_cases hp : m.format = .plain
    · rw [h3 hp, hp]; rfl
    · obtain ⟨m', e, hc, -⟩ := h4 hp
      rw [e]
      have := congrArg (·.format) hc.same
      exact this
  have hT' : Sound { T with sign := sign } := ⟨hT.pack, hT.sha, hT.cipher, hT.cfs, hT.text⟩
  obtain ⟨-, o, s, b', rfl, -, q1, -, q3, q4, q5⟩ := C62_resign_partial { T with sign := sign } hT' K0 cfg0 {} acc0 f b rfl h1 app running S existing' out h K cfg hK acc ha
    (by rw [hfb]; exact hfmt) ⟨h6.size, h6.manifest, h6.verity, h6.unpack⟩
  refine ⟨o, b', w', rfl, q1, ?_, h5, fun hp => q3 (h3 hp), ?_⟩
  · have e : extract { T with sign := sign } running b = extract T running b := rfl
    rw [e, h2] at q5
    exact q5
  · intro hp
    obtain ⟨m1, e, hc, -⟩ := h4 hp
    obtain ⟨m', e', -, hs⟩ := q4 m1 e
    refine ⟨m', e', ?_⟩
    have hpos : ∀ i ∈ m1.images, i.filename ≠ none → 0 ≤ i.size := by
      intro i' hi' hf
      obtain ⟨i, hi, he⟩ := forall₂_mem hc.images i' hi'
      have : i'.filename = i.filename := by conv => rhs; rw [← he.same]
      rw [this] at hf
      obtain ⟨g, hg⟩ := Option.ne_none_iff_exists'.1 hf
      obtain ⟨b, -, -, -, hb⟩ := he.file g hg
      rw [hb]; exact Int.natCast_nonneg _
    rw [hs hpos]
    refine ⟨?_, hc.images⟩
    have hwe : m1.wasEncrypted = m.wasEncrypted := by have := congrArg (·.wasEncrypted) hc.same; exact this
    have hmin : m1.minRaucVersion = none := by have := congrArg (·.minRaucVersion) hc.same; exact this
    rw [← hc.same]
    have hw0 : m.wasEncrypted = false := hwf.meta'.1
    rw [hw0] at hwe
    simp only [hwe, hmin]

/-- the checks of a manifest that passed them -/
theorem external_again {running : Str} {m m' : Manifest} (h : checkExternal running m = some m') : checkExternal running m' = some m' := by
  obtain ⟨h1, ⟨e, hl, hi⟩, h3, h4, h5, h6, h7, h8, h9, h10⟩ := ManifestFile.C35_external running m m' h
  rw [← e] at h3 h4 h5 h6 h7 h8 h9 h10
  refine ManifestFile.C35_external_complete running m' h1 ?_ h4 h5 h6 h7 h8 h9 h10
  rintro (hc | ⟨i, hi', hh⟩)
  · exact h3 (.inl hc)
  · refine h3 (.inr ?_)
    obtain ⟨j, hj, rfl⟩ := List.getElem_of_mem hi'
    refine ⟨m.images[j]'(hl ▸ hj), List.getElem_mem _, ?_⟩
    rw [← (hi j (hl ▸ hj) hj).1]
    exact hh

/-- **C62** Signing again succeeds for each accepted bundle in the verity or crypt format that can be extracted, if nothing goes wrong with the files and the signing itself. -/
theorem C62_resign_complete (T : Tools) (K0 : Crypto) (cfg0 : Config) (p : Params) (acc0 : AccessResults) (f : Bytes) (b : Bundle)
    (hnv : p.noVerify = false) (h0 : checkBundle K0 cfg0 (loadText T) p acc0 (.file true f) = some b) (m : Manifest) (hm : b.manifest = some m)
    (running : Str) (d : Dir) (hx : extract T running b = .ok d) (app : Bytes → Option Bytes) (S : Steps) (hS : S.copy = true ∧ S.write = true ∧ S.race = none)
    (hsign : ∀ m', SameButSize m m' → ∃ s, T.sign false (T.text (prepare m')) = some s) : ∃ o, resign T app running S false b f none = .ok (true, some o) := by
  obtain ⟨hst, hvd, hle⟩ := local_bundle h0 hnv
  have hauth := Bundle.C33_check_bundle K0 cfg0 _ p acc0 _ b hnv h0
  rcases hauth.either with hpl | hmo
  · rw [hpl.noManifest] at hm; cases hm
  unfold extract at hx
  split at hx
  · cases hx
  · cases hx
  rename_i b1 hb1
  obtain ⟨fs, mm, m', root, salt, hfs, hexcl, hmm, hext, -, -, -, -, rfl⟩ := Bundle.C33_payload_checked running _ b b1 hvd hmo.payload hb1
  rw [hm] at hmm
  cases hmm
  obtain ⟨-, hsame, -, -, hnp, -⟩ := ManifestFile.C35_external running m m' hext
  have hm'f : m'.format = m.format := by have := hsame.1; rw [← this]
  obtain ⟨s, hs⟩ := hsign m' hsame
  have hcopy : copyOut S f b.size = some (f.take b.size) := by
    unfold copyOut Bundle.truncateBundle
    rw [hS.1, hS.2.2, Nat.sub_eq_zero_of_le hle]
    simp
  refine ⟨appendSignature (f.take b.size) s, ?_⟩
  unfold resign
  simp only [hb1, manifestOf, hcopy, Bool.false_eq_true, if_false]
  unfold generateSignature
  rw [if_neg (by rw [hm'f]; exact hnp), external_again hext]
  simp only [hs, finish, hS.2.1, if_true]

/-- **C62** Only what was verified is signed again, with or without `--append`: a plain bundle with a valid signature over the payload, or a bundle with a signed manifest whose root hash matches the payload (and that nobody else can write to). -/
theorem C62_resign_verified (T : Tools) (K0 : Crypto) (cfg0 : Config) (p : Params) (acc0 : AccessResults) (f : Bytes) (b : Bundle) (hnv : p.noVerify = false)
    (h0 : checkBundle K0 cfg0 (loadText T) p acc0 (.file true f) = some b) (app : Bytes → Option Bytes) (running : Str) (S : Steps) (append : Bool) (path : Bytes)
    (existing out : Option Bytes) (h : resign T app running S append b path existing = .ok (true, out)) :
    (b.manifest = none ∧ SignatureOk K0 cfg0 p.noCheckTime b.sig (some (if b.size = 0 then f else f.take b.size)) none ∧ (p.trustEnv = true ∨ acc0.enforce = true)) ∨
    ∃ m text m0 root salt, b.manifest = some m ∧ SignatureOk K0 cfg0 p.noCheckTime b.sig none (some text) ∧ loadText T text = some m0 ∧ m = { m0 with wasEncrypted := b.wasEncrypted } ∧
      m.verityHash.bind (Utils.hexDecode · 32) = some root ∧ m.veritySalt.bind (Utils.hexDecode · 32) = some salt ∧
      verityFile T.sha fileDisk f (Bundle.sub64 b.size m.veritySize / 4096) root salt = true ∧ (p.trustEnv = true ∨ acc0.enforce = true ∨ acc0.check = true) := by
  obtain ⟨-, b1, -, -, -, hb1, -⟩ := resign_cases h
  obtain ⟨hst, hvd, hle⟩ := local_bundle h0 hnv
  have hauth := Bundle.C33_check_bundle K0 cfg0 _ p acc0 _ b hnv h0
  rcases hauth.either with hpl | hmo
  · left
    obtain ⟨f', hf', hsig⟩ := hpl.local_
    rw [hst] at hf'
    cases hf'
    exact ⟨hpl.noManifest, hsig, hpl.exclusive⟩
  · right
    obtain ⟨fs, mm, m', root, salt, hfs, hexcl, hmm, hext, hroot, hsalt, hdvd, hver, -⟩ := Bundle.C33_payload_checked running _ b b1 hvd hmo.payload hb1
    rw [hst] at hfs
    cases hfs
    obtain ⟨text, m0, h1, h2, h3, -, -⟩ := hmo.signed
    rw [hmm] at h3
    cases h3
    exact ⟨_, text, m0, root, salt, hmm, h1, h2, rfl, hroot, hsalt, hver, (hauth.exclusive hexcl).2⟩

theorem finish_failed {S : Steps} {f : Bytes} {s x : Option Bytes} (h : finish S f s = .ok (false, x)) : x = none := by
  unfold finish at h
  split at h
  · simp only [failed, Res.ok.injEq, Prod.mk.injEq, true_and] at h; exact h.symm
  · split at h
    · simp at h
    · simp only [failed, Res.ok.injEq, Prod.mk.injEq, true_and] at h; exact h.symm

theorem failed_none {x : Option Bytes} (h : failed = .ok (false, x)) : x = none := by
  simp only [failed, Res.ok.injEq, Prod.mk.injEq, true_and] at h; exact h.symm

/-- **C62** A tool that fails leaves no file under the name of the output, and a file that was there before is never touched. -/
theorem C62_failure (T : Tools) (app env : Bytes → Option Bytes) (K : Ring → Crypto) (cfg : Config) (load : Bytes → Option Manifest) (acc : AccessResults) (running : Str)
    (S : Steps) (p : Params) (ring : Ring) (signing : Option Str) (newSig : Option Bytes) (append : Bool) (b : Bundle) (path : Bytes) (existing : Option Bytes) :
    (∀ x, resign T app running S append b path existing = .ok (false, x) → x = existing) ∧
    (∀ x, encrypt env S b path existing = .ok (false, x) → x = existing) ∧
    (∀ x, (replaceSignature T K cfg load acc running S p ring signing newSig b path existing).1 = .ok (false, x) → x = existing) ∧
    (existing ≠ none → resign T app running S append b path existing = .ok (false, existing) ∧ encrypt env S b path existing = .ok (false, existing) ∧
      (replaceSignature T K cfg load acc running S p ring signing newSig b path existing).1 = .ok (false, existing)) := by
  refine ⟨?_, ?_, ?_, ?_⟩
  · intro x h
    unfold resign at h
    split at h
    · simp only [Res.ok.injEq, Prod.mk.injEq, true_and] at h; exact h.symm
    split at h
    · exact failed_none h
    · cases h
    split at h
    · exact failed_none h
    · cases h
    split at h
    · exact failed_none h
    exact finish_failed h
  · intro x h
    unfold encrypt at h
    split at h
    · simp only [Res.ok.injEq, Prod.mk.injEq, true_and] at h; exact h.symm
    split at h
    · simp only [Res.ok.injEq, Prod.mk.injEq, true_and] at h; exact h.symm
    split at h
    · exact failed_none h
    exact finish_failed h
  · intro x h
    unfold replaceSignature at h
    split at h
    · simp only [Res.ok.injEq, Prod.mk.injEq, true_and] at h; exact h.symm
    split at h
    · exact failed_none h
    · cases h
    split at h
    · exact failed_none h
    split at h
    · exact failed_none h
    split at h
    · exact failed_none h
    split at h
    · exact failed_none h
    · simp at h
  · intro he
    obtain ⟨x, rfl⟩ := Option.ne_none_iff_exists'.1 he
    refine ⟨rfl, ?_, rfl⟩
    unfold encrypt
    split <;> rfl

/-- **C62** A file that somebody else creates under the name of the output while the tool runs (after its check) is deleted. -/
theorem C62_finding_race (T : Tools) (app : Bytes → Option Bytes) (running : Str) (S : Steps) (x : Bytes) (hrace : S.race = some x) (append : Bool) (b b1 : Bundle) (m : Manifest)
    (path : Bytes) (h1 : checkPayload running (verityFile T.sha fileDisk) b = .ok b1) (h2 : manifestOf T running b1 = .ok m) :
    resign T app running S append b path none = .ok (false, none) := by
  unfold resign
  simp only [h1, h2, copyOut, hrace, Option.isNone_some, Bool.and_false, Bool.false_eq_true, if_false, failed]

/-- **C62** `rauc resign --append` gives a bundle with two signers, and no device accepts it: exactly one signer is required. -/
theorem C62_finding_append (T : Tools) (app : Bytes → Option Bytes) (running : Str) (S : Steps) (b : Bundle) (path : Bytes) (existing : Option Bytes) (o : Bytes)
    (h : resign T app running S true b path existing = .ok (true, some o)) (K : Crypto) (cfg : Config) (load : Bytes → Option Manifest) (p : Params) (acc : AccessResults)
    (hnv : p.noVerify = false)
    (happ : ∀ s, app b.sig = some s → s.length < 2 ^ 64 ∧ (∃ d, K.parse s = some (.signed, d)) ∧ ∃ c1 c2 l, K.signers s = some (c1 :: c2 :: l)) :
    checkBundle K cfg load p acc (.file true o) = none := by
  obtain ⟨-, b1, m, g, s, hb1, -, -, hs, ho⟩ := resign_cases h
  cases ho
  have hsig : b1.sig = b.sig := by
    unfold Bundle.checkPayload at hb1
    split at hb1
    · cases hb1; rfl
    split at hb1
    · cases hb1
    split at hb1
    · cases hb1
    split at hb1
    · cases hb1
    split at hb1
    · cases hb1
    split at hb1
    · split at hb1
      · cases hb1
      split at hb1
      · cases hb1; rfl
      · cases hb1
    · cases hb1
  simp only [if_true, hsig] at hs
  obtain ⟨hl, ⟨d, hp⟩, c1, c2, l, hsn⟩ := happ s hs
  cases hc : checkBundle K cfg load p acc (.file true (appendSignature g s)) with
  | none => rfl
  | some b' =>
    exfalso
    have hauth := Bundle.C33_check_bundle K cfg load p acc _ b' hnv hc
    obtain ⟨raw, hop, hun⟩ := hauth.opened
    unfold Bundle.openBundle at hop
    simp only [] at hop
    split at hop
    · cases hop
    rename_i o hop'
    simp only [Option.some.injEq, Prod.mk.injEq] at hop
    obtain ⟨-, rfl⟩ := hop
    obtain ⟨-, q, hq, -, -, -, hl'⟩ := (Bundle.C32_open_local _ _ _ _ _).1 hop'
    obtain ⟨-, rfl⟩ := Bundle.C32_unique _ _ _ _ _ (show BundleFile (appendSignature g s) g s from rfl) hq hl hl'
    have hbs : b'.sig = s := by
      rcases hun with ⟨-, e, -⟩ | ⟨-, -, ⟨d', e⟩, -⟩
      · exact e
      · rw [hp] at e; cases e
    have : ∃ cn, K.signers b'.sig = some [cn] := by
      rcases hauth.either with hx | hx
      · obtain ⟨_, -, hx⟩ := hx.local_
        obtain ⟨cn, h, -⟩ := hx.signer
        exact ⟨cn, h⟩
      · obtain ⟨_, _, hx, -⟩ := hx.signed
        obtain ⟨cn, h, -⟩ := hx.signer
        exact ⟨cn, h⟩
    obtain ⟨cn, hcn⟩ := this
    rw [hbs, hsn] at hcn
    cases hcn

/-- **C62** `rauc encrypt` accepts only bundles in the crypt format. A device that accepts the original and has the key accepts the result, with the same manifest, now marked as encrypted; the payload is the same. -/
theorem C62_encrypt (T : Tools) (K : Crypto) (cfg : Config) (p : Params) (acc : AccessResults) (f : Bytes) (b : Bundle) (hnv : p.noVerify = false)
    (h0 : checkBundle K cfg (loadText T) p acc (.file true f) = some b) (env : Bytes → Option Bytes) (S : Steps) (existing out : Option Bytes)
    (h : encrypt env S b f existing = .ok (true, out)) (hlimit : cfg.maxSig < 2 ^ 64)
    (henv : ∀ e, env b.sig = some e → e ≠ [] ∧ e.length ≤ cfg.maxSig ∧ K.parse e = some (.enveloped, false) ∧ K.decrypt e = some b.sig) (hkey : cfg.encryptionKey = true) :
    existing = none ∧ ∃ m o e, b.manifest = some m ∧ m.format = .crypt ∧ out = some o ∧ env b.sig = some e ∧ BundleFile o (f.take b.size) e ∧
      checkBundle K cfg (loadText T) p acc (.file true o) = some { b with stream := some o, wasEncrypted := true, manifest := some { m with wasEncrypted := true } } := by
  unfold encrypt at h
  split at h
  · simp at h
  rename_i hcr
  split at h
  · simp at h
  refine ⟨rfl, ?_⟩
  split at h
  · simp [failed] at h
  rename_i g hg
  obtain ⟨hst, hvd, hle⟩ := local_bundle h0 hnv
  have hg' := copyOut_self hg hle
  subst hg'
  obtain ⟨e, he, rfl⟩ := finish_ok h
  cases hm : b.manifest with
  | none => rw [hm] at hcr; simp at hcr
  | some m =>
    have hmf : m.format = .crypt := by rw [hm] at hcr; simpa using hcr
    refine ⟨m, _, e, rfl, hmf, rfl, he, rfl, ?_⟩
    obtain ⟨h1, h2, h3, h4⟩ := henv e he
    have hauth := Bundle.C33_check_bundle K cfg _ p acc _ b hnv h0
    have hlen : (f.take b.size).length = b.size := by rw [List.length_take, Nat.min_eq_left hle]
    have hop := Bundle.C32_append_open cfg.maxSig (f.take b.size) e h1 h2 (by omega)
    rw [hlen] at hop
    rcases hauth.either with hx | hx
    · rw [hx.noManifest] at hm; cases hm
    · obtain ⟨text, m0, hsig, hl, hm0, hnp, hfm⟩ := hx.signed
      obtain ⟨hs, sp, hv, hc⟩ := (Bundle.signatureOk_iff ..).2 hsig
      have hexcl : b.exclusiveVerified = (p.trustEnv || acc.check) := by
        obtain ⟨-, stream, o, typ, det, sig, enc, b1, tx, ho, -, -, -, hvs, hf⟩ := Bundle.checkBundle_cases h0 hnv
        have hso : stream = some f := by
          unfold Bundle.openBundle at ho
          simp only [] at ho
          split at ho
          · cases ho
          simp only [Option.some.injEq, Prod.mk.injEq] at ho
          exact ho.1.symm
        subst hso
        unfold Bundle.verifyStep at hvs
        split at hvs
        · cases hvs
        split at hvs
        · -- detached: there is no manifest
          exfalso
          simp only [] at hvs
          split at hvs
          · cases hvs
          split at hvs
          · cases hvs
          split at hvs
          · cases hvs
          split at hvs
          · simp only [Option.some.injEq, Prod.mk.injEq] at hvs
            obtain ⟨rfl, rfl⟩ := hvs
            unfold Bundle.finishCheck at hf
            simp only [] at hf
            split at hf
            · cases hf; cases hm
            · cases hf
          · cases hvs
        · split at hvs
          · cases hvs
          split at hvs
          · simp only [Option.some.injEq, Prod.mk.injEq] at hvs
            obtain ⟨rfl, rfl⟩ := hvs
            unfold Bundle.finishCheck at hf
            split at hf
            · split at hf
              · cases hf; rfl
              · cases hf
            · split at hf
              · cases hf
              split at hf
              · cases hf
              split at hf
              · cases hf; rfl
              · cases hf
          · cases hvs
      have hdec : Bundle.decryptSig K cfg e = some (b.sig, true) := (Bundle.decryptSig_iff ..).2 (.inr ⟨rfl, hkey, ⟨_, h3⟩, h4⟩)
      unfold checkBundle
      rw [hauth.keyring, hnv]
      simp only [Bool.not_true, Bool.and_false, Bool.false_eq_true, if_false, Bundle.openBundle, hop, h3, hdec, Bool.false_and]
      unfold Bundle.verifyStep
      simp only [hs, hv, hc, Bool.not_true, Bool.false_eq_true, if_false, if_true]
      simp only [Bundle.finishCheck, hl, if_neg hnp, hfm, if_true, Option.isSome_some, Bool.true_and]
      rw [hm0] at hm
      cases hm
      obtain ⟨a1, a2, a3, a4, a5, a6, a7, a8, a9⟩ := b
      simp only [] at hst hvd hexcl hm0 ⊢
      have := hauth.verified
      have := hx.payload
      simp_all

theorem replace_cases {T : Tools} {K : Ring → Crypto} {cfg : Config} {load : Bytes → Option Manifest} {acc : AccessResults} {running : Str} {S : Steps} {p : Params}
    {ring after : Ring} {signing : Option Str} {newSig : Option Bytes} {b : Bundle} {path : Bytes} {existing out : Option Bytes}
    (h : replaceSignature T K cfg load acc running S p ring signing newSig b path existing = (.ok (true, out), after)) :
    ∃ m s f b', existing = none ∧ manifestOf T running b = .ok m ∧ newSig = some s ∧ copyOut S path b.size = some f ∧ S.write = true ∧ out = some (appendSignature f s) ∧
      after = restoredRing ring signing ∧
      checkBundle (K (usedRing ring signing)) { cfg with keyring := (usedRing ring signing).given } load { p with noVerify := !(usedRing ring signing).given } acc
        (.file true (appendSignature f s)) = some b' := by
  unfold replaceSignature at h
  cases existing with
  | some x => simp at h
  | none =>
    cases hm : manifestOf T running b with
    | error => simp [hm, failed] at h
    | abort => simp [hm] at h
    | ok m =>
      cases newSig with
      | none => simp [hm, failed] at h
      | some s =>
        cases hf : copyOut S path b.size with
        | none => simp [hm, hf, failed] at h
        | some f =>
          cases hw : S.write with
          | false => simp [hm, hf, hw, failed] at h
          | true =>
            simp only [hm, hf, hw, Bool.not_true, Bool.false_eq_true, if_false] at h
            split at h
            · simp [failed] at h
            · rename_i b' hb
              simp only [Prod.mk.injEq, Res.ok.injEq, true_and] at h
              exact ⟨m, s, f, b', rfl, rfl, rfl, rfl, rfl, h.1.symm, h.2.symm, hb⟩

/-- **C62** If the output cannot be created or written (or the signature cannot be appended), no tool reports success. -/
theorem C62_reported (T : Tools) (app env : Bytes → Option Bytes) (K : Ring → Crypto) (cfg : Config) (load : Bytes → Option Manifest) (acc : AccessResults) (running : Str)
    (S : Steps) (p : Params) (ring : Ring) (signing : Option Str) (newSig : Option Bytes) (append : Bool) (b : Bundle) (path : Bytes) (existing : Option Bytes)
    (hS : S.copy = false ∨ S.write = false ∨ S.race ≠ none) (x : Option Bytes) :
    resign T app running S append b path existing ≠ .ok (true, x) ∧ encrypt env S b path existing ≠ .ok (true, x) ∧
    (replaceSignature T K cfg load acc running S p ring signing newSig b path existing).1 ≠ .ok (true, x) := by
  have hcopy : ∀ n f s, copyOut S path n = some f → finish S f s ≠ .ok (true, x) := by
    intro n f s hc hf
    unfold copyOut at hc
    unfold finish at hf
    split at hc
    · rename_i h
      simp only [Bool.and_eq_true, Option.isNone_iff_eq_none] at h
      rcases hS with h' | h' | h'
      · rw [h.1] at h'; cases h'
      · split at hf
        · simp [failed] at hf
        · rw [h'] at hf
          simp [failed] at hf
      · exact h' h.2
    · cases hc
  refine ⟨?_, ?_, ?_⟩
  · intro h
    unfold resign at h
    split at h
    · simp at h
    split at h
    · simp [failed] at h
    · cases h
    split at h
    · simp [failed] at h
    · cases h
    split at h
    · simp [failed] at h
    rename_i f hf
    exact hcopy _ _ _ hf h
  · intro h
    unfold encrypt at h
    split at h
    · simp at h
    split at h
    · simp at h
    split at h
    · simp [failed] at h
    rename_i f hf
    exact hcopy _ _ _ hf h
  · intro h
    have hr : ∃ a, replaceSignature T K cfg load acc running S p ring signing newSig b path existing = (.ok (true, x), a) := ⟨_, Prod.ext h rfl⟩
    obtain ⟨a, hr⟩ := hr
    obtain ⟨m, s, f, b', -, -, -, hf, hw, -⟩ := replace_cases hr
    refine hcopy _ _ (some s) hf ?_
    exfalso
    unfold copyOut at hf
    split at hf
    · rename_i h
      simp only [Bool.and_eq_true, Option.isNone_iff_eq_none] at h
      rcases hS with h' | h' | h'
      · rw [h.1] at h'; cases h'
      · rw [hw] at h'; cases h'
      · exact h' h.2
    · cases hf

/-- **C62** What `rauc replace-signature` reports as done has the payload of the original and the given signature. If there is a keyring (the one given for signing, or else the configured one), the signature was verified with it. -/
theorem C62_replace (T : Tools) (K0 : Crypto) (cfg0 : Config) (p0 : Params) (acc0 : AccessResults) (f : Bytes) (b : Bundle) (hnv : p0.noVerify = false)
    (h0 : checkBundle K0 cfg0 (loadText T) p0 acc0 (.file true f) = some b)
    (K : Ring → Crypto) (cfg : Config) (load : Bytes → Option Manifest) (acc : AccessResults) (running : Str) (S : Steps) (p : Params)
    (ring after : Ring) (signing : Option Str) (newSig : Option Bytes) (existing out : Option Bytes)
    (h : replaceSignature T K cfg load acc running S p ring signing newSig b f existing = (.ok (true, out), after)) :
    existing = none ∧ ∃ o s, out = some o ∧ newSig = some s ∧ BundleFile o (f.take b.size) s ∧
      (∀ k, signing = some k → ∃ b', Authentic (K ⟨some k, none⟩) { cfg with keyring := true } load { p with noVerify := false } acc (.file true o) b') ∧
      (signing = none → ring ≠ ⟨none, none⟩ → ∃ b', Authentic (K ring) { cfg with keyring := true } load { p with noVerify := false } acc (.file true o) b') := by
  obtain ⟨m, s, g, b', h1, -, h3, h4, -, rfl, h7, h8⟩ := replace_cases h
  obtain ⟨hst, hvd, hle⟩ := local_bundle h0 hnv
  have hg' := copyOut_self h4 hle
  subst hg'
  refine ⟨h1, _, s, rfl, h3, rfl, ?_, ?_⟩
  · rintro k rfl
    exact ⟨b', Bundle.C33_check_bundle _ _ _ _ _ _ _ rfl h8⟩
  · rintro rfl hr
    have : (usedRing ring none).given = true := by
      obtain ⟨a, d⟩ := ring
      unfold usedRing Ring.given
      cases a <;> cases d <;> simp at hr ⊢
    rw [this] at h8
    exact ⟨b', Bundle.C33_check_bundle _ _ _ _ _ _ _ rfl h8⟩

/-- **C62** The keyring that is configured is in use again after `rauc replace-signature`, whatever the result (unless none is configured). -/
theorem C62_replace_keyring (T : Tools) (K : Ring → Crypto) (cfg : Config) (load : Bytes → Option Manifest) (acc : AccessResults) (running : Str) (S : Steps) (p : Params)
    (ring : Ring) (signing : Option Str) (newSig : Option Bytes) (b : Bundle) (path : Bytes) (existing : Option Bytes) (hr : signing = none ∨ ring ≠ ⟨none, none⟩) :
    (replaceSignature T K cfg load acc running S p ring signing newSig b path existing).2 = ring := by
  have key : restoredRing ring signing = ring := by
    unfold restoredRing usedRing
    cases signing with
    | none => simp
    | some k =>
      obtain ⟨a, d⟩ := ring
      rcases hr with hr | hr
      · cases hr
      · cases a <;> cases d <;> simp at hr ⊢
  unfold replaceSignature
  repeat' split
  all_goals first | rfl | exact key

/-- **C62** If no keyring is configured, the one given for signing stays configured afterwards. -/
theorem C62_finding_keyring (T : Tools) (K : Ring → Crypto) (cfg : Config) (load : Bytes → Option Manifest) (acc : AccessResults) (running : Str) (S : Steps) (p : Params)
    (k : Str) (newSig : Option Bytes) (b : Bundle) (path : Bytes) (existing out : Option Bytes) (after : Ring)
    (h : replaceSignature T K cfg load acc running S p ⟨none, none⟩ (some k) newSig b path existing = (.ok (true, out), after)) : after = ⟨some k, none⟩ := by
  obtain ⟨m, s, g, b', -, -, -, -, -, -, h7, -⟩ := replace_cases h
  rw [h7]
  rfl

theorem open_append {maxSig : Nat} {q s : Bytes} (hs : s.length < 2 ^ 64) :
    Bundle.openLocal maxSig true (appendSignature q s) = if s ≠ [] ∧ s.length ≤ maxSig then some ⟨q.length, s⟩ else none := by
  split
  · rename_i hh
    exact Bundle.C32_append_open _ _ _ hh.1 hh.2 hs
  · rename_i hh
    cases ho : Bundle.openLocal maxSig true (appendSignature q s) with
    | none => rfl
    | some o =>
      exfalso
      obtain ⟨n, s2⟩ := o
      obtain ⟨-, q2, hq2, -, h9, h10, h11⟩ := (Bundle.C32_open_local _ _ _ _ _).1 ho
      obtain ⟨-, rfl⟩ := Bundle.C32_unique _ _ _ _ _ (show BundleFile (appendSignature q s) q s from rfl) hq2 hs h11
      exact hh ⟨h9, h10⟩

/-- a bundle with an inline signature is accepted or refused whatever the payload is -/
theorem check_any_payload {K : Crypto} {cfg : Config} {load : Bytes → Option Manifest} {p : Params} {acc : AccessResults} {q q' s : Bytes} {t : Bundle.CmsType}
    (hs : s.length < 2 ^ 64) (hp : K.parse s = some (t, false)) (hl : q'.length = q.length) {b : Bundle}
    (h : checkBundle K cfg load p acc (.file true (appendSignature q s)) = some b) :
    checkBundle K cfg load p acc (.file true (appendSignature q' s)) = some { b with stream := some (appendSignature q' s) } := by
  unfold checkBundle at h ⊢
  by_cases h1 : (!p.noVerify && !cfg.keyring) = true
  · rw [if_pos h1] at h; cases h
  rw [if_neg h1] at h ⊢
  simp only [Bundle.openBundle, open_append hs, hl] at h ⊢
  by_cases h2 : s ≠ [] ∧ s.length ≤ cfg.maxSig
  · rw [if_pos h2] at h ⊢
    simp only [hp, Bool.false_and, Bool.false_eq_true, if_false] at h ⊢
    cases hd : Bundle.decryptSig K cfg s with
    | none => rw [hd] at h; cases h
    | some se =>
      obtain ⟨sig, enc⟩ := se
      rw [hd] at h
      simp only [] at h ⊢
      have fin : ∀ (b1 : Bundle) (tx : Option Bytes) (x : Option Bytes), Bundle.finishCheck cfg load b1 tx = some b → Bundle.finishCheck cfg load { b1 with stream := x } tx = some { b with stream := x } := by
        intro b1 tx x hf
        unfold Bundle.finishCheck at hf ⊢
        cases tx with
        | none =>
          simp only [] at hf ⊢
          split at hf
          · rename_i h3; cases hf; rw [if_pos h3]
          · cases hf
        | some tx =>
          simp only [] at hf ⊢
          split at hf
          · cases hf
          split at hf
          · cases hf
          rename_i h3
          rw [if_neg h3]
          split at hf
          · rename_i h4; cases hf; rw [if_pos h4]
          · cases hf
      cases hnv : p.noVerify with
      | true =>
        rw [hnv] at h
        simp only [if_true, Bundle.noVerifyStep, Bool.false_eq_true, if_false] at h ⊢
        cases he : K.embedded sig with
        | none => rw [he] at h; cases h
        | some tx =>
          rw [he] at h
          exact fin _ _ _ h
      | false =>
        rw [hnv] at h
        simp only [Bool.false_eq_true, if_false, Bundle.verifyStep] at h ⊢
        by_cases hst : (!K.storeOk) = true
        · rw [if_pos hst] at h; cases h
        rw [if_neg hst] at h ⊢
        cases hv : Bundle.cmsVerify K cfg p.noCheckTime sig none with
        | none => rw [hv] at h; cases h
        | some r =>
          obtain ⟨tx, sp⟩ := r
          rw [hv] at h
          simp only [] at h ⊢
          by_cases hc : Bundle.certChain K sp sig = true
          · rw [if_pos hc] at h ⊢
            exact fin _ _ _ h
          · rw [if_neg hc] at h; cases h
  · rw [if_neg h2] at h; cases h

/-- **C62** For an inline signature the payload plays no role: the tool accepts the new signature for every other content of the same size, also for one that does not match the root hash. -/
theorem C62_finding_payload (T : Tools) (K : Ring → Crypto) (cfg : Config) (load : Bytes → Option Manifest) (acc : AccessResults) (running : Str) (S : Steps) (p : Params)
    (ring after : Ring) (signing : Option Str) (s : Bytes) (b : Bundle) (path : Bytes) (existing out : Option Bytes)
    (h : replaceSignature T K cfg load acc running S p ring signing (some s) b path existing = (.ok (true, out), after))
    (hinline : ∀ r, ∃ t, (K r).parse s = some (t, false)) (hs : s.length < 2 ^ 64) (other : Bytes) (hlen : other.length = path.length) (hsize : b.size ≤ path.length) :
    replaceSignature T K cfg load acc running S p ring signing (some s) b other existing = (.ok (true, some (appendSignature (other.take b.size) s)), after) := by
  obtain ⟨m, s', g, b', rfl, hm, hs', hg, hw, rfl, h7, h8⟩ := replace_cases h
  cases hs'
  have hg' := copyOut_self hg hsize
  subst hg'
  have hcopy : copyOut S other b.size = some (other.take b.size) := by
    unfold copyOut Bundle.truncateBundle at hg ⊢
    split at hg
    · rename_i hS
      rw [if_pos hS, Nat.sub_eq_zero_of_le (by omega)]
      simp
    · cases hg
  obtain ⟨t, hpt⟩ := hinline (usedRing ring signing)
  have := check_any_payload (q' := other.take b.size) hs hpt (by rw [List.length_take, List.length_take, hlen]) h8
  unfold replaceSignature
  simp only [hm, hcopy, hw, Bool.not_true, Bool.false_eq_true, if_false, this, h7]

/-- **C62** The check of a plain bundle and the copy look at two different openings of the file: what is signed is whatever is found under its name when it is copied. -/
theorem C62_finding_reopened (T : Tools) (app : Bytes → Option Bytes) (running : Str) (S : Steps) (hS : S.copy = true ∧ S.write = true ∧ S.race = none) (b : Bundle) (m : Manifest)
    (hp : b.payloadVerified = true) (hm : manifestOf T running b = .ok m) (hmf : m.format = .plain) (hmi : (checkInternal running m).isSome = true)
    (path : Bytes) (hlen : b.size ≤ path.length) (h31 : b.size ≤ 2 ^ 31 - 1) (s : Bytes) (hs : T.sign true (path.take b.size) = some s) :
    resign T app running S false b path none = .ok (true, some (appendSignature (path.take b.size) s)) := by
  obtain ⟨x, hx⟩ := Option.isSome_iff_exists.1 hmi
  have hcopy : copyOut S path b.size = some (path.take b.size) := by
    unfold copyOut Bundle.truncateBundle
    rw [hS.1, hS.2.2, Nat.sub_eq_zero_of_le hlen]
    simp
  unfold resign
  simp only [Bundle.checkPayload, hp, Bool.or_true, if_true, hm, hcopy, Bool.false_eq_true, if_false]
  unfold generateSignature
  rw [if_pos hmf, hx]
  simp only []
  rw [if_neg (by rw [List.length_take]; omega), hs]
  simp only [finish, hS.2.1, if_true]

/-- **C62** What `rauc extract-signature` reports as written is the signature (of an encrypted bundle: the decrypted one); a file that exists is left alone. -/
theorem C62_extract_signature (created : Bool) (written : Option Nat) (b : Bundle) (existing x : Option Bytes) :
    (extractSignature created written b existing = (true, x) → existing = none ∧ x = some b.sig) ∧
    (existing ≠ none → extractSignature created written b existing = (false, existing)) := by
  unfold extractSignature
  refine ⟨?_, ?_⟩
  · intro h
    split at h
    · simp at h
    split at h
    · simp at h
    split at h
    · simp only [Prod.mk.injEq, true_and] at h
      exact ⟨rfl, h.symm⟩
    · simp at h
  · intro h
    obtain ⟨y, rfl⟩ := Option.ne_none_iff_exists'.1 h
    rfl

/-- **C62** A write that fails leaves a part of the signature behind, unlike the other tools. -/
theorem C62_finding_partial_signature (b : Bundle) (n : Nat) : extractSignature true (some n) b none = (false, some (b.sig.take n)) := rfl

/-- **C62** Signing again, and then putting the signature extracted from the original back, restores the original file (if its signature was not encrypted). -/
theorem C62_restore (T : Tools) (K0 K1 : Crypto) (cfg0 cfg1 : Config) (p0 p1 : Params) (acc0 acc1 : AccessResults) (f : Bytes) (b b1 : Bundle) (hnv : p0.noVerify = false)
    (h0 : checkBundle K0 cfg0 (loadText T) p0 acc0 (.file true f) = some b) (henc : b.wasEncrypted = false) (hnv1 : p1.noVerify = false)
    (sig : Bytes) (hsig : extractSignature true none b none = (true, some sig))
    (o s : Bytes) (ho : BundleFile o (f.take b.size) s) (hs : s.length < 2 ^ 64) (h1 : checkBundle K1 cfg1 (loadText T) p1 acc1 (.file true o) = some b1)
    (K : Ring → Crypto) (cfg : Config) (load : Bytes → Option Manifest) (acc : AccessResults) (running : Str) (S : Steps) (p : Params)
    (ring after : Ring) (signing : Option Str) (out : Option Bytes)
    (h : replaceSignature T K cfg load acc running S p ring signing (some sig) b1 o none = (.ok (true, out), after)) : out = some f := by
  obtain ⟨-, o', s', rfl, hs', hb, -⟩ := C62_replace T K1 cfg1 p1 acc1 o b1 hnv1 h1 K cfg load acc running S p ring after signing (some sig) none out h
  cases hs'
  have hs2 : b.sig = sig := by cases hsig; rfl
  obtain ⟨-, -, hle⟩ := local_bundle h0 hnv
  -- the original
  obtain ⟨raw, hop, hun⟩ := (Bundle.C33_check_bundle K0 cfg0 _ p0 acc0 _ b hnv h0).opened
  unfold Bundle.openBundle at hop
  simp only [] at hop
  split at hop
  · cases hop
  rename_i o1 hop1
  simp only [Option.some.injEq, Prod.mk.injEq] at hop
  obtain ⟨-, rfl⟩ := hop
  obtain ⟨-, q, hq, hql, -⟩ := (Bundle.C32_open_local _ _ _ _ _).1 hop1
  have hraw : raw = sig := by
    rcases hun with ⟨-, e, -⟩ | ⟨e, -⟩
    · rw [← hs2, e]
    · rw [henc] at e; cases e
  -- the other one
  obtain ⟨raw1, hop, -⟩ := (Bundle.C33_check_bundle K1 cfg1 _ p1 acc1 _ b1 hnv1 h1).opened
  unfold Bundle.openBundle at hop
  simp only [] at hop
  split at hop
  · cases hop
  rename_i o2 hop2
  simp only [Option.some.injEq, Prod.mk.injEq] at hop
  obtain ⟨-, rfl⟩ := hop
  obtain ⟨-, q1, hq1, hql1, -, -, hl1⟩ := (Bundle.C32_open_local _ _ _ _ _).1 hop2
  obtain ⟨hp1, -⟩ := Bundle.C32_unique _ _ _ _ _ ho hq1 hs hl1
  unfold BundleFile at hq hq1 hb ho
  have e1 : o.take b1.size = f.take b.size := by
    rw [hq1, ← hp1, List.append_assoc]
    exact List.take_left' (by rw [hp1, hql1])
  have e2 : f.take b.size = q := by
    rw [hq, List.append_assoc]
    exact List.take_left' hql
  rw [hb, e1, e2, ← hraw, ← hq]

end Rauc.Create
