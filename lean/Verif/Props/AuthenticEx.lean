import Verif.Props.Authentic
import Verif.Props.WholeUpdateEx

/-!
# C101: a bundle and a device that meet the hypotheses
-/

namespace Rauc.Authenticity

open Rauc.Bundle (Crypto checkBundle installMount sub64 SignatureOk Dev MountEnv dmSizeOk)
open Rauc.Create (toy toyCrypto toyConfig toy_sound exRun exDir loadText openFile Dir)
open Rauc.Verity (IsRoot InTree)
open Rauc.EndToEnd (SlotData DevSteps Device Covered)
open Rauc.Boot (uboot ubEx)
open Rauc.WholeUpdate (slotA slotB exSlots exState)

/-- this signature is the only one that is accepted -/
def exK (sig : Bytes) : Crypto := { toyCrypto with verifyDetached := fun _ _ _ => false, verifyInline := fun _ s => if s = sig then some (s.drop 1) else none }

def exImage : Image := { Create.exImage with sha256 := true, digest := some (Create.shaHex toy [1, 2, 3]), size := 3 }

def exDev (b : Bundle.Bundle) (m : Manifest) : Dev := .verity (.raw b.size) (sub64 b.size m.veritySize) m.verityHash m.veritySalt

def exEnv : MountEnv := ⟨true, true, true, true, true, fun _ => true, fun _ => none⟩

theorem ex_check {text : Bytes} (hl : text.length < 2 ^ 40) (f : Bytes) {m : Manifest} (hm : loadText toy text = some m) (hpl : m.format ≠ .plain) :
    checkBundle (exK (2 :: text)) toyConfig (loadText toy) {} ⟨true, true⟩ (.file true (Bundle.appendSignature f (2 :: text))) =
      some ⟨some (Bundle.appendSignature f (2 :: text)), f.length, 2 :: text, false, false, true, false, true, some { m with wasEncrypted := false }⟩ := by
  have hs : toy.sign false text = some (2 :: text) := by
    simp only [toy, if_pos hl]
    rfl
  have hsig : SignatureOk (exK (2 :: text)) toyConfig false (2 :: text) none (some text) := by
    refine ⟨rfl, rfl, ⟨none, rfl, ⟨text, rfl, by simp [exK]⟩, rfl⟩, ⟨_, rfl, ?_⟩⟩
    intro allowed ha; cases ha; exact ⟨_, rfl, by simp, by decide⟩
  obtain ⟨hst, sp, hv, hc⟩ := (Bundle.signatureOk_iff _ toyConfig false (2 :: text) none (some text)).2 hsig
  have hparse := hsig.cms
  have hdec : Bundle.decryptSig (exK (2 :: text)) toyConfig (2 :: text) = some (2 :: text, false) := by
    unfold Bundle.decryptSig
    rw [hparse]
  have hfmt : toyConfig.formats m.format = true := rfl
  unfold checkBundle
  rw [Create.toy_trusted.keyring]
  simp only [Bool.not_true, Bool.and_false, Bool.false_eq_true, if_false, Bundle.openBundle, Create.open_created Create.toy_trusted hs f, hparse, hdec, Option.isSome_none, Bool.false_and]
  unfold Bundle.verifyStep
  simp only [hst, hv, hc, Bool.not_true, Bool.false_eq_true, if_false, if_true]
  simp only [Bundle.finishCheck, hm, hfmt, if_true, if_neg hpl, Option.isSome_some, Bool.true_and, Bool.false_or]

theorem signed_hash (T : Create.Tools) (m : Manifest) (salt root tree : Bytes) : (Create.signedManifest T m salt root tree).hash =
    some (Create.shaHex T (T.text (ManifestFile.prepare (Create.signedManifest T m salt root tree)))) := rfl

/-- The bundle that `rauc bundle` makes, of the content of the example of C61: -/
theorem ex_facts : ∃ exFile exSig b m files, Create.create toy exRun c!"1.14" 5 (exDir c!"verity") none = (true, some exFile) ∧
    checkBundle (exK exSig) toyConfig (loadText toy) {} ⟨true, true⟩ (.file true exFile) = some b ∧ b.manifest = some m ∧ m.images = [exImage] ∧ m.handlerName = none ∧
    m.format = .verity ∧ b.verificationDisabled = false ∧ b.payloadVerified = false ∧ b.wasEncrypted = false ∧ b.stream = some exFile ∧ (ManifestFile.checkExternal c!"1.14" m).isSome = true ∧
    dmSizeOk (sub64 b.size m.veritySize) = true ∧ Create.extract toy c!"1.14" b = .ok files ∧ openFile files c!"r.img" = some [1, 2, 3] ∧
    toy.pack true files = some (exFile.take (sub64 b.size m.veritySize / 4096 * 4096)) := by
  obtain ⟨f, hf⟩ := Create.succeeds_iff Create.ex_verity
  have hparse : ManifestFile.parse (ManifestFile.reload (Create.exFile c!"verity")) = some (Create.exManifest .verity) := by decide
  have hlen : (toy.text (Create.exFile c!"verity")).length < 2 ^ 63 := by decide +kernel
  have hload := Create.ex_load hparse
  obtain ⟨file', b', w', hf', hchk', hext', hholds⟩ := Create.ex_holds Create.ex_verity hparse hlen
  rw [hf] at hf'
  cases hf'
  have hsz : ∀ n b, openFile (exDir c!"verity") n = some b → b.length < 2 ^ 63 := by
    intro n b hb
    unfold openFile at hb
    split at hb
    · rename_i c hc
      cases hb
      obtain ⟨x, hx⟩ := Create.target_file hc
      simp only [exDir, Create.lookup] at hx
      split at hx
      · cases hx; exact hlen
      · split at hx
        · cases hx; decide
        · cases hx
    · cases hb
  have hr : openFile (exDir c!"verity") c!"r.img" = some [1, 2, 3] := by
    simp [openFile, exDir, Create.target, Create.maxLinks, Create.lookup, Create.workName]
  obtain ⟨-, w, m, m1, w1, w2, imgs, p, m3, p1, hl, hm, -, -, hsync, -, hcv, hpack, henc, hsign⟩ := Create.create_cases hf
  rw [Create.ex_link] at hl
  cases hl
  rw [show (openFile (exDir c!"verity") Create.manifestName).bind (loadText toy) = _ from hload] at hm
  cases hm
  obtain ⟨e1, -, hent⟩ := Create.entries_of hsync hcv
  have him : imgs = [exImage] := by
    change List.Forall₂ _ [Create.exImage] imgs at hent
    cases hent with
    | cons he ht =>
      cases ht
      rename_i i'
      obtain ⟨c, h1, h2, h3, h4⟩ := he.file c!"r.img" rfl
      rw [hr] at h1
      cases h1
      have h5 := he.plain rfl
      have h6 := he.same
      obtain ⟨⟩ := i'
      simp only [Create.exImage, Image.mk.injEq] at h2 h3 h4 h5 h6
      simp [exImage, Create.exImage, h2, h3, h4, h5, h6]
  subst him
  rcases Create.encryptStep_cases henc with ⟨-, rfl, rfl⟩ | ⟨_, hc, -⟩
  swap
  · rw [e1] at hc
    cases hc
  have hwf := Create.completed_wf toy_sound hsz (Create.exManifest_wf .verity) (by
    intro i hi
    simp only [Create.exManifest, List.mem_cons, List.not_mem_nil, or_false] at hi
    subst hi
    decide) hent
  have em : ({ m1 with images := [exImage] } : Manifest) = { Create.exManifest .verity with hash := some (Create.shaHex toy (toy.text (Create.exFile c!"verity"))), images := [exImage] } := by rw [e1]
  rw [em] at hpack hsign
  obtain ⟨hpne, hunpack⟩ := toy_sound.pack _ _ _ hpack
  rcases Create.signed_tail toy_sound Create.toy_trusted (by intro s h; cases h; rfl) hsign hwf (by
      intro i hi _
      change i ∈ [exImage] at hi
      rw [List.mem_singleton.1 hi]
      decide) hpne rfl (acc := ⟨true, true⟩) ⟨rfl, rfl⟩ with ⟨hp, -⟩ | ⟨-, salt, root, tree, s, rfl, hrl, hsl, ht0, hp4, hpl4, hsg, ht4, hverify, hmwf, hchk, hpay⟩
  · cases hp
  rw [hchk] at hchk'
  cases hchk'
  obtain ⟨htl, hs⟩ := Create.toy_sign hsg
  rw [if_neg (by decide)] at hs
  subst hs
  generalize hM : Create.signedManifest toy { Create.exManifest .verity with hash := some (Create.shaHex toy (toy.text (Create.exFile c!"verity"))), images := [exImage] } salt root tree = M at *
  have hMf : M.format = .verity := by rw [← hM]; rfl
  have hMs : M.veritySize = tree.length := by rw [← hM]; rfl
  have hMi : M.images = [exImage] := by rw [← hM]; rfl
  have hMh : M.handlerName = none := by rw [← hM]; rfl
  have hMw : M.wasEncrypted = false := by rw [← hM]; rfl
  have hsub : sub64 (p1 ++ tree).length M.veritySize = p1.length := by
    unfold sub64
    rw [hMs, List.length_append, if_pos (by omega)]
    omega
  -- the extracted files are those that were packed
  have hw : w' = Create.setEntry w2 Create.manifestName (.file (toy.text (ManifestFile.prepare { Create.exManifest .verity with hash := some (Create.shaHex toy (toy.text (Create.exFile c!"verity"))), images := [exImage] }))) := by
    unfold Create.extract at hext'
    rw [hpay] at hext'
    simp only [hMf, reduceCtorEq, if_false] at hext'
    unfold Bundle.appendSignature at hext'
    rw [List.append_assoc, List.append_assoc, hunpack] at hext'
    cases hext'
    rfl
  have hld : loadText toy (toy.text (ManifestFile.prepare M)) = some M := by
    have e1 : M.minRaucVersion = none := by rw [← hM]; rfl
    have e2 : M.hash = some (Create.shaHex toy (toy.text (ManifestFile.prepare M))) := by
      rw [← hM]
      exact signed_hash _ _ _ _ _
    rw [Create.load_text toy_sound hmwf, ← e2, ← e1]
  have hc := ex_check htl (p1 ++ tree) hld (by rw [hMf]; decide)
  rw [show ({ M with wasEncrypted := false } : Manifest) = M from by rw [← hM]; rfl] at hc
  refine ⟨_, _, _, _, w', hf, hc, rfl, hMi, hMh, hMf, rfl, rfl, rfl, rfl, ?_, ?_, ?_, ?_, ?_⟩
  · obtain ⟨_, m0, m', _, _, -, -, h3, h4, -⟩ := Bundle.C33_payload_checked _ _ _ _ rfl rfl hpay
    cases h3
    rw [h4]
    rfl
  · change dmSizeOk (sub64 (p1 ++ tree).length M.veritySize) = true
    rw [hsub]
    simp [dmSizeOk, hp4]
    omega
  · exact hext'
  · rw [hholds.files c!"r.img" ?_, hr]
    intro x hx
    have hv : Create.visited Create.maxLinks (exDir c!"verity") c!"r.img" = [c!"r.img"] := by
      simp [Create.visited, exDir, Create.maxLinks, Create.lookup, Create.workName]
    rw [hv, List.mem_singleton] at hx
    subst hx
    rintro (h | ⟨i, hi, h⟩)
    · revert h; decide
    · change i ∈ [Create.exImage] at hi
      rw [List.mem_singleton] at hi
      subst hi
      generalize hx : c!"r.img" = x at h
      cases h with
      | removed f ms h1 h2 h3 => cases h2
      | index f h1 h2 => cases h1; revert hx; decide
      | extracted f h1 h2 => exact h2 rfl
      | cfs f h1 h2 => exact h2 rfl
      | store h2 => exact h2 rfl
  · change toy.pack true w' = some ((Bundle.appendSignature (p1 ++ tree) _).take (sub64 (p1 ++ tree).length M.veritySize / 4096 * 4096))
    rw [hsub, Nat.div_mul_cancel (Nat.dvd_of_mod_eq_zero hp4), hw]
    unfold Bundle.appendSignature
    rw [List.append_assoc, List.append_assoc, List.take_left' rfl]
    exact hpack

theorem take_of_blocks {P Q : Bytes} {n : Nat} (h : ∀ i < n, (i + 1) * 4096 ≤ Q.length ∧ blockOf Q i = blockOf P i) : Q.take (n * 4096) = P.take (n * 4096) := by
  induction n with
  | zero => simp
  | succ n ih =>
    have e := (h n (by omega)).2
    unfold blockOf at e
    rw [Nat.add_mul, Nat.one_mul, List.take_add, List.take_add, ih (fun i hi => h i (by omega)), e]

/-- the releases of the author -/
def exReleases (exFile : Bytes) (m : Manifest) (files : Dir) (n : Nat) (R : Release) : Prop :=
  R.files = files ∧ R.payload = exFile ∧ R.blocks = n ∧ m = { R.manifest with wasEncrypted := false }

theorem ex_only {exFile exSig : Bytes} {b : Bundle.Bundle} {m : Manifest} {files : Dir} (hb : checkBundle (exK exSig) toyConfig (loadText toy) {} ⟨true, true⟩ (.file true exFile) = some b) (hm : b.manifest = some m)
    (hw : b.wasEncrypted = false) (hp : Published toy ⟨m, files, exFile, sub64 b.size m.veritySize / 4096⟩) :
    OnlyReleases toy (exK exSig) toyConfig (exReleases exFile m files (sub64 b.size m.veritySize / 4096)) where
  inline := by
    intro sig text m0 hs hl
    have key : ∀ {sig text}, SignatureOk (exK exSig) toyConfig false sig none (some text) → sig = exSig ∧ text = exSig.drop 1 := by
      intro sig text h
      obtain ⟨t, -, ⟨t', h1, h2⟩, -⟩ := h.verified
      cases h1
      simp only [exK] at h2
      split at h2
      · rename_i e
        subst e
        exact ⟨rfl, (Option.some.inj h2).symm⟩
      · cases h2
    rcases (Bundle.C33_check_bundle (exK exSig) toyConfig (loadText toy) {} _ _ b rfl hb).either with P | M
    · rw [P.noManifest] at hm; cases hm
    obtain ⟨text', m1, h1, h2, h3, -, -⟩ := M.signed
    rw [(key hs).2] at hl
    rw [(key h1).2, hl] at h2
    cases h2
    rw [hm, hw] at h3
    have h4 := Option.some.inj h3
    refine ⟨⟨m0, files, exFile, sub64 b.size m.veritySize / 4096⟩, ⟨rfl, rfl, rfl, h4⟩, rfl, ?_⟩
    subst h4
    exact ⟨hp.size, hp.tree, hp.verity, hp.crypt⟩
  detached := by
    intro sig payload _ _ h _ _
    obtain ⟨t, -, h1, -⟩ := h.verified
    simp [Bundle.Signs, exK] at h1

/-- All hypotheses of `C101_bundle` are met by the bundle that the author has made, when all of its blocks are read. -/
theorem ex_meets : ∃ exFile exSig b m files n, checkBundle (exK exSig) toyConfig (loadText toy) {} ⟨true, true⟩ (.file true exFile) = some b ∧ b.manifest = some m ∧ m.images = [exImage] ∧ m.handlerName = none ∧
    openFile files c!"r.img" = some [1, 2, 3] ∧ OnlyReleases toy (exK exSig) toyConfig (exReleases exFile m files n) ∧
    exDev b m ∈ (installMount (exK exSig) toyConfig (loadText toy) c!"1.14" ⟨true, true⟩ exEnv (.file true exFile) none).1 ∧
    ∃ seen, Shows toy seen b.stream (exDev b m) files := by
  obtain ⟨exFile, exSig, b, m, files, -, hb, hm, h1, h2, h3, h4, h5, h6, h7, h8, h9, h10, h11, h12⟩ := ex_facts
  obtain ⟨f, hf, hp⟩ := C101_published toy_sound hm h4 h5 h10
  rw [h7] at hf
  cases hf
  refine ⟨exFile, exSig, b, m, files, sub64 b.size m.veritySize / 4096, hb, hm, h1, h2, h11, ex_only hb hm h6 hp, ?_, ?_⟩
  · obtain ⟨m', hx⟩ := Option.isSome_iff_exists.1 h8
    obtain ⟨_, hsame, -⟩ := ManifestFile.C35_external _ _ _ hx
    have e1 : m'.verityHash = m.verityHash := by have := congrArg Manifest.verityHash hsame.1; exact this
    have e2 : m'.veritySalt = m.veritySalt := by have := congrArg Manifest.veritySalt hsame.1; exact this
    have e3 : m'.veritySize = m.veritySize := by have := congrArg Manifest.veritySize hsame.1; exact this
    have hv := (Bundle.C33_check_bundle (exK exSig) toyConfig (loadText toy) {} _ _ b rfl hb).verified
    unfold installMount
    simp only [hb, hm]
    simp only [Option.isSome_none, Bool.false_and, Bool.false_eq_true, if_false, Option.any_some, h3, reduceCtorEq, decide_false]
    unfold Bundle.mountBundle
    simp only [hv, hm, h3, exEnv, Bool.not_true, Bool.false_eq_true, if_false, Bool.true_or]
    unfold Bundle.prepareDm
    simp [hx, e3, h9, toyConfig, exDev, e1, e2]
  · obtain ⟨root, salt, r, s, k1, k2, k3, k4, k5⟩ := hp.tree
    change m.verityHash = some root at k1
    change m.veritySalt = some salt at k2
    refine ⟨InTree (fun x => toy.sha (s ++ x)) Verity.code (sub64 b.size m.veritySize / 4096) (blockOf exFile), ?_⟩
    unfold exDev
    rw [k1, k2]
    refine .verity (fun i => if i < sub64 b.size m.veritySize / 4096 then some (blockOf exFile i) else none) k3 k4 ?_ ?_
    · intro i x hx
      split at hx
      · rename_i hi
        cases hx
        exact opens_of_root Verity.code_wf (salted toy_sound.sha s) k5 (fun _ h => h) i hi
      · cases hx
    · intro P dir hP hu
      have e := take_of_blocks (P := exFile) (Q := P) (n := sub64 b.size m.veritySize / 4096) (fun i hi => hP i _ (if_pos hi))
      have := (toy_sound.pack _ _ _ h12).2 (P.drop (sub64 b.size m.veritySize / 4096 * 4096))
      rw [← e, List.take_append_drop, hu] at this
      cases this
      exact fun _ _ h => h

/-- the device of the example of C100, and the files that are read -/
def exDevice (files : Dir) : Device := { EndToEnd.exDevice with files := files }

def exPlans : List Select.Plan := [⟨exImage, .slot slotB .imgToRaw⟩]

theorem ex_covered : Covered exImage { slotType := c!"raw" } c!"raw" where
  typ := rfl
  kind := by decide
  name := by intro f h; cases h; decide
  noInstall := rfl
  noPost := rfl
  noResize := rfl
  slot := by decide

theorem ex_installs {m : Manifest} (h1 : m.images = [exImage]) (h2 : m.handlerName = none) : WholeUpdate.Installs exSlots exState WholeUpdate.exWorld ⟨some m, false⟩ none exPlans where
  shared := rfl
  bundle := by
    refine ⟨m, rfl, h2, ?_⟩
    unfold Install.plansOf
    rw [h1]
    decide +kernel
  targets := ⟨_, rfl⟩

theorem ex_stated {files : Dir} (h : openFile files c!"r.img" = some [1, 2, 3]) : Stated toy files exImage [1, 2, 3] := ⟨⟨c!"r.img", rfl, h⟩, rfl, rfl⟩

/-- The hypotheses of `C101_boot` are met: for the bundle of the author, at any moment, the device boots `A` with unchanged content, or `B`, with one of the releases on it. -/
example : ∃ exFile exSig b m files n seen, checkBundle (exK exSig) toyConfig (loadText toy) {} ⟨true, true⟩ (.file true exFile) = some b ∧ Shows toy seen b.stream (exDev b m) files ∧
    ∀ (dev dev' : Str → SlotData) (pre : List Install.Ev) (env' : (uboot {}).Env),
    System.Interrupted (uboot {}) exSlots ubEx (Install.install WholeUpdate.exWorld {} ⟨some m, false⟩ none).1 pre env' → DevSteps (exDevice files) dev pre dev' →
    ((uboot {}).getPrimary Boot.allRd exSlots env' = some slotA ∧ dev' c!"rootfs.0" = dev c!"rootfs.0") ∨
    ((uboot {}).getPrimary Boot.allRd exSlots env' = some slotB ∧ ∃ d, dev' c!"rootfs.1" = .raw d ∧ d.read 0 3 = [1, 2, 3]) ∨
    Broken toy seen (exReleases exFile m files n) ∨ OtherDepth (exReleases exFile m files n) (exDev b m) := by
  obtain ⟨exFile, exSig, b, m, files, n, hb, hm, h1, h2, h3, hR, hd, seen, hsh⟩ := ex_meets
  refine ⟨exFile, exSig, b, m, files, n, seen, hb, hsh, ?_⟩
  intro dev dev' pre env' hi hdev
  have hrel : ∀ R, exReleases exFile m files n R → R.manifest.images = [exImage] ∧ R.files = files := by
    rintro R ⟨h4, -, -, h5⟩
    rw [h5] at h1
    exact ⟨h1, h4⟩
  rcases C101_boot (System.atomic_uboot {} ⟨by decide, by decide⟩) WholeUpdate.ex_booted (exDevice files) toy_sound.sha hR c!"1.14" ⟨true, true⟩ exEnv (.file true exFile) none hd hb hsh (a := {})
    (c := ⟨some m, false⟩) (inner := none) hm.symm (by intro mi h; cases h) (ex_installs h1 h2) WholeUpdate.ex_reach (t := slotB) ⟨_, List.mem_cons_self, .imgToRaw, rfl, rfl, by decide⟩ trivial (by decide)
    (by
      intro p hp s hd ht
      simp only [exPlans, List.mem_singleton] at hp
      subst hp
      exact ⟨c!"raw", ex_covered⟩)
    (by
      intro R hr i hmem g hg
      obtain ⟨e1, e2⟩ := hrel R hr
      rw [e1, List.mem_singleton] at hmem
      subst hmem
      rw [e2]
      exact ⟨_, ex_stated h3⟩)
    (by
      intro p hp s hd ht
      simp only [exPlans, List.mem_singleton] at hp
      subst hp
      exact ⟨c!"r.img", _, rfl, h3⟩)
    (fun n dg h => by simp [WholeUpdate.exWorld, System.exW, Install.exWorld, Install.exSt] at h) hi hdev with ⟨g1, g2⟩ | ⟨g1, R, g2, g3⟩ | h | h | h
  · exact Or.inl ⟨g1, g2 slotA (by decide) (Or.inl rfl)⟩
  · refine Or.inr (Or.inl ⟨g1, ?_⟩)
    obtain ⟨-, g4⟩ := g3 _ List.mem_cons_self slotB .imgToRaw rfl
    obtain ⟨g5, -⟩ := g4 c!"raw" [1, 2, 3] (by rw [(hrel R g2).2]; exact ex_stated h3) ex_covered
    exact (g5 (Or.inl rfl)).2 (by decide)
  · exact Or.inr (Or.inr (Or.inl h))
  · exact Or.inr (Or.inr (Or.inr h))
  · exact absurd h EndToEnd.ex_no_collision

/-! A small tree (blocks of four bytes, two digests in a block) and a hash without collisions between its blocks: a disk with these blocks, in any order, shows the author's data only -/

def smallPar : Verity.Par := ⟨4, 2, 2⟩
def smallHash (b : Bytes) : Bytes := [b.sum, (b.take 2).sum + 1]
def smallData (i : Nat) : Bytes := if i = 0 then [1, 2, 3, 4] else [5, 6, 7, 8]

theorem small_root : IsRoot smallHash smallPar 2 smallData (smallHash [10, 4, 26, 12]) := by
  have e : Verity.hashBlock smallHash smallPar 2 smallData 0 = [10, 4, 26, 12] := by decide
  rw [← e]
  exact .node _ _ _ (by decide) (.leaf _)

theorem small_tree {x : Bytes} (h : InTree smallHash smallPar 2 smallData x) : x = [1, 2, 3, 4] ∨ x = [5, 6, 7, 8] ∨ x = [10, 4, 26, 12] := by
  cases h with
  | data j hj =>
    rcases (show j = 0 ∨ j = 1 by omega) with rfl | rfl
    · exact Or.inl rfl
    · exact Or.inr (Or.inl rfl)
  | hash _ h =>
    generalize hn : (2 + smallPar.hpb - 1) / smallPar.hpb = k at h
    have hk : k = 1 := by rw [← hn]; decide
    subst hk
    cases h with
    | data j hj =>
      have : j = 0 := by omega
      subst this
      exact Or.inr (Or.inr (by decide))
    | hash h _ => omega

example {i : Nat} {b : Bytes} (h : Opens smallHash smallPar (InTree smallHash smallPar 2 smallData) 2 i b (smallHash [10, 4, 26, 12])) : i < 2 ∧ b = smallData i := by
  rcases C101_read (n' := 2) (blk := smallData) ⟨by decide, by decide, by decide⟩ (fun _ => rfl) h (.up (by decide) (by decide) .one) small_root with h | ⟨x, hx, h | ⟨y, hy, h1, h2⟩⟩
  · exact h
  · exfalso
    rcases small_tree hx with rfl | rfl | rfl <;> revert h <;> decide
  · exfalso
    rcases small_tree hx with rfl | rfl | rfl <;> rcases small_tree hy with rfl | rfl | rfl <;> revert h1 h2 <;> decide

example : Opens smallHash smallPar (InTree smallHash smallPar 2 smallData) 2 1 [5, 6, 7, 8] (smallHash [10, 4, 26, 12]) :=
  opens_of_root ⟨by decide, by decide, by decide⟩ (fun _ => rfl) small_root (fun _ h => h) 1 (by decide)

end Rauc.Authenticity
