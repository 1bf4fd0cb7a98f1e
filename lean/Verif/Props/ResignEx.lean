import Verif.Props.Resign
import Verif.Props.CreateEx

/-!
# C62: examples that meet the hypotheses
-/

namespace Rauc.Create

open Bundle (Bundle Crypto checkBundle)
open ManifestFile (reload)

/-- another signer -/
def otherSign (det : Bool) (c : Bytes) : Option Bytes := if c.length < 2 ^ 40 then some (if det then 3 :: c else 4 :: c) else none

/-- the devices that trust the other signer, and have a key for encrypted bundles -/
def otherCrypto : Crypto where
  parse s := match s with
    | 3 :: _ => some (.signed, true)
    | 4 :: _ => some (.signed, false)
    | 5 :: _ => some (.enveloped, false)
    | _ => none
  decrypt s := match s with
    | 5 :: c => some c
    | _ => none
  storeOk := true
  verifyDetached _ s c := s == 3 :: c
  verifyInline _ s := match s with
    | 4 :: c => some c
    | _ => none
  embedded _ := none
  signingTime _ := none
  signers _ := some [some [65]]
  chainOk _ _ := true

theorem other_sign {det : Bool} {c s : Bytes} (h : otherSign det c = some s) : c.length < 2 ^ 40 ∧ s = (if det then 3 :: c else 4 :: c) := by
  unfold otherSign at h
  split at h
  · rename_i hc
    cases h
    exact ⟨hc, rfl⟩
  · cases h

def otherConfig : Bundle.Config := { toyConfig with encryptionKey := true }

theorem other_trusted : Trusts otherCrypto otherConfig { toy with sign := otherSign } where
  keyring := rfl
  limit := by decide
  detached c s h := by
    obtain ⟨h1, h2⟩ := other_sign h
    rw [if_pos rfl] at h2
    subst h2
    refine ⟨by simp, ?_, ⟨rfl, rfl, ⟨none, rfl, ⟨rfl, by simp [otherCrypto]⟩, rfl⟩, ⟨_, rfl, ?_⟩⟩⟩
    · show (3 :: c).length ≤ 2 ^ 63
      rw [List.length_cons]; omega
    · intro allowed ha; cases ha; exact ⟨_, rfl, by simp, by decide⟩
  inline c s h := by
    obtain ⟨h1, h2⟩ := other_sign h
    rw [if_neg (by decide)] at h2
    subst h2
    refine ⟨by simp, ?_, ⟨rfl, rfl, ⟨none, rfl, ⟨_, rfl, rfl⟩, rfl⟩, ⟨_, rfl, ?_⟩⟩⟩
    · show (4 :: c).length ≤ 2 ^ 63
      rw [List.length_cons]; omega
    · intro allowed ha; cases ha; exact ⟨_, rfl, by simp, by decide⟩

def exSteps : Steps := ⟨true, true, none⟩

theorem other_total {c : Bytes} (h : c.length < 2 ^ 40) (det : Bool) : ∃ s, otherSign det c = some s := ⟨_, if_pos h⟩

/-- All hypotheses of `C62_resign_complete` and `C62_created_partial` are met: a bundle in the verity or crypt format can be signed again, and holds the content then. -/
theorem ex_resigned {f : Str} {fmt : Format} (hs : succeeds (create toy exRun c!"1.14" 5 (exDir f) none) = true) (hfmt : fmt ≠ .plain)
    (hp : ManifestFile.parse (reload (exFile f)) = some (exManifest fmt)) (hlen : (toy.text (exFile f)).length < 2 ^ 63) :
    ∃ file b o b' w', create toy exRun c!"1.14" 5 (exDir f) none = (true, some file) ∧
      checkBundle toyCrypto toyConfig (loadText toy) {} { enforce := true, check := true } (.file true file) = some b ∧
      resign { toy with sign := otherSign } (fun _ => none) c!"1.14" exSteps false b file none = .ok (true, some o) ∧
      checkBundle otherCrypto otherConfig (loadText toy) {} { enforce := true, check := true } (.file true o) = some b' ∧ extract toy c!"1.14" b' = .ok w' ∧
      Holds toy (exDir f) { exManifest fmt with hash := some (shaHex toy (toy.text (exFile f))) } w' := by
  obtain ⟨file, hf⟩ := succeeds_iff hs
  have hsz : ∀ n b, openFile (exDir f) n = some b → b.length < 2 ^ 63 := by
    intro n b hb
    unfold openFile at hb
    split at hb
    · rename_i c hc
      cases hb
      obtain ⟨x, hx⟩ := target_file hc
      simp only [exDir, lookup] at hx
      split at hx
      · cases hx; exact hlen
      · split at hx
        · cases hx; decide
        · cases hx
    · cases hb
  have hconv : ∀ i ∈ (exManifest fmt).images, i.convert ≠ some [] := by
    intro i hi
    simp only [exManifest, List.mem_cons, List.not_mem_nil, or_false] at hi
    subst hi
    decide
  obtain ⟨-, b, w, h1, h2, -, h4, -, -⟩ := C61_create_partial toy toy_sound toyCrypto toyConfig toy_trusted exRun (by intro s h; cases h; rfl) (by intro s h; cases h; rfl)
    c!"1.14" 5 (exDir f) none file hf (exDir f) (ex_link f) _ (ex_load hp) (exManifest_wf fmt) hsz hconv rfl { enforce := true, check := true } ⟨rfl, rfl⟩
  obtain ⟨b0, q1, q2⟩ := C62_created_partial toy toy_sound toyCrypto toyConfig toy_trusted exRun (by intro s h; cases h; rfl) (by intro s h; cases h; rfl)
    c!"1.14" 5 (exDir f) none file hf (exDir f) (ex_link f) _ (ex_load hp) (exManifest_wf fmt) hsz hconv rfl { enforce := true, check := true } { enforce := true, check := true }
    ⟨rfl, rfl⟩ ⟨rfl, rfl⟩ otherSign otherCrypto otherConfig other_trusted rfl
  rw [h1] at q1
  cases q1
  obtain ⟨m', hm', hcm, hsg⟩ := h4 hfmt
  have hres : ∃ o, resign { toy with sign := otherSign } (fun _ => none) c!"1.14" exSteps false b file none = .ok (true, some o) := by
    refine C62_resign_complete { toy with sign := otherSign } _ _ _ _ _ _ rfl h1 m' hm' _ _ h2 _ _ ⟨rfl, rfl, rfl⟩ ?_
    intro m2 hm2
    have hpos : ∀ i ∈ m'.images, i.filename ≠ none → 0 ≤ i.size := by
      intro i' hi' hf
      obtain ⟨i, hi, he⟩ := forall₂_mem hcm.images i' hi'
      have : i'.filename = i.filename := by conv => rhs; rw [← he.same]
      rw [this] at hf
      obtain ⟨g, hg⟩ := Option.ne_none_iff_exists'.1 hf
      obtain ⟨b, -, -, -, hb⟩ := he.file g hg
      rw [hb]; exact Int.natCast_nonneg _
    have hfile : ∀ i ∈ m'.images, i.filename ≠ none := by
      intro i' hi'
      obtain ⟨i, hi, he⟩ := forall₂_mem hcm.images i' hi'
      have : i'.filename = i.filename := by conv => rhs; rw [← he.same]
      rw [this]
      simp only [exManifest, List.mem_cons, List.not_mem_nil, or_false] at hi
      subst hi
      simp [exImage]
    have e : m2 = m' := by
      obtain ⟨e1, e2, e3⟩ := hm2
      have : m2.images = m'.images := by
        refine List.ext_getElem e2 ?_
        intro j a c
        obtain ⟨x, y⟩ := e3 j c a
        have h0 := hpos _ (List.getElem_mem c) (hfile _ (List.getElem_mem c))
        rcases y with y | ⟨y, -⟩
        · rw [← x, ← y]
        · omega
      rw [← e1, ← this]
    rw [e]
    exact other_total (toy_sign hsg).1 false
  obtain ⟨o, ho⟩ := hres
  obtain ⟨o', b1, w', e1, e2, e3, e4, -, -⟩ := q2 _ _ _ _ ho
  cases e1
  exact ⟨file, b, o, b1, w', hf, h1, ho, e2, e3, e4⟩

example := ex_resigned ex_verity (fmt := .verity) (by decide) (by decide) (by decide +kernel)
example := ex_resigned ex_crypt (fmt := .crypt) (by decide) (by decide) (by decide +kernel)

/-- `C62_encrypt`: each bundle in the crypt format (such as the one above) can be encrypted -/
theorem ex_encrypt (b : Bundle) (m : Manifest) (hm : b.manifest = some m) (hc : m.format = .crypt) (f : Bytes) (hl : b.size ≤ f.length) :
    encrypt (fun s => some (5 :: s)) exSteps b f none = .ok (true, some (Bundle.appendSignature (f.take b.size) (5 :: b.sig))) := by
  simp [encrypt, hm, hc, copyOut, exSteps, finish, Bundle.truncateBundle, Nat.sub_eq_zero_of_le hl]

/-- and the device of this file can decrypt it -/
theorem ex_decrypt (s : Bytes) (h : s.length < 2 ^ 63) : ∀ e, (fun s => some (5 :: s)) s = some e →
    e ≠ [] ∧ e.length ≤ otherConfig.maxSig ∧ otherCrypto.parse e = some (.enveloped, false) ∧ otherCrypto.decrypt e = some s := by
  intro e he
  cases he
  refine ⟨by simp, ?_, rfl, rfl⟩
  show (5 :: s).length ≤ 2 ^ 63
  rw [List.length_cons]; omega

end Rauc.Create
