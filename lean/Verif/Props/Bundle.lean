import Verif.Props.BundleFormat
import Verif.Props.Manifest
import Verif.Props.Verity

/-!
# C33, C53: no bundle content is used before verification
-/

namespace Rauc.Bundle

open ManifestFile

/-! ## Specification -/

/-- The signer is acceptable: its common name is one of those configured (if any are) and contains no NUL. -/
def SignerOk (cfg : Config) (cn : Option Bytes) : Prop :=
  ∀ allowed, cfg.allowedCns = some allowed → ∃ n, cn = some n ∧ n ∈ allowed ∧ 0 ∉ n

/-- OpenSSL accepted the signature: for the content given, or for an embedded text. -/
def Signs (K : Crypto) (p : StoreParams) (sig : Bytes) : Option Bytes → Option Bytes → Prop
  | some content, text => text = none ∧ K.verifyDetached p sig content = true
  | none, text => ∃ t, text = some t ∧ K.verifyInline p sig = some t

/-- A signature (over `content` if it is detached, over `text` otherwise) is valid with respect to the keyring. -/
structure SignatureOk (K : Crypto) (cfg : Config) (noCheckTime : Bool) (sig : Bytes) (content text : Option Bytes) : Prop where
  store : K.storeOk = true
  cms : K.parse sig = some (.signed, content.isSome)
  verified : ∃ time, (if cfg.useSigningTime then K.signingTime sig = time ∧ time ≠ none else time = none) ∧
    Signs K ⟨noCheckTime, time⟩ sig content text ∧ K.chainOk ⟨noCheckTime, time⟩ sig = true
  signer : ∃ cn, K.signers sig = some [cn] ∧ SignerOk cfg cn

/-- `sig` is the signature in the file, or what decrypting it yields -/
def Unwrapped (K : Crypto) (cfg : Config) (raw sig : Bytes) (encrypted : Bool) : Prop :=
  (encrypted = false ∧ sig = raw ∧ ∀ d, K.parse raw ≠ some (.enveloped, d)) ∨
  (encrypted = true ∧ cfg.encryptionKey = true ∧ (∃ d, K.parse raw = some (.enveloped, d)) ∧ K.decrypt raw = some sig)

/-- A plain bundle: a local file whose payload is signed as a whole, and that nobody else can change. -/
structure PlainOk (K : Crypto) (cfg : Config) (p : Params) (acc : AccessResults) (b : Bundle) : Prop where
  noManifest : b.manifest = none
  allowed : cfg.formats .plain = true
  exclusive : p.trustEnv = true ∨ acc.enforce = true
  local_ : ∃ f, b.stream = some f ∧ SignatureOk K cfg p.noCheckTime b.sig (some (if b.size = 0 then f else f.take b.size)) none
  payload : b.payloadVerified = true

/-- A bundle with a signed manifest. -/
structure ManifestOk (K : Crypto) (cfg : Config) (load : Bytes → Option Manifest) (p : Params) (b : Bundle) : Prop where
  signed : ∃ text m, SignatureOk K cfg p.noCheckTime b.sig none (some text) ∧ load text = some m ∧
    b.manifest = some { m with wasEncrypted := b.wasEncrypted } ∧ m.format ≠ .plain ∧ cfg.formats m.format = true
  payload : b.payloadVerified = false

/-- A bundle the system may use. -/
structure Authentic (K : Crypto) (cfg : Config) (load : Bytes → Option Manifest) (p : Params) (acc : AccessResults) (src : Source) (b : Bundle) : Prop where
  keyring : cfg.keyring = true
  verified : b.signatureVerified = true
  opened : ∃ raw, openBundle cfg src = some (b.stream, ⟨b.size, raw⟩) ∧ Unwrapped K cfg raw b.sig b.wasEncrypted
  either : PlainOk K cfg p acc b ∨ ManifestOk K cfg load p b
  /-- exclusive access is claimed only if it was checked (or the caller vouches for it) -/
  exclusive : b.exclusiveVerified = true → b.stream ≠ none ∧ (p.trustEnv = true ∨ acc.enforce = true ∨ acc.check = true)

/-! ## Proofs -/

theorem cnsLoop_sound (allowed : List Bytes) (l : List (Option Bytes)) (h : cnsLoop allowed l = true) :
    ∃ n, some n ∈ l ∧ n ∈ allowed ∧ 0 ∉ n := by
  induction l with
  | nil => cases h
  | cons a l ih =>
    cases a with
    | none => obtain ⟨n, h1, h2⟩ := ih h; exact ⟨n, List.mem_cons_of_mem _ h1, h2⟩
    | some cn =>
      unfold cnsLoop at h
      split at h
      · cases h
      rename_i h0
      split at h
      · rename_i ha
        exact ⟨cn, by simp, by simpa using ha, by simpa using h0⟩
      · obtain ⟨n, h1, h2⟩ := ih h; exact ⟨n, List.mem_cons_of_mem _ h1, h2⟩

theorem cnsLoop_single (allowed : List Bytes) (cn : Option Bytes) :
    cnsLoop allowed [cn] = true ↔ ∃ n, cn = some n ∧ n ∈ allowed ∧ 0 ∉ n := by
  constructor
  · intro h
    obtain ⟨n, h1, h2⟩ := cnsLoop_sound _ _ h
    exact ⟨n, by simpa using (List.mem_singleton.1 h1).symm, h2⟩
  · rintro ⟨n, rfl, h1, h2⟩
    simp [cnsLoop, h1, h2]

theorem verifyTime_iff (K : Crypto) (cfg : Config) (sig : Bytes) (t : Option Nat) :
    verifyTime K cfg sig = some t ↔ (if cfg.useSigningTime then K.signingTime sig = t ∧ t ≠ none else t = none) := by
  unfold verifyTime
  split
  · cases h : K.signingTime sig with
    | none => simp; intro h'; exact h'.symm
    | some x => simp; intro h; rw [← h]; simp
  · simp; exact eq_comm

theorem cmsVerifyCall_iff (K : Crypto) (p : StoreParams) (sig : Bytes) (content m : Option Bytes) :
    cmsVerifyCall K p sig content = some m ↔ Signs K p sig content m := by
  cases content with
  | some c =>
    unfold cmsVerifyCall Signs
    simp only
    split <;> rename_i h
    · simp [h, eq_comm]
    · simp [h]
  | none =>
    unfold cmsVerifyCall Signs
    simp only
    cases h : K.verifyInline p sig with
    | none => simp
    | some x => simp [eq_comm]

/-- signature.c, as a whole: what the code accepts is what the specification calls a valid signature -/
theorem signatureOk_iff (K : Crypto) (cfg : Config) (nct : Bool) (sig : Bytes) (content text : Option Bytes) :
    (K.storeOk = true ∧ ∃ sp, cmsVerify K cfg nct sig content = some (text, sp) ∧ certChain K sp sig = true) ↔
      SignatureOk K cfg nct sig content text := by
  constructor
  · rintro ⟨hs, sp, hv, hc⟩
    unfold cmsVerify at hv
    cases hp : K.parse sig with
    | none => simp only [hp] at hv; cases hv
    | some td =>
      obtain ⟨typ, det⟩ := td
      simp only [hp] at hv
      split at hv
      · cases hv
      rename_i h1
      split at hv
      · cases hv
      rename_i h2
      cases ht : verifyTime K cfg sig with
      | none => simp only [ht] at hv; cases hv
      | some t =>
        simp only [ht] at hv
        cases hm : cmsVerifyCall K ⟨nct, t⟩ sig content with
        | none => simp only [hm] at hv; cases hv
        | some m =>
          simp only [hm] at hv
          split at hv
          · cases hv
          rename_i h3
          split at hv
          · cases hv
          rename_i h4
          simp only [Option.some.injEq, Prod.mk.injEq] at hv
          obtain ⟨rfl, rfl⟩ := hv
          have hdet : det = content.isSome := by simpa using h2
          have htyp : typ = .signed := by simpa using h1
          subst hdet htyp
          unfold certChain at hc
          cases hl : K.signers sig with
          | none => simp only [hl] at hc; cases hc
          | some l =>
            simp only [hl, Bool.and_eq_true, beq_iff_eq] at hc
            obtain ⟨cn, rfl⟩ : ∃ cn, l = [cn] := List.length_eq_one_iff.1 hc.1
            refine ⟨hs, hp, ⟨t, (verifyTime_iff ..).1 ht, (cmsVerifyCall_iff ..).1 hm, hc.2⟩, ⟨cn, hl, ?_⟩⟩
            intro allowed ha
            have h3' : checkCns K cfg sig = true := by simpa using h3
            unfold checkCns at h3'
            simp only [ha, hl] at h3'
            exact (cnsLoop_single _ _).1 h3'
  · rintro ⟨hs, hp, ⟨t, ht, hv, hc⟩, ⟨cn, hl, hcn⟩⟩
    have hcns : checkCns K cfg sig = true := by
      unfold checkCns
      split
      · rfl
      · rename_i allowed ha
        simp only [hl]
        exact (cnsLoop_single _ _).2 (hcn _ ha)
    refine ⟨hs, ⟨nct, t⟩, ?_, ?_⟩
    · unfold cmsVerify
      simp only [hp, (verifyTime_iff ..).2 ht, (cmsVerifyCall_iff ..).2 hv, hcns, hl]
      simp
    · unfold certChain
      simp [hl, hc]

theorem decryptSig_iff (K : Crypto) (cfg : Config) (raw sig : Bytes) (enc : Bool) :
    decryptSig K cfg raw = some (sig, enc) ↔ Unwrapped K cfg raw sig enc := by
  unfold decryptSig Unwrapped
  split
  · rename_i d hp
    split
    · rename_i hk
      constructor
      · intro h; cases h
      · rintro (⟨_, _, h⟩ | ⟨_, hk', _⟩)
        · exact absurd hp (h d)
        · simp [hk'] at hk
    · rename_i hk
      have hk' : cfg.encryptionKey = true := by simpa using hk
      cases hd : K.decrypt raw with
      | none =>
        constructor
        · intro h; cases h
        · rintro (⟨_, _, h⟩ | ⟨_, _, _, h⟩)
          · exact absurd hp (h d)
          · cases h
      | some s =>
        simp only [Option.some.injEq, Prod.mk.injEq]
        constructor
        · rintro ⟨rfl, rfl⟩
          exact Or.inr ⟨rfl, hk', ⟨d, hp⟩, rfl⟩
        · rintro (⟨_, _, h⟩ | ⟨h, _, _, h'⟩)
          · exact absurd hp (h d)
          · exact ⟨h', h.symm⟩
  · rename_i hne
    simp only [Option.some.injEq, Prod.mk.injEq]
    constructor
    · rintro ⟨rfl, rfl⟩
      exact Or.inl ⟨rfl, rfl, fun d h => hne d h⟩
    · rintro (⟨rfl, rfl, _⟩ | ⟨_, _, ⟨d, h⟩, _⟩)
      · exact ⟨rfl, rfl⟩
      · exact absurd h (hne d)

/-- what `check_bundle` goes through when it succeeds -/
theorem checkBundle_cases {K : Crypto} {cfg : Config} {load : Bytes → Option Manifest} {p : Params} {acc : AccessResults} {src : Source} {b : Bundle}
    (h : checkBundle K cfg load p acc src = some b) (hv : p.noVerify = false) :
    cfg.keyring = true ∧ ∃ stream o typ detached sig enc b1 text,
      openBundle cfg src = some (stream, o) ∧ K.parse o.sig = some (typ, detached) ∧ (detached = true → stream ≠ none) ∧
      decryptSig K cfg o.sig = some (sig, enc) ∧
      verifyStep K cfg p acc detached ⟨stream, o.size, sig, enc, false, false, false, false, none⟩ = some (b1, text) ∧
      finishCheck cfg load b1 text = some b := by
  unfold checkBundle at h
  rw [hv] at h
  split at h
  · cases h
  rename_i hk
  refine ⟨by simpa using hk, ?_⟩
  cases ho : openBundle cfg src with
  | none => simp only [ho] at h; cases h
  | some so =>
    obtain ⟨stream, o⟩ := so
    simp only [ho] at h
    cases hp : K.parse o.sig with
    | none => simp only [hp] at h; cases h
    | some td =>
      obtain ⟨typ, det⟩ := td
      simp only [hp] at h
      split at h
      · cases h
      rename_i hd
      cases hx : decryptSig K cfg o.sig with
      | none => simp only [hx] at h; cases h
      | some se =>
        obtain ⟨sig, enc⟩ := se
        simp only [hx, Bool.false_eq_true, if_false] at h
        split at h
        · cases h
        · rename_i b1 text hs
          refine ⟨stream, o, typ, det, sig, enc, b1, text, rfl, hp, ?_, hx, hs, h⟩
          intro hdt hn
          simp [hdt, hn] at hd

/-- **C33** With verification enabled, whatever the cryptographic library, the file system and the server answer: a bundle that is accepted is authentic. -/
theorem C33_check_bundle (K : Crypto) (cfg : Config) (load : Bytes → Option Manifest) (p : Params) (acc : AccessResults) (src : Source) (b : Bundle)
    (hv : p.noVerify = false) (h : checkBundle K cfg load p acc src = some b) : Authentic K cfg load p acc src b := by
  obtain ⟨hk, stream, o, typ, det, sig, enc, b1, text, ho, hp, hd, hx, hs, hf⟩ := checkBundle_cases h hv
  have hx' := (decryptSig_iff ..).1 hx
  unfold verifyStep at hs
  split at hs
  · cases hs
  rename_i hst
  have hst' : K.storeOk = true := by simpa using hst
  cases det with
  | true =>
    simp only [if_true] at hs
    cases hstr : stream with
    | none => simp only [hstr] at hs; cases hs
    | some f =>
      subst hstr
      simp only at hs
      split at hs
      · cases hs
      rename_i hacc
      have hacc' : p.trustEnv = true ∨ acc.enforce = true := by
        cases h1 : p.trustEnv <;> cases h2 : acc.enforce <;> simp [h1, h2] at hacc ⊢
      split at hs
      · cases hs
      cases hc : cmsVerify K cfg p.noCheckTime sig (some (verifiedContent f o.size)) with
      | none => simp only [hc] at hs; cases hs
      | some ms =>
        obtain ⟨m, sp⟩ := ms
        simp only [hc] at hs
        split at hs
        · rename_i hch
          simp only [Option.some.injEq, Prod.mk.injEq] at hs
          obtain ⟨rfl, rfl⟩ := hs
          have hsig := (signatureOk_iff ..).1 ⟨hst', sp, hc, hch⟩
          have hm : m = none := by
            obtain ⟨_, _, ⟨_, _, hsg, _⟩, _⟩ := hsig
            exact hsg.1
          subst hm
          unfold finishCheck at hf
          simp only at hf
          split at hf
          · rename_i hfm
            cases hf
            exact ⟨hk, rfl, ⟨o.sig, ho, hx'⟩, Or.inl ⟨rfl, hfm, hacc', ⟨f, rfl, hsig⟩, rfl⟩, fun _ => ⟨by simp, by
              rcases hacc' with h | h
              · exact Or.inl h
              · exact Or.inr (Or.inl h)⟩⟩
          · cases hf
        · cases hs
  | false =>
    simp only [Bool.false_eq_true, if_false] at hs
    cases hc : cmsVerify K cfg p.noCheckTime sig none with
    | none => simp only [hc] at hs; cases hs
    | some ms =>
      obtain ⟨m, sp⟩ := ms
      simp only [hc] at hs
      split at hs
      · rename_i hch
        simp only [Option.some.injEq, Prod.mk.injEq] at hs
        obtain ⟨rfl, rfl⟩ := hs
        have hsig := (signatureOk_iff ..).1 ⟨hst', sp, hc, hch⟩
        obtain ⟨t, rfl⟩ : ∃ t, m = some t := by
          obtain ⟨_, _, ⟨_, _, ⟨t, ht, _⟩, _⟩, _⟩ := hsig
          exact ⟨t, ht⟩
        unfold finishCheck at hf
        simp only at hf
        cases hl : load t with
        | none => simp only [hl] at hf; cases hf
        | some mm =>
          simp only [hl] at hf
          split at hf
          · cases hf
          rename_i hpl
          split at hf
          · rename_i hfm
            cases hf
            refine ⟨hk, rfl, ⟨o.sig, ho, hx'⟩, Or.inr ⟨⟨t, mm, hsig, hl, rfl, hpl, hfm⟩, rfl⟩, ?_⟩
            intro he
            simp only [Bool.and_eq_true, Bool.or_eq_true] at he
            refine ⟨?_, ?_⟩
            · intro e; simp only at e; rw [e] at he; simp at he
            · rcases he.2 with h | h
              · exact Or.inl h
              · exact Or.inr (Or.inr h)
          · cases hf
      · cases hs

/-- **C33** For a local file, the signature comes from the trailer, and what is signed in a plain bundle is exactly the payload (with one exception: if the
payload is empty, the signature is checked over the whole file). -/
theorem C33_plain_payload (K : Crypto) (cfg : Config) (load : Bytes → Option Manifest) (p : Params) (acc : AccessResults) (src : Source) (b : Bundle)
    (hv : p.noVerify = false) (h : checkBundle K cfg load p acc src = some b) (hm : b.manifest = none) :
    ∃ f payload raw, src = .file true f ∧ BundleFile f payload raw ∧ Unwrapped K cfg raw b.sig b.wasEncrypted ∧ payload.length = b.size ∧
      (payload ≠ [] → SignatureOk K cfg p.noCheckTime b.sig (some payload) none) := by
  have A := C33_check_bundle K cfg load p acc src b hv h
  obtain ⟨raw, ho, hu⟩ := A.opened
  rcases A.either with P | M
  · obtain ⟨f, hf, hs⟩ := P.local_
    cases src with
    | remote st total read =>
      unfold openBundle at ho
      simp only at ho
      split at ho
      · cases ho
      · split at ho
        · cases ho
        · rw [hf] at ho; cases ho
    | file regular g =>
      unfold openBundle at ho
      simp only at ho
      split at ho
      · cases ho
      · rename_i o hol
        simp only [Option.some.injEq, Prod.mk.injEq] at ho
        obtain ⟨hg, ho⟩ := ho
        rw [hf] at hg
        cases hg
        rw [ho] at hol
        obtain ⟨hr, pl, hbf, hpl, _⟩ := (C32_open_local ..).1 hol
        subst hr
        refine ⟨f, pl, raw, rfl, hbf, hu, hpl, ?_⟩
        intro hne
        have hz : b.size ≠ 0 := by rw [← hpl]; simpa using hne
        rw [if_neg hz] at hs
        have : f.take b.size = pl := by
          rw [hbf, ← hpl]; simp [List.append_assoc]
        rwa [this] at hs
  · obtain ⟨t, m, _, _, hm', _⟩ := M.signed
    rw [hm] at hm'; cases hm'

/-- **C33** Streamed bundles are never plain: there always is a signed manifest. -/
theorem C33_stream_not_plain (K : Crypto) (cfg : Config) (load : Bytes → Option Manifest) (p : Params) (acc : AccessResults)
    (started : Bool) (total : Nat) (read : Nat → Nat → Option Bytes) (b : Bundle)
    (hv : p.noVerify = false) (h : checkBundle K cfg load p acc (.remote started total read) = some b) :
    b.stream = none ∧ b.exclusiveVerified = false ∧ ManifestOk K cfg load p b := by
  have A := C33_check_bundle K cfg load p acc _ b hv h
  have hs : b.stream = none := by
    obtain ⟨raw, ho, _⟩ := A.opened
    unfold openBundle at ho
    simp only at ho
    split at ho
    · cases ho
    · split at ho
      · cases ho
      · injection ho with ho; injection ho with ho _; exact ho.symm
  refine ⟨hs, ?_, ?_⟩
  · cases he : b.exclusiveVerified
    · rfl
    · exact absurd hs (A.exclusive he).1
  · rcases A.either with P | M
    · obtain ⟨f, hf, _⟩ := P.local_; rw [hs] at hf; cases hf
    · exact M

/-- **C53** If allowed signer names are configured, every accepted bundle was signed by exactly one signer, whose common name is one of them. -/
theorem C53_signer (K : Crypto) (cfg : Config) (load : Bytes → Option Manifest) (p : Params) (acc : AccessResults) (src : Source) (b : Bundle)
    (allowed : List Bytes) (hv : p.noVerify = false) (hc : cfg.allowedCns = some allowed) (h : checkBundle K cfg load p acc src = some b) :
    ∃ cn, K.signers b.sig = some [some cn] ∧ cn ∈ allowed ∧ 0 ∉ cn := by
  have A := C33_check_bundle K cfg load p acc src b hv h
  have key : ∃ c, K.signers b.sig = some [c] ∧ SignerOk cfg c := by
    rcases A.either with P | M
    · obtain ⟨_, _, hs⟩ := P.local_; exact hs.signer
    · obtain ⟨_, _, hs, _⟩ := M.signed; exact hs.signer
  obtain ⟨c, h1, h2⟩ := key
  obtain ⟨n, rfl, h3⟩ := h2 _ hc
  exact ⟨n, h1, h3⟩

/-! ## Payload -/

theorem code_wf : Verity.code.WF := ⟨rfl, by decide, by decide⟩

/-- **C33** Explicit verification of the payload of an accepted bundle succeeds only for local bundles with exclusive access, whose data has the Merkle root
that the signed manifest (which passed the checks for external manifests) contains. -/
theorem C33_payload_checked (running : Str) (verity : Bytes → Nat → Bytes → Bytes → Bool) (b b' : Bundle)
    (hv : b.verificationDisabled = false) (hp : b.payloadVerified = false) (h : checkPayload running verity b = .ok b') :
    ∃ f m m' root salt, b.stream = some f ∧ b.exclusiveVerified = true ∧ b.manifest = some m ∧ checkExternal running m = some m' ∧
      m.verityHash.bind (Utils.hexDecode · 32) = some root ∧ m.veritySalt.bind (Utils.hexDecode · 32) = some salt ∧
      4096 ∣ b.size ∧ verity f (sub64 b.size m.veritySize / 4096) root salt = true ∧
      b' = { b with manifest := some m', payloadVerified := true } := by
  unfold checkPayload at h
  rw [hv, hp] at h
  simp only [Bool.or_self, Bool.false_eq_true, if_false] at h
  cases hs : b.stream with
  | none => simp only [hs] at h; cases h
  | some f =>
    simp only [hs] at h
    split at h
    · cases h
    rename_i he
    cases hm : b.manifest with
    | none => simp only [hm] at h; cases h
    | some m =>
      simp only [hm] at h
      cases hx : checkExternal running m with
      | none => simp only [hx] at h; cases h
      | some m' =>
        simp only [hx] at h
        have hsame := (C35_external _ _ _ hx).2.1.1
        have e1 : m'.verityHash = m.verityHash := by rw [← hsame]
        have e2 : m'.veritySalt = m.veritySalt := by rw [← hsame]
        have e3 : m'.veritySize = m.veritySize := by rw [← hsame]
        rw [e1, e2, e3] at h
        split at h
        · rename_i root salt h1 h2
          split at h
          · cases h
          rename_i h4
          split at h
          · rename_i h5
            cases h
            refine ⟨f, m, m', root, salt, rfl, by simpa using he, rfl, hx, h1, h2, ?_, h5, by rw [hv]⟩
            simp only [Bool.or_eq_true, decide_eq_true_eq, not_or, ne_eq, Decidable.not_not] at h4
            exact Nat.dvd_of_mod_eq_zero h4.1
          · cases h
        · cases h

/-- **C33** With the real hash tree check: two payloads that were verified for manifests with the same root hash, salt and data size are equal in every byte of the
data, or a block of one of them (or of its hash tree) and a different one of the other have the same hash. -/
theorem C33_payload_binding (running : Str) (sha : Bytes → Bytes) (hsha : ∀ x, (sha x).length = 32) (b1 b2 b1' b2' : Bundle) (f1 f2 : Bytes) (m1 m2 : Manifest)
    (hv1 : b1.verificationDisabled = false) (hp1 : b1.payloadVerified = false) (hv2 : b2.verificationDisabled = false) (hp2 : b2.payloadVerified = false)
    (h1 : checkPayload running (verityFile sha fileDisk) b1 = .ok b1') (h2 : checkPayload running (verityFile sha fileDisk) b2 = .ok b2')
    (hf1 : b1.stream = some f1) (hf2 : b2.stream = some f2) (hm1 : b1.manifest = some m1) (hm2 : b2.manifest = some m2)
    (hh : m1.verityHash = m2.verityHash) (hs : m1.veritySalt = m2.veritySalt) (n : Nat)
    (hn1 : b1.size = n * 4096 + m1.veritySize) (hn2 : b2.size = n * 4096 + m2.veritySize) :
    (∀ i, i < n * 4096 → f1.getD i 0 = f2.getD i 0) ∨
    ∃ salt, Verity.Collision (fun b => sha (salt ++ b)) Verity.code n ((fileDisk f1).block Verity.code) ((fileDisk f2).block Verity.code) := by
  obtain ⟨g1, k1, k1', r1, s1, a1, _, c1, _, d1, e1, _, v1, _⟩ := C33_payload_checked _ _ _ _ hv1 hp1 h1
  obtain ⟨g2, k2, k2', r2, s2, a2, _, c2, _, d2, e2, _, v2, _⟩ := C33_payload_checked _ _ _ _ hv2 hp2 h2
  rw [hf1] at a1; cases a1
  rw [hf2] at a2; cases a2
  rw [hm1] at c1; cases c1
  rw [hm2] at c2; cases c2
  rw [hh, d2] at d1; cases d1
  rw [hs, e2] at e1; cases e1
  have q1 : sub64 b1.size m1.veritySize / 4096 = n := by unfold sub64; rw [if_pos (by omega)]; omega
  have q2 : sub64 b2.size m2.veritySize / 4096 = n := by unfold sub64; rw [if_pos (by omega)]; omega
  rw [q1] at v1
  rw [q2] at v2
  rcases Verity.C31_binding Verity.code code_wf _ (fun x => hsha _) n r1 _ _ v1 v2 with h | h
  · left
    rw [Disk.read_eq_iff] at h
    intro i hi
    exact h i (by omega) (by simpa [Verity.code] using hi)
  · exact Or.inr ⟨s1, h⟩

/-! ## Mounting -/

/-- A device an accepted bundle may be mounted from. -/
inductive MayMount (K : Crypto) (cfg : Config) (load : Bytes → Option Manifest) (acc : AccessResults) (src : Source) : Dev → Prop
  /-- the payload of a plain bundle, which was verified completely, and to which we have exclusive access -/
  | plain (b : Bundle) (h : Authentic K cfg load {} acc src b) (hp : PlainOk K cfg {} acc b) : MayMount K cfg load acc src (.raw b.size)
  /-- the payload of a verity bundle, checked by the kernel against the root hash in the signed manifest -/
  | verity (b : Bundle) (text : Bytes) (m : Manifest) (h : Authentic K cfg load {} acc src b)
      (hs : SignatureOk K cfg false b.sig none (some text)) (hl : load text = some m) (hf : m.format = .verity)
      (root salt : Str) (hr : m.verityHash = some root) (hr' : HexStr 64 root) (hsa : m.veritySalt = some salt) (hsa' : HexStr 64 salt) :
      MayMount K cfg load acc src (.verity (.raw b.size) (sub64 b.size m.veritySize) (some root) (some salt))
  /-- the same, decrypted with the key in a manifest that was signed and encrypted -/
  | crypt (b : Bundle) (text : Bytes) (m : Manifest) (h : Authentic K cfg load {} acc src b)
      (hs : SignatureOk K cfg false b.sig none (some text)) (hl : load text = some m) (hf : m.format = .crypt) (he : b.wasEncrypted = true)
      (root salt key : Str) (hr : m.verityHash = some root) (hr' : HexStr 64 root) (hsa : m.veritySalt = some salt) (hsa' : HexStr 64 salt)
      (hk : m.cryptKey = some key) (hk' : HexStr 64 key) :
      MayMount K cfg load acc src
        (.crypt (.verity (.raw b.size) (sub64 b.size m.veritySize) (some root) (some salt)) (sub64 b.size m.veritySize) (some key))

theorem prepareDm_cases {cfg : Config} {running : Str} {e : MountEnv} {m : Manifest} {crypt : Bool} {b : Bundle} {d : Dev}
    (h : d ∈ (prepareDm cfg running e m crypt b).1) :
    ∃ m', checkExternal running m = some m' ∧ dmSizeOk (sub64 b.size m'.veritySize) = true ∧ (cfg.preCheck = true → e.preCheck = true) ∧
      d = (if crypt then Dev.crypt (.verity (.raw b.size) (sub64 b.size m'.veritySize) m'.verityHash m'.veritySalt) (sub64 b.size m'.veritySize) m'.cryptKey
        else .verity (.raw b.size) (sub64 b.size m'.veritySize) m'.verityHash m'.veritySalt) := by
  unfold prepareDm at h
  cases hx : checkExternal running m with
  | none => simp only [hx] at h; cases h
  | some m' =>
    simp only [hx] at h
    split at h
    · cases h
    rename_i h1
    split at h
    · cases h
    split at h
    · cases h
    rename_i h3
    have hd : d = (if crypt then Dev.crypt (.verity (.raw b.size) (sub64 b.size m'.veritySize) m'.verityHash m'.veritySalt) (sub64 b.size m'.veritySize) m'.cryptKey
        else .verity (.raw b.size) (sub64 b.size m'.veritySize) m'.verityHash m'.veritySalt) := by
      cases crypt
      · simp only [Bool.false_eq_true, if_false] at h ⊢
        split at h
        · simpa using h
        · cases h
      · simp only [if_true] at h ⊢
        split at h
        · simpa using h
        · cases h
    · refine ⟨m', rfl, ?_, ?_, hd⟩
      · simp only [Bool.not_eq_true', Bool.not_eq_false, Bool.and_eq_true] at h1; exact h1.1
      · intro hc; simpa [hc] using h3

/-- **C33** Whatever is mounted during an installation (even if only for a short time) belongs to an authentic bundle: the completely verified payload of a plain bundle,
or a device that checks all data against the root hash in the signed manifest. -/
theorem C33_mount (K : Crypto) (cfg : Config) (load : Bytes → Option Manifest) (running : Str) (acc : AccessResults) (e : MountEnv) (src : Source)
    (req : Option Str) (d : Dev) (h : d ∈ (installMount K cfg load running acc e src req).1) : MayMount K cfg load acc src d := by
  unfold installMount at h
  cases hb : checkBundle K cfg load {} acc src with
  | none => simp only [hb] at h; cases h
  | some b =>
    have A := C33_check_bundle K cfg load {} acc src b rfl hb
    simp only [hb] at h
    split at h
    · cases h
    split at h
    · cases h
    split at h
    · cases h
    rename_i hcr
    unfold mountBundle at h
    split at h
    · cases h
    split at h
    · cases h
    split at h
    · cases h
    rcases A.either with P | M
    · rw [P.noManifest] at h
      simp only at h
      have hd : d = .raw b.size := by
        split at h
        · cases h
        split at h
        · cases h
        split at h
        · simpa using h
        split at h
        · simpa using h
        split at h
        · simpa using h
        · simpa using h
      subst hd
      exact .plain b A P
    · obtain ⟨text, m, hs, hl, hm, hf, _⟩ := M.signed
      rw [hm] at h hcr
      simp only at h
      split at h
      · cases h
      · rename_i hfm
        obtain ⟨m', hx, _, _, hd⟩ := prepareDm_cases h
        obtain ⟨_, hsame, _, _, _, ⟨r, hr, hr'⟩, ⟨s, hsa, hsa'⟩, _⟩ := C35_external _ _ _ hx
        have e1 : m'.verityHash = m.verityHash := by have := congrArg Manifest.verityHash hsame.1; exact this
        have e2 : m'.veritySalt = m.veritySalt := by have := congrArg Manifest.veritySalt hsame.1; exact this
        have e3 : m'.veritySize = m.veritySize := by have := congrArg Manifest.veritySize hsame.1; exact this
        simp only [Bool.false_eq_true, if_false] at hd
        rw [hd, e1, e2, e3]
        have hr0 : m.verityHash = some r := hr
        have hs0 : m.veritySalt = some s := hsa
        rw [hr0, hs0]
        exact .verity b text m A hs hl hfm r s hr hr' hsa hsa'
      · rename_i hfm
        obtain ⟨m', hx, _, _, hd⟩ := prepareDm_cases h
        obtain ⟨_, hsame, _, _, _, ⟨r, hr, hr'⟩, ⟨s, hsa, hsa'⟩, _, _, hkk⟩ := C35_external _ _ _ hx
        obtain ⟨k, hk, hk'⟩ := hkk hfm
        have e1 : m'.verityHash = m.verityHash := by have := congrArg Manifest.verityHash hsame.1; exact this
        have e2 : m'.veritySalt = m.veritySalt := by have := congrArg Manifest.veritySalt hsame.1; exact this
        have e3 : m'.veritySize = m.veritySize := by have := congrArg Manifest.veritySize hsame.1; exact this
        have e4 : m'.cryptKey = m.cryptKey := by have := congrArg Manifest.cryptKey hsame.1; exact this
        simp only [if_true] at hd
        rw [hd, e1, e2, e3, e4]
        have hr0 : m.verityHash = some r := hr
        have hs0 : m.veritySalt = some s := hsa
        have hk0 : m.cryptKey = some k := hk
        rw [hr0, hs0, hk0]
        have hfm' : m.format = .crypt := hfm
        refine .crypt b text m A hs hl hfm ?_ r s k hr hr' hsa hsa' hk hk'
        simpa [hfm'] using hcr

/-- **C33** If an installation is bound to a manifest hash, nothing is mounted unless the manifest is a signed one with this hash. -/
theorem C33_require_hash (K : Crypto) (cfg : Config) (load : Bytes → Option Manifest) (running : Str) (acc : AccessResults) (e : MountEnv) (src : Source)
    (want : Str) (h : (installMount K cfg load running acc e src (some want)).1 ≠ [] ∨ ∃ b, (installMount K cfg load running acc e src (some want)).2 = .ok b) :
    ∃ b text m, checkBundle K cfg load {} acc src = some b ∧ SignatureOk K cfg false b.sig none (some text) ∧ load text = some m ∧ m.hash = some want := by
  unfold installMount at h
  cases hb : checkBundle K cfg load {} acc src with
  | none => simp [hb] at h
  | some b =>
    have A := C33_check_bundle K cfg load {} acc src b rfl hb
    simp only [hb] at h
    cases hm : b.manifest with
    | none => simp [hm] at h
    | some m =>
      rcases A.either with P | M
      · rw [P.noManifest] at hm; cases hm
      · obtain ⟨text, m', hs, hl, hm', _⟩ := M.signed
        rw [hm] at hm'
        injection hm' with hm'
        refine ⟨b, text, m', rfl, hs, hl, ?_⟩
        have he : m.hash = m'.hash := by rw [hm']
        rw [← he]
        by_contra hne
        rw [hm] at h
        simp only [Option.isSome_some, Option.isNone_some, Bool.and_false, Bool.false_eq_true, if_false, Option.bind_some, Bool.true_and] at h
        rw [if_pos (by simpa using fun e => hne e.symm)] at h
        simp at h

/-- **C33** The assertions in the code which guard against mounting unverified bundles are never violated during an installation. -/
theorem C33_no_abort (K : Crypto) (cfg : Config) (load : Bytes → Option Manifest) (running : Str) (acc : AccessResults) (e : MountEnv) (src : Source)
    (req : Option Str) : (installMount K cfg load running acc e src req).2 ≠ .abort := by
  have hprep : ∀ m crypt b, (prepareDm cfg running e m crypt b).2 ≠ .abort := by
    intro m crypt b
    unfold prepareDm
    split
    · simp
    split
    · simp
    split
    · simp
    split
    · simp
    simp only
    split <;> split <;> simp
  unfold installMount
  cases hb : checkBundle K cfg load {} acc src with
  | none => simp
  | some b =>
    have A := C33_check_bundle K cfg load {} acc src b rfl hb
    simp only
    split
    · simp
    split
    · simp
    split
    · simp
    unfold mountBundle
    split
    · simp
    rw [A.verified]
    simp only [Bool.true_or, Bool.not_true, Bool.false_eq_true, if_false]
    split
    · simp
    rcases A.either with P | M
    · rw [P.noManifest, P.payload]
      simp only [Bool.true_or, Bool.not_true, Bool.false_eq_true, if_false]
      split
      · simp
      split
      · simp
      split
      · simp
      split <;> simp
    · obtain ⟨text, m, _, _, hm, hf, _⟩ := M.signed
      rw [hm]
      simp only
      split
      · rename_i h; exact absurd h hf
      · exact hprep _ _ _
      · exact hprep _ _ _

/-! ## Examples -/

namespace Example

/-- a library which knows one detached signature `[1]` of the content `[5, 6, 7]` and one inline signature `[2]` of the text `[9]` -/
def K : Crypto where
  parse s := if s = [1] then some (.signed, true) else if s = [2] then some (.signed, false) else none
  decrypt _ := none
  storeOk := true
  verifyDetached _ s c := s == [1] && c == [5, 6, 7]
  verifyInline _ s := if s = [2] then some [9] else none
  embedded _ := none
  signingTime _ := none
  signers _ := some [some [65]]
  chainOk _ _ := true

def cfg : Config where
  keyring := true
  allowedCns := some [[66], [65]]
  useSigningTime := false
  encryptionKey := false
  maxSig := 100
  formats := fun _ => true
  preCheck := false

def load (t : Bytes) : Option Manifest := if t = [9] then some { sample with hash := some c!"abc", veritySize := 4096 } else none

/-- a plain bundle -/
def plainFile : Bytes := [5, 6, 7, 1, 0, 0, 0, 0, 0, 0, 0, 1]

example : (checkBundle K cfg load {} ⟨true, true⟩ (.file true plainFile)).isSome = true := by decide
/-- somebody else may write to the file -/
example : (checkBundle K cfg load {} ⟨false, false⟩ (.file true plainFile)).isSome = false := by decide
/-- one byte changed -/
example : (checkBundle K cfg load {} ⟨true, true⟩ (.file true [5, 6, 8, 1, 0, 0, 0, 0, 0, 0, 0, 1])).isSome = false := by decide
/-- another signer -/
example : (checkBundle K { cfg with allowedCns := some [[66]] } load {} ⟨true, true⟩ (.file true plainFile)).isSome = false := by decide

/-- a server with a verity bundle: two blocks of payload, the second one with the hash tree, and the signature -/
def server (off len : Nat) : Option Bytes :=
  if off = 8193 ∧ len = 8 then some [0, 0, 0, 0, 0, 0, 0, 1] else if off = 8192 ∧ len = 1 then some [2] else none

def env : MountEnv := ⟨true, true, true, true, true, fun _ => true, fun _ => none⟩

set_option maxRecDepth 4000 in
example : (installMount K cfg load c!"1.15" ⟨true, true⟩ env (.remote true 8201 server) (some c!"abc")).1 =
    [.verity (.raw 8192) 4096 sample.verityHash sample.veritySalt] := by decide
/-- bound to another manifest -/
example : (installMount K cfg load c!"1.15" ⟨true, true⟩ env (.remote true 8201 server) (some c!"abd")).1 = [] := by decide

def isAbort : Res Bundle → Bool
  | .abort => true
  | _ => false

/-- Finding: `rauc extract` or `resign` of a validly signed bundle whose payload is no multiple of 4096 bytes ends with a failed assertion, not with an error. -/
theorem C33_finding_unaligned_abort :
    (checkBundle K cfg load {} ⟨true, true⟩ (.file true [5, 6, 7, 2, 0, 0, 0, 0, 0, 0, 0, 1])).map
      (fun b => isAbort (checkPayload c!"1.15" (fun _ _ _ _ => true) b)) = some true := by decide

end Example

end Rauc.Bundle
