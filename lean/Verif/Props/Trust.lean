import Verif.Model.Trust
import Verif.Props.Context
import Verif.Props.Bundle
import Verif.Props.Authentic

/-!
# C102: whose signatures are accepted
-/

namespace Rauc.Trust

open Rauc.Context (Store Ssl bundleStore Base start checkPurpose FileState Cmd Opts)
open Rauc.ConfigFile (Cfg Env Keyring)
open Rauc.Bundle (Crypto StoreParams CmsType SignatureOk SignerOk checkBundle installMount Signs)

/-! ## Specification -/

/-- What the certificates and keys are about: `issued a b`: `a` was issued (signed) by `b`; `signed x content`: the holder of the key of `x` has signed `content`;
`listed file dir x`: the certificate is in the keyring file or directory; `revoked`: by a revocation list. -/
structure World where
  issued : X509 → X509 → Prop
  signed : X509 → Bytes → Prop
  listed : Option Str → Option Str → X509 → Prop
  revoked : X509 → Prop

/-- what the configuration asks for: keyring file, keyring directory, revocation lists, partial chains, purpose -/
structure Policy where
  file : Option Str
  directory : Option Str
  checkCrl : Bool
  partialChain : Bool
  purpose : Option Str

/-- A path from the certificate of a signer to a trust anchor that fulfills a policy at a time (`none`: at any time). `use x ca`: the certificate may be used for code
signing (as a CA certificate or as the one of the signer). -/
structure Path (W : World) (use : X509 → Bool → Prop) (P : Policy) (time : Option Int) (x : X509) (chain : List X509) : Prop where
  leaf : chain.head? = some x
  links : chain.IsChain W.issued
  anchor : ∃ r, chain.getLast? = some r ∧ W.listed P.file P.directory r ∧ (P.partialChain = false → W.issued r r)
  valid : ∀ t, time = some t → ∀ y ∈ chain, y.notBefore ≤ t ∧ t ≤ y.notAfter
  revocation : P.checkCrl = true → ∀ y ∈ chain, ¬ W.revoked y
  /-- the purpose for which RAUC has its own check -/
  codesign : P.purpose = some c!"codesign-rauc" → use x false ∧ ∀ y ∈ chain.tail, use y true

/-- the policy in a store -/
def policyOf (st : Store) : Policy := ⟨st.file, st.directory, st.crlCheckAll, st.partialChain, st.purpose⟩

/-- OpenSSL does what it is for: what `CMS_verify` accepts was signed by each of the signers, `X509_verify_cert` accepts a certificate only with a path to a trust anchor (and calls back for the purpose, signature.c:58-99). -/
structure Sound (O : Ossl) (W : World) : Prop where
  detached : ∀ st t sig content, O.verifyDetached st t sig content = true → ∀ l, O.infos sig = some l → ∀ s ∈ l, W.signed s.cert content
  inline : ∀ st t sig content, O.verifyInline st t sig = some content → ∀ l, O.infos sig = some l → ∀ s ∈ l, W.signed s.cert content
  path : ∀ st t x sig, O.verifyCert st t x sig = true → ∃ chain, Path W (fun y ca => checkPurpose y.usage ca ≠ 0) (policyOf st) t x chain

/-- may be used for code signing: the certificate of a signer says so, and may be used for digital signatures; one of a CA is one of a CA and does not say otherwise -/
def MayCodeSign (x : X509) : Bool → Prop
  | false => x.usage.ExtKeyUsage ∧ x.usage.CodeSigning ∧ (x.usage.KeyUsage → x.usage.DigitalSignature)
  | true => x.usage.isCa ≠ 0 ∧ (x.usage.ExtKeyUsage → x.usage.CodeSigning)

/-- the signer says when: the first value of the first signed attribute for it -/
def SaysTime (s : SignerInfo) (t : Nat) : Prop := ∃ vals rest more, s.times = vals :: rest ∧ vals = .time (some (t : Int)) :: more

/-- the certificate has one of these names (the first common name counts) -/
def NameAllowed (allowed : Option (List Str)) (x : X509) : Prop :=
  ∀ l, allowed = some l → ∃ n names s, x.names = n :: names ∧ s ∈ l ∧ n = utf8 s ∧ 0 ∉ n

/-! ## Proofs -/

theorem signingTime_iff {l : Option (List SignerInfo)} {t : Nat} : signingTime l = some t ↔ ∃ s, l = some [s] ∧ SaysTime s t := by
  cases l with
  | none => simp [signingTime]
  | some l =>
    match l with
    | [] => simp [signingTime]
    | _ :: _ :: _ => simp [signingTime]
    | [s] =>
      simp only [signingTime, List.length_cons, List.length_nil, List.head?_cons, Option.some.injEq, List.cons.injEq, and_true, exists_eq_left']
      simp only [Nat.zero_add, ne_eq, not_true_eq_false, if_false]
      obtain ⟨cert, times⟩ := s
      unfold SaysTime
      cases times with
      | nil => simp
      | cons vals rest =>
        cases vals with
        | nil => simp
        | cons v more =>
          cases v with
          | other => simp
          | time o =>
            cases o with
            | none => simp
            | some u =>
              simp only [List.head?_cons]
              constructor
              · intro h
                split at h
                · cases h
                · refine ⟨_, rest, more, rfl, ?_⟩
                  cases h
                  rw [Int.toNat_of_nonneg (by omega)]
              · rintro ⟨_, _, _, h1, h2⟩
                cases h1
                cases h2
                rw [if_neg (by omega)]
                simp

theorem signers_one {l : Option (List SignerInfo)} {cn : Option Bytes} : signers l = some [cn] ↔ ∃ s, l = some [s] ∧ s.cert.names.head? = cn := by
  unfold signers
  split
  · rename_i s l
    cases l with
    | nil => simp
    | cons a l => simp
  · rename_i h
    constructor
    · intro h; cases h
    · rintro ⟨s, rfl, -⟩
      exact absurd rfl (h s [])

/-- **C102** Exactly these signatures are accepted (for detached ones over `content`, for inline ones with `text` in it): the configured keyring can be
loaded, it is a CMS signature of the right kind with one signer, whose first common name is one of the configured ones, and OpenSSL
accepts the signature and the certificate with exactly the store that was set up from the configuration, at the time
to which the signature testifies (if that is configured) or now (otherwise), unless times are not to be checked. -/
theorem C102_signature (O : Ossl) (now : Int) (c : Cfg) (noCheckTime : Bool) (sig : Bytes) (content text : Option Bytes) :
    SignatureOk (crypto O now c) (bundleConfig c) noCheckTime sig content text ↔
    ∃ st s time, bundleStore O.ssl c.keyring = some st ∧ O.parse sig = some (.signed, content.isSome) ∧ O.infos sig = some [s] ∧ NameAllowed c.keyring.signerCns s.cert ∧
      (if c.keyring.signingTime then ∃ t, SaysTime s t ∧ time = (t : Int) else time = now) ∧
      (match content with
        | some x => text = none ∧ O.verifyDetached st (if noCheckTime then none else some time) sig x = true
        | none => ∃ t, text = some t ∧ O.verifyInline st (if noCheckTime then none else some time) sig = some t) ∧
      O.verifyCert st (if noCheckTime then none else some time) s.cert sig = true := by
  have hname : ∀ s : SignerInfo, SignerOk (bundleConfig c) s.cert.names.head? ↔ NameAllowed c.keyring.signerCns s.cert := by
    intro s
    unfold SignerOk NameAllowed bundleConfig
    dsimp only
    cases c.keyring.signerCns with
    | none => simp
    | some l =>
      simp only [Option.map_some, Option.some.injEq, forall_eq']
      constructor
      · rintro ⟨n, h1, h2, h3⟩
        obtain ⟨z, hz, rfl⟩ := List.mem_map.1 h2
        cases hn : s.cert.names with
        | nil => rw [hn] at h1; cases h1
        | cons a as =>
          rw [hn] at h1
          cases h1
          exact ⟨_, _, z, rfl, hz, rfl, h3⟩
      · rintro ⟨n, names, z, h1, h2, rfl, h3⟩
        exact ⟨_, by rw [h1]; rfl, List.mem_map.2 ⟨z, h2, rfl⟩, h3⟩
  constructor
  · rintro ⟨h1, h2, ⟨time, h3, h4, h5⟩, ⟨cn, h6, h7⟩⟩
    obtain ⟨st, hst⟩ := Option.isSome_iff_exists.1 h1
    obtain ⟨s, hs, rfl⟩ := signers_one.1 h6
    have hts : timeOf now ⟨noCheckTime, time⟩ = if noCheckTime then none else some ((time.map Int.ofNat).getD now) := rfl
    refine ⟨st, s, (time.map Int.ofNat).getD now, hst, h2, hs, (hname s).1 h7, ?_, ?_, ?_⟩
    · cases hu : c.keyring.signingTime with
      | false =>
        rw [show (bundleConfig c).useSigningTime = false from hu] at h3
        simp only [Bool.false_eq_true, if_false] at h3 ⊢
        rw [h3]
        rfl
      | true =>
        rw [show (bundleConfig c).useSigningTime = true from hu] at h3
        simp only [if_true] at h3 ⊢
        obtain ⟨h3, h3'⟩ := h3
        obtain ⟨t, rfl⟩ := Option.ne_none_iff_exists'.1 h3'
        obtain ⟨s', hs', ht⟩ := signingTime_iff.1 h3
        rw [hs] at hs'
        cases hs'
        exact ⟨t, ht, rfl⟩
    · cases content with
      | some x =>
        obtain ⟨h4, h4'⟩ := h4
        simp only [crypto, hst, Option.any_some] at h4'
        exact ⟨h4, h4'⟩
      | none =>
        obtain ⟨t, h4, h4'⟩ := h4
        simp only [crypto, hst, Option.bind_some] at h4'
        exact ⟨t, h4, h4'⟩
    · simp only [crypto, hst, hs, Option.any_some, Option.bind_some, List.head?_cons] at h5
      exact h5
  · rintro ⟨st, s, time, hst, h2, hs, h7, h3, h4, h5⟩
    have key : ∀ time' : Option Nat, (time'.map Int.ofNat).getD now = time → (if c.keyring.signingTime then signingTime (O.infos sig) = time' ∧ time' ≠ none else time' = none) →
        SignatureOk (crypto O now c) (bundleConfig c) noCheckTime sig content text := by
      intro time' e h3
      have hts : timeOf now ⟨noCheckTime, time'⟩ = if noCheckTime then none else some time := by
        unfold timeOf
        rw [e]
      refine ⟨by simp [crypto, hst], h2, ⟨time', h3, ?_, ?_⟩, ⟨_, signers_one.2 ⟨s, hs, rfl⟩, (hname s).2 h7⟩⟩
      · cases content with
        | some x =>
          refine ⟨h4.1, ?_⟩
          simp only [crypto, hst, Option.any_some, hts]
          exact h4.2
        | none =>
          obtain ⟨t, h4, h4'⟩ := h4
          refine ⟨t, h4, ?_⟩
          simp only [crypto, hst, Option.bind_some, hts]
          exact h4'
      · simp only [crypto, hst, hs, Option.any_some, Option.bind_some, List.head?_cons, hts]
        exact h5
    cases hu : c.keyring.signingTime with
    | false =>
      rw [hu] at h3
      simp only [Bool.false_eq_true, if_false] at h3
      exact key none (by rw [h3]; rfl) (by simp [hu])
    | true =>
      rw [hu] at h3
      simp only [if_true] at h3
      obtain ⟨t, ht, rfl⟩ := h3
      exact key (some t) rfl (by rw [hu]; exact ⟨signingTime_iff.2 ⟨s, hs, ht⟩, by simp⟩)

/-- what is in a store is what is configured -/
theorem policy_of {S : Ssl} {k : Keyring} {st : Store} (h : bundleStore S k = some st) : policyOf st = ⟨k.path, k.directory, k.checkCrl, k.partialChain, k.purpose⟩ := by
  unfold bundleStore Context.setupStore Context.argOr at h
  dsimp only at h
  split at h
  · cases h
  · split at h
    · rename_i hpp
      cases h
      simp only [policyOf, hpp]
    · rename_i hpp
      split at h
      · cases h
      · cases h
        simp only [policyOf, hpp]

/-- the policy that is in effect: the one of the configuration, but the keyring file may be given on the command line -/
def policy (o : Opts) (base : Cfg) : Policy := ⟨o.keyring.or base.keyring.path, base.keyring.directory, base.keyring.checkCrl, base.keyring.partialChain, base.keyring.purpose⟩

/-- the signature has one signer, who may sign for this device (in the configuration `base`) at this time -/
structure Trusted (O : Ossl) (W : World) (now : Int) (o : Opts) (base : Cfg) (noCheckTime : Bool) (sig : Bytes) (s : SignerInfo) (chain : List X509) : Prop where
  one : O.infos sig = some [s]
  name : NameAllowed base.keyring.signerCns s.cert
  path : ∃ time, (if base.keyring.signingTime then ∃ t, SaysTime s t ∧ time = (t : Int) else time = now) ∧
    Path W MayCodeSign (policy o base) (if noCheckTime then none else some time) s.cert chain

/-- **C102** The holder of the key of a trusted certificate has signed what is accepted. -/
theorem C102_signer {E : Option Str → Env} {fs : Str → FileState} {target : Cfg → Bool} {svc : Bool} {cmd : Cmd} {o : Opts} {c : Cfg} (hc : start E fs target svc cmd o = some c)
    {O : Ossl} {W : World} (hO : Sound O W) {now : Int} {noCheckTime : Bool} {sig : Bytes} {content text : Option Bytes}
    (h : SignatureOk (crypto O now c) (bundleConfig c) noCheckTime sig content text) :
    ∃ ovs base s chain, Base E fs svc cmd o.conf ovs base ∧ c.system.formats = base.system.formats ∧ Trusted O W now o base noCheckTime sig s chain ∧
      ∀ x, (content = some x ∨ (content = none ∧ text = some x)) → W.signed s.cert x := by
  obtain ⟨ovs, base, _, hb, hr, _⟩ := Context.C77_config.1 hc
  have hk : c.keyring = { base.keyring with path := o.keyring.or base.keyring.path } := by
    have := congrArg Cfg.keyring hr.rest
    rw [hr.keyringPath] at this
    exact this
  have hf : c.system.formats = base.system.formats := by
    have := congrArg (fun c : Cfg => c.system.formats) hr.rest
    exact this
  obtain ⟨st, s, time, hst, -, hs, hn, ht, hv, hp⟩ := (C102_signature O now c noCheckTime sig content text).1 h
  obtain ⟨chain, hpath⟩ := hO.path _ _ _ _ hp
  rw [policy_of hst] at hpath
  rw [hk] at hn ht hpath
  refine ⟨ovs, base, s, chain, hb, hf, ⟨hs, hn, time, ht, ?_⟩, ?_⟩
  · refine ⟨hpath.leaf, hpath.links, hpath.anchor, hpath.valid, hpath.revocation, ?_⟩
    intro hu
    obtain ⟨u1, u2⟩ := hpath.codesign hu
    exact ⟨(Context.C77_codesign _).1.1 u1, fun y hy => (Context.C77_codesign _).2.1.1 (u2 y hy)⟩
  · intro x hx
    rcases hx with rfl | ⟨rfl, rfl⟩
    · exact hO.detached _ _ _ _ hv.2 _ hs s (by simp)
    · obtain ⟨t, ht, hv⟩ := hv
      cases ht
      exact hO.inline _ _ _ _ hv _ hs s (by simp)

/-- **C102** Only content is mounted for an installation that has one signer: this signer has signed the manifest (or, for a plain bundle, the payload), has one of the names
in the configuration in effect (`base`, for the settings and the file see C77), and a path to a certificate in the keyring, which was valid at the time of the signature or is valid now,
as configured, and fulfills what else is configured. The option `--keyring` replaces the keyring file. -/
theorem C102_install {E : Option Str → Env} {fs : Str → FileState} {target : Cfg → Bool} {svc : Bool} {cmd : Cmd} {o : Opts} {c : Cfg} (hc : start E fs target svc cmd o = some c)
    {O : Ossl} {W : World} (hO : Sound O W) (now : Int) (load : Bytes → Option Manifest) (running : Str) (acc : Bundle.AccessResults) (e : Bundle.MountEnv) (src : Bundle.Source)
    (req : Option Str) {d : Bundle.Dev} (hd : d ∈ (installMount (crypto O now c) (bundleConfig c) load running acc e src req).1) :
    ∃ ovs base b s chain, Base E fs svc cmd o.conf ovs base ∧ checkBundle (crypto O now c) (bundleConfig c) load {} acc src = some b ∧ Trusted O W now o base false b.sig s chain ∧
      ((b.manifest = none ∧ base.system.formats.has .plain = true ∧ ∃ f, b.stream = some f ∧ W.signed s.cert (if b.size = 0 then f else f.take b.size)) ∨
        ∃ text m, load text = some m ∧ b.manifest = some { m with wasEncrypted := b.wasEncrypted } ∧ base.system.formats.has m.format = true ∧ W.signed s.cert text) := by
  cases hcb : checkBundle (crypto O now c) (bundleConfig c) load {} acc src with
  | none =>
    unfold installMount at hd
    rw [hcb] at hd
    cases hd
  | some b =>
    rcases (Bundle.C33_check_bundle _ _ load {} acc src b rfl hcb).either with P | M
    · obtain ⟨f, h1, h2⟩ := P.local_
      obtain ⟨ovs, base, s, chain, hb, hf, k1, k2⟩ := C102_signer hc hO h2
      exact ⟨ovs, base, b, s, chain, hb, rfl, k1, .inl ⟨P.noManifest, by rw [← hf]; exact P.allowed, f, h1, k2 _ (.inl rfl)⟩⟩
    · obtain ⟨text, m, h1, h2, h3, -, h5⟩ := M.signed
      obtain ⟨ovs, base, s, chain, hb, hf, k1, k2⟩ := C102_signer hc hO h1
      exact ⟨ovs, base, b, s, chain, hb, rfl, k1, .inr ⟨text, m, h2, h3, by rw [← hf]; exact h5, k2 _ (.inr ⟨rfl, rfl⟩)⟩⟩

/-- **C102** Without a keyring in the configuration or on the command line nothing is mounted for an installation, whatever OpenSSL makes of an empty store. -/
theorem C102_keyring {E : Option Str → Env} {fs : Str → FileState} {target : Cfg → Bool} {svc : Bool} {cmd : Cmd} {o : Opts} {c : Cfg} (hc : start E fs target svc cmd o = some c)
    (O : Ossl) (now : Int) (load : Bytes → Option Manifest) (running : Str) (acc : Bundle.AccessResults) (e : Bundle.MountEnv) (src : Bundle.Source)
    (req : Option Str) {d : Bundle.Dev} (hd : d ∈ (installMount (crypto O now c) (bundleConfig c) load running acc e src req).1) :
    ∃ ovs base, Base E fs svc cmd o.conf ovs base ∧ (o.keyring ≠ none ∨ base.keyring.path ≠ none ∨ base.keyring.directory ≠ none) := by
  obtain ⟨ovs, base, _, hb, hr, _⟩ := Context.C77_config.1 hc
  have hk : c.keyring = { base.keyring with path := o.keyring.or base.keyring.path } := by
    have := congrArg Cfg.keyring hr.rest
    rw [hr.keyringPath] at this
    exact this
  refine ⟨ovs, base, hb, ?_⟩
  cases hcb : checkBundle (crypto O now c) (bundleConfig c) load {} acc src with
  | none =>
    unfold installMount at hd
    rw [hcb] at hd
    cases hd
  | some b =>
    have h : (c.keyring.path.isSome || c.keyring.directory.isSome) = true := (Bundle.C33_check_bundle _ _ load {} acc src b rfl hcb).keyring
    rw [hk] at h
    cases hok : o.keyring <;> cases hp : base.keyring.path <;> cases hd : base.keyring.directory <;> simp_all

/-- **C102, with C101.** If all those who may sign for this device sign only releases, then only releases are accepted, and the theorems of C101 apply: what is read from
the bundle, written to the slots and booted is from a release. -/
theorem C102_releases {E : Option Str → Env} {fs : Str → FileState} {target : Cfg → Bool} {svc : Bool} {cmd : Cmd} {o : Opts} {c : Cfg} (hc : start E fs target svc cmd o = some c)
    {O : Ossl} {W : World} (hO : Sound O W) (now : Int) {T : Create.Tools} {releases : Authenticity.Release → Prop}
    (hsign : ∀ ovs base sig s chain content, Base E fs svc cmd o.conf ovs base → Trusted O W now o base false sig s chain → W.signed s.cert content →
      (∀ m, Create.loadText T content = some m → ∃ R, releases R ∧ R.manifest = m ∧ Authenticity.Published T R) ∧
      (∀ files m, T.unpack content = some files → (Create.openFile files c!"manifest.raucm").bind (Create.loadText T) = some m → ∃ R, releases R ∧ R.manifest = m ∧ R.files = files)) :
    Authenticity.OnlyReleases T (crypto O now c) (bundleConfig c) releases where
  inline sig text m h hm := by
    obtain ⟨ovs, base, s, chain, hb, -, k1, k2⟩ := C102_signer hc hO h
    exact (hsign ovs base sig s chain text hb k1 (k2 _ (.inr ⟨rfl, rfl⟩))).1 m hm
  detached sig payload files m h h1 h2 := by
    obtain ⟨ovs, base, s, chain, hb, -, k1, k2⟩ := C102_signer hc hO h
    exact (hsign ovs base sig s chain payload hb k1 (k2 _ (.inl rfl))).2 files m h1 h2

theorem timeOf_some (now now' : Int) {p : StoreParams} (h : p.time ≠ none) : timeOf now p = timeOf now' p := by
  obtain ⟨t, ht⟩ := Option.ne_none_iff_exists'.1 h
  unfold timeOf
  rw [ht]
  rfl

theorem cmsVerify_clock (O : Ossl) (now now' : Int) {c : Cfg} (h : c.keyring.signingTime = true) (nct : Bool) (sig : Bytes) (content : Option Bytes) :
    Bundle.cmsVerify (crypto O now c) (bundleConfig c) nct sig content = Bundle.cmsVerify (crypto O now' c) (bundleConfig c) nct sig content ∧
    ∀ m sp, Bundle.cmsVerify (crypto O now c) (bundleConfig c) nct sig content = some (m, sp) → sp.time ≠ none := by
  have ht : ∀ n, Bundle.verifyTime (crypto O n c) (bundleConfig c) sig = (signingTime (O.infos sig)).map some := by
    intro n
    unfold Bundle.verifyTime
    rw [show (bundleConfig c).useSigningTime = true from h, if_pos rfl]
    simp only [crypto]
    cases signingTime (O.infos sig) <;> rfl
  unfold Bundle.cmsVerify
  simp only [ht]
  cases hs : signingTime (O.infos sig) with
  | none =>
    constructor
    · rfl
    · intro m sp hv
      simp only [Option.map_none] at hv
      split at hv
      · cases hv
      split at hv
      · cases hv
      split at hv <;> cases hv
  | some t =>
    have e : Bundle.cmsVerifyCall (crypto O now c) ⟨nct, some t⟩ sig content = Bundle.cmsVerifyCall (crypto O now' c) ⟨nct, some t⟩ sig content := by
      have e' := timeOf_some now now' (p := ⟨nct, some t⟩) (by simp)
      cases content with
      | none => simp only [Bundle.cmsVerifyCall, crypto, e']
      | some x =>
        simp only [Bundle.cmsVerifyCall, crypto, e']
        rfl
    simp only [Option.map_some]
    constructor
    · rw [e]
      rfl
    · intro m sp hv
      split at hv
      · cases hv
      split at hv
      · cases hv
      split at hv
      · cases hv
      split at hv
      · cases hv
      split at hv
      · cases hv
      split at hv
      · cases hv
      cases hv
      simp

theorem verifyStep_clock (O : Ossl) (now now' : Int) {c : Cfg} (h : c.keyring.signingTime = true) (p : Bundle.Params) (acc : Bundle.AccessResults) (det : Bool) (b : Bundle.Bundle) :
    Bundle.verifyStep (crypto O now c) (bundleConfig c) p acc det b = Bundle.verifyStep (crypto O now' c) (bundleConfig c) p acc det b := by
  have hcc : ∀ {sp : StoreParams}, sp.time ≠ none → ∀ sig, Bundle.certChain (crypto O now c) sp sig = Bundle.certChain (crypto O now' c) sp sig := by
    intro sp hsp sig
    unfold Bundle.certChain
    simp only [crypto, timeOf_some now now' hsp]
  have hstep : ∀ (content : Option Bytes) (F : Option Bytes → Bool → Option (Bundle.Bundle × Option Bytes)),
      (match Bundle.cmsVerify (crypto O now c) (bundleConfig c) p.noCheckTime b.sig content with
        | none => none
        | some (m, sp) => F m (Bundle.certChain (crypto O now c) sp b.sig)) =
      (match Bundle.cmsVerify (crypto O now' c) (bundleConfig c) p.noCheckTime b.sig content with
        | none => none
        | some (m, sp) => F m (Bundle.certChain (crypto O now' c) sp b.sig)) := by
    intro content F
    obtain ⟨h1, h2⟩ := cmsVerify_clock O now now' h p.noCheckTime b.sig content
    rw [← h1]
    cases hv : Bundle.cmsVerify (crypto O now c) (bundleConfig c) p.noCheckTime b.sig content with
    | none => rfl
    | some r =>
      obtain ⟨m, sp⟩ := r
      simp only [hcc (h2 m sp hv)]
  unfold Bundle.verifyStep
  rw [show (crypto O now c).storeOk = (crypto O now' c).storeOk from rfl]
  split
  · rfl
  split
  · split
    · rfl
    split
    · rfl
    split
    · rfl
    exact hstep (some _) (fun _ ok => if ok then some _ else none)
  · exact hstep none (fun m ok => if ok then some (_, m) else none)

/-- **C102** With `use-bundle-signing-time` the clock of the device is of no importance, whatever is checked: the time is the one the signer claims. (This is
what the option is for. A key is therefore trusted for as long as its holder wants, even if the certificate has expired.) -/
theorem C102_clock (O : Ossl) (now now' : Int) {c : Cfg} (h : c.keyring.signingTime = true) (load : Bytes → Option Manifest) (p : Bundle.Params) (acc : Bundle.AccessResults)
    (src : Bundle.Source) :
    checkBundle (crypto O now c) (bundleConfig c) load p acc src = checkBundle (crypto O now' c) (bundleConfig c) load p acc src := by
  unfold checkBundle
  simp only [verifyStep_clock O now now' h]
  rfl

/-! ## Example: a certificate that was valid when the bundle was signed -/

def exCert : X509 := ⟨1, [utf8 c!"signer"], 0, 10, ⟨0x6#32, 0x80#32, 0x8#32, 0⟩⟩
def exRoot : X509 := ⟨0, [], 0, 100, ⟨0#32, 0#32, 0#32, 1⟩⟩

def exW : World where
  issued a b := b = exRoot ∧ (a = exCert ∨ a = exRoot)
  signed x content := x = exCert ∧ content = [5, 6, 7]
  listed f _ x := f = some c!"/k.pem" ∧ x = exRoot
  revoked _ := False

def exO : Ossl where
  ssl := ⟨fun f _ => decide (f = some c!"/k.pem"), fun p => decide (p = c!"codesign-rauc")⟩
  parse s := if s = [1] then some (.signed, true) else none
  decrypt _ _ _ := none
  infos _ := some [⟨exCert, [[.time (some 5)]]⟩]
  verifyDetached _ _ s x := decide (s = [1] ∧ x = [5, 6, 7])
  verifyInline _ _ _ := none
  embedded _ := none
  verifyCert st t x _ := decide (st.file = some c!"/k.pem") && decide (x = exCert) && (t.all fun t => decide (0 ≤ t ∧ t ≤ 10))

theorem ex_sound : Sound exO exW where
  detached st t sig content h l hl s hs := by
    simp only [exO, decide_eq_true_eq] at h
    simp only [exO, Option.some.injEq] at hl
    subst hl
    rw [List.mem_singleton] at hs
    subst hs
    exact ⟨rfl, h.2⟩
  inline st t sig content h := by cases h
  path st t x sig h := by
    simp only [exO, Bool.and_eq_true, decide_eq_true_eq] at h
    obtain ⟨⟨h1, rfl⟩, h3⟩ := h
    refine ⟨[exCert, exRoot], rfl, ?_, ⟨exRoot, rfl, ⟨h1, rfl⟩, fun _ => ⟨rfl, .inr rfl⟩⟩, ?_, fun _ _ _ h => h, fun _ => ?_⟩
    · simp [exW]
    · rintro t rfl y hy
      simp only [Option.all_some, decide_eq_true_eq] at h3
      simp only [List.mem_cons, List.not_mem_nil, or_false] at hy
      rcases hy with rfl | rfl <;> simp [exCert, exRoot] <;> omega
    · simp [exCert, exRoot, checkPurpose]

def exFs (p : Str) : FileState :=
  if p = c!"/etc/rauc/system.conf" then .data (some [(c!"system", [(c!"compatible", c!"x"), (c!"bootloader", c!"noop")]),
    (c!"keyring", [(c!"path", c!"/k.pem"), (c!"check-purpose", c!"codesign"), (c!"use-bundle-signing-time", c!"true"), (c!"allowed-signer-cns", c!"other;signer;")])])
  else .missing

def exMount (now : Int) : Option (List Bundle.Dev) :=
  (start (fun _ => {}) exFs (fun _ => true) true .service {}).map fun c => (installMount (crypto exO now c) (bundleConfig c) (fun _ => none) c!"1.14" ⟨true, true⟩
    ⟨true, true, true, true, true, fun _ => true, fun _ => none⟩ (.file true [5, 6, 7, 1, 0, 0, 0, 0, 0, 0, 0, 1]) none).1

set_option maxRecDepth 20000 in
/-- the payload is mounted although the certificate has expired (at 10): it was signed at 5 -/
theorem ex_mounts : exMount 1000 = some [.raw 3] := by decide +kernel

/-- The hypotheses of `C102_install` are met: -/
example : ∃ c, start (fun _ => {}) exFs (fun _ => true) true .service {} = some c ∧ Sound exO exW ∧
    Bundle.Dev.raw 3 ∈ (installMount (crypto exO 1000 c) (bundleConfig c) (fun _ => none) c!"1.14" ⟨true, true⟩
      ⟨true, true, true, true, true, fun _ => true, fun _ => none⟩ (.file true [5, 6, 7, 1, 0, 0, 0, 0, 0, 0, 0, 1]) none).1 := by
  have h := ex_mounts
  unfold exMount at h
  obtain ⟨c, hc, h⟩ := Option.map_eq_some_iff.1 h
  exact ⟨c, hc, ex_sound, by rw [h]; simp⟩

end Rauc.Trust
