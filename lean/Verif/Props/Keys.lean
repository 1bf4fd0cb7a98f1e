import Verif.Model.Keys
import Verif.Props.Trust
import Verif.Props.Resign

/-!
# C104: signatures are made, and bundles encrypted, with the keys and for the certificates that were named
-/

namespace Rauc.Keys

open Rauc.Context (Store Ssl bundleStore setupStore signStore argOr)
open Rauc.ConfigFile (Cfg Keyring)
open Rauc.Bundle (Crypto Res SignatureOk checkBundle StoreParams)
open Rauc.Trust (X509 Ossl SignerInfo crypto bundleConfig timeOf)

variable {Key : Type}

/-! ## Specification -/

/-- the names of objects in a token -/
def IsToken (name : Str) : Prop := ∃ rest, name = c!"pkcs11:" ++ rest

/-- an environment variable that is set and not empty -/
def Given (v o : Option Str) : Prop := ∀ s, o = some s ↔ v = some s ∧ s ≠ []

/-- the token can be used, with the module and the PIN from the environment -/
structure TokenReady (E : Env Key) (e : Engine Key) : Prop where
  engine : E.engine = some e
  found : e.found = true
  withModule : ∀ m, E.pkcs11Module = some m → e.setModule m = true
  init : e.init = true
  withPin : ∀ p, E.pkcs11Pin = some p → p ≠ [] → e.setPin p = true

/-- the certificate that a name stands for: one in a token, or the first one in a file -/
def CertNamed (E : Env Key) (name : Str) (x : X509) : Prop :=
  (IsToken name ∧ ∃ e pin, TokenReady E e ∧ Given E.pkcs11Pin pin ∧ e.cert E.pkcs11Module pin name = some x) ∨
  (¬ IsToken name ∧ ∃ pre post, E.pem name = some (pre ++ .cert x :: post) ∧ ∀ s ∈ pre, s = .other)

/-- the key that a name stands for: one in a token, or in a file, with the pass phrase from the environment -/
def KeyNamed (E : Env Key) (name : Str) (k : Key) : Prop :=
  (IsToken name ∧ ∃ e pin, TokenReady E e ∧ Given E.pkcs11Pin pin ∧ e.key E.pkcs11Module pin name = some k) ∨
  (¬ IsToken name ∧ ∃ phrase, Given E.passphrase phrase ∧ E.key name phrase = some k)

/-- the certificate for decryption, if one is named -/
def OptCertNamed (E : Env Key) (name : Option Str) (oc : Option X509) : Prop := (name = none ∧ oc = none) ∨ ∃ n x, name = some n ∧ CertNamed E n x ∧ oc = some x

/-- a file with certificates: nothing in it is damaged, and there is at least one -/
def CertFile (E : Env Key) (name : Str) (secs : List Pem) : Prop := E.pem name = some secs ∧ Pem.damaged ∉ secs ∧ ∃ x, Pem.cert x ∈ secs

/-- What OpenSSL's functions do. `Pair x k`: the key belongs to the certificate; `carried`: the certificates in a signature. -/
structure LibOk (L : Lib Key) (O : Ossl) (Pair : X509 → Key → Prop) (carried : Bytes → List X509) : Prop where
  sign : ∀ x k l d content s, L.sign x k l d content = some s →
    Pair x k ∧ (∃ ts, O.infos s = some [⟨x, ts⟩]) ∧ (∀ y, y ∈ carried s ↔ y = x ∨ y ∈ l) ∧ O.parse s = some (.signed, d)
  addCert : ∀ s x s', L.addCert s x = some s' → O.infos s' = O.infos s ∧ ∀ y, y ∈ carried s' ↔ y = x ∨ y ∈ carried s
  addSigner : ∀ s x k s', L.addSigner s x k = some s' →
    Pair x k ∧ (∃ ts, O.infos s' = (O.infos s).map (· ++ [⟨x, ts⟩])) ∧ ∀ y, y ∈ carried s' ↔ y = x ∨ y ∈ carried s
  encrypt : ∀ r content e, L.encrypt r content = some e → O.parse e = some (.enveloped, false) ∧
    (∀ x ∈ r, ∀ k, Pair x k → L.decrypt k (some x) e = some content ∧ L.decrypt k none e = some content) ∧
    ∀ k oc, L.decrypt k oc e = some content → ∃ x ∈ r, Pair x k

/-! ## Names -/

theorem isPkcs11_iff {n : Str} : isPkcs11 n = true ↔ IsToken n := by
  unfold isPkcs11 IsToken
  rw [List.isPrefixOf_iff_prefix]
  exact ⟨fun ⟨t, h⟩ => ⟨t, h.symm⟩, fun ⟨t, h⟩ => ⟨t, h.symm⟩⟩

theorem given_nonEmpty (v : Option Str) : Given v (nonEmpty v) := by
  intro s
  match v with
  | none => simp [nonEmpty]
  | some [] =>
    simp only [nonEmpty, reduceCtorEq, Option.some.injEq, false_iff, not_and, Classical.not_not]
    exact fun h => h.symm
  | some (a :: l) =>
    simp only [nonEmpty, Option.some.injEq, ne_eq, iff_self_and]
    rintro rfl
    simp

theorem given_unique {v o : Option Str} (h : Given v o) : o = nonEmpty v := by
  apply Option.ext
  intro s
  exact (h s).trans (given_nonEmpty v s).symm

theorem getEngine_iff {E : Env Key} {e : Engine Key} : getEngine E = some e ↔ TokenReady E e := by
  unfold getEngine
  cases he : E.engine with
  | none =>
    constructor
    · intro h; cases h
    · intro h
      have := h.engine
      rw [he] at this
      cases this
  | some e' =>
    dsimp only
    have hm : ∀ e0 : Engine Key, (E.pkcs11Module.all e0.setModule = true ↔ ∀ m, E.pkcs11Module = some m → e0.setModule m = true) := by
      intro e0; cases E.pkcs11Module <;> simp
    have hp : ∀ e0 : Engine Key, ((nonEmpty E.pkcs11Pin).all e0.setPin = true ↔ ∀ p, E.pkcs11Pin = some p → p ≠ [] → e0.setPin p = true) := by
      intro e0
      match E.pkcs11Pin with
      | none => simp [nonEmpty]
      | some [] => simp [nonEmpty]
      | some (a :: l) => simp [nonEmpty]
    constructor
    · intro h
      split at h; · cases h
      rename_i h1
      split at h; · cases h
      rename_i h2
      split at h; · cases h
      rename_i h3
      split at h; · cases h
      rename_i h4
      cases h
      refine ⟨he, by simpa using h1, (hm e).1 (by simpa using h2), by simpa using h3, (hp e).1 (by simpa using h4)⟩
    · intro h
      have := h.engine
      rw [he] at this
      cases this
      simp [h.found, (hm e).2 h.withModule, h.init, (hp e).2 h.withPin]

theorem readCert_iff {l : List Pem} {x : X509} : readCert l = some x ↔ ∃ pre post, l = pre ++ .cert x :: post ∧ ∀ s ∈ pre, s = .other := by
  induction l with
  | nil => simp [readCert]
  | cons a l ih =>
    cases a with
    | cert y =>
      simp only [readCert, Option.some.injEq]
      constructor
      · rintro rfl; exact ⟨[], l, rfl, by simp⟩
      · rintro ⟨pre, post, h, hp⟩
        cases pre with
        | nil => cases h; rfl
        | cons b pre => cases h; exact absurd (hp _ (List.mem_cons_self ..)) (by simp)
    | damaged =>
      simp only [readCert, reduceCtorEq, false_iff, not_exists, not_and]
      rintro pre post h hp
      cases pre with
      | nil => cases h
      | cons b pre => cases h; exact absurd (hp _ (List.mem_cons_self ..)) (by simp)
    | other =>
      simp only [readCert]
      rw [ih]
      constructor
      · rintro ⟨pre, post, rfl, hp⟩
        refine ⟨.other :: pre, post, rfl, ?_⟩
        intro s hs
        rcases List.mem_cons.1 hs with rfl | hs
        · rfl
        · exact hp s hs
      · rintro ⟨pre, post, h, hp⟩
        cases pre with
        | nil => cases h
        | cons b pre => cases h; exact ⟨pre, post, rfl, fun s hs => hp s (List.mem_cons_of_mem _ hs)⟩

theorem loadCert_iff {E : Env Key} {n : Str} {x : X509} : loadCert E n = some x ↔ CertNamed E n x := by
  unfold loadCert CertNamed
  cases hp : isPkcs11 n with
  | true =>
    have ht : IsToken n := isPkcs11_iff.1 hp
    simp only [if_true, ht, true_and, not_true_eq_false, false_and, or_false]
    constructor
    · intro h
      split at h
      · cases h
      · rename_i e he
        exact ⟨e, _, getEngine_iff.1 he, given_nonEmpty _, h⟩
    · rintro ⟨e, pin, h1, h2, h3⟩
      rw [getEngine_iff.2 h1]
      rw [given_unique h2] at h3
      exact h3
  | false =>
    have ht : ¬ IsToken n := fun h => by rw [isPkcs11_iff.2 h] at hp; cases hp
    simp only [Bool.false_eq_true, if_false, ht, false_and, false_or, not_false_eq_true, true_and]
    cases E.pem n with
    | none => simp
    | some l => simpa using readCert_iff

theorem loadKey_iff {E : Env Key} {n : Str} {k : Key} : loadKey E n = some k ↔ KeyNamed E n k := by
  unfold loadKey KeyNamed
  cases hp : isPkcs11 n with
  | true =>
    have ht : IsToken n := isPkcs11_iff.1 hp
    simp only [if_true, ht, true_and, not_true_eq_false, false_and, or_false]
    constructor
    · intro h
      split at h
      · cases h
      · rename_i e he
        exact ⟨e, _, getEngine_iff.1 he, given_nonEmpty _, h⟩
    · rintro ⟨e, pin, h1, h2, h3⟩
      rw [getEngine_iff.2 h1]
      rw [given_unique h2] at h3
      exact h3
  | false =>
    have ht : ¬ IsToken n := fun h => by rw [isPkcs11_iff.2 h] at hp; cases hp
    simp only [Bool.false_eq_true, if_false, ht, false_and, false_or, not_false_eq_true, true_and]
    constructor
    · intro h; exact ⟨_, given_nonEmpty _, h⟩
    · rintro ⟨ph, h1, h2⟩
      rw [given_unique h1] at h2
      exact h2

theorem loadAll_iff {E : Env Key} {ns : List Str} {l : List X509} : loadAll E ns = some l ↔ List.Forall₂ (CertNamed E) ns l := by
  induction ns generalizing l with
  | nil =>
    simp only [loadAll, Option.some.injEq, List.forall₂_nil_left_iff]
    exact eq_comm
  | cons n ns ih =>
    dsimp only [loadAll]
    constructor
    · intro h
      split at h; · cases h
      rename_i x hx
      split at h; · cases h
      rename_i r hr
      cases h
      exact .cons (loadCert_iff.1 hx) (ih.1 hr)
    · intro h
      cases h with
      | cons h1 h2 => rw [loadCert_iff.2 h1, ih.2 h2]

theorem readCerts_iff {l : List Pem} {acc r : List X509} : readCerts acc l = some r ↔
    Pem.damaged ∉ l ∧ r = acc ++ l.filterMap (fun s => match s with | .cert x => some x | _ => none) ∧ r ≠ [] := by
  induction l generalizing acc with
  | nil =>
    unfold readCerts
    simp only [List.not_mem_nil, not_false_eq_true, List.filterMap_nil, List.append_nil, true_and]
    by_cases ha : acc = []
    · subst ha; simp
    · rw [if_pos (by simpa using ha)]
      constructor
      · intro h; cases h; exact ⟨rfl, ha⟩
      · rintro ⟨rfl, -⟩; rfl
  | cons a l ih =>
    cases a with
    | cert x => simp only [readCerts, ih]; simp
    | damaged => simp [readCerts]
    | other => simp only [readCerts, ih]; simp

/-- the certificates in a file that names recipients -/
theorem loadCerts_iff {E : Env Key} {n : Str} {r : List X509} : loadCerts E n = some r ↔
    ∃ secs, CertFile E n secs ∧ r = secs.filterMap (fun s => match s with | .cert x => some x | _ => none) := by
  unfold loadCerts CertFile
  cases hf : E.pem n with
  | none => simp
  | some l =>
    dsimp only
    rw [readCerts_iff]
    constructor
    · rintro ⟨h1, rfl, h3⟩
      refine ⟨l, ⟨rfl, h1, ?_⟩, by simp⟩
      simp only [List.nil_append] at h3
      obtain ⟨x, hx⟩ := List.exists_mem_of_ne_nil _ h3
      obtain ⟨s, hs, he⟩ := List.mem_filterMap.1 hx
      cases s with
      | cert y => exact ⟨y, hs⟩
      | damaged => cases he
      | other => cases he
    · rintro ⟨secs, ⟨h1, h2, x, hx⟩, rfl⟩
      cases h1
      refine ⟨h2, by simp, ?_⟩
      intro h0
      have : x ∈ l.filterMap (fun s => match s with | Pem.cert x => some x | _ => none) := List.mem_filterMap.2 ⟨_, hx, rfl⟩
      rw [h0] at this
      cases this

theorem mem_certs {secs : List Pem} {x : X509} : x ∈ secs.filterMap (fun s => match s with | Pem.cert x => some x | _ => none) ↔ Pem.cert x ∈ secs := by
  rw [List.mem_filterMap]
  constructor
  · rintro ⟨s, hs, he⟩
    cases s with
    | cert y => cases he; exact hs
    | damaged => cases he
    | other => cases he
  · intro h; exact ⟨_, h, rfl⟩

theorem loadRecipients_iff {E : Env Key} {ns : List Str} {acc r : List X509} (h : loadRecipients E ns acc = some r) :
    (∀ n ∈ ns, ∃ secs, CertFile E n secs) ∧ ∀ x, x ∈ r ↔ x ∈ acc ∨ ∃ n ∈ ns, ∃ secs, CertFile E n secs ∧ Pem.cert x ∈ secs := by
  induction ns generalizing acc with
  | nil => cases h; simp
  | cons n ns ih =>
    dsimp only [loadRecipients] at h
    split at h; · cases h
    rename_i l hl
    obtain ⟨secs, hs, rfl⟩ := loadCerts_iff.1 hl
    obtain ⟨h1, h2⟩ := ih h
    constructor
    · intro m hm
      rcases List.mem_cons.1 hm with rfl | hm
      · exact ⟨_, hs⟩
      · exact h1 m hm
    · intro x
      rw [h2 x, List.mem_append, mem_certs]
      constructor
      · rintro ((hx | hx) | ⟨m, hm, s, hs1, hs2⟩)
        · exact .inl hx
        · exact .inr ⟨n, List.mem_cons_self .., secs, hs, hx⟩
        · exact .inr ⟨m, List.mem_cons_of_mem _ hm, s, hs1, hs2⟩
      · rintro (hx | ⟨m, hm, s, hs1, hs2⟩)
        · exact .inl (.inl hx)
        · rcases List.mem_cons.1 hm with rfl | hm
          · have := hs.1.symm.trans hs1.1
            cases this
            exact .inl (.inr hs2)
          · exact .inr ⟨m, hm, s, hs1, hs2⟩

theorem loadRecipients_some {E : Env Key} {ns : List Str} (acc : List X509) (h : ∀ n ∈ ns, ∃ secs, CertFile E n secs) : ∃ r, loadRecipients E ns acc = some r := by
  induction ns generalizing acc with
  | nil => exact ⟨_, rfl⟩
  | cons n ns ih =>
    obtain ⟨secs, hs⟩ := h n (List.mem_cons_self ..)
    dsimp only [loadRecipients]
    rw [loadCerts_iff.2 ⟨secs, hs, rfl⟩]
    exact ih _ (fun m hm => h m (List.mem_cons_of_mem _ hm))

/-! ## Signing -/

theorem storeCrypto_eq {O : Ossl} {now : Int} {c d : Cfg} {st : Store} (h : bundleStore O.ssl d.keyring = some st) (p : StoreParams) (sig : Bytes) (content : Option Bytes)
    (hc : d.keyring.signerCns = c.keyring.signerCns ∧ d.keyring.signingTime = c.keyring.signingTime) (nct : Bool) :
    Bundle.cmsVerify (storeCrypto O now c st) (bundleConfig c) nct sig content = Bundle.cmsVerify (crypto O now d) (bundleConfig d) nct sig content ∧
    Bundle.certChain (storeCrypto O now c st) p sig = Bundle.certChain (crypto O now d) p sig := by
  have e1 : (bundleConfig c).allowedCns = (bundleConfig d).allowedCns := by simp only [bundleConfig, hc.1]
  have e2 : (bundleConfig c).useSigningTime = (bundleConfig d).useSigningTime := by simp only [bundleConfig, hc.2]
  have e3 : Bundle.verifyTime (storeCrypto O now c st) (bundleConfig c) sig = Bundle.verifyTime (crypto O now d) (bundleConfig d) sig := by
    unfold Bundle.verifyTime
    rw [e2]
    rfl
  have e4 : Bundle.checkCns (storeCrypto O now c st) (bundleConfig c) sig = Bundle.checkCns (crypto O now d) (bundleConfig d) sig := by
    unfold Bundle.checkCns
    rw [e1]
    rfl
  have e5 : ∀ q, Bundle.cmsVerifyCall (storeCrypto O now c st) q sig content = Bundle.cmsVerifyCall (crypto O now d) q sig content := by
    intro q
    unfold Bundle.cmsVerifyCall
    cases content with
    | none => simp [storeCrypto, crypto, h]
    | some v =>
      have e : (storeCrypto O now c st).verifyDetached q sig v = (crypto O now d).verifyDetached q sig v := by simp [storeCrypto, crypto, h]
      dsimp only
      rw [e]
  constructor
  · unfold Bundle.cmsVerify
    rw [e3, e4]
    simp only [e5]
    rfl
  · have e6 : (storeCrypto O now c st).chainOk p sig = (crypto O now d).chainOk p sig := by simp [storeCrypto, crypto, h]
    unfold Bundle.certChain
    rw [e6]
    rfl


/-- the keyring with which a new signature is checked: `--signing-keyring`, or the configured one -/
def checkRing (k : Keyring) : Option Str → Keyring
  | some p => { k with path := some p, directory := none }
  | none => k

theorem signStore_eq {S : Ssl} {k : Keyring} {signing : Option Str} (h1 : (checkRing k signing).path ≠ some []) (h2 : k.directory ≠ some [])
    (hg : (checkRing k signing).path ≠ none ∨ (checkRing k signing).directory ≠ none) : signStore S k signing = some (bundleStore S (checkRing k signing)) := by
  have ha : ∀ o q : Option Str, o ≠ some [] → argOr q o = o.or q := by
    intro o q ho
    match o with
    | none => rfl
    | some [] => exact absurd rfl ho
    | some (_ :: _) => rfl
  cases signing with
  | some p =>
    have hp : p ≠ [] := fun e => h1 (by rw [e]; rfl)
    unfold signStore bundleStore
    simp only [Option.isSome_some, Bool.true_or, if_true, Option.some.injEq]
    unfold setupStore
    simp only [argOr, hp, if_false, if_true, checkRing]
    rfl
  | none =>
    unfold signStore bundleStore
    have : (k.path.isSome || k.directory.isSome) = true := by
      rcases hg with h | h
      · obtain ⟨a, ha⟩ := Option.ne_none_iff_exists'.1 h
        have : k.path = some a := ha
        simp [this]
      · obtain ⟨a, ha⟩ := Option.ne_none_iff_exists'.1 h
        have : k.directory = some a := ha
        simp [this]
    simp only [this, if_true, Option.some.injEq, checkRing]
    unfold setupStore
    have p1 : argOr k.path k.path = k.path := (ha k.path k.path h1).trans (by simp)
    have p2 : argOr k.directory k.directory = k.directory := (ha _ _ h2).trans (by simp)
    have p3 : ∀ q : Option Str, argOr q none = q := fun _ => rfl
    rw [p1, p2, p3, p3]

/-- what `cms_sign` has done when it returns a signature -/
theorem cmsSign_cases {E : Env Key} {L : Lib Key} {O : Ossl} {now : Int} {c : Cfg} {signing : Option Str} {content : Bytes} {detached : Bool} {certfile keyfile : Str}
    {inter : List Str} {sig : Bytes} {w : List (Nat × X509)} :
    cmsSign E L O now c signing content detached certfile keyfile inter = .ok (sig, w) ↔
    content ≠ [] ∧ content.length < 2 ^ 31 ∧ ((signStore O.ssl c.keyring signing).isSome → badBio sig = false) ∧
    ∃ x k l, CertNamed E certfile x ∧ KeyNamed E keyfile k ∧ List.Forall₂ (CertNamed E) inter l ∧ L.sign x k l detached content = some sig ∧
      signCheck L O now c signing detached content sig = some w := by
  unfold cmsSign
  constructor
  · intro h
    split at h; · cases h
    rename_i hb
    split at h; · cases h
    rename_i x hx
    split at h; · cases h
    rename_i k hk
    split at h; · cases h
    rename_i l hl
    split at h; · cases h
    rename_i s hs
    split at h; · cases h
    rename_i hbs
    split at h; · cases h
    rename_i w' hw
    cases h
    simp only [badBio, Bool.or_eq_true, beq_iff_eq, decide_eq_true_eq, not_or] at hb
    refine ⟨fun e => hb.1 (by rw [e]; rfl), by omega, ?_, x, k, l, loadCert_iff.1 hx, loadKey_iff.1 hk, loadAll_iff.1 hl, hs, hw⟩
    intro hsome
    simpa [hsome] using hbs
  · rintro ⟨h1, h2, h3, x, k, l, hx, hk, hl, hs, hw⟩
    have hb : badBio content = false := by
      simp only [badBio, Bool.or_eq_false_iff, beq_eq_false_iff_ne, decide_eq_false_iff_not]
      exact ⟨fun e => h1 (List.length_eq_zero_iff.1 e), by omega⟩
    have hb2 : ((signStore O.ssl c.keyring signing).isSome && badBio sig) = false := by
      cases hq : (signStore O.ssl c.keyring signing).isSome
      · rfl
      · rw [h3 hq]; rfl
    rw [hb, loadCert_iff.2 hx, loadKey_iff.2 hk, loadAll_iff.2 hl]
    dsimp only
    rw [hs]
    dsimp only
    rw [hb2, hw]
    simp

/-- **C104** A signature is made only with the key that was named, which belongs to the certificate that was named; it carries this certificate and one for each
`--intermediate`, and no others. -/
theorem C104_sign {L : Lib Key} {O : Ossl} {Pair : X509 → Key → Prop} {carried : Bytes → List X509} (hL : LibOk L O Pair carried) {E : Env Key} {now : Int} {c : Cfg}
    {signing : Option Str} {content : Bytes} {detached : Bool} {certfile keyfile : Str} {inter : List Str} {sig : Bytes} {w : List (Nat × X509)}
    (h : cmsSign E L O now c signing content detached certfile keyfile inter = .ok (sig, w)) :
    ∃ x k l ts, CertNamed E certfile x ∧ KeyNamed E keyfile k ∧ List.Forall₂ (CertNamed E) inter l ∧ Pair x k ∧ O.infos sig = some [⟨x, ts⟩] ∧
      (∀ y, y ∈ carried sig ↔ y = x ∨ y ∈ l) ∧ O.parse sig = some (.signed, detached) ∧ L.sign x k l detached content = some sig := by
  obtain ⟨-, -, -, x, k, l, hx, hk, hl, hs, -⟩ := cmsSign_cases.1 h
  obtain ⟨h1, ⟨ts, h2⟩, h3, h4⟩ := hL.sign _ _ _ _ _ _ hs
  exact ⟨x, k, l, ts, hx, hk, hl, h1, h2, h3, h4, hs⟩

theorem cmsVerify_time {K : Crypto} {cfg : Bundle.Config} {nct : Bool} {sig : Bytes} {content m : Option Bytes} {sp : StoreParams}
    (h : Bundle.cmsVerify K cfg nct sig content = some (m, sp)) : sp.noCheckTime = nct := by
  unfold Bundle.cmsVerify at h
  split at h; · cases h
  split at h; · cases h
  split at h; · cases h
  split at h; · cases h
  split at h; · cases h
  split at h; · cases h
  split at h; · cases h
  cases h
  rfl

/-- positions in a list of warnings -/
theorem expiryWarnings_iff {now : Int} {i j : Nat} {l : List X509} {y : X509} : (j, y) ∈ expiryWarnings now i l ↔
    ∃ n, j = i + n + 1 ∧ l[n]? = some y ∧ now < y.notAfter ∧ y.notAfter ≤ now + 2592000 := by
  induction l generalizing i with
  | nil => simp [expiryWarnings]
  | cons x l ih =>
    have hx : expiresSoon now x = true ↔ now < x.notAfter ∧ x.notAfter ≤ now + 2592000 := by
      simp only [expiresSoon, Bool.and_eq_true, decide_eq_true_eq]
      omega
    dsimp only [expiryWarnings]
    constructor
    · intro h
      split at h
      · rename_i he
        rcases List.mem_cons.1 h with h | h
        · cases h
          exact ⟨0, by omega, rfl, hx.1 he⟩
        · obtain ⟨n, h1, h2⟩ := ih.1 h
          exact ⟨n + 1, by omega, by simpa using h2⟩
      · obtain ⟨n, h1, h2⟩ := ih.1 h
        exact ⟨n + 1, by omega, by simpa using h2⟩
    · rintro ⟨n, h1, h2, h3⟩
      cases n with
      | zero =>
        simp only [List.getElem?_cons_zero, Option.some.injEq] at h2
        subst h2
        rw [if_pos (hx.2 h3), h1]
        exact List.mem_cons_self ..
      | succ n =>
        have : (j, y) ∈ expiryWarnings now (i + 1) l := ih.2 ⟨n, by omega, by simpa using h2, h3⟩
        split
        · exact List.mem_cons_of_mem _ this
        · exact this

/-- **C104** If there is a keyring for signing (`--signing-keyring`, or the configured one), then a signature is returned only if every device with this keyring (and the same policy
for certificates) accepts it now, for this content; and a warning names exactly those certificates of its chain that are valid now but not after the next 30 days. -/
theorem C104_checked {E : Env Key} {L : Lib Key} {O : Ossl} {now : Int} {c : Cfg} {signing : Option Str} {content : Bytes} {detached : Bool} {certfile keyfile : Str}
    {inter : List Str} {sig : Bytes} {w : List (Nat × X509)} (h : cmsSign E L O now c signing content detached certfile keyfile inter = .ok (sig, w))
    (h1 : (checkRing c.keyring signing).path ≠ some []) (h2 : c.keyring.directory ≠ some [])
    (hg : (checkRing c.keyring signing).path ≠ none ∨ (checkRing c.keyring signing).directory ≠ none)
    {d : Cfg} (hd : d.keyring = checkRing c.keyring signing) :
    (∃ text, SignatureOk (crypto O now d) (bundleConfig d) false sig (if detached then some content else none) text) ∧
    ∃ st s time, bundleStore O.ssl d.keyring = some st ∧ O.infos sig = some [s] ∧ O.verifyCert st (some time) s.cert sig = true ∧
      ∀ j y, (j, y) ∈ w ↔ ∃ n, j = n + 1 ∧ (L.chain st (some time) s.cert sig)[n]? = some y ∧ now < y.notAfter ∧ y.notAfter ≤ now + 2592000 := by
  obtain ⟨-, -, -, x, k, l, -, -, -, -, hw⟩ := cmsSign_cases.1 h
  unfold signCheck at hw
  rw [signStore_eq h1 h2 hg, ← hd] at hw
  have hk : d.keyring.signerCns = c.keyring.signerCns ∧ d.keyring.signingTime = c.keyring.signingTime := by
    rw [hd]
    cases signing <;> exact ⟨rfl, rfl⟩
  cases hst : bundleStore O.ssl d.keyring with
  | none => rw [hst] at hw; cases hw
  | some st =>
    rw [hst] at hw
    dsimp only at hw
    split at hw; · cases hw
    rename_i m sp hv
    split at hw
    · rename_i hc
      have hv' := hv
      rw [(storeCrypto_eq hst sp sig _ hk false).1] at hv'
      rw [(storeCrypto_eq hst sp sig (some content) hk false).2] at hc
      have hok := (Bundle.signatureOk_iff _ _ false sig _ m).1 ⟨by simp [crypto, hst], sp, hv', hc⟩
      refine ⟨⟨m, hok⟩, ?_⟩
      have hn : timeOf now sp = some ((sp.time.map Int.ofNat).getD now) := by
        unfold timeOf
        rw [cmsVerify_time hv]
        rfl
      obtain ⟨cn, hcn, -⟩ := hok.signer
      obtain ⟨s, hs, -⟩ := Trust.signers_one.1 hcn
      have hch : O.verifyCert st (timeOf now sp) s.cert sig = true := by
        unfold Bundle.certChain at hc
        split at hc
        · cases hc
        · simp only [Bool.and_eq_true] at hc
          have := hc.2
          simpa [crypto, hst, hs] using this
      rw [hs] at hw
      simp only [Option.bind_some, List.head?_cons, Option.some.injEq] at hw
      subst hw
      rw [hn] at hch ⊢
      refine ⟨st, s, _, rfl, hs, hch, ?_⟩
      intro j y
      rw [expiryWarnings_iff]
      simp only [Nat.zero_add]
    · cases hw


/-- **C104** Without a keyring for signing nothing is checked, and there are no warnings. -/
theorem C104_unchecked {E : Env Key} {L : Lib Key} {O : Ossl} {now : Int} {c : Cfg} {content : Bytes} {detached : Bool} {certfile keyfile : Str} {inter : List Str} {sig : Bytes}
    {w : List (Nat × X509)} (hk : c.keyring.path = none ∧ c.keyring.directory = none) :
    cmsSign E L O now c none content detached certfile keyfile inter = .ok (sig, w) ↔ w = [] ∧ content ≠ [] ∧ content.length < 2 ^ 31 ∧
      ∃ x k l, CertNamed E certfile x ∧ KeyNamed E keyfile k ∧ List.Forall₂ (CertNamed E) inter l ∧ L.sign x k l detached content = some sig := by
  have hs : signStore O.ssl c.keyring none = none := by simp [signStore, hk]
  rw [cmsSign_cases, signCheck, hs]
  constructor
  · rintro ⟨h1, h2, -, x, k, l, a, b, d, e, f⟩
    cases f
    exact ⟨rfl, h1, h2, x, k, l, a, b, d, e⟩
  · rintro ⟨rfl, h1, h2, x, k, l, a, b, d, e⟩
    exact ⟨h1, h2, (fun h => by cases h), x, k, l, a, b, d, e, rfl⟩

theorem addAll_spec {L : Lib Key} {O : Ossl} {Pair : X509 → Key → Prop} {carried : Bytes → List X509} (hL : LibOk L O Pair carried) {E : Env Key} {ns : List Str} {s s' : Bytes}
    (h : addAll E L ns s = some s') : ∃ l, List.Forall₂ (CertNamed E) ns l ∧ O.infos s' = O.infos s ∧ ∀ y, y ∈ carried s' ↔ y ∈ l ∨ y ∈ carried s := by
  induction ns generalizing s with
  | nil => cases h; exact ⟨[], .nil, rfl, by simp⟩
  | cons n ns ih =>
    dsimp only [addAll] at h
    split at h; · cases h
    rename_i x hx
    split at h; · cases h
    rename_i t ht
    obtain ⟨l, h1, h2, h3⟩ := ih h
    obtain ⟨k1, k2⟩ := hL.addCert _ _ _ ht
    refine ⟨x :: l, .cons (loadCert_iff.1 hx) h1, h2.trans k1, ?_⟩
    intro y
    rw [h3, k2, List.mem_cons]
    tauto

/-- **C104** A signature is added only with the key that was named, which belongs to the certificate that was named; those who have signed before, and the certificates from before, stay. -/
theorem C104_append {L : Lib Key} {O : Ossl} {Pair : X509 → Key → Prop} {carried : Bytes → List X509} (hL : LibOk L O Pair carried) {E : Env Key} {input o : Bytes}
    {certfile keyfile : Str} {inter : List Str} (h : cmsAppend E L O input certfile keyfile inter = .ok o) :
    ∃ x k l ts, CertNamed E certfile x ∧ KeyNamed E keyfile k ∧ List.Forall₂ (CertNamed E) inter l ∧ Pair x k ∧ O.infos o = (O.infos input).map (· ++ [⟨x, ts⟩]) ∧
      ∀ y, y ∈ carried o ↔ y = x ∨ y ∈ l ∨ y ∈ carried input := by
  unfold cmsAppend at h
  split at h; · cases h
  split at h; · cases h
  split at h; · cases h
  rename_i x hx
  split at h; · cases h
  rename_i k hk
  split at h; · cases h
  rename_i s hs
  split at h; · cases h
  rename_i o' ho
  cases h
  obtain ⟨l, h1, h2, h3⟩ := addAll_spec hL hs
  obtain ⟨k1, ⟨ts, k2⟩, k3⟩ := hL.addSigner _ _ _ _ ho
  refine ⟨x, k, l, ts, loadCert_iff.1 hx, loadKey_iff.1 hk, h1, k1, by rw [k2, h2], ?_⟩
  intro y
  rw [k3, h3]

/-- **C104** Of a file with several certificates only the first one is used for `--cert` and `--intermediate`: the others are not in the signature, and there is no error. -/
theorem C104_finding_chain_file {L : Lib Key} {O : Ossl} {Pair : X509 → Key → Prop} {carried : Bytes → List X509} (hL : LibOk L O Pair carried) {E : Env Key} {now : Int} {c : Cfg}
    {signing : Option Str} {content : Bytes} {detached : Bool} {certfile keyfile interfile : Str} {x a b : X509} (hx : CertNamed E certfile x)
    (hi : E.pem interfile = some [.cert a, .cert b]) (ht : ¬ IsToken interfile) (hb : b ≠ x ∧ b ≠ a) {sig : Bytes} {w : List (Nat × X509)}
    (h : cmsSign E L O now c signing content detached certfile keyfile [interfile] = .ok (sig, w)) : b ∉ carried sig := by
  obtain ⟨x', k, l, ts, h1, -, h3, -, -, h6, -⟩ := C104_sign hL h
  have e1 : x' = x := by
    have p1 := loadCert_iff.2 h1
    have p2 := loadCert_iff.2 hx
    rw [p1] at p2
    cases p2
    rfl
  have e2 : l = [a] := by
    cases h3 with
    | cons q1 q2 =>
      cases q2
      have p1 := loadCert_iff.2 q1
      have hp : isPkcs11 interfile = false := by
        cases hq : isPkcs11 interfile
        · rfl
        · exact absurd (isPkcs11_iff.1 hq) ht
      unfold loadCert at p1
      rw [hp, hi] at p1
      simp only [Bool.false_eq_true, if_false, readCert, Option.some.injEq] at p1
      rw [p1]
  rw [h6, e1, e2]
  simp [hb.1, hb.2]

/-! ## Encrypting -/

/-- **C104** A bundle is encrypted for exactly those whose certificates are in the files that were named: every certificate in each of the files counts, every file
has one and none of them is damaged, with the key of any of them the content is obtained, and with no other key. -/
theorem C104_encrypt {L : Lib Key} {O : Ossl} {Pair : X509 → Key → Prop} {carried : Bytes → List X509} (hL : LibOk L O Pair carried) {E : Env Key} {names : List Str} {content e : Bytes}
    (h : cmsEncrypt E L names content = .ok e) :
    (∀ n ∈ names, ∃ secs, CertFile E n secs ∧ ∀ x, Pem.cert x ∈ secs → ∀ k, Pair x k → L.decrypt k (some x) e = some content ∧ L.decrypt k none e = some content) ∧
    (∀ k oc, L.decrypt k oc e = some content → ∃ n ∈ names, ∃ secs x, CertFile E n secs ∧ Pem.cert x ∈ secs ∧ Pair x k) ∧ O.parse e = some (.enveloped, false) := by
  unfold cmsEncrypt at h
  split at h; · cases h
  split at h; · cases h
  rename_i r hr
  split at h; · cases h
  rename_i e' he
  cases h
  obtain ⟨h1, h2⟩ := loadRecipients_iff hr
  obtain ⟨k1, k2, k3⟩ := hL.encrypt _ _ _ he
  refine ⟨?_, ?_, k1⟩
  · intro n hn
    obtain ⟨secs, hs⟩ := h1 n hn
    exact ⟨secs, hs, fun x hx => k2 x ((h2 x).2 (.inr ⟨n, hn, secs, hs, hx⟩))⟩
  · intro k oc hd
    obtain ⟨x, hx, hp⟩ := k3 k oc hd
    rcases (h2 x).1 hx with hx | ⟨n, hn, secs, hs, hx⟩
    · cases hx
    · exact ⟨n, hn, secs, x, hs, hx, hp⟩

/-- **C104** Nothing is encrypted if one of the files is missing, has no certificate, or has a damaged section; otherwise the only obstacle can be the encryption itself. -/
theorem C104_encrypt_fails {E : Env Key} {L : Lib Key} {names : List Str} {content : Bytes} (hc : content ≠ [] ∧ content.length < 2 ^ 31) :
    ((∃ n ∈ names, ∀ secs, ¬ CertFile E n secs) → cmsEncrypt E L names content = .error) ∧
    ((∀ n ∈ names, ∃ secs, CertFile E n secs) → (∀ r, L.encrypt r content ≠ none) → ∃ e, cmsEncrypt E L names content = .ok e) := by
  have hb : badBio content = false := by
    simp only [badBio, Bool.or_eq_false_iff, beq_eq_false_iff_ne, decide_eq_false_iff_not]
    exact ⟨fun e => hc.1 (List.length_eq_zero_iff.1 e), by omega⟩
  unfold cmsEncrypt
  rw [hb]
  simp only [Bool.false_eq_true, if_false]
  constructor
  · rintro ⟨n, hn, hno⟩
    cases hr : loadRecipients E names [] with
    | none => rfl
    | some r =>
      obtain ⟨secs, hs⟩ := (loadRecipients_iff hr).1 n hn
      exact absurd hs (hno secs)
  · intro hall hen
    obtain ⟨r, hr⟩ := loadRecipients_some [] hall
    rw [hr]
    dsimp only
    obtain ⟨e, he⟩ := Option.ne_none_iff_exists'.1 (hen r)
    exact ⟨e, by rw [he]⟩

/-- **C104** Decryption uses the key and, if configured, the certificate that were named; it gives the content only for an encrypted signature. -/
theorem C104_decrypt {E : Env Key} {L : Lib Key} {O : Ossl} {e t : Bytes} {certfile : Option Str} {keyfile : Str} :
    cmsDecrypt E L O e certfile keyfile = .ok t ↔ e ≠ [] ∧ e.length < 2 ^ 31 ∧ (∃ d, O.parse e = some (.enveloped, d)) ∧
      ∃ k oc, KeyNamed E keyfile k ∧ OptCertNamed E certfile oc ∧ L.decrypt k oc e = some t := by
  have hoc : ∀ oc, optCert E certfile = some oc ↔ OptCertNamed E certfile oc := by
    intro oc
    cases certfile with
    | none => simp [optCert, OptCertNamed, eq_comm]
    | some n =>
      simp only [optCert]
      constructor
      · intro h
        split at h; · cases h
        rename_i x hx
        cases h
        exact .inr ⟨n, x, rfl, loadCert_iff.1 hx, rfl⟩
      · rintro (⟨h, -⟩ | ⟨n', x, h, hx, rfl⟩)
        · cases h
        · cases h
          rw [loadCert_iff.2 hx]
  unfold cmsDecrypt
  constructor
  · intro h
    split at h; · cases h
    rename_i hb
    split at h; · cases h
    rename_i oc hc
    split at h; · cases h
    rename_i k hk
    split at h
    · rename_i d hd
      split at h; · cases h
      rename_i t' ht
      cases h
      simp only [badBio, Bool.or_eq_true, beq_iff_eq, decide_eq_true_eq, not_or] at hb
      exact ⟨fun e => hb.1 (by rw [e]; rfl), by omega, ⟨d, hd⟩, k, oc, loadKey_iff.1 hk, (hoc oc).1 hc, ht⟩
    · cases h
  · rintro ⟨h1, h2, ⟨d, hd⟩, k, oc, hk, hc, ht⟩
    have hb : badBio e = false := by
      simp only [badBio, Bool.or_eq_false_iff, beq_eq_false_iff_ne, decide_eq_false_iff_not]
      exact ⟨fun h => h1 (List.length_eq_zero_iff.1 h), by omega⟩
    rw [hb, (hoc oc).2 hc, loadKey_iff.2 hk, hd]
    dsimp only
    rw [ht]
    simp

/-- the part of `cms_decrypt` that the rest of the program sees -/
def okOnly : Res Bytes → Option Bytes
  | .ok b => some b
  | _ => none

/-- **C104** Encrypted bundles. `rauc encrypt` for some recipients gives a bundle that each device accepts that accepted the original one and is configured with the key of one of
the recipients (and with the certificate, or with none); its content is the same. -/
theorem C104_device {L : Lib Key} {O : Ossl} {Pair : X509 → Key → Prop} {carried : Bytes → List X509} (hL : LibOk L O Pair carried)
    {T : Create.Tools} {K : Crypto} {cfg : Bundle.Config} {p : Bundle.Params} {acc : Bundle.AccessResults} {f : Bytes} {b : Bundle.Bundle} (hnv : p.noVerify = false)
    (h0 : checkBundle K cfg (Create.loadText T) p acc (.file true f) = some b) {E : Env Key} {names : List Str} {S : Create.Steps} {existing out : Option Bytes}
    (h : Create.encrypt (fun s => okOnly (cmsEncrypt E L names s)) S b f existing = .ok (true, out)) (hlimit : cfg.maxSig < 2 ^ 64)
    (hsize : ∀ r e, L.encrypt r b.sig = some e → e ≠ [] ∧ e.length ≤ cfg.maxSig ∧ e.length < 2 ^ 31)
    {D : Env Key} {certfile : Option Str} {keyfile : Str} {k : Key} {x : X509} (hparse : K.parse = O.parse) (hdec : ∀ s, s ≠ [] → s.length < 2 ^ 31 → K.decrypt s = okOnly (cmsDecrypt D L O s certfile keyfile))
    (hkey : cfg.encryptionKey = true) (hk : KeyNamed D keyfile k) (hpair : Pair x k) (hcert : ∀ n, certfile = some n → CertNamed D n x)
    (hrec : ∃ n ∈ names, ∃ secs, E.pem n = some secs ∧ Pem.cert x ∈ secs) :
    existing = none ∧ ∃ m o e, b.manifest = some m ∧ m.format = .crypt ∧ out = some o ∧ cmsEncrypt E L names b.sig = .ok e ∧ Bundle.BundleFile o (f.take b.size) e ∧
      checkBundle K cfg (Create.loadText T) p acc (.file true o) = some { b with stream := some o, wasEncrypted := true, manifest := some { m with wasEncrypted := true } } := by
  have hok : ∀ r t, okOnly r = some t → r = .ok t := by
    intro r t hr
    cases r with
    | ok a => cases hr; rfl
    | error => cases hr
    | abort => cases hr
  have := Create.C62_encrypt T K cfg p acc f b hnv h0 (fun s => okOnly (cmsEncrypt E L names s)) S existing out h hlimit ?_ hkey
  · obtain ⟨h1, m, o, e, h2, h3, h4, h5, h6, h7⟩ := this
    exact ⟨h1, m, o, e, h2, h3, h4, hok _ _ h5, h6, h7⟩
  · intro e he
    have he := hok _ _ he
    obtain ⟨q1, -, q3⟩ := C104_encrypt hL he
    have hs : e ≠ [] ∧ e.length ≤ cfg.maxSig ∧ e.length < 2 ^ 31 := by
      unfold cmsEncrypt at he
      split at he; · cases he
      split at he; · cases he
      split at he; · cases he
      rename_i e' he'
      cases he
      exact hsize _ _ he'
    refine ⟨hs.1, hs.2.1, by rw [hparse]; exact q3, ?_⟩
    obtain ⟨n, hn, secs, hsec, hx⟩ := hrec
    obtain ⟨secs', hcf, hd⟩ := q1 n hn
    have := hsec.symm.trans hcf.1
    cases this
    obtain ⟨d1, d2⟩ := hd x hx k hpair
    rw [hdec e hs.1 hs.2.2]
    have : cmsDecrypt D L O e certfile keyfile = .ok b.sig := by
      rw [C104_decrypt]
      refine ⟨hs.1, hs.2.2, ⟨_, q3⟩, k, (certfile.map (fun _ => x)), hk, ?_, ?_⟩
      · cases certfile with
        | none => exact .inl ⟨rfl, rfl⟩
        | some n => exact .inr ⟨n, x, rfl, hcert n rfl, rfl⟩
      · cases certfile with
        | none => exact d2
        | some n => exact d1
    rw [this]
    rfl

/-! ## Hashes of public keys -/

/-- a byte in upper case hexadecimal digits -/
def byteText (b : UInt8) : Str := [c!"0123456789ABCDEF".getD (b.toNat / 16) '?', c!"0123456789ABCDEF".getD (b.toNat % 16) '?']

theorem upperDigit_eq {n : Nat} (h : n < 16) : upperDigit n = c!"0123456789ABCDEF".getD n '?' := by
  have : ∀ m : Fin 16, upperDigit m = c!"0123456789ABCDEF".getD m '?' := by decide
  exact this ⟨n, h⟩

/-- **C104** The hash of a public key is shown as 32 pairs of digits with colons between them. -/
theorem C104_spki {md : Bytes} (h : md.length = 32) : pubkeyHash md = join ':' (md.map byteText) := by
  have e1 : ∀ l : Bytes, l.flatMap (fun b => [upperDigit (b.toNat / 16), upperDigit (b.toNat % 16), ':']) = l.flatMap (fun b => byteText b ++ [':']) := by
    intro l
    congr 1
    funext b
    have := b.toNat_lt
    rw [upperDigit_eq (by omega), upperDigit_eq (by omega)]
    rfl
  have e2 : ∀ l : Bytes, l ≠ [] → l.flatMap (fun b => byteText b ++ [':']) = join ':' (l.map byteText) ++ [':'] ∧ (join ':' (l.map byteText)).length = l.length * 3 - 1 := by
    intro l hl
    induction l with
    | nil => exact absurd rfl hl
    | cons a l ih =>
      cases l with
      | nil => exact ⟨by simp [join], by simp [join, byteText]⟩
      | cons b l =>
        obtain ⟨i1, i2⟩ := ih (by simp)
        have hj : join ':' ((a :: b :: l).map byteText) = byteText a ++ ':' :: join ':' ((b :: l).map byteText) := rfl
        constructor
        · rw [List.flatMap_cons, i1, hj]
          simp
        · rw [hj]
          simp only [List.length_append, List.length_cons, i2]
          simp [byteText]
          omega
  unfold pubkeyHash
  obtain ⟨i1, i2⟩ := e2 md (fun e => by rw [e] at h; cases h)
  rw [e1, i1, List.take_append_of_le_length (by rw [i2, h]), List.take_of_length_le (by rw [i2, h])]

/-- **C104** From the variable `RAUC_BUNDLE_SPKI_HASHES` a handler can tell the public keys: chains with the same value have the same hashes, in the same order, and no certificate of
the chain is left out. -/
theorem C104_spki_unique {spki : X509 → Option Bytes} (hl : ∀ x md, spki x = some md → md.length = 32) {c d : List X509} {r s : List Str}
    (hr : pubkeyHashes spki c = some r) (hs : pubkeyHashes spki d = some s) (h : join ' ' r = join ' ' s) : c.map spki = d.map spki ∧ r.length = c.length := by
  have hb : ∀ b c : UInt8, byteText b = byteText c → b = c := by
    have : ∀ b c : Fin 256, byteText (UInt8.ofNat b) = byteText (UInt8.ofNat c) → b = c := by decide +kernel
    intro b c hbc
    have := this ⟨b.toNat, b.toNat_lt⟩ ⟨c.toNat, c.toNat_lt⟩ (by simpa using hbc)
    exact UInt8.toNat_inj.1 (congrArg Fin.val this)
  have hd : ∀ b : UInt8, ':' ∉ byteText b ∧ ' ' ∉ byteText b ∧ byteText b ≠ [] := by
    have : ∀ b : Fin 256, ':' ∉ byteText (UInt8.ofNat b) ∧ ' ' ∉ byteText (UInt8.ofNat b) ∧ byteText (UInt8.ofNat b) ≠ [] := by decide +kernel
    intro b
    simpa using this ⟨b.toNat, b.toNat_lt⟩
  have key : ∀ {c : List X509} {r : List Str}, pubkeyHashes spki c = some r → ∃ mds : List Bytes, c.map spki = mds.map some ∧ r = mds.map (fun md => join ':' (md.map byteText)) ∧
      ∀ md ∈ mds, md.length = 32 := by
    intro c
    induction c with
    | nil => intro r h; cases h; exact ⟨[], rfl, rfl, by simp⟩
    | cons x c ih =>
      intro r h
      dsimp only [pubkeyHashes] at h
      split at h; · cases h
      rename_i md hmd
      split at h; · cases h
      rename_i r' hr'
      cases h
      obtain ⟨mds, h1, h2, h3⟩ := ih hr'
      refine ⟨md :: mds, by simp [hmd, h1], by simp [C104_spki (hl x md hmd), h2], ?_⟩
      intro z hz
      rcases List.mem_cons.1 hz with rfl | hz
      · exact hl x _ hmd
      · exact h3 z hz
  obtain ⟨m1, a1, a2, a3⟩ := key hr
  obtain ⟨m2, b1, b2, b3⟩ := key hs
  have hsp : ∀ mds : List Bytes, (∀ md ∈ mds, md.length = 32) → split ' ' (join ' ' (mds.map (fun md => join ':' (md.map byteText)))) = mds.map (fun md => join ':' (md.map byteText)) := by
    intro mds h3
    apply split_join
    · intro t ht
      obtain ⟨md, hmd, rfl⟩ := List.mem_map.1 ht
      have : ∀ l : Bytes, ' ' ∉ join ':' (l.map byteText) := by
        intro l
        induction l with
        | nil => simp [join]
        | cons a l ih =>
          cases l with
          | nil => simpa [join] using (hd a).2.1
          | cons b l =>
            have hj : join ':' ((a :: b :: l).map byteText) = byteText a ++ ':' :: join ':' ((b :: l).map byteText) := rfl
            rw [hj]
            simp only [List.mem_append, List.mem_cons, not_or]
            exact ⟨(hd a).2.1, by decide, ih⟩
      exact this md
    · intro he
      cases mds with
      | nil => cases he
      | cons md mds =>
        simp only [List.map_cons, List.cons.injEq] at he
        have hlen := h3 md (List.mem_cons_self ..)
        cases md with
        | nil => cases hlen
        | cons a md =>
          have := he.1
          cases md with
          | nil => cases hlen
          | cons b md =>
            have hj : join ':' ((a :: b :: md).map byteText) = byteText a ++ ':' :: join ':' ((b :: md).map byteText) := rfl
            rw [hj] at this
            simp at this
  have hinj : ∀ x y : Bytes, x.length = 32 → y.length = 32 → join ':' (x.map byteText) = join ':' (y.map byteText) → x = y := by
    intro x y hx hy hxy
    have hs : ∀ z : Bytes, split ':' (join ':' (z.map byteText)) = z.map byteText := by
      intro z
      apply split_join
      · intro t ht
        obtain ⟨b, -, rfl⟩ := List.mem_map.1 ht
        exact (hd b).1
      · intro he
        cases z with
        | nil => cases he
        | cons a z =>
          simp only [List.map_cons, List.cons.injEq] at he
          exact (hd a).2.2 he.1
    have := congrArg (split ':') hxy
    rw [hs, hs] at this
    exact List.map_injective_iff.2 (fun a b => hb a b) this
  have hm : m1 = m2 := by
    have := congrArg (split ' ') h
    rw [a2, b2, hsp m1 a3, hsp m2 b3] at this
    have gen : ∀ p q : List Bytes, (∀ md ∈ p, md.length = 32) → (∀ md ∈ q, md.length = 32) →
        p.map (fun md => join ':' (md.map byteText)) = q.map (fun md => join ':' (md.map byteText)) → p = q := by
      intro p
      induction p with
      | nil => intro q _ _ e; cases q with
        | nil => rfl
        | cons => cases e
      | cons a p ih =>
        intro q hp hq e
        cases q with
        | nil => cases e
        | cons b q =>
          simp only [List.map_cons, List.cons.injEq] at e
          rw [hinj a b (hp a (by simp)) (hq b (by simp)) e.1, ih q (fun z hz => hp z (by simp [hz])) (fun z hz => hq z (by simp [hz])) e.2]
    exact gen _ _ a3 b3 this
  refine ⟨by rw [a1, b1, hm], ?_⟩
  rw [a2, List.length_map]
  have := congrArg List.length a1
  simpa using this.symm

end Rauc.Keys
