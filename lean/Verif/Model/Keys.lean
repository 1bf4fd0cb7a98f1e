import Verif.Model.Trust

/-!
# Keys and certificates for signing, encrypting and decrypting

`load_key`, `load_cert`, `load_certs_from_file`, `cms_sign`, `cms_append_signature`, `cms_encrypt`, `cms_decrypt` and `get_pubkey_hash` of signature.c. The
operations of OpenSSL on keys, certificates and CMS structures are arbitrary functions.
-/

namespace Rauc.Keys

open Rauc.Context (Store setupStore signStore)
open Rauc.ConfigFile (Cfg)
open Rauc.Bundle (Crypto CmsType Res)
open Rauc.Trust (X509 Ossl timeOf bundleConfig)

/-- a section of a PEM file, as `PEM_read_bio_X509` sees it: a certificate, something that cannot be decoded, or something else (a key, a revocation list) -/
inductive Pem where
  | cert (x : X509)
  | damaged
  | other
deriving DecidableEq

/-- the PKCS#11 engine of OpenSSL: the outcome of each call in `get_pkcs11_engine`, and what the token has, depending on module and PIN -/
structure Engine (Key : Type) where
  found : Bool
  setModule : Str → Bool
  init : Bool
  setPin : Str → Bool
  cert : Option Str → Option Str → Str → Option X509
  key : Option Str → Option Str → Str → Option Key

/-- the files and the environment of a command -/
structure Env (Key : Type) where
  /-- sections of a file; `none`: it cannot be opened -/
  pem : Str → Option (List Pem)
  /-- `PEM_read_bio_PrivateKey` of a file with a pass phrase (`none`: ask) -/
  key : Str → Option Str → Option Key
  /-- `RAUC_KEY_PASSPHRASE` -/
  passphrase : Option Str
  /-- `RAUC_PKCS11_MODULE` -/
  pkcs11Module : Option Str
  /-- `RAUC_PKCS11_PIN` -/
  pkcs11Pin : Option Str
  /-- compile-time option `ENABLE_OPENSSL_PKCS11_ENGINE` -/
  engine : Option (Engine Key)

/-- an empty variable counts as unset, signature.c:180-181 and :223-225 -/
def nonEmpty : Option Str → Option Str
  | some [] => none
  | v => v

variable {Key : Type}

/-- `get_pkcs11_engine`, signature.c:139-201 -/
def getEngine (E : Env Key) : Option (Engine Key) :=
  match E.engine with
  | none => none
  | some e =>
    if !e.found then none
    else if !(E.pkcs11Module.all e.setModule) then none
    else if !e.init then none
    else if !((nonEmpty E.pkcs11Pin).all e.setPin) then none
    else some e

/-- `g_str_has_prefix (name, "pkcs11:")` -/
def isPkcs11 (name : Str) : Bool := c!"pkcs11:".isPrefixOf name

/-- `load_key_file`, `load_key_pkcs11` and `load_key`, signature.c:205-282 -/
def loadKey (E : Env Key) (name : Str) : Option Key :=
  if isPkcs11 name then
    match getEngine E with
    | none => none
    | some e => e.key E.pkcs11Module (nonEmpty E.pkcs11Pin) name
  else E.key name (nonEmpty E.passphrase)

/-- `PEM_read_bio_X509`: the next certificate; sections of other kinds are skipped -/
def readCert : List Pem → Option X509
  | [] => none
  | .cert x :: _ => some x
  | .damaged :: _ => none
  | .other :: l => readCert l

/-- `load_cert_file`, `load_cert_pkcs11` and `load_cert`, signature.c:285-315 and :370-418 -/
def loadCert (E : Env Key) (name : Str) : Option X509 :=
  if isPkcs11 name then
    match getEngine E with
    | none => none
    | some e => e.cert E.pkcs11Module (nonEmpty E.pkcs11Pin) name
  else
    match E.pem name with
    | none => none
    | some l => readCert l

/-- the loop in `load_certs_from_file`, signature.c:339-362: the end of the file is an error if there was no certificate -/
def readCerts (acc : List X509) : List Pem → Option (List X509)
  | [] => if acc.length ≠ 0 then some acc else none
  | .cert x :: l => readCerts (acc ++ [x]) l
  | .damaged :: _ => none
  | .other :: l => readCerts acc l

/-- `load_certs_from_file`, signature.c:318-367 -/
def loadCerts (E : Env Key) (name : Str) : Option (List X509) :=
  match E.pem name with
  | none => none
  | some l => readCerts [] l

/-- the loops over `interfiles`, signature.c:585-594 -/
def loadAll (E : Env Key) : List Str → Option (List X509)
  | [] => some []
  | n :: l =>
    match loadCert E n with
    | none => none
    | some x =>
      match loadAll E l with
      | none => none
      | some r => some (x :: r)

/-- `CMS_sign`, `CMS_add0_cert`, `CMS_add1_signer`, `CMS_encrypt`, `CMS_decrypt`, each with the encoding of the result -/
structure Lib (Key : Type) where
  /-- certificate and key of the signer, more certificates, detached, content -/
  sign : X509 → Key → List X509 → Bool → Bytes → Option Bytes
  addCert : Bytes → X509 → Option Bytes
  addSigner : Bytes → X509 → Key → Option Bytes
  encrypt : List X509 → Bytes → Option Bytes
  decrypt : Key → Option X509 → Bytes → Option Bytes
  /-- `X509_STORE_CTX_get1_chain` after `X509_verify_cert`, in `cms_get_cert_chain` -/
  chain : Store → Option Int → X509 → Bytes → List X509

/-- `bytes_as_bio` aborts for these, signature.c:431-454 -/
def badBio (b : Bytes) : Bool := b.length == 0 || b.length > 2 ^ 31 - 1

/-- OpenSSL with a given store: as `Trust.crypto`, for `cms_verify_bytes` and `cms_get_cert_chain` in `cms_sign` -/
def storeCrypto (O : Ossl) (now : Int) (c : Cfg) (st : Store) : Crypto where
  parse := O.parse
  decrypt := O.decrypt c.encryption.cert c.encryption.key
  storeOk := true
  verifyDetached p sig content := O.verifyDetached st (timeOf now p) sig content
  verifyInline p sig := O.verifyInline st (timeOf now p) sig
  embedded := O.embedded
  signingTime sig := Trust.signingTime (O.infos sig)
  signers sig := Trust.signers (O.infos sig)
  chainOk p sig := ((O.infos sig).bind (·.head?)).any (fun s => O.verifyCert st (timeOf now p) s.cert sig)

/-- the condition of the warning, signature.c:668-675: `X509_cmp_time` gives -1 for "not later" -/
def expiresSoon (now : Int) (x : X509) : Bool := x.notAfter > now && x.notAfter ≤ now + 30 * 24 * 60 * 60

/-- the loop over the chain, signature.c:664-681: position and certificate of each warning. The clock is read once here. -/
def expiryWarnings (now : Int) : Nat → List X509 → List (Nat × X509)
  | _, [] => []
  | i, x :: l => if expiresSoon now x then (i + 1, x) :: expiryWarnings now (i + 1) l else expiryWarnings now (i + 1) l

/-- the verification of the new signature, signature.c:624-684: `none` is an error -/
def signCheck (L : Lib Key) (O : Ossl) (now : Int) (c : Cfg) (signing : Option Str) (detached : Bool) (content sig : Bytes) : Option (List (Nat × X509)) :=
  match signStore O.ssl c.keyring signing with
  | none => some []
  | some none => none
  | some (some st) =>
    match Bundle.cmsVerify (storeCrypto O now c st) (bundleConfig c) false sig (if detached then some content else none) with
    | none => none
    | some (_, sp) =>
      if Bundle.certChain (storeCrypto O now c st) sp sig then
        match (O.infos sig).bind (·.head?) with
        | none => some []
        | some s => some (expiryWarnings now 0 (L.chain st (timeOf now sp) s.cert sig))
      else none

/-- `cms_sign`, signature.c:550-690: the signature and the warnings -/
def cmsSign (E : Env Key) (L : Lib Key) (O : Ossl) (now : Int) (c : Cfg) (signing : Option Str) (content : Bytes) (detached : Bool) (certfile keyfile : Str) (inter : List Str) :
    Res (Bytes × List (Nat × X509)) :=
  if badBio content then .abort
  else
    match loadCert E certfile with
    | none => .error
    | some x =>
      match loadKey E keyfile with
      | none => .error
      | some k =>
        match loadAll E inter with
        | none => .error
        | some l =>
          match L.sign x k l detached content with
          | none => .error
          | some sig =>
            if (signStore O.ssl c.keyring signing).isSome && badBio sig then .abort
            else
              match signCheck L O now c signing detached content sig with
              | none => .error
              | some w => .ok (sig, w)

/-- the loop over `interfiles` in `cms_append_signature`, signature.c:733-750 -/
def addAll (E : Env Key) (L : Lib Key) : List Str → Bytes → Option Bytes
  | [], s => some s
  | n :: l, s =>
    match loadCert E n with
    | none => none
    | some x =>
      match L.addCert s x with
      | none => none
      | some s' => addAll E L l s'

/-- `cms_append_signature`, signature.c:692-784 -/
def cmsAppend (E : Env Key) (L : Lib Key) (O : Ossl) (input : Bytes) (certfile keyfile : Str) (inter : List Str) : Res Bytes :=
  if badBio input then .abort
  else if (O.parse input).isNone then .error
  else
    match loadCert E certfile with
    | none => .error
    | some x =>
      match loadKey E keyfile with
      | none => .error
      | some k =>
        match addAll E L inter input with
        | none => .error
        | some s =>
          match L.addSigner s x k with
          | none => .error
          | some o => .ok o

/-- the loop over the recipients, signature.c:1774-1786 -/
def loadRecipients (E : Env Key) : List Str → List X509 → Option (List X509)
  | [], acc => some acc
  | n :: l, acc =>
    match loadCerts E n with
    | none => none
    | some r => loadRecipients E l (acc ++ r)

/-- `cms_encrypt`, signature.c:1757-1823 -/
def cmsEncrypt (E : Env Key) (L : Lib Key) (recipients : List Str) (content : Bytes) : Res Bytes :=
  if badBio content then .abort
  else
    match loadRecipients E recipients [] with
    | none => .error
    | some r =>
      match L.encrypt r content with
      | none => .error
      | some e => .ok e

/-- the certificate for decryption, if one is configured, signature.c:1844-1851: the outer `none` is an error -/
def optCert (E : Env Key) : Option Str → Option (Option X509)
  | none => some none
  | some n =>
    match loadCert E n with
    | none => none
    | some x => some (some x)

/-- `cms_decrypt`, signature.c:1825-1907 -/
def cmsDecrypt (E : Env Key) (L : Lib Key) (O : Ossl) (content : Bytes) (certfile : Option Str) (keyfile : Str) : Res Bytes :=
  if badBio content then .abort
  else
    match optCert E certfile with
    | none => .error
    | some oc =>
      match loadKey E keyfile with
      | none => .error
      | some k =>
        match O.parse content with
        | some (.enveloped, _) =>
          (match L.decrypt k oc content with
          | none => .error
          | some t => .ok t)
        | _ => .error

/-! ## Hashes of public keys -/

/-- a digit of `%02X` -/
def upperDigit (n : Nat) : Char := if n < 10 then Char.ofNat (48 + n) else Char.ofNat (55 + n)

/-- `get_pubkey_hash`, signature.c:787-821: each byte as `%02X:`, and then the string is truncated -/
def pubkeyHash (md : Bytes) : Str :=
  (md.flatMap (fun b => [upperDigit (b.toNat / 16), upperDigit (b.toNat % 16), ':'])).take (32 * 3 - 1)

/-- `get_pubkey_hashes`, signature.c:824-841. `spki`: the SHA-256 of the encoded public key, `none` if it cannot be encoded. -/
def pubkeyHashes (spki : X509 → Option Bytes) : List X509 → Option (List Str)
  | [] => some []
  | x :: l =>
    match spki x with
    | none => none
    | some md =>
      match pubkeyHashes spki l with
      | none => none
      | some r => some (pubkeyHash md :: r)

end Rauc.Keys
