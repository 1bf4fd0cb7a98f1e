import Verif.Model.Context
import Verif.Model.Bundle

/-!
# Whose signatures are accepted

Joins `Model/Context` (command line, configuration, `setup_x509_store`) and `Model/Bundle` (`check_bundle`, `mount_bundle`), and models
`cms_get_signingtime` (signature.c:1368-1461). OpenSSL's own verification (`CMS_verify`, `X509_verify_cert`) is an arbitrary function of the
store that was set up, of the time that was set and of the signature.
-/

namespace Rauc.Trust

deriving instance DecidableEq for Context.Cert

open Rauc.Context (Store Ssl bundleStore)
open Rauc.ConfigFile (Cfg)
open Rauc.Bundle (Crypto StoreParams CmsType)

/-- the part of a certificate that RAUC looks at itself; `names`: the common names in the subject, `usage`: what `check_purpose_code_sign` looks at -/
structure X509 where
  id : Nat
  names : List Bytes
  notBefore : Int
  notAfter : Int
  usage : Context.Cert
deriving DecidableEq

/-- the value of an ASN.1 ANY: UTCTime or GeneralizedTime with the result of `ASN1_TIME_to_tm` and `timegm` (`none` if the former fails), or something else -/
inductive Asn where
  | time (t : Option Int)
  | other

/-- a `SignerInfo`: the certificate of the signer, and the values of each signed attribute `signingTime` -/
structure SignerInfo where
  cert : X509
  times : List (List Asn)

/-- OpenSSL. The time of verification is `none` if times are not to be checked (`X509_V_FLAG_NO_CHECK_TIME`). -/
structure Ossl where
  ssl : Ssl
  parse : Bytes → Option (CmsType × Bool)
  /-- `cms_decrypt` with a certificate and a key -/
  decrypt : Option Str → Option Str → Bytes → Option Bytes
  /-- `CMS_get0_SignerInfos` -/
  infos : Bytes → Option (List SignerInfo)
  /-- `CMS_verify` with `CMS_DETACHED` -/
  verifyDetached : Store → Option Int → Bytes → Bytes → Bool
  /-- `CMS_verify`: the signed content -/
  verifyInline : Store → Option Int → Bytes → Option Bytes
  embedded : Bytes → Option Bytes
  /-- `X509_verify_cert` for a certificate, with the certificates in the signature as untrusted ones -/
  verifyCert : Store → Option Int → X509 → Bytes → Bool

/-- `cms_get_signingtime`, signature.c:1368-1461 -/
def signingTime : Option (List SignerInfo) → Option Nat
  | none => none
  | some l =>
    if l.length ≠ 1 then none
    else
      match l.head? with
      | none => none
      | some si =>
        match si.times.head? with
        | none => none
        | some vals =>
          match vals.head? with
          | some (.time (some t)) => if t < 0 then none else some t.toNat
          | _ => none

/-- `CMS_get0_signers` (NULL if there are none), and the common name that is looked at: the first, signature.c:1130-1137 -/
def signers : Option (List SignerInfo) → Option (List (Option Bytes))
  | some (si :: l) => some ((si :: l).map (fun s => s.cert.names.head?))
  | _ => none

/-- the time of verification: as set by `X509_VERIFY_PARAM_set_time`, signature.c:1550-1563, else the clock; bundle.c:2470-2471 -/
def timeOf (now : Int) (p : StoreParams) : Option Int :=
  if p.noCheckTime then none else some ((p.time.map Int.ofNat).getD now)

/-- OpenSSL with the configured keyring, as `check_bundle` uses it, bundle.c:2437-2527: the store is set up once and passed to all of
the functions (:2458, :2488-2517) -/
def crypto (O : Ossl) (now : Int) (c : Cfg) : Crypto where
  parse := O.parse
  decrypt := O.decrypt c.encryption.cert c.encryption.key
  storeOk := (bundleStore O.ssl c.keyring).isSome
  verifyDetached p sig content := (bundleStore O.ssl c.keyring).any (fun st => O.verifyDetached st (timeOf now p) sig content)
  verifyInline p sig := (bundleStore O.ssl c.keyring).bind (fun st => O.verifyInline st (timeOf now p) sig)
  embedded := O.embedded
  signingTime sig := signingTime (O.infos sig)
  signers sig := signers (O.infos sig)
  chainOk p sig := (bundleStore O.ssl c.keyring).any (fun st => ((O.infos sig).bind (·.head?)).any (fun s => O.verifyCert st (timeOf now p) s.cert sig))

/-- strings in configuration files are UTF-8 -/
def utf8 (s : Str) : Bytes := s.flatMap String.utf8EncodeChar

/-- the configuration as `check_bundle` uses it: bundle.c:2315 (keyring), signature.c:1117 (common names), :1550 (signing time),
bundle.c:2433 (key), :2132 and :2223 (maximum size of a signature), :2265-2296 (formats), :2941 and :3024 (check before mounting) -/
def bundleConfig (c : Cfg) : Bundle.Config where
  keyring := c.keyring.path.isSome || c.keyring.directory.isSome
  allowedCns := c.keyring.signerCns.map (·.map utf8)
  useSigningTime := c.keyring.signingTime
  encryptionKey := c.encryption.key.isSome
  maxSig := c.system.maxSignature
  formats := c.system.formats.has
  preCheck := c.system.preCheck

end Rauc.Trust
