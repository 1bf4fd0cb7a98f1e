import Verif.Model.ManifestFile
import Verif.Model.Verity

/-!
# Bundles: opening, signature check, payload check and mounting: src/bundle.c, src/signature.c
-/

namespace Rauc.Bundle

open ManifestFile (checkExternal checkInternal)

/-! ## File format -/

/-- `GUINT64_FROM_BE` on the bytes read -/
def beVal (bs : Bytes) : Nat := bs.foldl (fun a b => a * 256 + b.toNat) 0

/-- `n` in `k` bytes, most significant first (`GUINT64_TO_BE` for `k = 8`) -/
def beBytes : Nat → Nat → Bytes
  | 0, _ => []
  | k + 1, n => beBytes k (n / 256) ++ [UInt8.ofNat (n % 256)]

structure Opened where
  /-- size of the payload -/
  size : Nat
  sig : Bytes
deriving DecidableEq, Repr

/-- what `open_local_bundle` (bundle.c:2051-2171) and `open_remote_bundle` (:2174-2255) have in common; `total` is the size of the file,
`read off len` reads from it, `aligned` is set for remote bundles, where a payload that is no multiple of 4096 is refused (locally there is only a message).
Simplification: a remote signature of 4 GiB or more, for which `r_nbd_read` truncates the length, is not modelled. -/
def openWith (aligned : Bool) (maxSig total : Nat) (read : Nat → Nat → Option Bytes) : Option Opened :=
  if total < 8 then none
  else
    match read (total - 8) 8 with
    | none => none
    | some t =>
      if beVal t = 0 then none
      else if beVal t > total - 8 then none
      else if beVal t > maxSig then none
      else if aligned && (total - 8 - beVal t) % 4096 != 0 then none
      else
        match read (total - 8 - beVal t) (beVal t) with
        | none => none
        | some s => some ⟨total - 8 - beVal t, s⟩

/-- reading from a regular file -/
def fileRead (f : Bytes) (off len : Nat) : Option Bytes :=
  if off + len ≤ f.length then some ((f.drop off).take len) else none

/-- `open_local_bundle`, bundle.c:2051-2171 -/
def openLocal (maxSig : Nat) (regular : Bool) (f : Bytes) : Option Opened :=
  if !regular then none else openWith false maxSig f.length (fileRead f)

/-- `append_signature_to_bundle`, bundle.c:815-873 -/
def appendSignature (f sig : Bytes) : Bytes := f ++ sig ++ beBytes 8 sig.length

/-- `truncate_bundle`, bundle.c:1419-1464 -/
def truncateBundle (f : Bytes) (size : Nat) : Bytes := f.take size

/-- what `resign_bundle` (bundle.c:1466-1523) and `replace_signature` (:2625-2724) do to the file -/
def replaceSig (f : Bytes) (o : Opened) (sig : Bytes) : Bytes := appendSignature (truncateBundle f o.size) sig

/-! ## Signatures -/

inductive CmsType where
  | signed | enveloped | other
deriving DecidableEq, Repr

/-- verification parameters of the X509 store -/
structure StoreParams where
  noCheckTime : Bool
  time : Option Nat
deriving DecidableEq, Repr

/-- OpenSSL and the installed keyring as arbitrary functions -/
structure Crypto where
  /-- `d2i_CMS_bio`: type and `CMS_is_detached` -/
  parse : Bytes → Option (CmsType × Bool)
  /-- `cms_decrypt` with the configured key -/
  decrypt : Bytes → Option Bytes
  /-- `setup_x509_store` with the configured keyring -/
  storeOk : Bool
  /-- `CMS_verify` of a detached signature over some content -/
  verifyDetached : StoreParams → Bytes → Bytes → Bool
  /-- `CMS_verify` of an inline signature: the signed content -/
  verifyInline : StoreParams → Bytes → Option Bytes
  /-- the content of an inline signature, not verified -/
  embedded : Bytes → Option Bytes
  /-- `cms_get_signingtime` -/
  signingTime : Bytes → Option Nat
  /-- `CMS_get0_signers`: common name of each signer -/
  signers : Bytes → Option (List (Option Bytes))
  /-- `X509_verify_cert` for the first signer -/
  chainOk : StoreParams → Bytes → Bool

structure Config where
  keyring : Bool
  allowedCns : Option (List Bytes)
  useSigningTime : Bool
  encryptionKey : Bool
  maxSig : Nat
  formats : Format → Bool
  preCheck : Bool

/-- the loop of `cms_check_signer_cns`, signature.c:1129-1157 -/
def cnsLoop (allowed : List Bytes) : List (Option Bytes) → Bool
  | [] => false
  | none :: l => cnsLoop allowed l
  | some cn :: l =>
    if cn.contains 0 then false
    else if allowed.contains cn then true
    else cnsLoop allowed l

/-- `cms_check_signer_cns`, signature.c:1110-1165 -/
def checkCns (K : Crypto) (cfg : Config) (sig : Bytes) : Bool :=
  match cfg.allowedCns with
  | none => true
  | some allowed =>
    match K.signers sig with
    | none => false
    | some l => cnsLoop allowed l

/-- the time used for verification, signature.c:1543-1558; the outer `none` is an error -/
def verifyTime (K : Crypto) (cfg : Config) (sig : Bytes) : Option (Option Nat) :=
  if cfg.useSigningTime then
    match K.signingTime sig with
    | none => none
    | some t => some (some t)
  else some none

/-- the actual verification, signature.c:1560-1572: the manifest for an inline signature -/
def cmsVerifyCall (K : Crypto) (p : StoreParams) (sig : Bytes) : Option Bytes → Option (Option Bytes)
  | some c => if K.verifyDetached p sig c then some none else none
  | none =>
    match K.verifyInline p sig with
    | none => none
    | some m => some (some m)

/-- `cms_verify_bytes`, signature.c:1463-1615. `content` is given exactly when no manifest location is. The result is the manifest (for an inline signature) and
the store parameters, which are modified. -/
def cmsVerify (K : Crypto) (cfg : Config) (noCheckTime : Bool) (sig : Bytes) (content : Option Bytes) :
    Option (Option Bytes × StoreParams) :=
  match K.parse sig with
  | none => none
  | some (typ, detached) =>
    if typ ≠ .signed then none
    else if detached != content.isSome then none
    else
      match verifyTime K cfg sig with
      | none => none
      | some t =>
        match cmsVerifyCall K ⟨noCheckTime, t⟩ sig content with
        | none => none
        | some m =>
          if !checkCns K cfg sig then none
          else if (K.signers sig).isNone then none
          else some (m, ⟨noCheckTime, t⟩)

/-- `cms_get_cert_chain`, signature.c:1167-1231 -/
def certChain (K : Crypto) (p : StoreParams) (sig : Bytes) : Bool :=
  match K.signers sig with
  | none => false
  | some l => l.length == 1 && K.chainOk p sig

/-! ## `check_bundle` -/

structure Params where
  noVerify : Bool := false
  noCheckTime : Bool := false
  trustEnv : Bool := false
deriving DecidableEq, Repr

/-- where the bundle comes from. For a remote bundle: could the server be started, size and reads. -/
inductive Source where
  | file (regular : Bool) (content : Bytes)
  | remote (started : Bool) (total : Nat) (read : Nat → Nat → Option Bytes)

/-- `RaucBundle`, include/bundle.h:29-56 -/
structure Bundle where
  /-- the file, `none` for a remote bundle (`stream == NULL`) -/
  stream : Option Bytes
  size : Nat
  sig : Bytes
  wasEncrypted : Bool
  verificationDisabled : Bool
  signatureVerified : Bool := false
  payloadVerified : Bool := false
  exclusiveVerified : Bool := false
  manifest : Option Manifest := none

/-- the oracle for file access: results of `enforce_bundle_exclusive` and `check_bundle_access` -/
structure AccessResults where
  enforce : Bool
  check : Bool

/-- the content `cms_verify_fd` verifies, signature.c:1681-1737; a limit of zero means the whole file -/
def verifiedContent (f : Bytes) (size : Nat) : Bytes := if size = 0 then f else f.take size

def openBundle (cfg : Config) : Source → Option (Option Bytes × Opened)
  | .file regular f =>
    match openLocal cfg.maxSig regular f with
    | none => none
    | some o => some (some f, o)
  | .remote started total read =>
    if !started then none
    else
      match openWith true cfg.maxSig total read with
      | none => none
      | some o => some (none, o)

/-- bundle.c:2437-2465: decrypt the signature if necessary; whether it was encrypted -/
def decryptSig (K : Crypto) (cfg : Config) (sig : Bytes) : Option (Bytes × Bool) :=
  match K.parse sig with
  | some (.enveloped, _) =>
    if !cfg.encryptionKey then none
    else
      match K.decrypt sig with
      | none => none
      | some s => some (s, true)
  | _ => some (sig, false)

/-- bundle.c:2467-2527: verification; the bundle and the signed manifest text -/
def verifyStep (K : Crypto) (cfg : Config) (p : Params) (acc : AccessResults) (detached : Bool) (b : Bundle) :
    Option (Bundle × Option Bytes) :=
  if !K.storeOk then none
  else if detached then
    match b.stream with
    | none => none
    | some f =>
      if !p.trustEnv && !acc.enforce then none
      else if (verifiedContent f b.size).length > 2 ^ 31 - 1 then none
      else
        match cmsVerify K cfg p.noCheckTime b.sig (some (verifiedContent f b.size)) with
        | none => none
        | some (_, sp) =>
          if certChain K sp b.sig then
            some ({ b with exclusiveVerified := true, signatureVerified := true, payloadVerified := true }, none)
          else none
  else
    match cmsVerify K cfg p.noCheckTime b.sig none with
    | none => none
    | some (m, sp) =>
      if certChain K sp b.sig then
        some ({ b with exclusiveVerified := b.stream.isSome && (p.trustEnv || acc.check), signatureVerified := true, payloadVerified := false }, m)
      else none

/-- bundle.c:2528-2536: no verification -/
def noVerifyStep (K : Crypto) (detached : Bool) (b : Bundle) : Option (Bundle × Option Bytes) :=
  if detached then some (b, none)
  else
    match K.embedded b.sig with
    | none => none
    | some m => some (b, some m)

/-- bundle.c:2538-2552 and `check_allowed_bundle_format`, :2265-2296 -/
def finishCheck (cfg : Config) (load : Bytes → Option Manifest) (b : Bundle) : Option Bytes → Option Bundle
  | none => if cfg.formats .plain then some b else none
  | some text =>
    match load text with
    | none => none
    | some m =>
      if m.format = .plain then none
      else if cfg.formats m.format then some { b with manifest := some { m with wasEncrypted := b.wasEncrypted } }
      else none

/-- `check_bundle`, bundle.c:2298-2558. `load` is `load_manifest_mem`. -/
def checkBundle (K : Crypto) (cfg : Config) (load : Bytes → Option Manifest) (p : Params) (acc : AccessResults) (src : Source) : Option Bundle :=
  if !p.noVerify && !cfg.keyring then none
  else
    match openBundle cfg src with
    | none => none
    | some (stream, o) =>
      match K.parse o.sig with
      | none => none
      | some (_, detached) =>
        if detached && stream.isNone then none
        else
          match decryptSig K cfg o.sig with
          | none => none
          | some (sig, enc) =>
            match (if p.noVerify then noVerifyStep K detached ⟨stream, o.size, sig, enc, p.noVerify, false, false, false, none⟩
              else verifyStep K cfg p acc detached ⟨stream, o.size, sig, enc, p.noVerify, false, false, false, none⟩) with
            | none => none
            | some (b, text) => finishCheck cfg load b text

/-! ## Payload and mounting -/

inductive Res (α : Type) where
  | ok (a : α)
  | error
  /-- `g_error`/`g_assert`: the process aborts -/
  | abort

/-- `guint64` subtraction -/
def sub64 (a b : Nat) : Nat := if b ≤ a then a - b else 2 ^ 64 + a - b

/-- `check_bundle_payload`, bundle.c:2560-2623. `verity blocks root salt` is `r_verity_hash_verify` on the file.
Simplification: a verity size larger than the bundle gives a negative number of blocks in the code, here a huge one. -/
def checkPayload (running : Str) (verity : Bytes → Nat → Bytes → Bytes → Bool) (b : Bundle) : Res Bundle :=
  if b.verificationDisabled || b.payloadVerified then .ok b
  else
    match b.stream with
    | none => .error
    | some f =>
      if !b.exclusiveVerified then .error
      else
        match b.manifest with
        | none => .abort
        | some m =>
          match checkExternal running m with
          | none => .error
          | some m' =>
            match (m'.verityHash.bind (Utils.hexDecode · 32)), (m'.veritySalt.bind (Utils.hexDecode · 32)) with
            | some root, some salt =>
              if b.size % 4096 ≠ 0 || sub64 b.size m'.veritySize % 4096 ≠ 0 then .abort
              else if verity f (sub64 b.size m'.veritySize / 4096) root salt then
                .ok { b with manifest := some m', payloadVerified := true }
              else .error
            | _, _ => .abort

/-- `r_verity_hash_verify` on the file, with the salted hash function -/
def verityFile (sha : Bytes → Bytes) (disk : Bytes → Verity.File) (f : Bytes) (blocks : Nat) (root salt : Bytes) : Bool :=
  Verity.verify Verity.code (fun b => sha (salt ++ b)) blocks root (disk f)

/-- the bytes of a file as a disk -/
def fileDisk (f : Bytes) : Verity.File := ⟨fun i => f.getD i 0, f.length⟩

/-- the block devices behind a mount -/
inductive Dev where
  /-- loop device or NBD device over the first `size` bytes of the bundle -/
  | raw (size : Nat)
  /-- dm-verity, which delivers only blocks that match the root hash -/
  | verity (lower : Dev) (dataSize : Nat) (rootHash salt : Option Str)
  /-- dm-crypt -/
  | crypt (lower : Dev) (dataSize : Nat) (key : Option Str)
deriving DecidableEq, Repr

/-- outcomes of the system calls during mounting -/
structure MountEnv where
  mountPoint : Bool
  device : Bool
  dmVerity : Bool
  dmCrypt : Bool
  preCheck : Bool
  mount : Dev → Bool
  /-- `load_manifest_file` from the mounted file system -/
  manifest : Dev → Option Manifest

/-- `r_dm_setup`, dm.c:130-141: the checks before the kernel is called -/
def dmSizeOk (n : Nat) : Bool := n > 0 && n % 4096 == 0

/-- `prepare_verity`, bundle.c:2912-2967, and `prepare_crypt`, :2978-3057: devices that were mounted, and the result -/
def prepareDm (cfg : Config) (running : Str) (e : MountEnv) (m : Manifest) (crypt : Bool) (b : Bundle) : List Dev × Res Bundle :=
  match checkExternal running m with
  | none => ([], .error)
  | some m' =>
    if !(dmSizeOk (sub64 b.size m'.veritySize) && e.dmVerity) then ([], .error)
    else if crypt && !(dmSizeOk (sub64 b.size m'.veritySize) && e.dmCrypt) then ([], .error)
    else if cfg.preCheck && !e.preCheck then ([], .error)
    else
      let vd := Dev.verity (.raw b.size) (sub64 b.size m'.veritySize) m'.verityHash m'.veritySalt
      let d := if crypt then Dev.crypt vd (sub64 b.size m'.veritySize) m'.cryptKey else vd
      if e.mount d then ([d], .ok { b with manifest := some m' }) else ([], .error)

/-- `mount_bundle`, bundle.c:3059-3184: devices mounted (even if unmounted again) and the result -/
def mountBundle (cfg : Config) (running : Str) (e : MountEnv) (b : Bundle) : List Dev × Res Bundle :=
  if !e.mountPoint then ([], .error)
  else if !(b.signatureVerified || b.verificationDisabled) then ([], .abort)
  else if !e.device then ([], .error)
  else
    match b.manifest with
    | none =>
      if !(b.payloadVerified || b.verificationDisabled) then ([], .abort)
      else if !e.mount (.raw b.size) then ([], .error)
      else
        match e.manifest (.raw b.size) with
        | none => ([.raw b.size], .error)
        | some m =>
          match checkInternal running m with
          | none => ([.raw b.size], .error)
          | some m' => if m'.format ≠ .plain then ([.raw b.size], .error) else ([.raw b.size], .ok { b with manifest := some m' })
    | some m =>
      match m.format with
      | .plain => ([], .abort)
      | .verity => prepareDm cfg running e m false b
      | .crypt => prepareDm cfg running e m true b

/-- the beginning of `do_install_bundle`, install.c:1556-1593: check, refuse unexpected or unencrypted manifests, mount. Devices mounted, and the result. -/
def installMount (K : Crypto) (cfg : Config) (load : Bytes → Option Manifest) (running : Str) (acc : AccessResults) (e : MountEnv) (src : Source)
    (requireHash : Option Str) : List Dev × Res Bundle :=
  match checkBundle K cfg load {} acc src with
  | none => ([], .error)
  | some b =>
    if requireHash.isSome && b.manifest.isNone then ([], .error)
    else if requireHash.isSome && requireHash != b.manifest.bind (·.hash) then ([], .error)
    else if b.manifest.any (fun m => m.format = .crypt) && !b.wasEncrypted then ([], .error)
    else mountBundle cfg running e b

end Rauc.Bundle
