import Verif.Model.Create
import Verif.Model.Handlers

/-!
# Tools for existing bundles: src/bundle.c:1419-1740, 2625-2761, 2806-2875

Signing a bundle again, replacing and extracting its signature, encrypting it, converting it to casync.
The file of the input bundle is opened twice: `stream` of the bundle is what was checked, `path` is what is found under its name when it is copied.
-/

namespace Rauc.Create

open Bundle (Bundle Res Params AccessResults Crypto Config appendSignature truncateBundle checkPayload checkBundle verityFile fileDisk)
open ManifestFile (checkInternal)

/-- what happens during one run of a tool -/
structure Steps where
  /-- `truncate_bundle` succeeds: the output could be created and written -/
  copy : Bool
  /-- the signature could be appended -/
  write : Bool
  /-- somebody else creates a file with the name of the output after the check; creating it fails then -/
  race : Option Bytes

/-- a result and the file under the name of the output. `RTempFile` (bundle.c:1479) removes it on every early return. -/
abbrev Outcome := Res (Bool × Option Bytes)

def failed : Outcome := .ok (false, none)

/-- `truncate_bundle`, bundle.c:1419-1464. A file that is shorter than expected is filled with zeros. -/
def copyOut (S : Steps) (path : Bytes) (size : Nat) : Option Bytes :=
  if S.copy && S.race.isNone then some (truncateBundle path size ++ List.replicate (size - path.length) 0) else none

/-- `load_manifest_from_bundle`, bundle.c:2806-2875. Only the file `manifest.raucm` itself is unpacked. -/
def loadInternal (T : Tools) (running : Str) (b : Bundle) : Res Manifest :=
  match checkPayload running (verityFile T.sha fileDisk) b with
  | .error => .error
  | .abort => .abort
  | .ok b' =>
    match (b'.stream.bind T.unpack).bind (lookup · manifestName) with
    | some (.file t) =>
      (match (loadText T t).bind (checkInternal running) with
      | none => .error
      | some m => .ok m)
    | _ => .error

/-- the manifest of a bundle, bundle.c:1486-1495 and :2651-2661 -/
def manifestOf (T : Tools) (running : Str) (b : Bundle) : Res Manifest :=
  match b.manifest with
  | some m => .ok m
  | none => loadInternal T running b

/-- appending the signature to the copy -/
def finish (S : Steps) (f : Bytes) : Option Bytes → Outcome
  | none => failed
  | some s => if S.write then .ok (true, some (appendSignature f s)) else failed

/-- `resign_bundle`, bundle.c:1466-1523. `app` is `cms_append_signature`; `append` is the option. -/
def resign (T : Tools) (app : Bytes → Option Bytes) (running : Str) (S : Steps) (append : Bool) (b : Bundle) (path : Bytes) (existing : Option Bytes) : Outcome :=
  match existing with
  | some x => .ok (false, some x)
  | none =>
    match checkPayload running (verityFile T.sha fileDisk) b with
    | .error => failed
    | .abort => .abort
    | .ok b' =>
      match manifestOf T running b' with
      | .error => failed
      | .abort => .abort
      | .ok m =>
        match copyOut S path b'.size with
        | none => failed
        | some f => finish S f (if append then app b'.sig else generateSignature T running m f)

/-- `encrypt_bundle`, bundle.c:1693-1740. `env` is `cms_encrypt` for the recipients. -/
def encrypt (env : Bytes → Option Bytes) (S : Steps) (b : Bundle) (path : Bytes) (existing : Option Bytes) : Outcome :=
  if !(b.manifest.any (fun m => m.format = .crypt)) then .ok (false, existing)
  else
    match existing with
    | some x => .ok (false, some x)
    | none =>
      match copyOut S path b.size with
      | none => failed
      | some f => finish S f (env b.sig)

/-- `keyring_path` and `keyring_directory` of the configuration -/
structure Ring where
  path : Option Str
  directory : Option Str
deriving DecidableEq

/-- the keyring for the verification, bundle.c:2685-2694 -/
def usedRing (ring : Ring) : Option Str → Ring
  | some k => ⟨some k, none⟩
  | none => ring

/-- the configuration afterwards, bundle.c:2715-2721: the saved paths are restored only if there were some -/
def restoredRing (ring : Ring) (signing : Option Str) : Ring :=
  if signing.isSome && (ring.path.isSome || ring.directory.isSome) then ring else usedRing ring signing

/-- is there a keyring? -/
def Ring.given (r : Ring) : Bool := r.path.isSome || r.directory.isSome

/-- `replace_signature`, bundle.c:2625-2724: also the configuration afterwards. `K` are the cryptographic functions for a keyring, `newSig` the content of the signature file. -/
def replaceSignature (T : Tools) (K : Ring → Crypto) (cfg : Config) (load : Bytes → Option Manifest) (acc : AccessResults) (running : Str) (S : Steps) (p : Params)
    (ring : Ring) (signing : Option Str) (newSig : Option Bytes) (b : Bundle) (path : Bytes) (existing : Option Bytes) : Outcome × Ring :=
  match existing with
  | some x => (.ok (false, some x), ring)
  | none =>
    match manifestOf T running b with
    | .error => (failed, ring)
    | .abort => (.abort, ring)
    | .ok _ =>
      match newSig with
      | none => (failed, ring)
      | some s =>
        match copyOut S path b.size with
        | none => (failed, ring)
        | some f =>
          if !S.write then (failed, ring)
          else
            match checkBundle (K (usedRing ring signing)) { cfg with keyring := (usedRing ring signing).given } load { p with noVerify := !(usedRing ring signing).given } acc
                (.file true (appendSignature f s)) with
            | none => (failed, restoredRing ring signing)
            | some _ => (.ok (true, some (appendSignature f s)), restoredRing ring signing)

/-- `extract_signature`, bundle.c:2726-2761: `written` is the number of bytes written before an error -/
def extractSignature (created : Bool) (written : Option Nat) (b : Bundle) (existing : Option Bytes) : Bool × Option Bytes :=
  match existing with
  | some x => (false, some x)
  | none =>
    if !created then (false, none)
    else
      match written with
      | none => (true, some b.sig)
      | some n => (false, some (b.sig.take n))

end Rauc.Create
