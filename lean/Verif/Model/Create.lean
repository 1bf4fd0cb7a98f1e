import Verif.Model.Bundle
import Verif.Model.Crypt

/-!
# Creating and extracting bundles: src/bundle.c, src/manifest.c, src/checksum.c

Directories are trees; permissions, owners and extended attributes are not modelled. The external programs (mksquashfs, tar, mkcomposefs), SHA-256, the block cipher, the
signing function of OpenSSL and GLib's text format of key files are arbitrary functions.
-/

namespace Rauc.Create

open Bundle (Bundle Res appendSignature checkPayload verityFile fileDisk)
open ManifestFile (checkInput checkInternal checkExternal prepare)

inductive Node where
  | file (content : Bytes)
  | dir (entries : List (Str × Node))
  | link (target : Str)
  /-- device, socket, pipe -/
  | special

abbrev Dir := List (Str × Node)

def lookup : Dir → Str → Option Node
  | [], _ => none
  | (m, x) :: l, n => if m = n then some x else lookup l n

def erase (d : Dir) (n : Str) : Dir := d.filter (fun e => e.1 != n)

/-- `g_unlink` -/
def unlink (d : Dir) (n : Str) : Option Dir :=
  match lookup d n with
  | none => none
  | some (.dir _) => none
  | some _ => some (erase d n)

/-- creates or replaces an entry -/
def setEntry (d : Dir) (n : Str) (x : Node) : Dir := erase d n ++ [(n, x)]

/-- the name of the work directory inside of the content directory, bundle.c:1229-1233 -/
def workName : Str := c!".rauc-workdir"

/-- what a name in a directory leads to -/
inductive Target where
  | file (content : Bytes)
  | dir (entries : List (Str × Node))
  | special
  | missing
  /-- the directory itself, the one above it or the work directory -/
  | up

/-- resolving a name in the way `stat` and `open` do, for links to names in the same directory (others are refused by `check_workdir_content`); at most `k - 1` links in a row are followed -/
def target : Nat → Dir → Str → Target
  | 0, _, _ => .missing
  | k + 1, d, n =>
    if n = c!"." ∨ n = c!".." ∨ n = workName then .up
    else
      match lookup d n with
      | none => .missing
      | some (.file b) => .file b
      | some (.dir e) => .dir e
      | some .special => .special
      | some (.link t) => target k d t

/-- the limit of Linux (`MAXSYMLINKS`) is 40 -/
def maxLinks : Nat := 41

/-- reading a whole file -/
def openFile (d : Dir) (n : Str) : Option Bytes :=
  match target maxLinks d n with
  | .file b => some b
  | _ => none

/-- `check_workdir_content`, bundle.c:1106-1158 -/
def entryOk (top : Bool) (n : Str) : Node → Bool
  | .link t => !decide ('/' ∈ t)
  | .dir _ => !(top && n.head? == some '.')
  | .file _ => true
  | .special => false

/-- the loop of `link_contentdir_to_workdir`, bundle.c:1170-1212; `sub` is the call for a directory. A link to the directory itself, the one above or the work directory
leads to a recursion that ends with an error (`ELOOP` or `ENAMETOOLONG`). -/
def linkAll (sub : Dir → Option Dir) (top : Bool) (d : Dir) : Dir → Option Dir
  | [] => some []
  | (n, x) :: l =>
    if n = workName then linkAll sub top d l
    else if !entryOk top n x then none
    else
      match target maxLinks d n with
      | .up => none
      | .dir e =>
        (match sub e with
        | none => none
        | some e' =>
          match linkAll sub top d l with
          | none => none
          | some r => some ((n, .dir e') :: r))
      | _ =>
        match linkAll sub top d l with
        | none => none
        | some r => some ((n, x) :: r)

/-- `link_contentdir_to_workdir`, bundle.c:1160-1215; `depth` is the depth that the system supports (`PATH_MAX`). Other errors (no hard links, no space) are not modelled. -/
def linkDir : Nat → Bool → Dir → Option Dir
  | 0, _, _ => none
  | k + 1, top, d => linkAll (linkDir k false) top d d

/-- the external tools and libraries -/
structure Tools where
  /-- mksquashfs, with `keep_metadata` -/
  pack : Bool → Dir → Option Bytes
  /-- unsquashfs -/
  unpack : Bytes → Option Dir
  tar : Bytes → Option Dir
  /-- compile-time option -/
  composefs : Bool
  /-- mkcomposefs on a tree and the object store -/
  mkcomposefs : Dir → Dir → Option (Bytes × Dir)
  /-- the tree that a mount of an image with an object store shows; not called here -/
  mountCfs : Bytes → Dir → Option Dir
  /-- the block hash index of an image (C30) -/
  index : Bytes → Option Bytes
  sha : Bytes → Bytes
  /-- block cipher: key, block -/
  enc : Bytes → Bytes → Bytes
  dec : Bytes → Bytes → Bytes
  /-- `cms_sign`, signature.c:550-690, including the verification if a keyring is given: detached, content -/
  sign : Bool → Bytes → Option Bytes
  /-- `g_key_file_to_data` and `g_key_file_load_from_data` -/
  text : KeyFile → Bytes
  keyFile : Bytes → Option KeyFile

/-- what happens during one run -/
structure Run where
  /-- an old work directory could be removed and a new one created -/
  workdir : Bool
  pseudo : Bool
  root : Bool
  /-- `r_fakeroot_init` -/
  fakeroot : Bool
  saveManifest : Bool
  rmExtracted : Bool
  salt : Option Bytes
  key : Option Bytes
  /-- the encrypted payload could be renamed -/
  rename : Bool
  /-- the signature could be written -/
  append : Bool
  rmWorkdir : Bool

/-- `g_checksum_get_string` -/
def shaHex (T : Tools) (b : Bytes) : Str := Utils.hexEncode (T.sha b)

def loadText (T : Tools) (t : Bytes) : Option Manifest := ManifestFile.load (shaHex T) T.keyFile t

def manifestName : Str := c!"manifest.raucm"

/-- `check_manifest_create`, manifest.c:930-948 -/
def checkCreate (m : Manifest) : Bool := m.images.all (fun i => !(i.hooks.install && (i.hooks.preInstall || i.hooks.postInstall)))

/-- `compute_checksum` in `update_manifest_checksums`, manifest.c:1355-1391 -/
def syncImage (T : Tools) (w : Dir) (i : Image) : Option Image :=
  match i.filename with
  | none => some { i with size := -1 }
  | some f =>
    match openFile w f with
    | none => none
    | some b => some { i with sha256 := true, digest := some (shaHex T b), size := b.length }

def syncImages (T : Tools) (w : Dir) : List Image → Option (List Image)
  | [] => some []
  | i :: l =>
    match syncImage T w i with
    | none => none
    | some i' =>
      match syncImages T w l with
      | none => none
      | some l' => some (i' :: l')

/-- `g_file_test (…, G_FILE_TEST_EXISTS)` for the hook, manifest.c:1410-1417. (A name with a slash leads elsewhere; it is taken as missing here.) -/
def hookExists (w : Dir) (m : Manifest) : Bool :=
  match m.hookName with
  | none => true
  | some h =>
    match target maxLinks w h with
    | .missing => false
    | _ => true

/-- `sync_manifest_with_contentdir`, manifest.c:1393-1420 -/
def sync (T : Tools) (w : Dir) (m : Manifest) : Option Manifest :=
  if !hookExists w m then none
  else
    match syncImages T w m.images with
    | none => none
    | some l => some { m with images := l }

/-- `image->convert` contains a method -/
def converts (i : Image) (s : Str) : Bool := (i.convert.getD []).contains s

/-- `needs_fakeroot`, bundle.c:1256-1292 -/
def needsFakeroot (R : Run) (m : Manifest) : Bool :=
  m.images.any (fun i => converts i c!"tar-extract" || converts i c!"composefs") && !R.pseudo && !R.root

def keepMetadata (m : Manifest) : Bool := m.images.any (converts · c!"tar-extract")

def indexName (f : Str) : Str := f ++ c!".block-hash-index"

/-- the loop over the methods in `generate_adaptive_data`, bundle.c:417-468 -/
def adaptiveMethods (T : Tools) (f : Str) : List Str → Dir → Option Dir
  | [], w => some w
  | a :: l, w =>
    if a = c!"block-hash-index" then
      match openFile w f with
      | none => none
      | some b =>
        match T.index b with
        | none => none
        | some x => adaptiveMethods T f l (setEntry w (indexName f) (.file x))
    else if a = c!"adaptive-test-method" then adaptiveMethods T f l w
    else none

/-- `generate_adaptive_data`, bundle.c:402-472 -/
def adaptive (T : Tools) : List Image → Dir → Option Dir
  | [], w => some w
  | i :: l, w =>
    match i.adaptive with
    | none => adaptive T l w
    | some ms =>
      match i.filename with
      | none => none
      | some f =>
        match adaptiveMethods T f ms w with
        | none => none
        | some w' => adaptive T l w'

def extractedName (f : Str) : Str := f ++ c!".extracted"
def cfsName (f : Str) : Str := f ++ c!".cfs"
def storeName : Str := c!".rauc-cfs-store"

/-- `convert_tar_extract`, bundle.c:474-511: creating a directory fails if the name exists -/
def tarExtract (T : Tools) (w : Dir) (f : Str) : Option Dir :=
  if (lookup w (extractedName f)).isSome then none
  else
    match openFile w f with
    | none => none
    | some b =>
      match T.tar b with
      | none => none
      | some e => some (setEntry w (extractedName f) (.dir e))

/-- `convert_composefs`, bundle.c:514-562. (If the object store exists and is no directory, creating it fails.) -/
def composefs (T : Tools) (w : Dir) (f : Str) : Option Dir :=
  if (lookup w (cfsName f)).isSome then none
  else
    match lookup w (extractedName f) with
    | some (.dir e) =>
      (match lookup w storeName with
      | none =>
        (match T.mkcomposefs e [] with
        | none => none
        | some (img, st) => some (setEntry (setEntry w (cfsName f) (.dir [(c!"image.cfs", .file img)])) storeName (.dir st)))
      | some (.dir s) =>
        (match T.mkcomposefs e s with
        | none => none
        | some (img, st) => some (setEntry (setEntry w (cfsName f) (.dir [(c!"image.cfs", .file img)])) storeName (.dir st)))
      | some _ => none)
    | _ => none

/-- the loop over the methods in `convert_images`, bundle.c:608-640: directory and names of the outputs -/
def convertMethods (T : Tools) (f : Str) : List Str → Dir → Option (Dir × List Str)
  | [], w => some (w, [])
  | a :: l, w =>
    if a = c!"tar-extract" then
      match convertMethods T f l w with
      | none => none
      | some (w', o) => some (w', extractedName f :: o)
    else if a = c!"composefs" then
      if !T.composefs then none
      else
        match composefs T w f with
        | none => none
        | some w1 =>
          match convertMethods T f l w1 with
          | none => none
          | some (w', o) => some (w', cfsName f :: o)
    else if a = c!"keep" then
      match convertMethods T f l w with
      | none => none
      | some (w', o) => some (w', f :: o)
    else none

/-- one image in `convert_images`, bundle.c:573-660 -/
def convertImage (T : Tools) (R : Run) (w : Dir) (i : Image) : Option (Dir × Image) :=
  if i.converted = some [] then none
  else
    match i.convert with
    | none => some (w, i)
    | some ms =>
      match i.filename with
      | none => none
      | some f =>
        let tar := converts i c!"tar-extract" || converts i c!"composefs"
        match (if tar then tarExtract T w f else some w) with
        | none => none
        | some w1 =>
          match convertMethods T f ms w1 with
          | none => none
          | some (w2, outs) =>
            if tar && !converts i c!"tar-extract" && !R.rmExtracted then none
            else
              let w3 := if tar && !converts i c!"tar-extract" then erase w2 (extractedName f) else w2
              match (if converts i c!"keep" then some w3 else unlink w3 f) with
              | none => none
              | some w4 => some (w4, { i with converted := some outs })

/-- `convert_images`, bundle.c:565-662 -/
def convertImages (T : Tools) (R : Run) : Dir → List Image → Option (Dir × List Image)
  | w, [] => some (w, [])
  | w, i :: l =>
    match convertImage T R w i with
    | none => none
    | some (w1, i') =>
      match convertImages T R w1 l with
      | none => none
      | some (w2, l') => some (w2, i' :: l')

/-- `encrypt_bundle_payload`, bundle.c:1002-1049, for the crypt format (:1378-1384). Short reads and writes of the files are the subject of C47. -/
def encryptStep (T : Tools) (R : Run) (m : Manifest) (p : Bytes) : Option (Manifest × Bytes) :=
  if m.format ≠ .crypt then some (m, p)
  else
    match R.key with
    | none => none
    | some k =>
      let r := Crypt.encrypt (T.enc k) p none none
      if r.ok && R.rename then some ({ m with cryptKey := some (Utils.hexEncode k) }, r.out) else none

/-- the bytes of a file -/
def bytesOf (f : Verity.File) : Bytes := f.data.read 0 f.size

/-- `create_verity`, bundle.c:732-813: the manifest with the verity data, and the file -/
def createVerity (T : Tools) (R : Run) (m : Manifest) (p : Bytes) : Option (Manifest × Bytes) :=
  match R.salt with
  | none => none
  | some salt =>
    if p.length % 4096 ≠ 0 ∨ p.length ≤ 4096 then none
    else
      match Verity.create Verity.code (fun b => T.sha (salt ++ b)) (p.length / 4096) (fileDisk p) with
      | none => none
      | some (f, root, total) =>
        some ({ m with veritySalt := some (Utils.hexEncode salt), verityHash := some (Utils.hexEncode root), veritySize := total * 4096 - p.length }, bytesOf f)

/-- `generate_bundle_signature`, bundle.c:898-958, with the size limit of `cms_sign_file`, signature.c:1633-1641 -/
def generateSignature (T : Tools) (running : Str) (m : Manifest) (f : Bytes) : Option Bytes :=
  if m.format = .plain then
    match checkInternal running m with
    | none => none
    | some _ => if f.length > 2 ^ 31 - 1 then none else T.sign true f
  else
    match checkExternal running m with
    | none => none
    | some m' => T.sign false (T.text (prepare m'))

/-- `sign_bundle`, bundle.c:960-990: the complete bundle -/
def signBundle (T : Tools) (R : Run) (running : Str) (m : Manifest) (p : Bytes) : Option Bytes :=
  match (if m.format = .plain then some (m, p) else createVerity T R m p) with
  | none => none
  | some (m', f) =>
    match generateSignature T running m' f with
    | none => none
    | some s => if R.append then some (appendSignature f s) else none

/-- `create_bundle`, bundle.c:1294-1417: the result and the file that is found under the name of the bundle afterwards. -/
def create (T : Tools) (R : Run) (running : Str) (depth : Nat) (content : Dir) (existing : Option Bytes) : Bool × Option Bytes :=
  match existing with
  | some b => (false, some b)
  | none =>
    if !R.workdir then (false, none)
    else
      match linkDir depth true content with
      | none => (false, none)
      | some w =>
        match (openFile w manifestName).bind (loadText T) with
        | none => (false, none)
        | some m =>
          if !checkInput running m then (false, none)
          else if !checkCreate m then (false, none)
          else
            match sync T w m with
            | none => (false, none)
            | some m1 =>
              -- `res` is still TRUE from the step before
              if needsFakeroot R m1 && !R.fakeroot then (true, none)
              else
                match adaptive T m1.images w with
                | none => (false, none)
                | some w1 =>
                  match convertImages T R w1 m1.images with
                  | none => (false, none)
                  | some (w2, imgs) =>
                    if !R.saveManifest then (false, none)
                    else
                      match T.pack (keepMetadata m1) (setEntry w2 manifestName (.file (T.text (prepare { m1 with images := imgs })))) with
                      | none => (false, none)
                      | some p =>
                        match encryptStep T R { m1 with images := imgs } p with
                        | none => (false, none)
                        | some (m3, p1) =>
                          match signBundle T R running m3 p1 with
                          | none => (false, none)
                          | some f =>
                            -- `res` is still TRUE from `sign_bundle`, the bundle is removed
                            if R.rmWorkdir then (true, some f) else (true, none)

/-- `extract_bundle`, bundle.c:2763-2804, with `decrypt_bundle_payload`, :1051-1104. (The output directory does not exist, temporary files can be created.) -/
def extract (T : Tools) (running : Str) (b : Bundle) : Res Dir :=
  match checkPayload running (verityFile T.sha fileDisk) b with
  | .error => .error
  | .abort => .abort
  | .ok b' =>
    match b'.stream with
    | none => .error
    | some f =>
      match b'.manifest with
      | none =>
        (match T.unpack f with
        | none => .error
        | some d => .ok d)
      | some m =>
        if m.format = .crypt then
          match m.cryptKey.bind (Utils.hexDecode · 32) with
          | none => .abort
          | some k =>
            let r := Crypt.decrypt (T.dec k) (Bundle.sub64 b'.size m.veritySize) f none none
            if !r.ok then .error
            else
              match T.unpack r.out with
              | none => .error
              | some d => .ok d
        else
          match T.unpack f with
          | none => .error
          | some d => .ok d

end Rauc.Create
