import Verif.Model.Resign

/-!
# Conversion to casync: src/bundle.c:219-400, 1525-1691
-/

namespace Rauc.Create

open Bundle (Bundle Res)
open ManifestFile (prepare)
open Handlers (globMatch)

/-- casync (or desync): the chunk store is a directory -/
structure Casync where
  /-- `casync_make_blob`, bundle.c:315-387: content of the file, store before; index, store after -/
  blob : Bytes → Dir → Option (Bytes × Dir)
  /-- `casync_make_arch`, bundle.c:219-313 -/
  arch : Bytes → Dir → Option (Bytes × Dir)

/-- `image_is_archive`, bundle.c:389-400 -/
def isArchive (f : Str) : Bool := globMatch c!"*.tar*" f || globMatch c!"*.catar" f

/-- the name of the index file, bundle.c:1598-1611 -/
def casyncName (f : Str) : Str := if isArchive f then f ++ c!".caidx" else f ++ c!".caibx"

/-- content directory, chunk store, files outside of the content directory that were written or removed -/
structure CState where
  dir : Dir
  store : Dir
  outside : List Str

/-- one image, bundle.c:1580-1635. The manifest has not been checked: a file name with a slash leads out of the directory (`out` is what is found there). If the file cannot be removed, there is only a warning. -/
def casyncImage (C : Casync) (out : Str → Option Bytes) (ignore : List Str) (s : CState) (i : Image) : CState × Option Image :=
  match i.filename with
  | none => (s, some i)
  | some f =>
    if ignore.contains i.slotclass then (s, some i)
    else
      match (if '/' ∈ f then out f else openFile s.dir f) with
      | none => (s, none)
      | some b =>
        match (if isArchive f then C.arch b s.store else C.blob b s.store) with
        | none => (s, none)
        | some (x, st) =>
          if '/' ∈ f then (⟨s.dir, st, casyncName f :: f :: s.outside⟩, some { i with filename := some (casyncName f) })
          else
            let w := setEntry s.dir (casyncName f) (.file x)
            (⟨(unlink w f).getD w, st, s.outside⟩, some { i with filename := some (casyncName f) })

/-- the loop over the images, bundle.c:1580-1635 -/
def casyncImages (C : Casync) (out : Str → Option Bytes) (ignore : List Str) : CState → List Image → CState × Option (List Image)
  | s, [] => (s, some [])
  | s, i :: l =>
    match casyncImage C out ignore s i with
    | (s1, none) => (s1, none)
    | (s1, some i') =>
      match casyncImages C out ignore s1 l with
      | (s2, none) => (s2, none)
      | (s2, some l') => (s2, some (i' :: l'))

/-- `convert_to_casync_bundle`, bundle.c:1525-1656, and `create_casync_bundle`, :1658-1691: the result, the file under the name of the output, the store, and the files outside that were touched.
(Temporary files can be created. The file under the name of the output is removed on failure.) -/
def casync (T : Tools) (R : Run) (C : Casync) (out : Str → Option Bytes) (running : Str) (ignore : List Str) (store : Dir) (b : Bundle) (existing : Option Bytes) :
    Res (Bool × Option Bytes × Dir × List Str) :=
  match existing with
  | some x => .ok (false, some x, store, [])
  | none =>
    match extract T running b with
    | .error => .ok (false, none, store, [])
    | .abort => .abort
    | .ok d =>
      match (openFile d manifestName).bind (loadText T) with
      | none => .ok (false, none, store, [])
      | some m =>
        match casyncImages C out ignore ⟨d, store, []⟩ m.images with
        | (s, none) => .ok (false, none, s.store, s.outside)
        | (s, some imgs) =>
          let m2 := { m with images := imgs, veritySalt := none, verityHash := none, veritySize := 0 }
          if !R.saveManifest then .ok (false, none, s.store, s.outside)
          else
            match T.pack false (setEntry s.dir manifestName (.file (T.text (prepare m2)))) with
            | none => .ok (false, none, s.store, s.outside)
            | some p =>
              match signBundle T R running m2 p with
              | none => .ok (false, none, s.store, s.outside)
              | some f => .ok (true, some f, s.store, s.outside)

end Rauc.Create
