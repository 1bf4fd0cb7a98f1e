import Verif.Model.Copy
import Verif.Lib.Str

/-!
# The data of an artifact: src/artifacts.c:712-825, 844-960

What `r_artifact_install` does to the disk for repositories of type `files`, `trees` and `composefs`, in the order in which it does it. The calls that fail are arbitrary.
-/

namespace Rauc.ArtifactData

/-- an image for an artifact -/
structure Img where
  filename : Str
  /-- the announced size -/
  size : Nat
  /-- `convert=` -/
  convert : List Str := []
  /-- `converted=` -/
  converted : List Str := []
deriving DecidableEq, Repr

inductive Ev where
  /-- the temporary file was created -/
  | create
  /-- data was appended to it -/
  | write (b : Bytes)
  /-- `fsync` of the temporary file worked -/
  | fsync
  /-- the temporary directory was created -/
  | mkdir
  /-- a program was run -/
  | run (argv : List Str) (ok : Bool)
  /-- `r_composefs_artifact_install` (Model/Composefs) -/
  | composefs (name : Str) (ok : Bool)
  /-- `syncfs` worked -/
  | syncfs
  /-- the temporary name was replaced by the final one -/
  | rename
  /-- `fsync` of the directory worked -/
  | fsyncDir
deriving DecidableEq, Repr

/-- which calls work -/
structure Env where
  openImage : Bool := true
  create : Bool := true
  io : Nat → Copy.Io
  fsync : Bool := true
  close : Bool := true
  mkdir : Bool := true
  /-- the program exits with status 0 -/
  run : Bool := true
  /-- the original image exists -/
  original : Bool := true
  openDir : Bool := true
  syncfs : Bool := true
  rename : Bool := true
  fsyncDir : Bool := true

abbrev Res := List Ev × Bool

def writes (ops : List Copy.Op) : List Ev := ops.filterMap fun
  | .write _ b => some (.write b)
  | .sync => none

/-- `files_artifact_install`, artifacts.c:712-754; `data` is the content of the image file -/
def files (E : Env) (img : Img) (data : Bytes) : Res :=
  if !E.openImage then ([], false)
  else if !E.create then ([], false)
  else
    let r := Copy.copyStream E.io img.size 0 data
    let t := .create :: writes r.ops
    if !r.ok then (t, false)
    else if !E.fsync then (t, false)
    else (t ++ [.fsync], E.close)

/-- `tree_artifact_install_tar`, artifacts.c:756-790 -/
def treeTar (E : Env) (tmp name : Str) : Res :=
  if !E.mkdir then ([], false)
  else ([.mkdir, .run [c!"tar", c!"--numeric-owner", c!"--acl", c!"--selinux", c!"--xattrs", c!"-xf", name, c!"-C", tmp] E.run], E.run)

/-- `r_tree_artifact_install_extracted`, artifacts.c:792-814 -/
def treeCopy (E : Env) (tmp name : Str) : Res := ([.run [c!"cp", c!"-a", name, tmp] E.run], E.run)

/-- `artifact_get_converted`, artifacts.c:817-842 -/
def getConverted (img : Img) (method : Str) : Option Str :=
  if img.converted.isEmpty then none
  else if img.convert.length ≠ img.converted.length then none
  else ((img.convert.zip img.converted).find? (fun x => x.1 == method)).map (·.2)

inductive RepoType where
  | files
  | trees
  | composefs
deriving DecidableEq, Repr

/-- the data, artifacts.c:874-918 -/
def place (E : Env) (typ : RepoType) (tmp : Str) (img : Img) (data : Bytes) : Res :=
  match typ with
  | .files => files E img data
  | .trees =>
    match getConverted img c!"tar-extract" with
    | some name => treeCopy E tmp name
    | none =>
      match getConverted img c!"keep" with
      | some name => treeTar E tmp name
      | none => if !E.original then ([], false) else treeTar E tmp img.filename
  | .composefs =>
    match getConverted img c!"composefs" with
    | some name => ([.composefs name E.run], E.run)
    | none => ([], false)

/-- `r_artifact_install`, artifacts.c:844-960 -/
def install (E : Env) (typ : RepoType) (tmp : Str) (img : Img) (data : Bytes) : Res :=
  let (t, ok) := place E typ tmp img data
  if !ok then (t, false)
  else if !E.openDir then (t, false)
  else if !E.syncfs then (t, false)
  else if !E.rename then (t ++ [.syncfs], false)
  else if !E.fsyncDir then (t ++ [.syncfs, .rename], false)
  else (t ++ [.syncfs, .rename, .fsyncDir], true)

end Rauc.ArtifactData
