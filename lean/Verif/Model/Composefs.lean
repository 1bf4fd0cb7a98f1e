import Verif.Model.Artifacts

/-!
# Artifact repositories of type composefs: src/artifacts_composefs.c

In addition to the artifacts (trees with the metadata image `image.cfs`) a repository has a store `.rauc-cfs-store` with the objects (file contents) that the images
refer to. The store is kept apart from the directory here: pruning the directory leaves it alone (artifacts.c:427-431), it matches neither artifacts nor links.
-/

namespace Rauc.Composefs

open Rauc.Artifacts

/-! ## Objects of an image -/

/-- a node of the tree libcomposefs reads from an image: is it a regular file, its payload, its children -/
inductive CNode where
  | mk (isReg : Bool) (payload : Option Str) (children : List CNode)

def CNode.isReg : CNode → Bool | .mk r _ _ => r
def CNode.payload : CNode → Option Str | .mk _ p _ => p
def CNode.children : CNode → List CNode | .mk _ _ c => c

/-- `g_ascii_isxdigit` -/
def xdigit (c : Char) : Bool := decide (c ∈ c!"0123456789abcdefABCDEF")

/-- `composefs_object_name_valid`, artifacts_composefs.c:49-67: `strlen`, the separator, the other characters -/
def nameValid (n : Str) : Bool :=
  decide (n.length = 65) && decide (n[2]? = some '/') && n.zipIdx.all (fun ci => ci.2 == 2 || xdigit ci.1)

mutual
/-- `composefs_collect_objects`, artifacts_composefs.c:72-102 -/
def collect : CNode → Option (List Str)
  | .mk _ _ cs => collectList cs
/-- the loop over the children -/
def collectList : List CNode → Option (List Str)
  | [] => some []
  | .mk r p c :: cs =>
    match r, p with
    | true, some n =>
      if nameValid n then
        match collect (.mk r p c) with
        | none => none
        | some l => match collectList cs with
          | none => none
          | some l' => some (n :: (l ++ l'))
      else none
    | _, _ =>
      match collect (.mk r p c) with
      | none => none
      | some l => match collectList cs with
        | none => none
        | some l' => some (l ++ l')
end

/-- what RAUC relies on: reading an image. `content` is the tree of an artifact (with `image.cfs`), `none` if there is no image or it cannot be loaded -/
abbrev Loader := Bytes → Option CNode

/-- `composefs_objects_from_image`, artifacts_composefs.c:104-135 -/
def objectsOf (load : Loader) (content : Bytes) : Option (List Str) :=
  match load content with
  | none => none
  | some n => collect n

/-! ## State -/

/-- objects by name. Simplification: only regular files; the subdirectories and their removal when empty are represented by one outcome (`rmdirOk`) -/
abbrev Store := Str → Option Bytes

def Store.set (s : Store) (o : Str) (b : Option Bytes) : Store := fun x => if x = o then b else s x

structure CState where
  fs : Fs
  store : Store

/-- as `Artifacts.Run` -/
structure CRun where
  states : List CState
  final : CState
  ok : Bool

def CRun.pure (st : CState) (ok : Bool) : CRun := ⟨[st], st, ok⟩

/-- a run that only changes the directory -/
def lift (store : Store) (r : Run) : CRun := ⟨r.states.map (fun f => ⟨f, store⟩), ⟨r.final, store⟩, r.ok⟩

/-! ## Pruning -/

structure CPruneEnv where
  fs : PruneEnv
  unlinkOk : Str → Bool
  rmdirOk : Bool

/-- the objects of all artifacts in the table, artifacts_composefs.c:213-230 -/
def required (load : Loader) (fs : Fs) : Repo → Option (List Str)
  | [] => some []
  | a :: l =>
    match fs [] (entryName a.name a.digest) with
    | some (.file c) =>
      (match objectsOf load c with
       | none => none
       | some os => match required load fs l with
         | none => none
         | some os' => some (os ++ os'))
    | _ => none

/-- the loop over the table of local objects, artifacts_composefs.c:249-270; the second result is the table afterwards -/
def pruneObjects (unlinkOk : Str → Bool) (req : List Str) : List Str → CState → CRun × List Str
  | [], st => (CRun.pure st true, [])
  | o :: l, st =>
    if o ∈ req then
      let r := pruneObjects unlinkOk req l st
      (r.1, o :: r.2)
    else if unlinkOk o then
      let r := pruneObjects unlinkOk req l ⟨st.fs, st.store.set o none⟩
      (⟨st :: r.1.states, r.1.final, r.1.ok⟩, r.2)
    else (CRun.pure st false, o :: l)

/-- `r_composefs_artifact_repo_prune`, artifacts_composefs.c:203-306; required objects which are missing only lead to a warning (:232-247) -/
def pruneStore (load : Loader) (E : CPruneEnv) (repo : Repo) (tbl : List Str) (st : CState) : CRun × List Str :=
  match required load st.fs repo with
  | none => (CRun.pure st false, tbl)
  | some req =>
    let r := pruneObjects E.unlinkOk req tbl st
    (⟨r.1.states, r.1.final, r.1.ok && E.rmdirOk⟩, r.2)

/-- `r_artifact_repo_prune` for a repository of this type, artifacts.c:365-495 -/
def cPrune (load : Loader) (E : CPruneEnv) (parents : List Str) (repo : Repo) (tbl : List Str) (st : CState) : CRun × List Str :=
  let r := prune E.fs parents repo st.fs
  if r.ok then
    let q := pruneStore load E (pruneRepo E.fs repo) tbl ⟨r.final, st.store⟩
    (⟨(lift st.store r).states ++ q.1.states, q.1.final, q.1.ok⟩, q.2)
  else (lift st.store r, tbl)

/-! ## Installing -/

/-- outcomes while an artifact is installed -/
structure CCopyEnv where
  /-- states of the temporary tree while `cp -a` runs -/
  partials : List Bytes
  /-- did `cp -a` work -/
  cpOk : Bool
  /-- contents of the new objects before they are synced, for instance after a crash -/
  lost : List Store
  /-- no input or output error while copying objects -/
  fetchOk : Bool
  syncfsOk : Bool
  renamed : Bool
  synced : Bool

/-- the objects that are not in the table yet, artifacts_composefs.c:341-349. (The code sorts them by name.) -/
def missing (tbl os : List Str) : List Str := os.eraseDups.filter (fun o => !tbl.contains o)

/-- the store with other contents for the given objects -/
def overlay (names : List Str) (new old : Store) : Store := fun o => if o ∈ names then new o else old o

/-- `g_file_copy` without flags needs the source and refuses to overwrite, utils.c:188-203 -/
def fetchable (bundle store : Store) (names : List Str) : Bool := names.all (fun o => (bundle o).isSome && (store o).isNone)

/-- `r_artifact_install`, artifacts.c:844-960, with `r_composefs_artifact_install`, artifacts_composefs.c:315-379. `bundle` is the object store in the bundle. -/
def cInstall (load : Loader) (E : CCopyEnv) (n d : Str) (content : Bytes) (bundle : Store) (tbl : List Str) (st : CState) : CRun × List Str :=
  if (st.fs [] (tmpEntry n d)).isSome || (st.fs [] (entryName n d)).isSome then (CRun.pure st false, tbl)
  else
    let part := st :: E.partials.map (fun c => (⟨st.fs.set [] (tmpEntry n d) (some (.file c)), st.store⟩ : CState))
    if !E.cpOk then (⟨part, part.getLast?.getD st, false⟩, tbl)
    else
      let full := st.fs.set [] (tmpEntry n d) (some (.file content))
      let copied := part ++ [⟨full, st.store⟩]
      match objectsOf load content with
      | none => (⟨copied, ⟨full, st.store⟩, false⟩, tbl)
      | some os =>
        let miss := missing tbl os
        let lost := copied ++ E.lost.map (fun w => ⟨full, overlay miss w st.store⟩)
        if !(E.fetchOk && fetchable bundle st.store miss) then (⟨lost, lost.getLast?.getD st, false⟩, tbl)
        else
          let store := overlay miss bundle st.store
          if !E.syncfsOk then (⟨lost ++ [⟨full, store⟩], ⟨full, store⟩, false⟩, tbl ++ miss)
          else if !E.renamed then (⟨lost ++ [⟨full, store⟩], ⟨full, store⟩, false⟩, tbl ++ miss)
          else
            let done := (full.set [] (tmpEntry n d) none).set [] (entryName n d) (some (.file content))
            (⟨lost ++ [⟨full, store⟩, ⟨done, store⟩], ⟨done, store⟩, E.synced⟩, tbl ++ miss)

structure CPlanEnv where
  commit1 : CommitEnv
  copy : CCopyEnv
  commit2 : CommitEnv

/-- an image of the bundle with its object store -/
structure CPlan where
  name : Str
  digest : Str
  content : Bytes
  bundle : Store

def CPlan.plain (x : CPlan) : Plan := ⟨x.name, x.digest, x.content⟩

/-- `handle_artifact_install_plan`, install.c:1368-1442 -/
def cPlan (load : Loader) (E : CPlanEnv) (parents keep : List Str) (p : Str) (repo : Repo) (x : CPlan) (tbl : List Str) (st : CState) : CRun × List Str :=
  let r1 := lift st.store (commit E.commit1 parents (dropOld keep repo) st.fs)
  if !r1.ok then (r1, tbl)
  else
    let r2 := if (find (dropOld keep repo) x.name x.digest).isSome then (CRun.pure r1.final true, tbl)
      else cInstall load E.copy x.name x.digest x.content x.bundle tbl r1.final
    if !r2.1.ok then (⟨r1.states ++ r2.1.states, r2.1.final, false⟩, r2.2)
    else
      let r3 := lift r2.1.final.store (commit E.commit2 parents (planRepo keep p repo x.plain) r2.1.final.fs)
      (⟨r1.states ++ r2.1.states ++ r3.states, r3.final, r3.ok⟩, r2.2)

/-- the plans, one after the other -/
def cPlans (load : Loader) (E : Nat → CPlanEnv) (parents keep : List Str) (p : Str) :
    Nat → Repo → List CPlan → List Str → CState → CRun × Repo × List Str
  | _, repo, [], tbl, st => (CRun.pure st true, repo, tbl)
  | i, repo, x :: l, tbl, st =>
    let r := cPlan load (E i) parents keep p repo x tbl st
    if r.1.ok then
      let r' := cPlans load E parents keep p (i + 1) (planRepo keep p repo x.plain) l r.2 r.1.final
      (⟨r.1.states ++ r'.1.states, r'.1.final, r'.1.ok⟩, r'.2)
    else (r.1, repo, r.2)

structure CSessionEnv where
  ls : Str → List Str
  /-- the objects found, artifacts_composefs.c:139-201 -/
  objects : List Str
  prune1 : CPruneEnv
  plans : Nat → CPlanEnv
  prune2 : CPruneEnv

/-- an installation, as `Artifacts.session` -/
def cSession (load : Loader) (E : CSessionEnv) (parents : List Str) (p : Str) (keep : List Str) (plans : List CPlan) (st : CState) : CRun :=
  match prepare E.ls parents st.fs with
  | none => CRun.pure st false
  | some repo =>
    let r1 := cPrune load E.prune1 parents repo E.objects st
    if !r1.1.ok then r1.1
    else
      let r2 := cPlans load E.plans parents keep p 0 (pruneRepo E.prune1.fs repo) plans r1.2 r1.1.final
      if !r2.1.ok then ⟨r1.1.states ++ r2.1.states, r2.1.final, false⟩
      else
        let r3 := cPrune load E.prune2 parents r2.2.1 r2.2.2 r2.1.final
        ⟨r1.1.states ++ r2.1.states ++ r3.1.states, r3.1.final, r3.1.ok⟩

end Rauc.Composefs
