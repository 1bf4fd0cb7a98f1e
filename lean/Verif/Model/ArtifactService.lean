import Verif.Model.Artifacts

/-!
# The service's table of artifacts: src/artifacts.c:244-333, 369-495, 581-621, 655-710, src/install.c:525-536, 1327-1440, src/service.c:456-480, src/main.c:2460-2465

One repository without parents during the life of one `rauc service`. The table (`repo->artifacts`) is read at the start and again by every installation; GetArtifactStatus answers from the table
without reading the directory again. `r_artifact_repo_prepare` frees the table before it opens the directory.
-/

namespace Rauc.ArtifactService

open Artifacts

/-- a pointer member of `RArtifactRepo` -/
inductive Ptr (α : Type) where
  | null
  | live (x : α)
  /-- not NULL, but what it points to was freed -/
  | freed

structure St where
  fs : Fs
  /-- `repo->artifacts` -/
  arts : Ptr Repo := .null
  /-- `repo->possible_references` -/
  refs : Ptr (List Str) := .null
  /-- freed memory was not used so far -/
  alive : Bool := true

/-- what `r_artifacts_init` meets -/
structure InitEnv where
  /-- the repositories before this one could be prepared, artifacts.c:593 -/
  reached : Bool := true
  /-- the directory can be opened, artifacts.c:265 -/
  dirOk : Bool := true
  /-- its content, for `artifact_repo_read_links` too -/
  ls : Str → List Str
  /-- the directory can be opened again to read the links, artifacts.c:195 -/
  linksOk : Bool := true
  /-- the repositories after this one can be prepared -/
  othersOk : Bool := true

/-- `if (p) …_destroy (p)`, artifacts.c:251-254: destroying what was freed already is a crash -/
def destroy {α : Type} : Ptr α → Ptr α × Bool
  | .null => (.null, true)
  | .live _ => (.freed, true)
  | .freed => (.freed, false)

/-- `r_artifacts_init` with `r_artifact_repo_prepare`, artifacts.c:244-333, 581-602; the result says whether it succeeded. -/
def init (E : InitEnv) (s : St) : St × Bool :=
  if !E.reached then (s, false)
  else
    let (a, ok1) := destroy s.arts
    let (r, ok2) := destroy s.refs
    if !ok1 || !ok2 then ({ s with alive := false }, false)
    else if !E.dirOk then ({ s with arts := a, refs := r }, false)
    else
      match prepare E.ls [] s.fs with
      | none => ({ s with alive := false }, false)
      | some t0 =>
        -- artifacts.c:318-327; without parents the only possible reference is the empty one
        if !E.linksOk then ({ s with arts := .live t0, refs := .live [[]] }, false)
        else
          match prepare E.ls [[]] s.fs with
          | none => ({ s with alive := false }, false)
          | some t => ({ s with arts := .live t, refs := .live [[]] }, E.othersOk)

/-- `r_artifacts_to_dict`, artifacts.c:655-710, for GetArtifactStatus (service.c:456-480): `none`: the service crashed. The dictionary itself is Model/StatusView. -/
def status (s : St) : Option Repo :=
  match s.arts with
  | .live t => some t
  | _ => none

/-- the table after the loop artifacts.c:443-484: an artifact leaves it when its data was removed -/
def pruneTable (E : PruneEnv) : Repo → Repo
  | [] => []
  | a :: l =>
    if a.refs ≠ [] then a :: pruneTable E l
    else
      match E.check a.name a.digest with
      | .opened => a :: pruneTable E l
      | .error => a :: l
      | .closed => if E.rmOk [] (entryName a.name a.digest) then pruneTable E l else a :: l

/-- the table after `r_artifact_repo_prune`, artifacts.c:369-495 -/
def afterPrune (E : PruneEnv) (repo : Repo) (fs : Fs) : Repo :=
  if ((pruneSubs E [[]] fs).bind (fun fs1 => pruneRoot E [[]] (E.ls []) fs1)).ok then pruneTable E repo else repo

/-- the table after one plan, install.c:1368-1440: the references are dropped and the artifact is inserted before the system calls that can fail -/
def afterPlan (E : PlanEnv) (keep : List Str) (repo : Repo) (x : Plan) (fs : Fs) : Repo :=
  let r1 := dropOld keep repo
  let c := commit E.commit1 [[]] r1 fs
  if !c.ok then r1
  else if (find r1 x.name x.digest).isSome then planRepo keep [] repo x
  else if !(installData E.copy x.name x.digest x.content c.final).ok then r1 ++ [⟨x.name, x.digest, []⟩]
  else planRepo keep [] repo x

/-- the table after the plans -/
def afterPlans (E : Nat → PlanEnv) (keep : List Str) : Nat → Repo → List Plan → Fs → Repo
  | _, repo, [], _ => repo
  | i, repo, x :: l, fs =>
    let r := installPlan (E i) [[]] keep [] repo x fs
    if r.ok then afterPlans E keep (i + 1) (afterPlan (E i) keep repo x fs) l r.final else afterPlan (E i) keep repo x fs

/-- the table after an installation (install.c:525-536, the plans, install.c:1502), `repo` is the table after `r_artifacts_init` -/
def afterSession (E : SessionEnv) (keep : List Str) (plans : List Plan) (repo : Repo) (fs : Fs) : Repo :=
  let r1 := prune E.prune1 [[]] repo fs
  let t1 := afterPrune E.prune1 repo fs
  if !r1.ok then t1
  else
    let r2 := plansLoop E.plans [[]] keep [] 0 t1 plans r1.final
    let t2 := afterPlans E.plans keep 0 t1 plans r1.final
    if !r2.1.ok then t2 else afterPrune E.prune2 t2 r2.1.final

structure Install where
  init : InitEnv
  env : SessionEnv
  keep : List Str
  plans : List Plan

/-- an installation, as far as the repository is concerned; the result says whether it succeeded -/
def install (i : Install) (s : St) : St × Bool :=
  match init i.init s with
  | (s, false) => (s, false)
  | (s, true) =>
    match s.arts with
    | .live t =>
      let r := session { i.env with ls := i.init.ls } [[]] [] i.keep i.plans s.fs
      ({ s with fs := r.final, arts := .live (afterSession i.env i.keep i.plans t s.fs) }, r.ok)
    | _ => ({ s with alive := false }, false)

inductive Op where
  | install (i : Install)
  | status

def step (s : St) : Op → St
  | op =>
    if !s.alive then s
    else
      match op with
      | .install i => (install i s).1
      | .status => if (status s).isSome then s else { s with alive := false }

/-- `rauc service`: if the repositories cannot be prepared at the start it exits (main.c:2460) -/
def start (E : InitEnv) (fs : Fs) : Option St :=
  match init E { fs := fs } with
  | (s, true) => some s
  | (_, false) => none

def run (s : St) (ops : List Op) : St := ops.foldl step s

end Rauc.ArtifactService
