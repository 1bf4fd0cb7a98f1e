import Verif.Model.Utils

/-!
# Artifact repositories: src/artifacts.c and the installation of artifacts in src/install.c

A repository is a directory with the data of the artifacts (`.artifact-<name>-<digest>`, a file or a tree; both are a `file` with some content here) and with symlinks to them,
directly in the repository or in one subdirectory per parent slot.
-/

namespace Rauc.Artifacts

open Utils (Node Dir)

/-! ## Names -/

def prefixA : Str := c!".artifact-"

/-- artifacts.c:131 -/
def entryName (name digest : Str) : Str := prefixA ++ name ++ '-' :: digest

def lowerHex (c : Char) : Bool := decide (c ∈ c!"0123456789abcdef")

/-- splits at the last `-`: `(.*)-([^-]*)` -/
def splitLast (s : Str) : Option (Str × Str) :=
  match s.reverse.dropWhile (· ≠ '-') with
  | [] => none
  | _ :: n => some (n.reverse, (s.reverse.takeWhile (· ≠ '-')).reverse)

/-- the regular expression `^\.artifact-(.*)-([0-9a-f]+)$`, artifacts.c:259-263.
Simplification: file names with line breaks (which `.` does not match) are not modelled. -/
def parseEntry (s : Str) : Option (Str × Str) :=
  if prefixA.isPrefixOf s then
    match splitLast (s.drop prefixA.length) with
    | none => none
    | some (n, d) => if d ≠ [] ∧ d.all lowerHex then some (n, d) else none
  else none

/-- the part of a link target before the name, artifacts.c:532-537 -/
def up (parent : Str) : Str := if parent ≠ [] then c!"../" else []

/-- artifacts.c:532-537 -/
def targetOf (parent name digest : Str) : Str := up parent ++ entryName name digest

/-- the regular expression for links, artifacts.c:187-191 -/
def parseTarget (parent target : Str) : Option (Str × Str) :=
  if (up parent).isPrefixOf target then parseEntry (target.drop (up parent).length) else none

/-! ## State -/

/-- the directories: `[]` is the repository itself, the others are the subdirectories for the parents -/
abbrev Fs := Str → Dir

def Fs.upd (fs : Fs) (p : Str) (d : Dir) : Fs := fun q => if q = p then d else fs q

def Fs.set (fs : Fs) (p n : Str) (x : Option Node) : Fs := fs.upd p ((fs p).set n x)

/-- `RArtifact`, include/artifacts.h: what matters here -/
structure Artifact where
  name : Str
  digest : Str
  refs : List Str
deriving DecidableEq, Repr

/-- the table of a repository, in the order in which it is iterated -/
abbrev Repo := List Artifact

/-- the result of an operation: the states the directory passed through (each a possible crash point), the last state, and whether it worked -/
structure Run where
  states : List Fs
  final : Fs
  ok : Bool

def Run.pure (fs : Fs) (ok : Bool) : Run := ⟨[fs], fs, ok⟩

/-- continue after success -/
def Run.bind (r : Run) (k : Fs → Run) : Run :=
  if r.ok then ⟨r.states ++ (k r.final).states, (k r.final).final, (k r.final).ok⟩ else r

/-! ## Preparing -/

def addRef (repo : Repo) (n d p : Str) : Repo :=
  repo.map (fun a => if a.name = n ∧ a.digest = d then { a with refs := a.refs ++ [p] } else a)

/-- one entry of the loop of `artifact_repo_read_links`, artifacts.c:204-239 -/
def readLink (fs : Fs) (p : Str) (repo : Repo) (name : Str) : Repo :=
  if name.head? = some '.' then repo
  else
    match fs p name with
    | some (.link t) =>
      match parseTarget p t with
      | none => repo
      | some (n, d) => addRef repo n d p
    | _ => repo

/-- `r_artifact_repo_prepare`, artifacts.c:244-333. `ls p` is the listing of the directory `p`. `none` is the failed assertion for an artifact which is a symlink (:143).
Simplification: the parents' directories exist already. -/
def prepare (ls : Str → List Str) (parents : List Str) (fs : Fs) : Option Repo :=
  if (ls []).any (fun n => (parseEntry n).isSome && (match fs [] n with | some (.link _) => true | _ => false)) then none
  else
    some (parents.foldl (fun r p => (ls p).foldl (readLink fs p) r)
      (((ls []).filterMap parseEntry).map (fun nd => ⟨nd.1, nd.2, []⟩)))

/-! ## Committing -/

/-- outcomes of the system calls during a commit -/
structure CommitEnv where
  link : Str → Str → Utils.LinkEnv
  unlinkOk : Str → Str → Bool
  sync : Bool

/-- artifacts.c:521-546: the artifact the link will refer to -/
def chosen (repo : Repo) (p n : Str) : Option Artifact := repo.find? (fun a => a.name = n ∧ p ∈ a.refs)

/-- one iteration of the loop, artifacts.c:512-564 -/
def commitOne (E : CommitEnv) (repo : Repo) (p n : Str) (fs : Fs) : Run :=
  match chosen repo p n with
  | some a =>
    let u := Utils.updateSymlink (E.link p n) (fs p) (targetOf p a.name a.digest) n
    ⟨u.1.map (fs.upd p), fs.upd p (u.1.getLast?.getD (fs p)), u.2⟩
  | none =>
    match fs p n with
    | none => Run.pure fs true
    | some .dir => Run.pure fs false
    | some _ => if E.unlinkOk p n then ⟨[fs, fs.set p n none], fs.set p n none, true⟩ else Run.pure fs false

/-- the names in the table -/
def names (repo : Repo) : List Str := (repo.map (·.name)).eraseDups

def commitNames (E : CommitEnv) (repo : Repo) (p : Str) : List Str → Fs → Run
  | [], fs => Run.pure fs true
  | n :: l, fs => (commitOne E repo p n fs).bind (commitNames E repo p l)

def commitParents (E : CommitEnv) (repo : Repo) : List Str → Fs → Run
  | [], fs => Run.pure fs E.sync
  | p :: l, fs => (commitNames E repo p (names repo) fs).bind (commitParents E repo l)

/-- `r_artifact_repo_commit`, artifacts.c:497-579 -/
def commit (E : CommitEnv) (parents : List Str) (repo : Repo) (fs : Fs) : Run := commitParents E repo parents fs

/-! ## Activating, installing -/

/-- `r_artifact_deactivate`, artifacts.c:991-1005: removes the first reference only -/
def deactivate (a : Artifact) (p : Str) : Artifact := { a with refs := a.refs.erase p }

/-- `r_artifact_activate`, artifacts.c:962-989 -/
def activate (repo : Repo) (n d p : Str) : Repo :=
  repo.map (fun a =>
    if a.name ≠ n then a
    else if a.digest ≠ d then deactivate a p
    else if p ∈ a.refs then a else { a with refs := a.refs ++ [p] })

/-- install.c:1337-1358: drop the references to artifacts that are not in the manifest -/
def dropOld (keep : List Str) (repo : Repo) : Repo := repo.map (fun a => if a.name ∈ keep then a else { a with refs := [] })

/-- `r_artifact_find`, artifacts.c:827-842 -/
def find (repo : Repo) (n d : Str) : Option Artifact := repo.find? (fun a => a.name = n ∧ a.digest = d)

/-- outcomes while the data is copied -/
structure CopyEnv where
  /-- incomplete contents of the temporary file over time -/
  partials : List Bytes
  /-- did copying and syncing work -/
  copied : Bool
  renamed : Bool
  synced : Bool

def tmpEntry (n d : Str) : Str := entryName n d ++ c!".tmp"

/-- what the temporary file holds when the copy returns: everything if it worked, else what was written before the error -/
def CopyEnv.written (E : CopyEnv) (content : Bytes) : Bytes := if E.copied then content else E.partials.getLast?.getD []

/-- `r_artifact_install`, artifacts.c:844-960: write to a temporary name, sync, rename. The temporary name must not exist (asserted). -/
def installData (E : CopyEnv) (n d : Str) (content : Bytes) (fs : Fs) : Run :=
  if (fs [] (tmpEntry n d)).isSome || (fs [] (entryName n d)).isSome then Run.pure fs false
  else
    let part := (E.partials.map (fun c => fs.set [] (tmpEntry n d) (some (.file c))))
    if !E.copied then ⟨fs :: part, (fs :: part).getLast?.getD fs, false⟩
    else
      let full := fs.set [] (tmpEntry n d) (some (.file (E.written content)))
      if !E.renamed then ⟨fs :: part ++ [full], full, false⟩
      else
        let done := (full.set [] (tmpEntry n d) none).set [] (entryName n d) (some (.file (E.written content)))
        ⟨fs :: part ++ [full, done], done, E.synced⟩

structure PlanEnv where
  commit1 : CommitEnv
  copy : CopyEnv
  commit2 : CommitEnv

/-- an image for the repository: name, digest, content -/
structure Plan where
  name : Str
  digest : Str
  content : Bytes

/-- the table after an installation, install.c:1378-1430 -/
def planRepo (keep : List Str) (p : Str) (repo : Repo) (x : Plan) : Repo :=
  let r1 := dropOld keep repo
  activate (if (find r1 x.name x.digest).isSome then r1 else r1 ++ [⟨x.name, x.digest, []⟩]) x.name x.digest p

/-- `handle_artifact_install_plan`, install.c:1368-1442, for the parent `p` (always the empty one in the code, :1429) -/
def installPlan (E : PlanEnv) (parents keep : List Str) (p : Str) (repo : Repo) (x : Plan) (fs : Fs) : Run :=
  (commit E.commit1 parents (dropOld keep repo) fs).bind (fun fs1 =>
    ((if (find (dropOld keep repo) x.name x.digest).isSome then Run.pure fs1 true else installData E.copy x.name x.digest x.content fs1)).bind (fun fs2 =>
      commit E.commit2 parents (planRepo keep p repo x) fs2))

/-! ## Pruning -/

inductive OpenCheck where
  | closed | opened | error
deriving DecidableEq, Repr

structure PruneEnv where
  ls : Str → List Str
  /-- `r_tree_check_open` for an artifact -/
  check : Str → Str → OpenCheck
  /-- contents of a tree while it is being removed, and whether removing works -/
  rmPartials : Str → Str → List Bytes
  rmOk : Str → Str → Bool

/-- `rm_tree`, utils.c:219-234 -/
def rmTree (E : PruneEnv) (p n : Str) (fs : Fs) : Run :=
  let part := (E.rmPartials p n).map (fun c => fs.set p n (some (.file c)))
  if E.rmOk p n then ⟨fs :: part ++ [fs.set p n none], fs.set p n none, true⟩ else ⟨fs :: part, (fs :: part).getLast?.getD fs, false⟩

/-- `artifact_repo_prune_subdir`, artifacts.c:335-363 -/
def pruneSub (E : PruneEnv) (p : Str) : List Str → Fs → Run
  | [], fs => Run.pure fs true
  | n :: l, fs =>
    match fs p n with
    | some (.link _) => pruneSub E p l fs
    | none => pruneSub E p l fs
    | some _ => (rmTree E p n fs).bind (pruneSub E p l)

def pruneSubs (E : PruneEnv) : List Str → Fs → Run
  | [], fs => Run.pure fs true
  | p :: l, fs => (if p = [] then Run.pure fs true else pruneSub E p (E.ls p) fs).bind (pruneSubs E l)

/-- artifacts.c:413-432: may an entry of the repository remain, apart from artifacts? Repositories of type composefs are not modelled. -/
def expected (parents : List Str) (n : Str) (x : Option Node) : Bool :=
  if parents = [[]] then (match x with | some (.link _) => true | _ => false) else decide (n ∈ parents) && decide (x = some .dir)

/-- artifacts.c:405-441 -/
def pruneRoot (E : PruneEnv) (parents : List Str) : List Str → Fs → Run
  | [], fs => Run.pure fs true
  | n :: l, fs =>
    if (parseEntry n).isSome || expected parents n (fs [] n) || (fs [] n).isNone then pruneRoot E parents l fs
    else (rmTree E [] n fs).bind (pruneRoot E parents l)

/-- artifacts.c:443-484 -/
def pruneUnused (E : PruneEnv) : Repo → Fs → Run
  | [], fs => Run.pure fs true
  | a :: l, fs =>
    if a.refs ≠ [] then pruneUnused E l fs
    else
      match E.check a.name a.digest with
      | .opened => pruneUnused E l fs
      | .error => Run.pure fs false
      | .closed => (rmTree E [] (entryName a.name a.digest) fs).bind (pruneUnused E l)

/-- `r_artifact_repo_prune`, artifacts.c:365-495 -/
def prune (E : PruneEnv) (parents : List Str) (repo : Repo) (fs : Fs) : Run :=
  (pruneSubs E parents fs).bind (fun fs1 => (pruneRoot E parents (E.ls []) fs1).bind (fun fs2 => pruneUnused E repo fs2))

/-- the table after pruning -/
def pruneRepo (E : PruneEnv) (repo : Repo) : Repo := repo.filter (fun a => a.refs ≠ [] ∨ E.check a.name a.digest ≠ .closed)

/-! ## A whole installation, as far as one repository is concerned -/

/-- the plans, one after the other -/
def plansLoop (E : Nat → PlanEnv) (parents keep : List Str) (p : Str) : Nat → Repo → List Plan → Fs → Run × Repo
  | _, repo, [], fs => (Run.pure fs true, repo)
  | i, repo, x :: l, fs =>
    let r := installPlan (E i) parents keep p repo x fs
    if r.ok then
      let r' := plansLoop E parents keep p (i + 1) (planRepo keep p repo x) l r.final
      (⟨r.states ++ r'.1.states, r'.1.final, r'.1.ok⟩, r'.2)
    else (r, repo)

structure SessionEnv where
  ls : Str → List Str
  prune1 : PruneEnv
  plans : Nat → PlanEnv
  prune2 : PruneEnv

/-- `r_artifacts_init` and `r_artifacts_prune` (install.c:527-536), the plans, and `r_artifacts_prune` again (:1502). `keep` are the artifacts of which the manifest has an image
(of any variant). -/
def session (E : SessionEnv) (parents : List Str) (p : Str) (keep : List Str) (plans : List Plan) (fs : Fs) : Run :=
  match prepare E.ls parents fs with
  | none => Run.pure fs false
  | some repo =>
    let r1 := prune E.prune1 parents repo fs
    if !r1.ok then r1
    else
      let r2 := plansLoop E.plans parents keep p 0 (pruneRepo E.prune1 repo) plans r1.final
      if !r2.1.ok then ⟨r1.states ++ r2.1.states, r2.1.final, false⟩
      else
        let r3 := prune E.prune2 parents r2.2 r2.1.final
        ⟨r1.states ++ r2.1.states ++ r3.states, r3.final, r3.ok⟩

end Rauc.Artifacts
