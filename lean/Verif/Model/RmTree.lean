import Verif.Lib.Str

/-!
# Walking, removing and checking directory trees: src/utils.c:207-332 (`rm_tree`, `r_tree_check_open`)

`nftw(path, cb, 20, FTW_DEPTH | FTW_MOUNT | FTW_PHYS)` (glibc) is modelled as a walk over the tree at the path, as it is when it is reached; no other process changes the tree
meanwhile.
-/

namespace Rauc.RmTree

/-- a path, as the list of its components -/
abbrev Path := List Str

/-- a file that is neither a directory nor a symbolic link -/
inductive Kind where
  | regular
  | fifo
  /-- device nodes -/
  | device
  | socket
deriving DecidableEq, Repr

mutual
/-- a file, a symbolic link or a directory; `isOpen`: another process has the file open, `openable`: open(2) succeeds -/
inductive Tree where
  | file (k : Kind) (isOpen openable : Bool)
  | link (target : Path)
  | dir (readable : Bool) (ents : Forest)
/-- the entries of a directory in the order of readdir(3); `other`: another file system is mounted there -/
inductive Forest where
  | nil
  | cons (name : Str) (other : Bool) (t : Tree) (rest : Forest)
end

/-- the type flags of nftw(3) that occur with FTW_PHYS and FTW_DEPTH -/
inductive Flag where
  | f
  | sl
  | dp
  | dnr
deriving DecidableEq, Repr

/-- what the callback learns about the file -/
structure Info where
  flag : Flag
  kind : Kind := .regular
  isOpen : Bool := false
  openable : Bool := true
deriving DecidableEq, Repr

mutual
/-- `nftw` with FTW_DEPTH, FTW_MOUNT and FTW_PHYS: files before their directory, nothing on other file systems, links are not followed; it ends when the callback does not return 0 -/
def walk {σ : Type} (cb : Path → Info → σ → σ × Int) : Tree → Path → σ → σ × Int
  | .file k o a, p, s => cb p { flag := .f, kind := k, isOpen := o, openable := a } s
  | .link _, p, s => cb p { flag := .sl } s
  | .dir readable es, p, s =>
    if !readable then cb p { flag := .dnr } s
    else
      match walkAll cb es p s with
      | (s, 0) => cb p { flag := .dp } s
      | (s, r) => (s, r)
def walkAll {σ : Type} (cb : Path → Info → σ → σ × Int) : Forest → Path → σ → σ × Int
  | .nil, _, s => (s, 0)
  | .cons n other t rest, p, s =>
    if other then walkAll cb rest p s
    else
      match walk cb t (p ++ [n]) s with
      | (s, 0) => walkAll cb rest p s
      | (s, r) => (s, r)
end

/-! ## Removing -/

/-- a file system: which paths exist, and whether they are directories -/
abbrev Fs := List (Path × Bool)

/-- unlink(2); `refused`: paths the kernel does not want to remove -/
def unlink (refused : Path → Bool) (p : Path) (fs : Fs) : Fs × Int :=
  if refused p then (fs, -1) else if (p, false) ∈ fs then (fs.filter (fun e => e.1 != p), 0) else (fs, -1)

/-- rmdir(2): only empty directories (a directory on which something is mounted is busy) -/
def rmdir (refused : Path → Bool) (p : Path) (fs : Fs) : Fs × Int :=
  if refused p then (fs, -1)
  else if (p, true) ∈ fs ∧ fs.all (fun e => !(p.isPrefixOf e.1 && e.1 != p)) then (fs.filter (fun e => e.1 != p), 0)
  else (fs, -1)

/-- `rm_tree_cb`, utils.c:206-217 -/
def rmCb (refused : Path → Bool) (p : Path) (i : Info) (fs : Fs) : Fs × Int :=
  match i.flag with
  | .f | .sl => unlink refused p fs
  | .dp => rmdir refused p fs
  | .dnr => (fs, -1)

/-- `rm_tree`, utils.c:219-234; `none`: there is nothing at the path. The root directory is refused. -/
def rmTree (refused : Path → Bool) (t : Option Tree) (p : Path) (fs : Fs) : Fs × Bool :=
  if p = [] then (fs, false)
  else
    match t with
    | none => (fs, false)
    | some t =>
      match walk (rmCb refused) t p fs with
      | (fs, 0) => (fs, true)
      | (fs, _) => (fs, false)

/-! ## Looking for open files -/

inductive Check where
  | unused
  /-- R_UTILS_ERROR_OPEN_FILE -/
  | inUse
  | error
  /-- open(2) of a named pipe without a writer does not return -/
  | hangs
deriving DecidableEq, Repr

/-- the return value and the error of `tree_check_open_cb`, utils.c:238-291. A lease can be set on regular files only (EINVAL otherwise), open(2) fails on sockets (ENXIO). `hangs` is
modelled by the value 2. -/
def openCb (_ : Path) (i : Info) (e : Option Check) : Option Check × Int :=
  match i.flag with
  | .f =>
    if !i.openable then (some .error, -1)
    else
      match i.kind with
      | .fifo => (some .hangs, 2)
      | .socket => (some .error, -1)
      | .device => (some .error, -1)
      | .regular => if i.isOpen then (some .inUse, 1) else (e, 0)
  | .sl => (e, 0)
  | .dp => (e, 0)
  | .dnr => (e, -1)

/-- `r_tree_check_open`, utils.c:293-332 -/
def checkOpen (t : Option Tree) (p : Path) : Check :=
  if p = [] then .error
  else
    match t with
    | none => .error
    | some t =>
      match walk openCb t p none with
      | (_, 0) => .unused
      | (some .hangs, _) => .hangs
      | (_, 1) => .inUse
      | (_, _) => .error

end Rauc.RmTree
