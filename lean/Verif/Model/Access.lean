import Verif.Lib.Str

/-!
# Exclusive access to a bundle: src/bundle.c
-/

namespace Rauc.Access

/-- permission bits, `st_mode & 07777` -/
abbrev Perm := BitVec 12

/-- the file systems distinguished in bundle.c:1890-1928 -/
inductive FsType where
  /-- FUSE, NFS -/
  | unsafeFs
  /-- AFS, btrfs, cramfs, exFAT, ext2/3/4, F2FS, ISO 9660, JFFS2, FAT, NTFS, ROMFS, SquashFS, UDF, XFS -/
  | localFs
  /-- hostfs, overlayfs, ramfs, tmpfs, UBIFS, ZFS -/
  | rootPrepared
  | unknown
deriving DecidableEq, Repr

/-- a mounted device: `stat` of its path, if that works -/
structure Mount where
  stat : Option (Nat × Nat)  -- st_rdev, st_uid
deriving DecidableEq, Repr

/-- What the kernel answers during one check. The file: type, owner, permissions, device; and what happens to it. -/
structure World where
  fstat : Bool
  fstatfs : Bool
  rootStat : Bool
  regular : Bool
  uid : Nat
  perm : Perm
  dev : Nat
  rootDev : Nat
  fs : FsType
  mounts : List Mount
  /-- number of descriptors open for writing when the lease is requested -/
  writers : Nat
  /-- may this process take leases (`CAP_LEASE` or owner, supported by the file system) -/
  leaseAllowed : Bool
  /-- was the file opened for writing by someone between requesting the lease and asking for it -/
  openedSince : Bool
  unlock : Bool
deriving DecidableEq, Repr

/-- the loop over the mounts, bundle.c:1931-1957: `none` means that no device was found -/
def deviceOwner (dev : Nat) : List Mount → Option Nat
  | [] => none
  | m :: l =>
    match m.stat with
    | none => deviceOwner dev l
    | some (rdev, uid) => if rdev ≠ dev then deviceOwner dev l else some uid

/-- `mount_checked`, bundle.c:1885-1963 -/
def mountOk (w : World) : Bool :=
  if w.rootDev = w.dev then true
  else
    match w.fs with
    | .unsafeFs => false
    | .unknown => false
    | .rootPrepared => true
    | .localFs =>
      match deviceOwner w.dev w.mounts with
      | none => false
      | some uid => uid == 0

/-- the leases, bundle.c:1965-2001; a read lease is granted only if nobody has the file open for writing, and opening it breaks the lease (fcntl(2)) -/
def leaseOk (w : World) : Bool :=
  if !(w.leaseAllowed && w.writers == 0) then false
  else if w.openedSince then false
  else w.unlock

/-- `check_bundle_access`, bundle.c:1801-2009 -/
def checkAccess (euid : Nat) (w : World) : Bool :=
  if !w.fstat then false
  else if !w.fstatfs then false
  else if !w.regular then false
  else if w.uid ≠ 0 ∧ w.uid ≠ euid then false
  else if w.perm &&& ~~~0o755#12 ≠ 0 then false
  else if !w.rootStat then false
  else if !mountOk w then false
  else leaseOk w

/-- outcomes of the calls in `take_bundle_ownership` -/
structure TakeEnv where
  fstat : Bool
  chown : Bool
  chmod : Bool

/-- `take_bundle_ownership`, bundle.c:1752-1799, on owner and permissions; and the result -/
def takeOwnership (euid : Nat) (e : TakeEnv) (uid : Nat) (perm : Perm) : (Nat × Perm) × Bool :=
  if !e.fstat then ((uid, perm), false)
  else if uid ≠ 0 ∧ uid ≠ euid ∧ euid ≠ 0 then ((uid, perm), false)
  else if uid ≠ 0 ∧ uid ≠ euid ∧ !e.chown then ((uid, perm), false)
  else
    let uid' := if uid ≠ 0 ∧ uid ≠ euid then 0 else uid
    if perm ≠ perm &&& 0o644#12 ∧ !e.chmod then ((uid', perm), false)
    else ((uid', perm &&& 0o644#12), true)

/-- `enforce_bundle_exclusive`, bundle.c:2011-2049: `w1` is the world of the first check; the second check sees `w2`, with whatever changes others made in between to the owner
and permissions that `take_bundle_ownership` left -/
def enforce (euid : Nat) (e : TakeEnv) (w1 : World) (w2 : Nat → Perm → World) : Bool :=
  if checkAccess euid w1 then true
  else checkAccess euid (w2 (takeOwnership euid e w1.uid w1.perm).1.1 (takeOwnership euid e w1.uid w1.perm).1.2)

end Rauc.Access
