import Verif.Lib.Str

/-!
# Privileges of the streaming process: src/nbd.c:1194-1388
-/

namespace Rauc.Sandbox

/-- credentials of a process (credentials(7)); capabilities are those of user ID 0 -/
structure Cred where
  ruid : Nat
  euid : Nat
  suid : Nat
  rgid : Nat
  egid : Nat
  sgid : Nat
  groups : List Nat
deriving DecidableEq, Repr

/-- the kernel: setgroups(2) -/
def Cred.setgroups (c : Cred) (g : List Nat) : Option Cred := if c.euid = 0 then some { c with groups := g } else none

/-- the kernel: setgid(2) -/
def Cred.setgid (c : Cred) (g : Nat) : Option Cred :=
  if c.euid = 0 then some { c with rgid := g, egid := g, sgid := g }
  else if g = c.rgid ∨ g = c.sgid then some { c with egid := g }
  else none

/-- the kernel: setuid(2) -/
def Cred.setuid (c : Cred) (u : Nat) : Option Cred :=
  if c.euid = 0 then some { c with ruid := u, euid := u, suid := u }
  else if u = c.ruid ∨ u = c.suid then some { c with euid := u }
  else none

/-- `child_setup_args`, nbd.c:1194-1199 -/
structure Args where
  uid : Nat := 0
  gid : Nat := 0
  groups : Option (List Nat) := none
deriving DecidableEq, Repr

/-- the user database -/
structure Users where
  /-- `getpwnam_r`: user ID and group ID -/
  passwd : Str → Option (Nat × Nat)
  /-- `getgrouplist`; it always contains the given group. `none`: the second call gives another number. -/
  grouplist : Str → Nat → Option (List Nat)

/-- `nbd_server_child_prepare`, nbd.c:1236-1303; `none` is an error. `fallback` is `STREAMING_USER`, a build option. -/
def prepare (U : Users) (fallback : Str) (user : Option Str) (c : Cred) : Option Args :=
  if c.ruid ≠ 0 ∧ c.rgid ≠ 0 then some {}
  else
    let name := user.getD fallback
    match U.passwd name with
    | none => none
    | some (uid, gid) =>
      match U.grouplist name gid with
      | none => none
      | some g => some { uid := uid, gid := gid, groups := some g }

/-- system calls of a privileged process can still fail (missing capability in a container, seccomp filter, EAGAIN) -/
structure Kernel where
  setgroups : Bool := true
  setgid : Bool := true
  setuid : Bool := true

/-- a call that may fail -/
def attempt (ok : Bool) (r : Option Cred) : Option Cred := if ok then r else none

/-- `nbd_server_child_setup`, nbd.c:1208-1233, in the child; `none`: it exits -/
def childSetup (k : Kernel) (a : Args) (c : Cred) : Option Cred :=
  match (match a.groups with | none => some c | some g => attempt k.setgroups (c.setgroups g)) with
  | none => none
  | some c =>
    match (if a.gid = 0 then some c else attempt k.setgid (c.setgid a.gid)) with
    | none => none
    | some c => if a.uid = 0 then some c else attempt k.setuid (c.setuid a.uid)

/-- the kernel: execve(2) of a file that is not set-user-ID -/
def Cred.exec (c : Cred) : Cred := { c with suid := c.euid, sgid := c.egid }

/-- `r_nbd_start_server`, nbd.c:1306-1388, up to the start of the process: its credentials -/
def start (k : Kernel) (U : Users) (fallback : Str) (user : Option Str) (c : Cred) : Option Cred :=
  match prepare U fallback user c with
  | none => none
  | some a => (childSetup k a c).map Cred.exec

end Rauc.Sandbox
