import Verif.Lib.Str

/-!
# Kernel devices behind a mounted bundle: src/mount.c:105-238, src/dm.c:69-364, src/bundle.c:2912-3220

What the kernel is assumed to do: the names of device mapper devices are unique (creating a second one fails), a device which is in use cannot be removed but can be marked for removal, which
then happens when its last user is gone; the loop device (auto-clear) or NBD device (disconnect-on-close) below goes away with its last user.
-/

namespace Rauc.Devices

/-! ## Text of the tables -/

/-- dm.c:184-193: the parameters of the verity target -/
def verityTable (lower : Str) (size : Nat) (root salt : Str) : Str :=
  c!"1 " ++ lower ++ ' ' :: lower ++ c!" 4096 4096 " ++ toDec (size / 4096) ++ ' ' :: toDec (size / 4096) ++ c!" sha256 " ++ root ++ ' ' :: salt

/-- dm.c:194-200: the parameters of the crypt target -/
def cryptTable (lower key : Str) : Str := c!"aes-cbc-plain64 " ++ key ++ c!" 0 " ++ lower ++ c!" 0 1 sector_size:4096"

/-- dm.c:116, :184, :205: the buffer includes the terminating NUL -/
def tableFits (t : Str) : Bool := decide (t.length < 1024)

inductive DmName where
  | verity
  | crypt
deriving DecidableEq, Repr

/-- `check_status`, dm.c:69-104 -/
def checkStatus : DmName → Str → Bool
  | .verity, params => (split ' ' params).head? == some c!"V"
  | .crypt, params => (split ' ' params).isEmpty

/-! ## The kernel's state -/

/-- what a file system is mounted from -/
inductive Source where
  | lower
  | dm (n : DmName)
deriving DecidableEq, Repr

/-- a device mapper device. All devices RAUC creates have one of two fixed names, dm.c:158-163. -/
structure Dm where
  /-- the table, once it was loaded -/
  table : Option Str
  active : Bool
  /-- marked for removal -/
  deferred : Bool
  /-- how many other processes have it open -/
  others : Nat
deriving DecidableEq, Repr

structure K where
  /-- the loop or NBD device over the bundle -/
  lower : Bool
  /-- RAUC has it open -/
  lowerFd : Bool
  verity : Option Dm
  crypt : Option Dm
  /-- the file systems mounted on the bundle mount point, the last one first -/
  mounts : List Source
  /-- the mount point exists -/
  point : Bool
deriving DecidableEq, Repr

def K.empty : K := ⟨false, false, none, none, [], false⟩

def K.dm (k : K) : DmName → Option Dm
  | .verity => k.verity
  | .crypt => k.crypt

def K.setDm (k : K) : DmName → Option Dm → K
  | .verity, x => { k with verity := x }
  | .crypt, x => { k with crypt := x }

/-- whether something uses the device: a mounted file system, other processes, or (dm-verity) the dm-crypt device above it -/
def K.used (k : K) (n : DmName) : Bool :=
  k.mounts.contains (.dm n) || (match k.dm n with | some d => decide (d.others > 0) | none => false) ||
    (match n with
     | .verity => k.crypt.any (fun d => d.table.isSome)
     | .crypt => false)

/-- remove a device which is marked for removal and no longer used -/
def K.reap (k : K) (n : DmName) : K :=
  match k.dm n with
  | some d => if d.deferred && !k.used n then k.setDm n none else k
  | none => k

/-- everything that goes away by itself -/
def K.settle (k : K) : K :=
  let k := (k.reap .crypt).reap .verity
  if k.lowerFd || k.verity.any (fun d => d.table.isSome) || k.mounts.contains .lower then k else { k with lower := false }

/-- the other processes close the devices -/
def K.quiet (k : K) : K :=
  K.settle { k with verity := k.verity.map (fun d => { d with others := 0 }), crypt := k.crypt.map (fun d => { d with others := 0 }) }

/-! ## System calls -/

inductive Call where
  | control (n : DmName)
  | create (n : DmName)
  | load (n : DmName)
  | resume (n : DmName)
  | openDev (n : DmName)
  | read (n : DmName)
  | status (n : DmName)
  /-- `DM_DEV_REMOVE` after a failed setup -/
  | undo (n : DmName)
  /-- opening `/dev/mapper/control` and `DM_DEV_REMOVE` in `r_dm_remove` -/
  | remove (n : DmName)
  | mkdir
  | lower
  | manifest
  | precheck
  | mount
  | content
  | umount
deriving DecidableEq, Repr

structure Env where
  /-- whether the call works (as far as that does not depend on the devices) -/
  ok : Call → Bool
  /-- how many other processes (such as udev) open the device when it appears -/
  others : DmName → Nat
  /-- the status the kernel reports -/
  status : DmName → Str

/-- a run: the states passed through, the last state, the result -/
structure Run (α : Type) where
  states : List K
  final : K
  val : α

def Run.pure {α : Type} (k : K) (a : α) : Run α := ⟨[k], k, a⟩

def Run.bind {α β : Type} (r : Run α) (f : K → α → Run β) : Run β :=
  ⟨r.states ++ (f r.final r.val).states, (f r.final r.val).final, (f r.final r.val).val⟩

/-- one call which changes the state -/
def Run.step (k k' : K) (v : Bool) : Run Bool := ⟨[k, k'], k', v⟩

/-- `DM_DEV_REMOVE` -/
def dmRemove (k : K) (n : DmName) (deferred : Bool) : Run Bool :=
  match k.dm n with
  | none => .pure k false
  | some d =>
    if k.used n then
      if deferred then .step k (k.setDm n (some { d with deferred := true })) true
      else .pure k false
    else .step k (k.setDm n none).settle true

/-- `out_remove_dm`, dm.c:265-277 -/
def undo (E : Env) (n : DmName) (k : K) : Run Bool :=
  (if E.ok (.undo n) then dmRemove k n false else .pure k false).bind fun k _ => .pure k false

/-- `r_dm_setup`, dm.c:106-288. `args` means that the size is acceptable (:127, :131). Opening and reading the device (:230-253) leaves it as it is. -/
def dmSetup (E : Env) (n : DmName) (args : Bool) (table : Str) (k : K) : Run Bool :=
  if !args || !E.ok (.control n) then .pure k false
  else if !E.ok (.create n) || (k.dm n).isSome then .pure k false
  else
    (Run.step k (k.setDm n (some ⟨none, false, false, 0⟩)) true).bind fun k _ =>
      if !tableFits table || !E.ok (.load n) then undo E n k
      else
        (Run.step k (k.setDm n (some ⟨some table, false, false, 0⟩)) true).bind fun k _ =>
          if !E.ok (.resume n) then undo E n k
          else
            (Run.step k (k.setDm n (some ⟨some table, true, false, E.others n⟩)) true).bind fun k _ =>
              if !(E.ok (.openDev n) && E.ok (.read n) && E.ok (.status n) && checkStatus n (E.status n)) then undo E n k
              else .pure k true

/-- `r_dm_remove`, dm.c:290-364; failures are only logged by the callers -/
def remove (E : Env) (n : DmName) (deferred : Bool) (k : K) : Run Bool :=
  if E.ok (.remove n) then dmRemove k n deferred else .pure k false

/-- what is known about the bundle -/
structure Bundle where
  /-- name of the device below -/
  lower : Str
  dataSize : Nat
  root : Str
  salt : Str
  key : Str
  /-- name of the dm-verity device -/
  verityDev : Str
  preCheck : Bool

/-- dm.c:127-141 -/
def argsOk (b : Bundle) : Bool := b.dataSize > 0 && b.dataSize % 4096 == 0

/-- `r_mount_bundle`, mount.c:18-42 -/
def mount (E : Env) (src : Source) (k : K) : Run Bool :=
  if E.ok .mount then .step k { k with mounts := src :: k.mounts } true else .pure k false

/-- `prepare_verity`, bundle.c:2912-2967 -/
def prepareVerity (E : Env) (b : Bundle) (k : K) : Run Bool :=
  if !E.ok .manifest then .pure k false
  else
    (dmSetup E .verity (argsOk b) (verityTable b.lower b.dataSize b.root b.salt) k).bind fun k ok =>
      if !ok then .pure k false
      else if b.preCheck && !E.ok .precheck then (remove E .verity false k).bind fun k _ => .pure k false
      else (mount E (.dm .verity) k).bind fun k res => (remove E .verity true k).bind fun k _ => .pure k res

/-- `prepare_crypt`, bundle.c:2978-3057 -/
def prepareCrypt (E : Env) (b : Bundle) (k : K) : Run Bool :=
  if !E.ok .manifest then .pure k false
  else
    (dmSetup E .verity (argsOk b) (verityTable b.lower b.dataSize b.root b.salt) k).bind fun k ok =>
      if !ok then .pure k false
      else
        (dmSetup E .crypt (argsOk b) (cryptTable b.verityDev b.key) k).bind fun k ok =>
          if !ok then (remove E .verity false k).bind fun k _ => .pure k false
          else if b.preCheck && !E.ok .precheck then
            (remove E .crypt true k).bind fun k _ => (remove E .verity true k).bind fun k _ => .pure k false
          else
            (mount E (.dm .crypt) k).bind fun k res =>
              (remove E .crypt true k).bind fun k _ => (remove E .verity true k).bind fun k _ => .pure k res

/-- `r_umount_bundle`, mount.c:44-60 -/
def umount (E : Env) (k : K) : Run Bool :=
  match k.mounts with
  | [] => .pure k false
  | _ :: l => if E.ok .umount then .step k (K.settle { k with mounts := l }) true else .pure k false

/-- the part of `mount_bundle` for plain bundles, bundle.c:3111-3150 -/
def preparePlain (E : Env) (k : K) : Run Bool :=
  (mount E .lower k).bind fun k ok =>
    if !ok then .pure k false
    else if !E.ok .content then (umount E k).bind fun k _ => .pure k false
    else .pure k true

inductive Format where
  | plain
  | verity
  | crypt
deriving DecidableEq, Repr

/-- bundle.c:3176-3183: `rmdir` works on an empty directory on which nothing is mounted; closing the device -/
def finish (res : Bool) (k : K) : Run Bool :=
  let k1 := if res || !k.mounts.isEmpty then k else { k with point := false }
  .step k (K.settle { k1 with lowerFd := false }) res

/-- `mount_bundle`, bundle.c:3059-3184. The checks of what was verified before are in `Bundle.mountBundle`.
Simplification: nothing else uses the loop or NBD device. -/
def mountBundle (E : Env) (f : Format) (b : Bundle) (k : K) : Run Bool :=
  if !E.ok .mkdir then .pure k false
  else
    (Run.step k { k with point := true } true).bind fun k _ =>
      if !E.ok .lower then finish false k
      else
        (Run.step k { k with lower := true, lowerFd := true } true).bind fun k _ =>
          ((match f with
            | .plain => preparePlain E k
            | .verity => prepareVerity E b k
            | .crypt => prepareCrypt E b k).bind fun k res => finish res k)

/-- `umount_bundle`, bundle.c:3186-3220 -/
def umountBundle (E : Env) (k : K) : Run Bool :=
  (umount E k).bind fun k ok =>
    if !ok then .pure k false
    else .step k (if k.mounts.isEmpty then { k with point := false } else k) true

/-- the process is killed: its files are closed -/
def killed (k : K) : K := K.settle { k with lowerFd := false }

/-! ## Loop devices -/

/-- a loop device: bound to a file or free -/
inductive Loop where
  | absent
  | free
  /-- in use by someone else -/
  | foreign (id : Nat)
  /-- bound to the bundle: size limit, read-only, auto-clear -/
  | ours (limit : Nat) (ro autoclear : Bool)
deriving DecidableEq, Repr

abbrev Loops := Nat → Loop

def Loops.set (l : Loops) (i : Nat) (x : Loop) : Loops := fun j => if j = i then x else l j

/-- outcome of one system call on a loop device, as far as it does not depend on its state -/
inductive Rc where
  | ok
  | eagain
  | fail
deriving DecidableEq, Repr

/-- The others may change any device which is not ours between two calls: `world t l` is what they make of it before call number `t`. -/
structure LoopEnv where
  control : Bool
  /-- the index returned by `LOOP_CTL_GET_FREE`, or an error -/
  getFree : Nat → Option Nat
  world : Nat → Loops → Loops
  openFails : Nat → Bool
  setFd : Nat → Rc
  /-- results of `LOOP_SET_STATUS64`, in the order of the calls; after the list every call fails -/
  setStatus : List Rc
  clrOk : Bool

/-- the loop of `r_setup_loop`, mount.c:132-181: the remaining tries, the time, the devices; the result is the claimed device -/
def claim (E : LoopEnv) (size : Nat) : Nat → Nat → Loops → Loops × Option Nat
  | 0, _, l => (l, none)
  | tries + 1, t, l =>
    match E.getFree t with
    | none => (l, none)
    | some i =>
      let l1 := E.world t l
      match l1 i with
      | .absent => claim E size tries (t + 1) l1
      | _ =>
        if E.openFails t then (l1, none)
        else
          match E.setFd t, l1 i with
          | .ok, .free => (l1.set i (.ours 0 true false), some i)
          | .ok, _ => claim E size tries (t + 1) l1
          | _, _ => (l1, none)

/-- mount.c:192-208: repeated while it returns EAGAIN -/
def configure (E : LoopEnv) (size i : Nat) : List Rc → Loops → Loops × Option Nat
  | .eagain :: r, l => configure E size i r l
  | .ok :: _, l => (l.set i (.ours size true true), some i)
  | _, l => (if E.clrOk then l.set i .free else l, none)

/-- `r_setup_loop`, mount.c:105-238. The block size (:210-217) is not modelled. -/
def setupLoop (E : LoopEnv) (size : Nat) (l : Loops) : Loops × Option Nat :=
  if !E.control then (l, none)
  else
    match claim E size 10 0 l with
    | (l, none) => (l, none)
    | (l, some i) => configure E size i E.setStatus l

end Rauc.Devices
