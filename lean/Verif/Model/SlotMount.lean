import Verif.Model.Status
import Verif.Model.Update

/-!
# Mounting slots and per-slot status files: src/mount.c:235-361, src/status_file.c:137-216, 263-309, 406-417, src/install.c:1112-1230, src/mark.c:133-165

One slot during the life of one RAUC process, with `statusfile=per-slot`: the status lives in `slot.raucs` on the slot's own file system, which RAUC mounts to read and to write it.

`r_mount_slot` and `r_umount_slot` start with `g_return_val_if_fail (slot->mount_point …)`: if that fails they return FALSE *without* setting an error. Callers that then use
`error->message` dereference a null pointer; this is the result `noError` below, and `alive := false` for its consequence.
-/

namespace Rauc.SlotMount

/-- how a function that can set a GError returned -/
inductive Res where
  | ok
  | error
  /-- FALSE, but no error was set -/
  | noError
deriving DecidableEq, Repr

structure Cfg where
  /-- `r_slot_is_mountable`, slot.c:178-187 -/
  mountable : Bool
  /-- `slot->ext_mount_point`: somebody else has the slot mounted -/
  ext : Bool
  /-- `g_date_time_new_from_iso8601` -/
  iso : Str → Option DateTime := fun _ => none

structure St where
  /-- `slot->mount_point` is set -/
  mp : Bool := false
  /-- how often RAUC's mount point of the slot is mounted -/
  mounts : Nat := 0
  /-- `slot->status` -/
  mem : Option SlotStatus := none
  /-- `slot.raucs` on the slot, `none`: missing or unreadable -/
  file : Option KeyFile := none
  alive : Bool := true

/-- what the system does during one use of the mount point -/
structure Faults where
  /-- the device exists, the mount point can be created and mount(8) succeeds, mount.c:302-334 -/
  mount : Bool := true
  /-- writing the file succeeds -/
  write : Bool := true
  /-- umount(8) succeeds -/
  umount : Bool := true
deriving DecidableEq, Repr

/-- `r_mount_slot`, mount.c:292-338 -/
def mountSlot (ok : Bool) (s : St) : St × Res :=
  if s.mp then (s, .noError)
  else if ok then ({ s with mp := true, mounts := s.mounts + 1 }, .ok) else (s, .error)

/-- `r_umount_slot`, mount.c:340-361 -/
def umountSlot (ok : Bool) (s : St) : St × Res :=
  if !s.mp then (s, .noError)
  else if ok then ({ s with mp := false, mounts := s.mounts - 1 }, .ok) else (s, .error)

/-- `r_slot_status_read`, status_file.c:105-136: a file that cannot be read leaves the default -/
def readStatus (C : Cfg) (s : St) : SlotStatus :=
  match s.file with
  | none => {}
  | some kf => readLocal C.iso kf

/-- using `error->message` after this result -/
def useError (r : Res) (s : St) : St := if r = .noError then { s with alive := false } else s

/-- `r_slot_status_load` / `load_slot_status_locally`, status_file.c:176-216, 263-276 -/
def load (C : Cfg) (f : Faults) (s : St) : St :=
  if s.mem.isSome then s
  else
    let s := { s with mem := some {} }
    if !C.mountable then s
    else if C.ext then { s with mem := some (readStatus C s) }
    else
      match mountSlot f.mount s with
      | (s, .ok) =>
        let s := { s with mem := some (readStatus C s) }
        match umountSlot f.umount s with
        | (s, .ok) => s
        | (s, r) => useError r s
      | (s, r) => useError r s

/-- `r_slot_status_save` / `save_slot_status_locally`, status_file.c:278-309, 406-417; writing the file is atomic (g_key_file_save_to_file) -/
def save (C : Cfg) (f : Faults) (s : St) : St × Res :=
  match s.mem with
  | none => (s, .noError)
  | some st =>
    if !C.mountable then (s, .ok)
    else
      match mountSlot f.mount s with
      | (s, .ok) =>
        if !f.write then ((umountSlot f.umount s).1, .error)
        else umountSlot f.umount { s with file := some (writeLocal st) }
      | (s, r) => (s, r)

/-- What one installation into the slot does, with what it meets. -/
structure Install where
  img : Image
  target : Update.Target
  /-- the outcomes of the external steps of the handler -/
  o : List Update.Ev → Update.Step → Bool
  /-- what is left of the status file by the handler -/
  after : Option KeyFile → Option KeyFile
  /-- the slot is skipped because it already has the image, install.c:1143 -/
  skip : SlotStatus → Bool
  /-- the new status for a skipped, a failed and a successful update, install.c:1097-1113 -/
  okStatus : SlotStatus → SlotStatus
  failedStatus : SlotStatus → SlotStatus
  fLoad : Faults
  fSave : Faults

/-- RAUC's mount of the slot after the steps of a handler -/
def mountedAfter (tr : List Update.Ev) : Bool :=
  tr.foldl (fun m e => if e = (.mount, true) then true else if e = (.umount, true) then false else m) false

/-- returning FALSE without an error: the end of the installation uses `error->message`, install.c:1717-1722 -/
def finish : St × Res → St × Res
  | (s, r) => (useError r s, r)

/-- `handle_slot_install_plan`, install.c:1117-1229 (per-slot: no pending status is written before the update, install.c:1164); without a handler the plan does not exist -/
def install (C : Cfg) (i : Install) (s : St) : St × Res :=
  let s := load C i.fLoad s
  if !s.alive then (s, .error)
  else if s.mp then (s, .error)
  else if i.skip (s.mem.getD {}) then finish (save C i.fSave { s with mem := s.mem.map i.okStatus })
  else
    match Update.updateSlot i.img i.target i.o with
    | none => (s, .error)
    | some (tr, r) =>
      let left := mountedAfter tr
      let s := { s with mp := left, mounts := if left then s.mounts + 1 else s.mounts, file := i.after s.file }
      if r then finish (save C i.fSave { s with mem := s.mem.map i.okStatus })
      else
        -- install.c:1212-1214: the message of the error is logged
        let (s, q) := save C i.fSave { s with mem := s.mem.map i.failedStatus }
        (useError q s, .error)

/-- `r_mark_active`, mark.c:133-165: an error of saving is only logged (with its message) -/
def markActive (C : Cfg) (boot : Bool) (f g : Faults) (upd : SlotStatus → SlotStatus) (s : St) : St × Res :=
  let s := load C f s
  if !s.alive then (s, .error)
  else if !boot then (s, .error)
  else
    let (s, q) := save C g { s with mem := s.mem.map upd }
    (useError q s, .ok)

/-- What can be asked of the process. -/
inductive Op where
  /-- `rauc status`, GetSlotStatus, service.c:306, main.c:2236 -/
  | query (f : Faults)
  | install (i : Install)
  | activate (boot : Bool) (f g : Faults) (upd : SlotStatus → SlotStatus)

def step (C : Cfg) (s : St) (op : Op) : St :=
  if !s.alive then s
  else
    match op with
    | .query f => load C f s
    | .install i => (install C i s).1
    | .activate b f g u => (markActive C b f g u s).1

def run (C : Cfg) (s : St) (ops : List Op) : St := ops.foldl (step C) s

end Rauc.SlotMount
