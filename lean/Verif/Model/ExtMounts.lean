import Verif.Model.StatusView
import Verif.Model.Install

/-!
# Slots in use by somebody else: src/install.c:65-130 (the mount table), src/slot.c:61-77, src/service.c:374-421 (GetSlotStatus)

The mount table is what `g_unix_mounts_get` (GLib) returns: the source and the mount point of each mounted file system, in order. The regular expression is modelled for
ASCII digits.
-/

namespace Rauc.ExtMounts

/-- an entry of the mount table -/
structure Mount where
  source : Str
  point : Str
deriving DecidableEq, Repr

/-- what follows a literal prefix -/
def after (p s : Str) : Option Str := if p <+: s then some (s.drop p.length) else none

def isDigit (c : Char) : Bool := decide ('0' ≤ c) && decide (c ≤ '9')

/-- group 1 of the leftmost match of the unanchored expression `/dev/(loop\d+)(p\d+)?`, install.c:69-77 -/
def loopName : Str → Option Str
  | [] => none
  | c :: r =>
    match after c!"/dev/loop" (c :: r) with
    | some t => if (t.takeWhile isDigit) = [] then loopName r else some (c!"loop" ++ t.takeWhile isDigit)
    | none => loopName r

/-- `resolve_loop_device`, install.c:65-91; `sys` are the readable files below /sys -/
def resolve (sys : Str → Option Str) (src : Str) : Option Str :=
  match loopName src with
  | none => some src
  | some n => (sys (c!"/sys/block/" ++ n ++ c!"/loop/backing_file")).map chomp

/-- `r_slot_find_by_device`, slot.c:61-77: the name of the first slot in the table with this device -/
def findByDevice (slots : List (Str × Str)) (dev : Str) : Option Str := (slots.find? (fun s => s.2 == dev)).map (·.1)

/-- the loop of `update_external_mount_points`, install.c:107-127: the external mount points by slot name, and whether it succeeded -/
def loop (sys : Str → Option Str) (slots : List (Str × Str)) : List Mount → (Str → Option Str) → (Str → Option Str) × Bool
  | [], ext => (ext, true)
  | m :: ms, ext =>
    match resolve sys m.source with
    | none => (ext, false)
    | some dev =>
      match findByDevice slots dev with
      | none => loop sys slots ms ext
      | some n => if (ext n).isSome then loop sys slots ms ext else loop sys slots ms (Install.upd ext n (some m.point))

/-- `update_external_mount_points`, install.c:93-130: all slots (name and device, in the order of the table) are cleared first -/
def update (sys : Str → Option Str) (slots : List (Str × Str)) (mounts : List Mount) : (Str → Option Str) × Bool :=
  loop sys slots mounts (fun _ => none)

/-- `create_slotstatus_array`, service.c:374-421: the reply of GetSlotStatus. `dev` gives the device of each slot, and, by name, `get` is the boot state (`none`:
`r_boot_get_state` fails) and `load` the status. -/
def getSlotStatus (sys : Str → Option Str) (slots : List StatusView.RSlot) (dev : StatusView.RSlot → Str) (mounts : List Mount) (get : Str → Option Bool)
    (load : Str → SlotStatus) : Option (List (Str × StatusView.Dict)) :=
  match update sys (slots.map (fun s => (s.name, dev s))) mounts with
  | (_, false) => none
  | (ext, true) => some (StatusView.slotStatusArray (fun s => load s.name) ((slots.map (fun s => { s with extMountPoint := ext s.name })).map (StatusView.bootStates (fun s => get s.name))))

/-- the check of the destination slots, install.c:995-1015 with `slotMounted` being `slot->mount_point || slot->ext_mount_point`; `own` are RAUC's own mounts -/
def world (w : Install.World) (sys : Str → Option Str) (slots : List (Str × Str)) (mounts : List Mount) (own : Str → Bool) : Install.World :=
  { w with
    ok := fun h => if h = [] then (update sys slots mounts).2 else w.ok h
    slotMounted := fun n => own n || ((update sys slots mounts).1 n).isSome }

end Rauc.ExtMounts
