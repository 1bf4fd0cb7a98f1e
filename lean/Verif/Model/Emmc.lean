import Verif.Model.Copy

/-!
# eMMC boot partitions: src/emmc.c, and `clear_slot`, `copy_img_to_emmc_bootpart`, `img_to_boot_emmc_handler` of src/update_handler.c

A run is described by what it does to the two boot partitions and to the register PARTITION_CONFIG. Slot hooks are assumed not to touch them.
-/

namespace Rauc.Emmc

open Rauc.Copy

/-- which boot partition is active -/
inductive Active where
  /-- not enabled for booting (-1) -/
  | off
  /-- boot0 or boot1 -/
  | boot (i : Nat)
deriving DecidableEq, Repr

/-- `r_emmc_read_bootpart`, emmc.c:37-85, for the value of the register -/
def bootpart (v : UInt8) : Option Active :=
  match (v &&& 0x38) >>> 3 with
  | 0 => some .off
  | 1 => some (.boot 0)
  | 2 => some (.boot 1)
  | _ => none

/-- the value that `r_emmc_write_bootpart` writes, emmc.c:125-136 -/
def newValue (v : UInt8) (i : Nat) : UInt8 := (v &&& 0x40) ||| (if i = 0 then 0x08 else 0x10)

/-- what is done: making a boot partition writable or read-only (`force_ro`), an operation on a boot partition, a write to the register -/
inductive Act where
  | rw (i : Nat)
  | ro (i : Nat)
  | disk (i : Nat) (op : Op)
  | reg (v : UInt8)
deriving DecidableEq, Repr

/-- `r_emmc_force_part_write`, emmc.c:148-180, called by `r_emmc_force_part_ro` (emmc.c:182-193) and `r_emmc_force_part_rw` (emmc.c:195-206) with '1' and '0': what is in the attribute
`force_ro` afterwards (`old` before), and what is reported. `fwrite` of one byte only puts it into the buffer of the stream, which always has room; the kernel gets it (and may refuse it, `takes`)
when the stream is closed, and the result of `fclose` is not looked at. -/
def forcePart (opens takes : Bool) (old value : Bool) : Bool × Bool :=
  if !opens then (old, false)
  else (if takes then value else old, true)

/-- the attribute `force_ro` of boot partition `i` after the actions `l`, if each attempt to set it meets `opens`, `takes` -/
def forceRoAfter (env : Act → Bool × Bool) (i : Nat) : List Act → Bool → Bool
  | [], ro => ro
  | .rw j :: l, ro => forceRoAfter env i l (if j = i then (forcePart (env (.rw j)).1 (env (.rw j)).2 ro false).1 else ro)
  | .ro j :: l, ro => forceRoAfter env i l (if j = i then (forcePart (env (.ro j)).1 (env (.ro j)).2 ro true).1 else ro)
  | _ :: l, ro => forceRoAfter env i l ro

/-- the result of a write while clearing: some bytes, no space left, another error -/
inductive Wr where
  | bytes (n : Nat)
  | noSpace
  | error
deriving DecidableEq, Repr

/-- `clear_slot`, update_handler.c:96-152; `fuel` is the number of iterations after which it is observed, `none` that it is not finished then -/
def clearSlot (counts : Nat → Wr) (limit : Nat) : (fuel i total : Nat) → List Op × Option Bool
  | 0, _, _ => ([], none)
  | fuel + 1, i, total =>
    let n := if limit > 0 ∧ total + 1024 > limit then limit - total else 1024
    match counts i with
    | .error => ([], some false)
    | .noSpace => ([], some true)
    | .bytes c =>
      let w := min n c
      if limit > 0 ∧ total + w ≥ limit then ([.write total (List.replicate w 0)], some true)
      else
        let r := clearSlot counts limit fuel (i + 1) (total + w)
        (.write total (List.replicate w 0) :: r.1, r.2)

/-- what happens during a run -/
structure Env where
  realpath : Bool := true
  read1 : Bool := true
  forceRw : Bool := true
  pre : Bool := true
  clearOpen : Bool := true
  counts : Nat → Wr := fun _ => .noSpace
  fuel : Nat := 1
  clearClose : Bool := true
  copyOpen : Bool := true
  copyClose : Bool := true
  faults : Faults := {}
  io : Nat → Io := fun _ => ⟨some 8192, none⟩
  /-- the size of the boot partition -/
  dev : Option Nat := none
  post : Bool := true
  forceRo : Bool := true
  writeOpen : Bool := true
  read2 : Bool := true
  ioctl : Bool := true
  /-- what is in the register after `w` was written to it: `after old w` -/
  after : UInt8 → UInt8 → UInt8 := fun _ w => w
  read3 : Bool := true

/-- `copy_img_to_emmc_bootpart`, update_handler.c:2249-2327, for boot partition `i` -/
def copyBoot (e : Env) (i limit size sector : Nat) (data : Bytes) : List Act × Bool :=
  if !e.forceRw then ([.ro i], false)
  else if !e.pre then ([.rw i, .ro i], false)
  else if !e.clearOpen then ([.rw i, .ro i], false)
  else
    let c := clearSlot e.counts limit e.fuel 0 0
    let ca := c.1.map (Act.disk i)
    if c.2 ≠ some true ∨ !e.clearClose then (.rw i :: ca ++ [.ro i], false)
    else
      let w := copyToDev (!e.copyOpen) (!e.copyClose) e.faults e.io limit e.dev size sector data
      let wa := w.ops.map (Act.disk i)
      if !w.ok then (.rw i :: (ca ++ wa) ++ [.ro i], false)
      else if !e.post then (.rw i :: (ca ++ wa) ++ [.ro i], false)
      else if !e.forceRo then (.rw i :: (ca ++ wa) ++ [.ro i, .ro i], false)
      else (.rw i :: (ca ++ wa) ++ [.ro i], true)

/-- the boot partition that is written: INACTIVE_BOOT_PARTITION, emmc.h; if none is enabled, boot1 is taken for the active one, update_handler.c:2355-2361 -/
def target : Active → Nat
  | .off => 0
  | .boot a => (a + 1) % 2

/-- `img_to_boot_emmc_handler`, update_handler.c:2329-2427, with `v` in the register: what is done, and whether success is reported -/
def run (e : Env) (v : UInt8) (limit size sector : Nat) (data : Bytes) : List Act × Bool :=
  if !e.realpath then ([], false)
  else if !e.read1 then ([], false)
  else match bootpart v with
    | none => ([], false)
    | some a =>
      let c := copyBoot e (target a) limit size sector data
      if !c.2 then (c.1, false)
      else if !e.writeOpen ∨ !e.read2 then (c.1, false)
      else if !e.ioctl then (c.1, false)
      else
        let w := newValue v (target a)
        let acts := c.1 ++ [.reg w]
        if !e.read3 then (acts, false)
        else match bootpart (e.after v w) with
          | none => (acts, false)
          | some b => (acts, decide (b ≠ (match a with | .off => .boot 1 | .boot _ => a)))

end Rauc.Emmc
