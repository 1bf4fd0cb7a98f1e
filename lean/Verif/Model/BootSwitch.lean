import Verif.Model.Copy

/-!
# Boot partition switching: src/mbr.c, src/gpt.c, and the handlers `img_to_boot_mbr_switch_handler`, `img_to_boot_gpt_switch_handler`, `img_to_boot_raw_fallback_handler` of src/update_handler.c

The master boot record is parsed from the bytes of the device. For GPT, the partition table is what libfdisk reports; writing it is left to libfdisk.
Slot hooks are assumed not to write to the device themselves. Positions are 64 bit numbers: sums wrap where the code does not check.
-/

namespace Rauc.Switch

open Rauc.Copy

/-- 2^64 -/
abbrev U64 : Nat := 18446744073709551616
/-- 2^32 -/
abbrev U32 : Nat := 4294967296

/-- `struct boot_switch_partition`, update_handler.h:49-52 -/
structure Part where
  start : Nat
  size : Nat
deriving DecidableEq, Repr

/-- GUINT32_FROM_LE of the four bytes at `off` -/
def le32 (d : Disk) (off : Nat) : Nat := (d off).toNat + 256 * (d (off + 1)).toNat + 65536 * (d (off + 2)).toNat + 16777216 * (d (off + 3)).toNat

/-- GUINT32_TO_LE -/
def toLe32 (n : Nat) : Bytes := [UInt8.ofNat n, UInt8.ofNat (n / 256), UInt8.ofNat (n / 65536), UInt8.ofNat (n / 16777216)]

/-- `partition_start_le` of entry `i`, mbr.c:19-45: the table is at 446, an entry has 16 bytes -/
def entStart (d : Disk) (i : Nat) : Nat := le32 d (446 + 16 * i + 8)
/-- `partition_size_le` of entry `i` -/
def entSize (d : Disk) (i : Nat) : Nat := le32 d (446 + 16 * i + 12)

/-- the result of `read_mbr`, mbr.c:105-124, given that the read returned 512 bytes -/
def mbrMagic (d : Disk) : Bool := d 510 == 0x55 && d 511 == 0xAA

/-- `validate_region`, mbr.c:64-103; `dev = 0` stands for an error when asking for the size -/
def validateRegion (dev sector start size : Nat) : Bool :=
  if start < 512 ∨ size = 0 then false
  else if start % sector ≠ 0 then false
  else if size % (2 * sector) ≠ 0 then false
  else if dev = 0 then false
  else if (start + size) % U64 ≥ dev then false
  else true

/-- the test for one entry in `is_region_free`, mbr.c:134-163 -/
def entryClash (d : Disk) (sector start size i : Nat) : Bool :=
  if entSize d i = 0 then false
  else
    let p := entStart d i * sector
    let e := entSize d i * sector + p - 1
    (decide (start ≥ p ∧ start ≤ e)) || (decide (p ≥ start ∧ p ≤ (start + size + (U64 - 1)) % U64))

/-- `is_region_free`, mbr.c:126-169: entry 0 is skipped -/
def regionFree (d : Disk) (sector start size : Nat) : Bool := !(entryClash d sector start size 1 || entryClash d sector start size 2 || entryClash d sector start size 3)

/-- the choice of the inactive half, mbr.c:279-293 and gpt.c:236-249; `boot` is the first sector of the boot partition -/
def otherHalf (sector start size boot : Nat) : Option Part :=
  if start / sector = boot then some ⟨(start + size / 2) % U64, size / 2⟩
  else if ((start + size / 2) % U64) / sector = boot then some ⟨start, size / 2⟩
  else none

/-- `r_mbr_switch_get_inactive_partition`, mbr.c:231-296; `rd` says whether reading the device works -/
def mbrInactive (rd : Bool) (dev sector start size : Nat) (d : Disk) : Option Part :=
  if !validateRegion dev sector start size then none
  else if !rd then none
  else if !mbrMagic d then none
  else if !regionFree d sector start size then none
  else if entStart d 0 = 0 then none
  else otherHalf sector start size (entStart d 0)

/-- `get_chs`, mbr.c:171-197; `old` are the bytes that are kept if the geometry is invalid -/
def chs (lba heads sectors : Nat) (old : Bytes) : Bytes :=
  if heads = 0 ∨ sectors = 0 then old
  else
    let l1 := lba / sectors
    let l2 := l1 / heads
    [UInt8.ofNat (l1 % heads), UInt8.ofNat (lba % sectors + 1) ||| (UInt8.ofNat (l2 / 4) &&& 0xC0), UInt8.ofNat l2]

/-- the 512 bytes that `r_mbr_switch_set_boot_partition` writes: mbr.c:199-229 and 298-346. The boot indicator and the type of the entry are kept. -/
def newMbr (d : Disk) (sector heads sectors : Nat) (p : Part) : Bytes :=
  let s := (p.start / sector) % U32
  let n := (p.size / sector) % U32
  d.read 0 447 ++ chs s heads sectors (d.read 447 3) ++ d.read 450 1 ++ chs ((s + n + (U32 - 1)) % U32) heads sectors (d.read 451 3) ++ toLe32 s ++ toLe32 n ++ d.read 462 50

/-- what may fail in `r_mbr_switch_set_boot_partition`; `write = some j` is a short or failed write of `j` bytes -/
structure MbrFaults where
  open_ : Bool := false
  read : Bool := false
  seek : Bool := false
  write : Option Nat := none
  heads : Nat := 255
  sectors : Nat := 63
deriving DecidableEq, Repr

/-- `r_mbr_switch_set_boot_partition`, mbr.c:298-346, on the device as it is (`d`). There is no fsync. -/
def mbrSet (f : MbrFaults) (sector : Nat) (p : Part) (d : Disk) : Run :=
  if f.open_ ∨ f.read then ⟨[], false⟩
  else if !mbrMagic d then ⟨[], false⟩
  else if p.start % sector ≠ 0 ∨ p.size % sector ≠ 0 then ⟨[], false⟩
  else if f.seek then ⟨[], false⟩
  else match f.write with
    | some j => ⟨[.write 0 ((newMbr d sector f.heads f.sectors p).take j)], decide (512 ≤ j)⟩
    | none => ⟨[.write 0 (newMbr d sector f.heads f.sectors p)], true⟩

/-- what happens during the clearing and the writing of one partition -/
structure Env where
  clearOpen : Bool := false
  counts : Nat → Option Nat := fun _ => some 512
  writeOpen : Bool := false
  writeClose : Bool := false
  faults : Faults := {}
  io : Nat → Io := fun _ => ⟨some 8192, none⟩

/-- `clear_boot_switch_partition` followed by `write_boot_switch_partition`, update_handler.c:2109-2127, 2202-2220 and 2563-2575. The clearing is observed after more iterations than it needs (see `clear_small`). -/
def refresh (e : Env) (p : Part) (size hdr sector : Nat) (data : Bytes) : Run :=
  let c := clearPartition e.clearOpen e.counts (p.size + 1) p.start p.size
  if !c.ok then ⟨c.ops, false⟩
  else
    let w := writePartition e.writeOpen e.writeClose e.faults e.io size hdr sector p.start data
    ⟨c.ops ++ w.ops, w.ok⟩

/-- `img_to_boot_mbr_switch_handler`, update_handler.c:2062-2151, and `img_to_boot_gpt_switch_handler`, :2155-2245, which differ only in how the inactive partition is found (`part`) and how it is set (`set`).
`pre` and `post`: the hook succeeds, or is not enabled. -/
def switchRun (part : Option Part) (e : Env) (pre post : Bool) (sector size : Nat) (data : Bytes) (set : Part → Disk → Run) (d : Disk) : Run :=
  match part with
  | none => ⟨[], false⟩
  | some p =>
    if p.size < size then ⟨[], false⟩
    else if !pre then ⟨[], false⟩
    else
      let r := refresh e p size 0 sector data
      if !r.ok then r
      else if !post then ⟨r.ops, false⟩
      else
        let s := set p (apply d r.ops)
        ⟨r.ops ++ s.ops, s.ok⟩

/-- the handler for MBR -/
def mbrRun (rd : Bool) (dev sector start rsize : Nat) (e : Env) (pre post : Bool) (f : MbrFaults) (size : Nat) (data : Bytes) (d : Disk) : Run :=
  switchRun (mbrInactive rd dev sector start rsize d) e pre post sector size data (mbrSet f sector) d

/-! ## GPT -/

/-- a partition as libfdisk reports it: number, first and last sector -/
structure GptPart where
  no : Nat
  first : Nat
  last : Nat
deriving DecidableEq, Repr

/-- the partition table as libfdisk reports it. `valid` is the result of `check_gpt`, gpt.c:46-84 -/
structure Gpt where
  valid : Bool
  grain : Nat
  sector : Nat
  nsectors : Nat
  parts : List GptPart
deriving DecidableEq, Repr

/-- `check_region`, gpt.c:86-186 -/
def checkRegion (g : Gpt) (start size : Nat) : Bool :=
  if start < 34 * 512 ∨ size = 0 then false
  else if start % g.grain ≠ 0 then false
  else if size % (2 * g.grain) ≠ 0 then false
  else if start / g.sector ≥ g.nsectors then false
  else if ((start + size) % U64) / g.sector ≥ g.nsectors then false
  else
    let a := start / g.sector
    let b := a + size / g.sector - 1
    if g.parts.any (fun p => decide (p.no ≠ 0 ∧ a ≤ p.last ∧ p.first ≤ b)) then false
    else g.parts.any (fun p => p.no == 0)

/-- `r_gpt_switch_get_inactive_partition`, gpt.c:188-263 -/
def gptInactive (openFails : Bool) (g : Gpt) (start size : Nat) : Option Part :=
  if openFails then none
  else if !g.valid then none
  else if !checkRegion g start size then none
  else match g.parts.find? (fun p => p.no == 0) with
    | none => none
    | some p => otherHalf g.sector start size p.first

/-- the handler for GPT; `set` is `r_gpt_switch_set_boot_partition` (gpt.c:265-352), that is what libfdisk writes -/
def gptRun (openFails : Bool) (g : Gpt) (start rsize : Nat) (e : Env) (pre post : Bool) (set : Part → Disk → Run) (size : Nat) (data : Bytes) (d : Disk) : Run :=
  switchRun (gptInactive openFails g start rsize) e pre post g.sector size data set d

/-! ## Raw fallback -/

/-- `check_if_area_is_clear`, update_handler.c:2430-2488, for an area that can be read -/
def areaClear (d : Disk) (start size : Nat) : Bool := (d.read start size).all (fun b => b == 0x00 || b == 0xFF)

/-- what happens during a run of `img_to_boot_raw_fallback_handler`; `stop` would be a failing check for the area -/
structure FbEnv where
  pre : Bool := true
  post : Bool := true
  checkFails : Bool := false
  first : Env := {}
  second : Env := {}

/-- `img_to_boot_raw_fallback_handler`, update_handler.c:2490-2590, on the device `d` with a sector size of `sector` -/
def fallbackRun (e : FbEnv) (sector start rsize size : Nat) (data : Bytes) (d : Disk) : Run :=
  let half := rsize / 2
  if start % 512 ≠ 0 then ⟨[], false⟩
  else if half % 512 ≠ 0 then ⟨[], false⟩
  else if half < size then ⟨[], false⟩
  else if !e.pre then ⟨[], false⟩
  else if e.checkFails then ⟨[], false⟩
  else
    let fb : Part := ⟨(start + half) % U64, half⟩
    let pr : Part := ⟨start, half⟩
    let clear := areaClear d start 512
    let a := if clear then pr else fb
    let b := if clear then fb else pr
    let r1 := refresh e.first a size 512 sector data
    if !r1.ok then r1
    else
      let r2 := refresh e.second b size 512 sector data
      ⟨r1.ops ++ r2.ops, r2.ok && e.post⟩

end Rauc.Switch
