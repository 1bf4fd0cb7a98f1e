import Verif.Lib.Disk

/-!
# Copying images to devices: src/update_utils.c (`r_copy_stream_with_progress`), src/update_handler.c (`copy_raw_image`, `clear_boot_switch_partition`, `copy_raw_image_to_dev`)

A run is described by the writes and syncs it issues on the device, in order. The image file is any string of bytes; how many bytes a read returns, and which calls fail, is arbitrary.
Writes that fail may have written any part of their data before. Sizes are natural numbers; the checks that involve wrapping are modelled where they are done.
-/

namespace Rauc.Copy

inductive Op where
  | write (off : Nat) (b : Bytes)
  | sync
deriving DecidableEq, Repr

def applyOp (d : Disk) : Op → Disk
  | .write off b => d.write off b
  | .sync => d

def apply (d : Disk) (ops : List Op) : Disk := ops.foldl applyOp d

structure Run where
  ops : List Op
  ok : Bool
deriving DecidableEq, Repr

/-- one iteration of the copy loop: `read = none` is a read error, otherwise it says how many bytes are there at most; `write = some j` is a write error after `j` bytes -/
structure Io where
  read : Option Nat
  write : Option Nat

/-- what `g_input_stream_read` returns: between 1 and 8192 bytes, or nothing at the end of the file -/
def chunk (k : Nat) (rest : Bytes) : Bytes := rest.take (max 1 (min k 8192))

theorem chunk_length_pos (k : Nat) {rest : Bytes} (h : chunk k rest ≠ []) : 0 < (chunk k rest).length := List.length_pos_iff.2 h

structure LoopRes where
  ops : List Op
  ok : Bool
  /-- the number of bytes that were read -/
  read : Nat

theorem drop_lt (k : Nat) (rest : Bytes) (h : chunk k rest ≠ []) : (rest.drop (chunk k rest).length).length < rest.length := by
  have h1 := chunk_length_pos k h
  have h2 : (chunk k rest).length ≤ rest.length := by simp [chunk]; omega
  simp only [List.length_drop]; omega

/-- the loop of `r_copy_stream_with_progress`, update_utils.c:106-139, with `sum` bytes copied so far, at position `pos` of the device, with `rest` still to be read -/
def copyLoop (io : Nat → Io) (size i sum pos : Nat) (rest : Bytes) : LoopRes :=
  match (io i).read with
  | none => ⟨[], false, sum⟩
  | some k =>
    if sum + (chunk k rest).length > size then ⟨[], false, sum + (chunk k rest).length⟩
    else if h : chunk k rest = [] then ⟨[], true, sum⟩
    else
      match (io i).write with
      | some j => ⟨[.write pos ((chunk k rest).take j)], false, sum + (chunk k rest).length⟩
      | none =>
        let r := copyLoop io size (i + 1) (sum + (chunk k rest).length) (pos + (chunk k rest).length) (rest.drop (chunk k rest).length)
        ⟨.write pos (chunk k rest) :: r.ops, r.ok, r.read⟩
termination_by rest.length
decreasing_by exact drop_lt k rest h

/-- `r_copy_stream_with_progress`, update_utils.c:88-139. The progress that is emitted is not modelled here. -/
def copyStream (io : Nat → Io) (size pos : Nat) (data : Bytes) : LoopRes := if size = 0 then ⟨[], true, 0⟩ else copyLoop io size 0 0 pos data

/-- which calls of `copy_raw_image` fail; `header j` is a failure of the write of the header after `j` bytes -/
structure Faults where
  openImage : Bool := false
  readHeader : Bool := false
  skip : Bool := false
  sync1 : Bool := false
  rewind : Bool := false
  header : Option Nat := none
  close : Bool := false
  sync2 : Bool := false
deriving DecidableEq, Repr

/-- `copy_raw_image`, update_handler.c:326-419: the image `data` of the announced size `size` to position `start`; `hdr` is `len_header_last`, `sector` the size of a sector of the device -/
def copyRaw (f : Faults) (io : Nat → Io) (size hdr sector start : Nat) (data : Bytes) : Run :=
  if f.openImage then ⟨[], false⟩
  else if hdr ≠ 0 ∧ hdr ≠ sector then ⟨[], false⟩
  else if hdr ≠ 0 ∧ (f.readHeader ∨ f.skip) then ⟨[], false⟩
  else
    let h := data.take hdr
    let r := copyStream io size (start + h.length) (data.drop h.length)
    if !r.ok then ⟨r.ops, false⟩
    else if h.length + r.read ≠ size then ⟨r.ops, false⟩
    else if h.length = 0 then
      if f.close then ⟨r.ops, false⟩
      else if f.sync2 then ⟨r.ops, false⟩
      else ⟨r.ops ++ [.sync], true⟩
    else if f.sync1 then ⟨r.ops, false⟩
    else if f.rewind then ⟨r.ops ++ [.sync], false⟩
    else
      match f.header with
      | some j => ⟨r.ops ++ [.sync, .write start (h.take j)], false⟩
      | none =>
        if f.close ∨ f.sync2 then ⟨r.ops ++ [.sync, .write start h], false⟩
        else ⟨r.ops ++ [.sync, .write start h, .sync], true⟩

/-- `check_image_size`, update_handler.c:52-95. `limit = 0` means that there is no limit; `dev = none` means that the device is not a block device; an error when asking for the size counts as 0.
The size is not negative here. -/
def checkImageSize (limit : Nat) (dev : Option Nat) (size : Nat) : Bool :=
  if limit > 0 ∧ size > limit then false
  else match dev with
    | none => true
    | some n => !(n < size)

/-- `copy_raw_image_to_dev`, update_handler.c:689-727 -/
def copyToDev (openFails closeFails : Bool) (f : Faults) (io : Nat → Io) (limit : Nat) (dev : Option Nat) (size sector : Nat) (data : Bytes) : Run :=
  if openFails then ⟨[], false⟩
  else if !checkImageSize limit dev size then ⟨[], false⟩
  else
    let r := copyRaw f io size 0 sector 0 data
    if r.ok && closeFails then ⟨r.ops, false⟩ else r

/-- the loop of `clear_boot_switch_partition`, update_handler.c:194-204. `counts i` is the result of the `i`th write, `none` an error. `cnt` is the 32 bit counter, `pos` the position in the device. `fuel` is the number of
iterations after which the run is observed, since the loop may not terminate. (If the size does not fit into 32 bits, the code may write less per iteration than stated here.) -/
def clearLoop (counts : Nat → Option Nat) (size : Nat) : (fuel i cnt pos : Nat) → List Op × Option Nat
  | 0, _, _, _ => ([], none)
  | fuel + 1, i, cnt, pos =>
    if cnt < size then
      let n := min 512 (size - cnt)
      match counts i with
      | none => ([], some cnt)
      | some c =>
        let w := min n c
        let r := clearLoop counts size fuel (i + 1) ((cnt + w) % 4294967296) (pos + w)
        (.write pos (List.replicate w 0) :: r.1, r.2)
    else ([], some cnt)

/-- `clear_boot_switch_partition`, update_handler.c:163-220. Positions of 2^63 and more cannot be sought. -/
def clearPartition (openFails : Bool) (counts : Nat → Option Nat) (fuel start size : Nat) : Run :=
  if openFails then ⟨[], false⟩
  else if start ≥ 9223372036854775808 then ⟨[], false⟩
  else
    let r := clearLoop counts size fuel 0 0 start
    ⟨r.1, decide (r.2 = some size)⟩

/-- `write_boot_switch_partition`, update_handler.c:421-469 -/
def writePartition (openFails closeFails : Bool) (f : Faults) (io : Nat → Io) (size hdr sector start : Nat) (data : Bytes) : Run :=
  if openFails then ⟨[], false⟩
  else if start ≥ 9223372036854775808 then ⟨[], false⟩
  else
    let r := copyRaw f io size hdr sector start data
    if r.ok && closeFails then ⟨r.ops, false⟩ else r

end Rauc.Copy
