import Verif.Lib.Disk
import Mathlib.Data.List.Sort

/-!
# Block hash index: src/hash_index.c, and the adaptive copy of src/update_handler.c:729-947

SHA-256 is an arbitrary function `sha` from byte strings to numbers: `memcmp` on the 32-byte digests is the comparison of the numbers they
represent in big-endian order. The chunk size (4096 in the code) is the parameter `cs`.
-/

namespace Rauc.HashIndex


/-- `RaucHashIndex`, include/hash_index.h:24-34, without the data file -/
structure Idx where
  hashes : List Nat
  count : Nat
  /-- `invalid_below` -/
  below : Nat := 0
  /-- `invalid_from` -/
  upto : Nat := 2 ^ 32 - 1
  skip : Bool := false
deriving DecidableEq, Repr

def hashAt (hs : List Nat) (i : Nat) : Nat := hs.getD i 0

/-- `lookup_compare_sort`, hash_index.c:119-137: order by hash, then by chunk number -/
def Before (hs : List Nat) (a b : Nat) : Prop := hashAt hs a < hashAt hs b ∨ (hashAt hs a = hashAt hs b ∧ a ≤ b)

instance (hs : List Nat) : DecidableRel (Before hs) := fun a b => by unfold Before; infer_instance

/-- `build_lookup`, hash_index.c:145-163. `qsort_r` is replaced by insertion sort: the comparison is a total order on chunk numbers, so the
result does not depend on the algorithm. -/
def buildLookup (hs : List Nat) : List Nat := (List.range hs.length).insertionSort (Before hs)

/-- binary search of `r_hash_index_get_chunk`, hash_index.c:457-475; the fuel is the number of iterations -/
def bsearch (lk : List Nat) (hs : List Nat) (h : Nat) : Nat → Nat → Nat → Option Nat
  | 0, _, _ => none
  | n + 1, l, r =>
    if l ≤ r then
      let m := l + (r - l) / 2
      let x := hashAt hs (lk.getD m 0)
      if x = h then some m
      else if x < h then bsearch lk hs h n (m + 1) r
      else if m > 0 then bsearch lk hs h n l (m - 1)
      else none
    else none

/-- finding the first chunk with this hash, hash_index.c:487-494: `orig` is kept if the loop reaches the start of the table -/
def walkBack (lk : List Nat) (hs : List Nat) (h : Nat) (orig : Nat) : Nat → Nat
  | 0 => orig
  | i + 1 => if hashAt hs (lk.getD i 0) ≠ h then i + 1 else walkBack lk hs h orig i

/-- finding the first chunk in the valid range, hash_index.c:498-523 -/
def scan (lk : List Nat) (hs : List Nat) (h : Nat) (below upto count : Nat) : Nat → Nat → Option Nat
  | 0, _ => none
  | n + 1, i =>
    if i < count then
      let cur := lk.getD i 0
      if hashAt hs cur ≠ h then none
      else if cur ≥ upto then none
      else if cur < below then (if i < count - 1 then scan lk hs h below upto count n (i + 1) else none)
      else some i
    else none

/-- the chunk number `r_hash_index_get_chunk` selects -/
def select (idx : Idx) (h : Nat) : Option Nat :=
  let lk := buildLookup idx.hashes
  if idx.count = 0 then none  -- g_return_val_if_fail
  else
    match bsearch lk idx.hashes h idx.count 0 (idx.count - 1) with
    | none => none
    | some m => (scan lk idx.hashes h idx.below idx.upto idx.count idx.count (walkBack lk idx.hashes h m m)).map (fun i => lk.getD i 0)

/-- `r_hash_index_get_chunk`, hash_index.c:436-559, on a data file of `size` bytes; `rd` is false if reading fails -/
def getChunk (sha : Bytes → Nat) (cs : Nat) (idx : Idx) (d : Disk) (size : Nat) (rd : Bool) (h : Nat) : Option Bytes :=
  match select idx h with
  | none => none
  | some i =>
    if rd && decide ((i + 1) * cs ≤ size) then
      let data := d.read (i * cs) cs
      if !idx.skip && decide (sha data ≠ h) then none else some data
    else none

/-! ## Opening -/

inductive Open (α : Type) where
  | fail
  /-- division by zero -/
  | crash
  | ok (a : α)
deriving DecidableEq, Repr

def maxChunks : Nat := 0x7ffffff

/-- `get_chunk_count`, hash_index.c:175-226: 0 on error -/
def chunkCount (cs size : Nat) : Nat :=
  if size = 0 then 0 else if size / cs > maxChunks then 0 else if size % cs ≠ 0 then 0 else size / cs

/-- `hash_file`, hash_index.c:56-101 -/
def hashFile (sha : Bytes → Nat) (cs : Nat) (d : Disk) (count : Nat) : List Nat :=
  (List.range count).map (fun i => sha (d.read (i * cs) cs))

/-- `r_hash_index_open`, hash_index.c:242-295. `stored` holds the entries of an existing index file (trailing bytes that are no full entry
are ignored), `progress` says whether progress is reported (hash_index.c:94-96). Reading the data file is assumed to work. -/
def openIdx (sha : Bytes → Nat) (cs : Nat) (progress : Bool) (d : Disk) (size : Nat) (stored : Option (List Nat)) : Open Idx :=
  if chunkCount cs size = 0 then .fail
  else
    match stored with
    | some hs => .ok { hashes := hs, count := if hs.length < chunkCount cs size then hs.length else chunkCount cs size }
    | none =>
      if progress && decide (chunkCount cs size / 9 = 0) then .crash
      else .ok { hashes := hashFile sha cs d (chunkCount cs size), count := chunkCount cs size }

/-- `r_hash_index_reuse`, hash_index.c:297-327 -/
def reuseIdx (cs : Nat) (idx : Idx) (size : Nat) : Option Idx :=
  if chunkCount cs size = 0 then none
  else
    let count := if chunkCount cs size > idx.count then idx.count else chunkCount cs size
    some { hashes := idx.hashes.take count, count := count }

/-! ## Adaptive copy: update_handler.c:729-927 -/

/-- a data file with its index -/
structure Src where
  idx : Idx
  data : Disk
  size : Nat

/-- the indices used, update_handler.c:823-831; the first two refer to the target -/
structure Sources where
  written : Idx
  old : Idx
  seed : Option Src
  image : Src

/-- failures: `rd c s` says whether reading from source `s` for chunk `c` works; `wr c = some n`: writing chunk `c` fails after
`n` bytes -/
structure Io where
  rd : Nat → Nat → Bool := fun _ _ => true
  wr : Nat → Option Nat := fun _ => none

/-- the search for one chunk, update_handler.c:856-875 -/
def fetch (sha : Bytes → Nat) (zeroHash : Nat) (cs : Nat) (io : Io) (S : Sources) (tgt : Disk) (tsize c : Nat) (h : Nat) : Option Bytes :=
  if h = zeroHash then some (List.replicate cs 0)
  else
    match getChunk sha cs S.written tgt tsize (io.rd c 0) h with
    | some b => some b
    | none =>
      match getChunk sha cs S.old tgt tsize (io.rd c 1) h with
      | some b => some b
      | none =>
        match S.seed with
        | some s =>
          (match getChunk sha cs s.idx s.data s.size (io.rd c 2) h with
          | some b => some b
          | none => getChunk sha cs S.image.idx S.image.data S.image.size (io.rd c 3) h)
        | none => getChunk sha cs S.image.idx S.image.data S.image.size (io.rd c 3) h

/-- the loop, update_handler.c:852-911, for the chunks from `c` on whose hashes are given -/
def copyLoop (sha : Bytes → Nat) (zeroHash : Nat) (cs : Nat) (io : Io) (tsize : Nat) : Sources → Nat → List Nat → Disk → Disk × Bool
  | _, _, [], d => (d, true)
  | S, c, h :: hs, d =>
    match fetch sha zeroHash cs io S d tsize c h with
    | none => (d, false)
    | some b =>
      -- r_pwrite_lazy: the existing data must be readable
      if (c + 1) * cs ≤ tsize then
        match io.wr c with
        | some n => (d.write (c * cs) (b.take n), false)
        | none =>
          copyLoop sha zeroHash cs io tsize
            { S with written := { S.written with upto := c + 1 }, old := { S.old with below := c } } (c + 1) hs
            (d.write (c * cs) b)
      else (d, false)

/-- inputs of the adaptive copy -/
structure Input where
  tsize : Nat
  /-- stored index of the target -/
  tstored : Option (List Nat)
  /-- seed slot: contents, size, stored index -/
  seed : Option (Disk × Nat × Option (List Nat))
  image : Disk
  isize : Nat
  /-- index file in the bundle -/
  istored : Option (List Nat)
  progress : Bool := true

/-- `copy_block_hash_index_image_to_dev`: target contents afterwards and success. The size check
(`check_image_size`) is that of a block device without size limit. -/
def copyAdaptive (sha : Bytes → Nat) (zeroHash : Nat) (cs : Nat) (io : Io) (I : Input) (tgt : Disk) : Open (Disk × Bool) :=
  match openIdx sha cs I.progress tgt I.tsize I.tstored with
  | .fail => .ok (tgt, false)
  | .crash => .crash
  | .ok old =>
    if I.tsize < I.isize then .ok (tgt, false)
    else
      match I.seed with
      | some (sd, ssize, sst) =>
        (match openIdx sha cs I.progress sd ssize sst with
        | .fail => .ok (tgt, false)
        | .crash => .crash
        | .ok si => withSeed old (some ⟨si, sd, ssize⟩))
      | none => withSeed old none
where
  /-- from update_handler.c:793 on -/
  withSeed (old : Idx) (seed : Option Src) : Open (Disk × Bool) :=
    match openIdx sha cs I.progress I.image I.isize I.istored with
    | .fail => .ok (tgt, false)
    | .crash => .crash
    | .ok ii =>
      match reuseIdx cs ii I.tsize with
      | none => .ok (tgt, false)
      | some wi =>
        .ok (copyLoop sha zeroHash cs io I.tsize
          ⟨{ wi with upto := 0, skip := true }, old, seed, ⟨{ ii with skip := true }, I.image, I.isize⟩⟩
          0 (ii.hashes.take ii.count) tgt)

end Rauc.HashIndex
