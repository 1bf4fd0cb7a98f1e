import Verif.Lib.Disk

/-!
# dm-verity hash tree: src/verity_hash.c

The hash of a block (SHA-256 of salt and block, `verify_hash_block` :78-120) is an arbitrary function `H`. Not modelled: stdio buffering
(the streams are taken to be coherent), write errors, and the ignored result of the final `fclose`.
-/

namespace Rauc.Verity

/-- the constants, verity_hash.c:37-40 and 207-208: block size, digest size, digests per block -/
structure Par where
  B : Nat
  D : Nat
  hpb : Nat

/-- the values in the code -/
def code : Par := ⟨4096, 32, 128⟩

/-- `digest_size_full = digest_size`, so that there is no spare area after each digest -/
structure Par.WF (P : Par) : Prop where
  b : P.B = P.hpb * P.D
  d : 0 < P.D
  two : 2 ≤ P.hpb

structure File where
  data : Disk
  size : Nat

/-- `fread` of one item: fails at the end of the file -/
def File.read? (f : File) (off n : Nat) : Option Bytes := if off + n ≤ f.size then some (f.data.read off n) else none

/-- `fwrite` -/
def File.write (f : File) (off : Nat) (b : Bytes) : File := ⟨f.data.write off b, max f.size (off + b.length)⟩

/-- the number of blocks needed for the digests of `n` blocks -/
def Par.up (P : Par) (n : Nat) : Nat := (n + P.hpb - 1) / P.hpb

/-- the first loop of `hash_levels`, verity_hash.c:146-149, for `m = data_file_blocks - 1` -/
def levelsLoop (P : Par) (m : Nat) : Nat → Nat → Nat
  | 0, l => l
  | fuel + 1, l => if m / P.hpb ^ l ≠ 0 then levelsLoop P m fuel (l + 1) else l

def levels (P : Par) (n : Nat) : Nat := levelsLoop P (n - 1) 64 0

/-- `hash_level_size[i]`, verity_hash.c:157-163 -/
def levelSize (P : Par) (n i : Nat) : Nat := (n + P.hpb ^ (i + 1) - 1) / P.hpb ^ (i + 1)

/-- `hash_level_block[i]` after the second loop of `hash_levels`, verity_hash.c:154-167, started at block `p` with `L` levels -/
def posOf (P : Par) (n : Nat) : Nat → Nat → Nat → Nat
  | 0, p, _ => p
  | L + 1, p, i => if i = L then p else posOf P n L (p + levelSize P n L) i

/-- `hash_position` after that loop -/
def endPos (P : Par) (n : Nat) : Nat → Nat → Nat
  | 0, p => p
  | L + 1, p => endPos P n L (p + levelSize P n L)

/-- `create_or_verify` with `verify = 0`, verity_hash.c:229-272: the digests. Because the blocks are filled completely, digest `i` is
at `i * D`. -/
def createBlocks (P : Par) (H : Bytes → Bytes) (rd wr : Nat) : Nat → Nat → File → Option File
  | 0, _, f => some f
  | m + 1, i, f =>
    match f.read? (rd * P.B + i * P.B) P.B with
    | none => none
    | some b => createBlocks P H rd wr m (i + 1) (f.write (wr * P.B + i * P.D) (H b))

/-- the same with the zeros that fill the last block, verity_hash.c:273-283 -/
def createLevel (P : Par) (H : Bytes → Bytes) (rd wr blocks : Nat) (f : File) : Option File :=
  match createBlocks P H rd wr blocks 0 f with
  | none => none
  | some f => some (f.write (wr * P.B + blocks * P.D) (List.replicate (P.up blocks * P.B - blocks * P.D) 0))

/-- `create_or_verify` with `verify = 1`: the digests -/
def verifyBlocks (P : Par) (H : Bytes → Bytes) (rd wr : Nat) (f : File) : Nat → Nat → Bool
  | 0, _ => true
  | m + 1, i =>
    match f.read? (rd * P.B + i * P.B) P.B with
    | none => false
    | some b =>
      match f.read? (wr * P.B + i * P.D) P.D with
      | none => false
      | some x => if x = H b then verifyBlocks P H rd wr f m (i + 1) else false

/-- `verify_zero`, verity_hash.c:58-76; no read if there is nothing left -/
def verifyZero (f : File) (off n : Nat) : Bool :=
  if n = 0 then true
  else
    match f.read? off n with
    | none => false
    | some b => b.all (· == 0)

def verifyLevel (P : Par) (H : Bytes → Bytes) (rd wr blocks : Nat) (f : File) : Bool :=
  verifyBlocks P H rd wr f blocks 0 && verifyZero f (wr * P.B + blocks * P.D) (P.up blocks * P.B - blocks * P.D)

/-- where and how many the blocks hashed by level `i` are, verity_hash.c:360-382 -/
def source (P : Par) (n L i : Nat) : Nat × Nat :=
  match i with
  | 0 => (0, n)
  | i + 1 => (posOf P n L n i, levelSize P n i)

/-- the loop over the levels, verity_hash.c:359-384, creating -/
def createLevels (P : Par) (H : Bytes → Bytes) (n L : Nat) : Nat → Nat → File → Option File
  | 0, _, f => some f
  | m + 1, i, f =>
    match createLevel P H (source P n L i).1 (posOf P n L n i) (source P n L i).2 f with
    | none => none
    | some f => createLevels P H n L m (i + 1) f

/-- the loop over the levels, verifying -/
def verifyLevels (P : Par) (H : Bytes → Bytes) (n L : Nat) (f : File) : Nat → Nat → Bool
  | 0, _ => true
  | m + 1, i =>
    verifyLevel P H (source P n L i).1 (posOf P n L n i) (source P n L i).2 f && verifyLevels P H n L f m (i + 1)

/-- the digest of the remaining block, verity_hash.c:386-399 -/
def rootOf (P : Par) (H : Bytes → Bytes) (n L : Nat) (f : File) : Option Bytes :=
  (f.read? ((source P n L L).1 * P.B) P.B).map H

/-- the overflow checks, verity_hash.c:319-336; without data blocks `hash_levels` fails because of the shift -/
def sizesOk (P : Par) (n : Nat) : Bool :=
  decide (n ≠ 0) && decide (n * P.B < 2 ^ 64) && decide (endPos P n (levels P n) n * P.B < 2 ^ 64)

/-- `r_verity_hash_create`, verity_hash.c:300-429: file, root hash, combined number of blocks -/
def create (P : Par) (H : Bytes → Bytes) (n : Nat) (f : File) : Option (File × Bytes × Nat) :=
  if sizesOk P n then
    match createLevels P H n (levels P n) (levels P n) 0 f with
    | none => none
    | some f =>
      match rootOf P H n (levels P n) f with
      | none => none
      | some r => some (f, r, endPos P n (levels P n) n)
  else none

/-- `r_verity_hash_verify`, verity_hash.c:431-438 -/
def verify (P : Par) (H : Bytes → Bytes) (n : Nat) (root : Bytes) (f : File) : Bool :=
  sizesOk P n && verifyLevels P H n (levels P n) f (levels P n) 0 &&
  (match rootOf P H n (levels P n) f with
    | none => false
    | some r => r == root)

end Rauc.Verity
