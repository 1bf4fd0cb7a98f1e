import Verif.Lib.Disk

/-!
# Payload encryption: src/crypt.c, src/dm.c

The block cipher (AES-256 of OpenSSL and of the kernel) is a parameter: for each key a function on blocks of 16 bytes and its inverse. `EVP_CipherUpdate` without padding is CBC over the blocks.
The paths, the opening of the files and the (unused) output of `EVP_CipherFinal_ex` are not modelled.
-/

namespace Rauc.Crypt

/-- `ENC_SEC_SIZE`, crypt.c:9 -/
def secSize : Nat := 4096

/-- the block size of AES, also the size of the IV -/
def blkSize : Nat := 16

def xor (a b : Bytes) : Bytes := List.zipWith (· ^^^ ·) a b

/-- the first `k` pieces of `n` bytes -/
def pieces (n : Nat) : Nat → Bytes → List Bytes
  | 0, _ => []
  | k + 1, b => b.take n :: pieces n k (b.drop n)

/-- CBC encryption of blocks -/
def cbcEnc (E : Bytes → Bytes) : Bytes → List Bytes → List Bytes
  | _, [] => []
  | iv, p :: l => let c := E (xor p iv); c :: cbcEnc E c l

/-- CBC decryption of blocks -/
def cbcDec (D : Bytes → Bytes) : Bytes → List Bytes → List Bytes
  | _, [] => []
  | iv, c :: l => xor (D c) iv :: cbcDec D c l

/-- a 64-bit number in little-endian order -/
def le64 (n : Nat) : Bytes := (List.range 8).map fun k => UInt8.ofNat (n / 256 ^ k % 256)

/-- `iv_plain64`, crypt.c:18-26: the sector in units of 512 bytes, in 64-bit arithmetic, padded with zeros -/
def iv (sector : Nat) : Bytes := le64 (sector * secSize % 2 ^ 64 / 512) ++ List.replicate 8 0

/-- a sector in one call of `EVP_CipherUpdate`, crypt.c:95-98 -/
def encSector (E : Bytes → Bytes) (sector : Nat) (b : Bytes) : Bytes := (cbcEnc E (iv sector) (pieces blkSize (secSize / blkSize) b)).flatten

def decSector (D : Bytes → Bytes) (sector : Nat) (b : Bytes) : Bytes := (cbcDec D (iv sector) (pieces blkSize (secSize / blkSize) b)).flatten

/-- the result and what was passed to `fwrite` -/
structure Result where
  ok : Bool
  out : Bytes
deriving DecidableEq, Repr

/-- the loop of `encrypt_or_decrypt`, crypt.c:68-107. `input` is what `fread` still delivers: after a read error nothing more, as at the end of the file. -/
def loop (sector : Nat → Bytes → Bytes) (maxsize : Nat) (count : Nat) (input out : Bytes) : Result :=
  if input.length = 0 then ⟨true, out⟩
  else if input.length < secSize then ⟨false, out⟩
  else if maxsize ≠ 0 ∧ (count + 1) * secSize > maxsize then ⟨true, out⟩
  else loop sector maxsize (count + 1) (input.drop secSize) (out ++ sector count (input.take secSize))
termination_by input.length
decreasing_by simp [secSize] at *; omega

/-- `r_crypt_encrypt_or_decrypt`, crypt.c:112-152. `readError`: the offset from which on the input cannot be read. `space`: how many bytes can be written to the output. The results of `fwrite` and `fclose` are ignored. -/
def cryptFile (sector : Nat → Bytes → Bytes) (maxsize : Nat) (input : Bytes) (readError space : Option Nat) : Result :=
  let r := loop sector maxsize 0 (match readError with | none => input | some k => input.take k) []
  ⟨r.ok, match space with | none => r.out | some k => r.out.take k⟩

/-- `r_crypt_encrypt`, crypt.c:154-157 -/
def encrypt (E : Bytes → Bytes) (input : Bytes) (readError space : Option Nat) : Result := cryptFile (encSector E) 0 input readError space

/-- `r_crypt_decrypt`, crypt.c:159-162 -/
def decrypt (D : Bytes → Bytes) (maxsize : Nat) (input : Bytes) (readError space : Option Nat) : Result := cryptFile (decSector D) maxsize input readError space

end Rauc.Crypt
