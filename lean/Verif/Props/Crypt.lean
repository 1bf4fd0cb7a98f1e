import Verif.Model.Crypt

/-!
# C47: payload encryption
-/

namespace Rauc.Crypt

/-- a block cipher with a key: encryption and decryption keep the size of a block and are inverse to each other -/
structure Cipher (E D : Bytes → Bytes) : Prop where
  encLen : ∀ b : Bytes, b.length = 16 → (E b).length = 16
  decLen : ∀ b : Bytes, b.length = 16 → (D b).length = 16
  inv : ∀ b : Bytes, b.length = 16 → D (E b) = b

/-! ## CBC -/

theorem xor_length (a b : Bytes) (h : a.length = b.length) : (xor a b).length = a.length := by
  unfold xor; rw [List.length_zipWith, ← h, Nat.min_self]

theorem xor_xor (a b : Bytes) (h : a.length = b.length) : xor (xor a b) b = a := by
  unfold xor
  apply List.ext_getElem
  · simp [h]
  · intro i h1 h2
    simp only [List.getElem_zipWith]
    rw [UInt8.xor_assoc, UInt8.xor_self, UInt8.xor_zero]

theorem cbc_inv (E D : Bytes → Bytes) (hc : Cipher E D) (l : List Bytes) (v : Bytes) (hv : v.length = 16) (hl : ∀ b ∈ l, b.length = 16) :
    cbcDec D v (cbcEnc E v l) = l := by
  induction l generalizing v with
  | nil => rfl
  | cons p l ih =>
    have hp : p.length = 16 := hl p List.mem_cons_self
    have hx : (xor p v).length = 16 := by rw [xor_length _ _ (by omega), hp]
    simp only [cbcEnc, cbcDec]
    rw [hc.inv _ hx, xor_xor _ _ (by omega), ih _ (hc.encLen _ hx) (fun b hb => hl b (List.mem_cons_of_mem _ hb))]

theorem cbcEnc_len (E D : Bytes → Bytes) (hc : Cipher E D) (l : List Bytes) (v : Bytes) (hv : v.length = 16) (hl : ∀ b ∈ l, b.length = 16) :
    (cbcEnc E v l).length = l.length ∧ ∀ b ∈ cbcEnc E v l, b.length = 16 := by
  induction l generalizing v with
  | nil => exact ⟨rfl, by simp [cbcEnc]⟩
  | cons p l ih =>
    have hp : p.length = 16 := hl p List.mem_cons_self
    have hx : (xor p v).length = 16 := by rw [xor_length _ _ (by omega), hp]
    obtain ⟨h1, h2⟩ := ih (E (xor p v)) (hc.encLen _ hx) (fun b hb => hl b (List.mem_cons_of_mem _ hb))
    simp only [cbcEnc]
    refine ⟨by simp [h1], ?_⟩
    intro b hb
    rcases List.mem_cons.1 hb with rfl | hb
    · exact hc.encLen _ hx
    · exact h2 b hb

theorem pieces_len (n k : Nat) (b : Bytes) (h : b.length = k * n) : (pieces n k b).length = k ∧ (∀ p ∈ pieces n k b, p.length = n) ∧ (pieces n k b).flatten = b := by
  induction k generalizing b with
  | zero =>
    have : b = [] := List.length_eq_zero_iff.1 (by omega)
    subst this
    exact ⟨rfl, by simp [pieces], rfl⟩
  | succ k ih =>
    have h' : b.length = k * n + n := by rw [h, Nat.succ_mul]
    obtain ⟨h1, h2, h3⟩ := ih (b.drop n) (by rw [List.length_drop]; omega)
    refine ⟨by simp [pieces, h1], ?_, ?_⟩
    · intro p hp
      simp only [pieces] at hp
      rcases List.mem_cons.1 hp with rfl | hp
      · rw [List.length_take]; omega
      · exact h2 p hp
    · simp only [pieces, List.flatten_cons, h3, List.take_append_drop]

theorem pieces_flatten (n : Nat) (l : List Bytes) (h : ∀ b ∈ l, b.length = n) : pieces n l.length l.flatten = l := by
  induction l with
  | nil => rfl
  | cons a l ih =>
    have ha : a.length = n := h a List.mem_cons_self
    simp only [List.length_cons, pieces, List.flatten_cons]
    rw [← ha, List.take_left, List.drop_left, ha, ih (fun b hb => h b (List.mem_cons_of_mem _ hb))]

theorem flatten_len (n : Nat) (l : List Bytes) (h : ∀ b ∈ l, b.length = n) : l.flatten.length = l.length * n := by
  induction l with
  | nil => simp
  | cons a l ih =>
    rw [List.flatten_cons, List.length_append, ih (fun b hb => h b (List.mem_cons_of_mem _ hb)), h a List.mem_cons_self, List.length_cons, Nat.succ_mul, Nat.add_comm]

theorem iv_length (n : Nat) : (iv n).length = 16 := by simp [iv, le64]

theorem secSize_eq : secSize = secSize / blkSize * 16 := by decide

theorem encSector_length (E D : Bytes → Bytes) (hc : Cipher E D) (n : Nat) (b : Bytes) (h : b.length = secSize) : (encSector E n b).length = secSize := by
  unfold encSector
  obtain ⟨h1, h2, _⟩ := pieces_len blkSize (secSize / blkSize) b (by rw [h]; exact secSize_eq)
  obtain ⟨h3, h4⟩ := cbcEnc_len E D hc (pieces blkSize (secSize / blkSize) b) (iv n) (iv_length n) h2
  rw [flatten_len 16 _ h4, h3, h1]
  exact secSize_eq.symm

theorem sector_inv (E D : Bytes → Bytes) (hc : Cipher E D) (n : Nat) (b : Bytes) (h : b.length = secSize) : decSector D n (encSector E n b) = b := by
  unfold encSector decSector
  obtain ⟨h1, h2, h5⟩ := pieces_len blkSize (secSize / blkSize) b (by rw [h]; exact secSize_eq)
  obtain ⟨h3, h4⟩ := cbcEnc_len E D hc (pieces blkSize (secSize / blkSize) b) (iv n) (iv_length n) h2
  have h6 : pieces blkSize (secSize / blkSize) (cbcEnc E (iv n) (pieces blkSize (secSize / blkSize) b)).flatten = cbcEnc E (iv n) (pieces blkSize (secSize / blkSize) b) := by
    have := pieces_flatten blkSize (cbcEnc E (iv n) (pieces blkSize (secSize / blkSize) b)) h4
    rw [h3, h1] at this
    exact this
  rw [h6, cbc_inv E D hc _ _ (iv_length n) h2, h5]

/-! ## The loop -/

/-- what the loop does to `k` sectors: each by itself, with its position -/
def sectors (f : Nat → Bytes → Bytes) : Nat → Nat → Bytes → Bytes
  | _, 0, _ => []
  | n, k + 1, b => f n (b.take secSize) ++ sectors f (n + 1) k (b.drop secSize)

theorem secSize_pos : 0 < secSize := by decide

/-- all of the input, without a limit or with one that is not reached before its end -/
theorem loop_all (f : Nat → Bytes → Bytes) (m k n : Nat) (b out : Bytes) (h : b.length = k * secSize) (hm : m = 0 ∨ (n + k) * secSize ≤ m) :
    loop f m n b out = ⟨true, out ++ sectors f n k b⟩ := by
  induction k generalizing n b out with
  | zero =>
    rw [loop, if_pos (by omega), sectors, List.append_nil]
  | succ k ih =>
    have hp := secSize_pos
    rw [Nat.succ_mul] at h
    rw [loop, if_neg (by omega), if_neg (by omega), if_neg, ih (n + 1) (b.drop secSize)]
    · rw [sectors, List.append_assoc]
    · rw [List.length_drop]; omega
    · rcases hm with hm | hm
      · exact Or.inl hm
      · right; rw [show n + 1 + k = n + (k + 1) by omega]; exact hm
    · rintro ⟨h1, h2⟩
      rcases hm with hm | hm
      · exact h1 hm
      · have : (n + 1) * secSize ≤ (n + (k + 1)) * secSize := Nat.mul_le_mul_right _ (by omega)
        omega

/-- the input is longer than the limit: its part up to the limit, if another whole sector follows -/
theorem loop_max (f : Nat → Bytes → Bytes) (m k n : Nat) (b rest out : Bytes) (h : b.length = k * secSize) (hr : secSize ≤ rest.length)
    (h1 : (n + k) * secSize ≤ m) (h2 : m < (n + k + 1) * secSize) (h0 : 0 < m) :
    loop f m n (b ++ rest) out = ⟨true, out ++ sectors f n k b⟩ := by
  induction k generalizing n b out with
  | zero =>
    have hb : b = [] := List.length_eq_zero_iff.1 (by omega)
    subst hb
    have hp := secSize_pos
    rw [List.nil_append, loop, if_neg (by omega), if_neg (by omega), if_pos ⟨by omega, by simpa using h2⟩, sectors, List.append_nil]
  | succ k ih =>
    have hp := secSize_pos
    rw [Nat.succ_mul] at h
    have hd : (b ++ rest).drop secSize = b.drop secSize ++ rest := List.drop_append_of_le_length (by omega)
    have ht : (b ++ rest).take secSize = b.take secSize := List.take_append_of_le_length (by omega)
    rw [loop, List.length_append, if_neg (by omega), if_neg (by omega), if_neg, hd, ht, ih (n + 1) (b.drop secSize)]
    · rw [sectors, List.append_assoc]
    · rw [List.length_drop]; omega
    · rw [show n + 1 + k = n + (k + 1) by omega]; exact h1
    · rw [show n + 1 + k + 1 = n + (k + 1) + 1 by omega]; exact h2
    · rintro ⟨_, h4⟩
      have : (n + 1) * secSize ≤ (n + (k + 1)) * secSize := Nat.mul_le_mul_right _ (by omega)
      omega

/-- a rest that is not a whole sector is an error -/
theorem loop_short (f : Nat → Bytes → Bytes) (m k n : Nat) (b rest out : Bytes) (h : b.length = k * secSize) (hr : 0 < rest.length) (hr' : rest.length < secSize)
    (hm : m = 0 ∨ (n + k) * secSize ≤ m) : (loop f m n (b ++ rest) out).ok = false := by
  induction k generalizing n b out with
  | zero =>
    have hb : b = [] := List.length_eq_zero_iff.1 (by omega)
    subst hb
    rw [List.nil_append, loop, if_neg (by omega), if_pos hr']
  | succ k ih =>
    have hp := secSize_pos
    rw [Nat.succ_mul] at h
    have hd : (b ++ rest).drop secSize = b.drop secSize ++ rest := List.drop_append_of_le_length (by omega)
    rw [loop, List.length_append, if_neg (by omega), if_neg (by omega), if_neg, hd]
    · apply ih
      · rw [List.length_drop]; omega
      · rcases hm with hm | hm
        · exact Or.inl hm
        · right; rw [show n + 1 + k = n + (k + 1) by omega]; exact hm
    · rintro ⟨h1, h2⟩
      rcases hm with hm | hm
      · exact h1 hm
      · have : (n + 1) * secSize ≤ (n + (k + 1)) * secSize := Nat.mul_le_mul_right _ (by omega)
        omega

theorem sectors_length (f : Nat → Bytes → Bytes) (hf : ∀ n b, b.length = secSize → (f n b).length = secSize) (k n : Nat) (b : Bytes) (h : b.length = k * secSize) :
    (sectors f n k b).length = k * secSize := by
  induction k generalizing n b with
  | zero => simp [sectors]
  | succ k ih =>
    rw [Nat.succ_mul] at h
    rw [sectors, List.length_append, hf _ _ (by rw [List.length_take]; omega), ih _ _ (by rw [List.length_drop]; omega), Nat.succ_mul, Nat.add_comm]

/-- sector `i` of the result is made of sector `i` of the input only -/
theorem sectors_get (f : Nat → Bytes → Bytes) (hf : ∀ n b, b.length = secSize → (f n b).length = secSize) (k n i : Nat) (b : Bytes) (h : b.length = k * secSize) (hi : i < k) :
    ((sectors f n k b).drop (i * secSize)).take secSize = f (n + i) ((b.drop (i * secSize)).take secSize) := by
  induction k generalizing n i b with
  | zero => omega
  | succ k ih =>
    rw [Nat.succ_mul] at h
    have hl : (f n (b.take secSize)).length = secSize := hf _ _ (by rw [List.length_take]; omega)
    rw [sectors]
    cases i with
    | zero =>
      rw [Nat.zero_mul, List.drop_zero, List.drop_zero, Nat.add_zero]
      exact List.take_left' hl
    | succ i =>
      have h1 : (f n (b.take secSize) ++ sectors f (n + 1) k (b.drop secSize)).drop ((i + 1) * secSize) = (sectors f (n + 1) k (b.drop secSize)).drop (i * secSize) := by
        rw [Nat.succ_mul, Nat.add_comm, ← List.drop_drop]
        congr 1
        exact List.drop_left' hl
      rw [h1, ih (n + 1) i (b.drop secSize) (by rw [List.length_drop]; omega) (by omega), List.drop_drop, show n + 1 + i = n + (i + 1) by omega,
        show secSize + i * secSize = (i + 1) * secSize by rw [Nat.succ_mul, Nat.add_comm]]

theorem sectors_inv (f g : Nat → Bytes → Bytes) (hf : ∀ n b, b.length = secSize → (f n b).length = secSize) (hfg : ∀ n b, b.length = secSize → g n (f n b) = b)
    (k n : Nat) (b : Bytes) (h : b.length = k * secSize) : sectors g n k (sectors f n k b) = b := by
  induction k generalizing n b with
  | zero => rw [sectors]; exact (List.length_eq_zero_iff.1 (by omega)).symm
  | succ k ih =>
    rw [Nat.succ_mul] at h
    have ht : (b.take secSize).length = secSize := by rw [List.length_take]; omega
    have hl := hf n _ ht
    have h1 : (f n (b.take secSize) ++ sectors f (n + 1) k (b.drop secSize)).take secSize = f n (b.take secSize) := by
      exact List.take_left' hl
    have h2 : (f n (b.take secSize) ++ sectors f (n + 1) k (b.drop secSize)).drop secSize = sectors f (n + 1) k (b.drop secSize) := by
      exact List.drop_left' hl
    rw [sectors, sectors, h1, h2, hfg _ _ ht, ih _ _ (by rw [List.length_drop]; omega), List.take_append_drop]

/-! ## C47 -/

/-- Encrypting a payload of whole sectors succeeds and gives as many bytes; decrypting gives the payload back: of the file as it is, and of a bundle in which a hash tree (or other data of at least a sector) follows the payload,
with the limit set to its size. -/
theorem C47_roundtrip (E D : Bytes → Bytes) (hc : Cipher E D) (payload : Bytes) (hp : payload.length % 4096 = 0) :
    (encrypt E payload none none).ok = true ∧ (encrypt E payload none none).out.length = payload.length ∧
    decrypt D 0 (encrypt E payload none none).out none none = ⟨true, payload⟩ ∧
    ∀ rest : Bytes, 0 < payload.length → (rest = [] ∨ 4096 ≤ rest.length) →
      decrypt D payload.length ((encrypt E payload none none).out ++ rest) none none = ⟨true, payload⟩ := by
  have hk : payload.length = payload.length / secSize * secSize := by
    have h1 := Nat.div_add_mod payload.length secSize
    rw [show payload.length % secSize = 0 from hp] at h1
    rw [Nat.mul_comm]; omega
  generalize payload.length / secSize = k at hk
  have hL := encSector_length E D hc
  have he : encrypt E payload none none = ⟨true, sectors (encSector E) 0 k payload⟩ := by
    unfold encrypt cryptFile
    rw [loop_all _ 0 k 0 payload [] hk (Or.inl rfl)]
    rfl
  have hlen := sectors_length _ hL k 0 payload hk
  have hinv := sectors_inv _ _ hL (sector_inv E D hc) k 0 payload hk
  rw [he]
  refine ⟨rfl, by rw [hlen, hk], ?_, ?_⟩
  · unfold decrypt cryptFile
    simp only []
    rw [loop_all _ 0 k 0 _ [] hlen (Or.inl rfl), hinv]
    rfl
  · intro rest h0 hr
    unfold decrypt cryptFile
    simp only []
    rcases hr with rfl | hr
    · rw [List.append_nil, loop_all _ _ k 0 _ [] hlen (Or.inr (by rw [hk, Nat.zero_add]; exact Nat.le_refl _)), hinv]
      rfl
    · have hsp := secSize_pos
      rw [loop_max _ _ k 0 _ rest [] hlen hr (by rw [hk, Nat.zero_add]; exact Nat.le_refl _) (by rw [hk, Nat.zero_add, Nat.succ_mul]; omega) h0, hinv]
      rfl

/-- Each sector of 4096 bytes is encrypted by itself, in CBC mode with the IV of its position: sector `i` of the output depends only on sector `i` of the payload. -/
theorem C47_sector (E D : Bytes → Bytes) (hc : Cipher E D) (payload : Bytes) (hp : payload.length % 4096 = 0) (i : Nat) (hi : i < payload.length / 4096) :
    ((encrypt E payload none none).out.drop (i * 4096)).take 4096 = (cbcEnc E (iv i) (pieces 16 256 ((payload.drop (i * 4096)).take 4096))).flatten := by
  have hk : payload.length = payload.length / secSize * secSize := by
    have h1 := Nat.div_add_mod payload.length secSize
    rw [show payload.length % secSize = 0 from hp] at h1
    rw [Nat.mul_comm]; omega
  have hi' : i < payload.length / secSize := hi
  generalize payload.length / secSize = k at hk hi'
  have he : encrypt E payload none none = ⟨true, sectors (encSector E) 0 k payload⟩ := by
    unfold encrypt cryptFile
    rw [loop_all _ 0 k 0 payload [] hk (Or.inl rfl)]
    rfl
  rw [he]
  have := sectors_get _ (encSector_length E D hc) k 0 i payload hk hi'
  rw [Nat.zero_add] at this
  exact this

/-- the IV: the position in units of 512 bytes, as 64-bit little-endian number, followed by zeros, for all payloads up to 16 EiB -/
theorem C47_iv (i : Nat) (hi : i < 2 ^ 52) : iv i = le64 (8 * i) ++ List.replicate 8 0 := by
  unfold iv secSize
  rw [Nat.mod_eq_of_lt (by omega), show i * 4096 / 512 = 8 * i by omega]

theorem le64_inj (a b : Nat) (ha : a < 2 ^ 64) (hb : b < 2 ^ 64) (h : le64 a = le64 b) : a = b := by
  have hk : ∀ k, k < 8 → a / 256 ^ k % 256 = b / 256 ^ k % 256 := by
    intro k hk
    have h1 : (le64 a)[k]? = (le64 b)[k]? := by rw [h]
    simp only [le64, List.getElem?_map, List.getElem?_range hk, Option.map_some, Option.some.injEq] at h1
    have h2 := congrArg UInt8.toNat h1
    simp only [UInt8.toNat_ofNat'] at h2
    omega
  have h0 := hk 0 (by omega)
  have h1 := hk 1 (by omega)
  have h2 := hk 2 (by omega)
  have h3 := hk 3 (by omega)
  have h4 := hk 4 (by omega)
  have h5 := hk 5 (by omega)
  have h6 := hk 6 (by omega)
  have h7 := hk 7 (by omega)
  simp only [Nat.pow_zero, Nat.pow_one, show 256 ^ 2 = 65536 from rfl, show 256 ^ 3 = 16777216 from rfl, show 256 ^ 4 = 4294967296 from rfl,
    show 256 ^ 5 = 1099511627776 from rfl, show 256 ^ 6 = 281474976710656 from rfl, show 256 ^ 7 = 72057594037927936 from rfl] at *
  omega

/-- no two sectors of a payload use the same IV -/
theorem C47_iv_unique (i j : Nat) (hi : i < 2 ^ 52) (hj : j < 2 ^ 52) (h : iv i = iv j) : i = j := by
  rw [C47_iv i hi, C47_iv j hj] at h
  have := le64_inj (8 * i) (8 * j) (by omega) (by omega) (List.append_cancel_right h)
  omega

/-- what the kernel's `aes-cbc-plain64` mapping with `sector_size:4096` and offset 0 (dm.c:196-201) shows at sector `i` of 4096 bytes: the device sector is decrypted with the IV of its position in units of 512 bytes -/
def dmSector (D : Bytes → Bytes) (device : Bytes) (i : Nat) : Bytes :=
  (cbcDec D (le64 (8 * i) ++ List.replicate 8 0) (pieces 16 256 ((device.drop (i * 4096)).take 4096))).flatten

theorem window (a b : Bytes) (o n : Nat) (h : o + n ≤ a.length) : ((a ++ b).drop o).take n = (a.drop o).take n := by
  rw [List.drop_append_of_le_length (by omega), List.take_append_of_le_length (by rw [List.length_drop]; omega)]

/-- The device that the kernel sets up on an encrypted bundle shows the payload: every sector, and whatever follows the encrypted payload in the bundle. -/
theorem C47_device (E D : Bytes → Bytes) (hc : Cipher E D) (payload : Bytes) (hp : payload.length % 4096 = 0) (rest : Bytes) (i : Nat) (hi : i < payload.length / 4096) (h52 : i < 2 ^ 52) :
    dmSector D ((encrypt E payload none none).out ++ rest) i = (payload.drop (i * 4096)).take 4096 := by
  obtain ⟨_, hlen, _, _⟩ := C47_roundtrip E D hc payload hp
  have hs := C47_sector E D hc payload hp i hi
  have hroom : i * 4096 + 4096 ≤ payload.length := by omega
  have hin : (((encrypt E payload none none).out ++ rest).drop (i * 4096)).take 4096 = ((encrypt E payload none none).out.drop (i * 4096)).take 4096 := by
    exact window _ _ _ _ (by omega)
  unfold dmSector
  rw [hin, hs, ← C47_iv i h52]
  exact sector_inv E D hc i _ (by rw [List.length_take, List.length_drop]; unfold secSize; omega)

/-- A payload that does not consist of whole sectors is rejected, encrypting as well as decrypting. -/
theorem C47_rejects (E D : Bytes → Bytes) (payload : Bytes) (hp : payload.length % 4096 ≠ 0) :
    (encrypt E payload none none).ok = false ∧ (decrypt D 0 payload none none).ok = false := by
  have h1 := Nat.div_add_mod payload.length secSize
  have h2 := Nat.mod_lt payload.length secSize_pos
  have h3 : payload.length % secSize ≠ 0 := hp
  have hk : (payload.take (payload.length / secSize * secSize)).length = payload.length / secSize * secSize := by
    rw [List.length_take, Nat.min_eq_left]
    rw [Nat.mul_comm]; omega
  have key : ∀ f, (loop f 0 0 payload []).ok = false := by
    intro f
    have := loop_short f 0 (payload.length / secSize) 0 (payload.take (payload.length / secSize * secSize)) (payload.drop (payload.length / secSize * secSize)) [] hk
      (by rw [List.length_drop, Nat.mul_comm]; omega) (by rw [List.length_drop, Nat.mul_comm]; omega) (Or.inl rfl)
    rw [List.take_append_drop] at this
    exact this
  exact ⟨key _, key _⟩

/-! ## Findings -/

/-- Decrypting a bundle fails if less than a sector follows the payload, although the limit excludes it: the rest is read before the limit is checked. (This is the case without a hash tree, for a payload of one block.) -/
theorem C47_finding_rest (E D : Bytes → Bytes) (hc : Cipher E D) (payload rest : Bytes) (hp : payload.length % 4096 = 0) (hr : 0 < rest.length) (hr' : rest.length < 4096) :
    (decrypt D payload.length ((encrypt E payload none none).out ++ rest) none none).ok = false := by
  obtain ⟨_, hlen, _, _⟩ := C47_roundtrip E D hc payload hp
  have hk : payload.length = payload.length / secSize * secSize := by
    have h1 := Nat.div_add_mod payload.length secSize
    rw [show payload.length % secSize = 0 from hp] at h1
    rw [Nat.mul_comm]; omega
  exact loop_short _ _ (payload.length / secSize) 0 _ rest [] (by rw [hlen]; exact hk) hr hr' (Or.inr (by rw [Nat.zero_add]; omega))

/-- A read error at a sector boundary is taken for the end of the file: the encrypted payload is cut off, with success. -/
theorem C47_finding_read_error (E D : Bytes → Bytes) (hc : Cipher E D) (payload : Bytes) (i : Nat) (hi : i * 4096 ≤ payload.length) :
    (encrypt E payload (some (i * 4096)) none).ok = true ∧ (encrypt E payload (some (i * 4096)) none).out.length = i * 4096 := by
  have hl : (payload.take (i * secSize)).length = i * secSize := by rw [List.length_take, Nat.min_eq_left]; exact hi
  have he : encrypt E payload (some (i * 4096)) none = ⟨true, sectors (encSector E) 0 i (payload.take (i * secSize))⟩ := by
    unfold encrypt cryptFile
    have := loop_all (encSector E) 0 i 0 (payload.take (i * secSize)) [] hl (Or.inl rfl)
    show (⟨(loop (encSector E) 0 0 (payload.take (i * secSize)) []).ok, (loop (encSector E) 0 0 (payload.take (i * secSize)) []).out⟩ : Result) = _
    rw [this]
    rfl
  rw [he]
  exact ⟨rfl, sectors_length _ (encSector_length E D hc) i 0 _ hl⟩

/-- A full disk is not noticed: success, but only a part of the encrypted payload is in the file. -/
theorem C47_finding_disk_full (E D : Bytes → Bytes) (hc : Cipher E D) (payload : Bytes) (hp : payload.length % 4096 = 0) (space : Nat) (hs : space < payload.length) :
    (encrypt E payload none (some space)).ok = true ∧ (encrypt E payload none (some space)).out.length = space := by
  obtain ⟨h1, h2, _, _⟩ := C47_roundtrip E D hc payload hp
  refine ⟨h1, ?_⟩
  show ((encrypt E payload none none).out.take space).length = space
  rw [List.length_take, h2]
  omega

/-! ## The hypotheses can be met -/

/-- a toy cipher that depends on all of the block: reversing and flipping all bits -/
example : Cipher (fun b => (b.map (· ^^^ 255)).reverse) (fun b => b.reverse.map (· ^^^ 255)) where
  encLen := by intro b h; simp [h]
  decLen := by intro b h; simp [h]
  inv := by
    intro b _
    simp only [List.reverse_reverse, List.map_map]
    have : ((fun x : UInt8 => x ^^^ 255) ∘ fun x => x ^^^ 255) = id := by
      funext x
      simp only [Function.comp, id]
      rw [UInt8.xor_assoc, UInt8.xor_self, UInt8.xor_zero]
    rw [this, List.map_id]

example : iv 3 = [24, 0, 0, 0, 0, 0, 0, 0, 0, 0, 0, 0, 0, 0, 0, 0] := by decide

example : (List.replicate 8192 (7 : UInt8)).length % 4096 = 0 ∧ 1 < (List.replicate 8192 (7 : UInt8)).length / 4096 := by
  rw [List.length_replicate]; decide

end Rauc.Crypt
