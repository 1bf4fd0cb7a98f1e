import Verif.Model.BootSwitch
import Verif.Props.Copy

/-!
# C41: switching boot partitions (MBR and GPT)
-/

namespace Rauc.Switch

open Rauc.Copy

/-! ## Clearing and writing one partition -/

theorem writePartition_cases (of cf : Bool) (f : Faults) (io : Nat → Io) (size hdr sector start : Nat) (data : Bytes) :
    (writePartition of cf f io size hdr sector start data = ⟨[], false⟩) ∨
    (start < 9223372036854775808 ∧ ((writePartition of cf f io size hdr sector start data = ⟨(copyRaw f io size hdr sector start data).ops, false⟩) ∨
     (writePartition of cf f io size hdr sector start data = copyRaw f io size hdr sector start data))) := by
  unfold writePartition
  split
  · exact Or.inl rfl
  · split
    · exact Or.inl rfl
    · right
      refine ⟨by omega, ?_⟩
      simp only []
      split
      · exact Or.inl rfl
      · exact Or.inr rfl

theorem clearPartition_seek {of : Bool} {counts : Nat → Option Nat} {fuel start size : Nat} (h : 9223372036854775808 ≤ start) : clearPartition of counts fuel start size = ⟨[], false⟩ := by
  unfold clearPartition
  split
  · rfl
  · rfl

/-- a position that cannot be sought is not written -/
theorem refresh_seek (e : Env) (p : Part) (size hdr sector : Nat) (data : Bytes) (h : 9223372036854775808 ≤ p.start) : refresh e p size hdr sector data = ⟨[], false⟩ := by
  unfold refresh
  rw [clearPartition_seek h]
  rfl

theorem clear_within (of : Bool) (counts : Nat → Option Nat) (fuel start size : Nat) (hs : size < 4294967296) :
    ∀ op ∈ (clearPartition of counts fuel start size).ops, Within start (start + size) op ∧ ∃ o w, op = .write o (List.replicate w 0) := by
  intro op ho
  unfold clearPartition at ho
  split at ho
  · cases ho
  · split at ho
    · cases ho
    · have := clearLoop_within counts size hs fuel 0 0 start (by omega) op ho
      exact ⟨this.1.mono (Nat.le_refl _) (by omega), this.2⟩

theorem clear_ok (of : Bool) (counts : Nat → Option Nat) (fuel start size : Nat) (hs : size < 4294967296) (hok : (clearPartition of counts fuel start size).ok = true) (d : Disk) :
    apply d (clearPartition of counts fuel start size).ops = d.write start (List.replicate size 0) := by
  unfold clearPartition at hok ⊢
  split at hok
  · cases hok
  · rename_i h1
    rw [if_neg h1]
    split at hok
    · cases hok
    · rename_i h2
      rw [if_neg h2]
      have := clearLoop_ok counts size hs fuel 0 0 start (by omega) (by simpa using hok) d
      simpa using this

/-- all that is written is inside of the partition -/
theorem refresh_within (e : Env) (p : Part) (size hdr sector : Nat) (data : Bytes) (hs : p.size < 4294967296) (hfit : size ≤ p.size) (hd : hdr = 0 ∨ data.length ≤ size) :
    ∀ op ∈ (refresh e p size hdr sector data).ops, Within p.start (p.start + p.size) op := by
  intro op ho
  unfold refresh at ho
  simp only [] at ho
  split at ho
  · exact (clear_within _ _ _ _ _ hs op ho).1
  · rw [List.mem_append] at ho
    rcases ho with ho | ho
    · exact (clear_within _ _ _ _ _ hs op ho).1
    · have hw : ∀ op ∈ (copyRaw e.faults e.io size hdr sector p.start data).ops, Within p.start (p.start + p.size) op :=
        fun op ho => ((copyRaw_within _ _ _ _ _ _ _ op ho).2 hd).mono (Nat.le_refl _) (by omega)
      rcases writePartition_cases e.writeOpen e.writeClose e.faults e.io size hdr sector p.start data with h | ⟨_, h | h⟩ <;> rw [h] at ho
      · cases ho
      · exact hw op ho
      · exact hw op ho

/-- success: everything is synced, the partition contains the image followed by zeroes -/
theorem refresh_ok (e : Env) (p : Part) (size hdr sector : Nat) (data : Bytes) (hs : p.size < 4294967296) (hok : (refresh e p size hdr sector data).ok = true) :
    (data.length = size ∨ (size = 0 ∧ hdr = 0)) ∧ (∃ a, (refresh e p size hdr sector data).ops = a ++ [.sync]) ∧
    ∀ d, apply d (refresh e p size hdr sector data).ops = (d.write p.start (List.replicate p.size 0)).write p.start (data.take size) := by
  unfold refresh at hok ⊢
  simp only [] at hok ⊢
  by_cases hc : (clearPartition e.clearOpen e.counts (p.size + 1) p.start p.size).ok = true
  rotate_left
  · rw [if_pos (by simpa using hc)] at hok; cases hok
  rw [if_neg (by simpa using hc)] at hok ⊢
  simp only [] at hok ⊢
  rcases writePartition_cases e.writeOpen e.writeClose e.faults e.io size hdr sector p.start data with h | ⟨_, h | h⟩ <;> rw [h] at hok ⊢
  · cases hok
  · cases hok
  · obtain ⟨h1, ⟨a, h2⟩, h3⟩ := copyRaw_ok _ _ _ _ _ _ _ hok
    refine ⟨h1, ⟨(clearPartition e.clearOpen e.counts (p.size + 1) p.start p.size).ops ++ a, by rw [h2, List.append_assoc]⟩, ?_⟩
    intro d
    rw [apply_append, clear_ok _ _ _ _ _ hs hc d, h3]

theorem refresh_read (e : Env) (p : Part) (size hdr sector : Nat) (data : Bytes) (hs : p.size < 4294967296) (hok : (refresh e p size hdr sector data).ok = true) (d : Disk) :
    (apply d (refresh e p size hdr sector data).ops).read p.start size = data.take size := by
  obtain ⟨h1, _, h3⟩ := refresh_ok e p size hdr sector data hs hok
  rw [h3]
  have hl : (data.take size).length = size := by rw [List.length_take]; omega
  have := Disk.read_write_same (d.write p.start (List.replicate p.size 0)) p.start (data.take size)
  rwa [hl] at this

/-! ## The handler -/

/-- the shape of every run: `a` is written to the inactive partition; the partition table is touched (`b`) only after that was successful -/
theorem switchRun_shape (part : Option Part) (e : Env) (pre post : Bool) (sector size : Nat) (data : Bytes) (set : Part → Disk → Run) (d : Disk)
    (hs : ∀ p, part = some p → p.size < 4294967296) :
    (switchRun part e pre post sector size data set d = ⟨[], false⟩) ∨
    ∃ p, part = some p ∧ size ≤ p.size ∧
      (∀ op ∈ (refresh e p size 0 sector data).ops, Within p.start (p.start + p.size) op) ∧
      ((switchRun part e pre post sector size data set d = ⟨(refresh e p size 0 sector data).ops, false⟩) ∨
       ((refresh e p size 0 sector data).ok = true ∧
        switchRun part e pre post sector size data set d =
          ⟨(refresh e p size 0 sector data).ops ++ (set p (apply d (refresh e p size 0 sector data).ops)).ops, (set p (apply d (refresh e p size 0 sector data).ops)).ok⟩)) := by
  unfold switchRun
  cases part with
  | none => exact Or.inl rfl
  | some p =>
    simp only []
    by_cases h1 : p.size < size
    · rw [if_pos h1]; exact Or.inl rfl
    rw [if_neg h1]
    by_cases h2 : pre = true
    rotate_left
    · rw [if_pos (by simpa using h2)]; exact Or.inl rfl
    rw [if_neg (by simpa using h2)]
    right
    refine ⟨p, rfl, by omega, refresh_within e p size 0 sector data (hs p rfl) (by omega) (Or.inl rfl), ?_⟩
    by_cases h3 : (refresh e p size 0 sector data).ok = true
    rotate_left
    · rw [if_pos (by simpa using h3)]
      left
      cases hr : refresh e p size 0 sector data with
      | mk o k => rw [hr] at h3; simp at h3; rw [h3]
    rw [if_neg (by simpa using h3)]
    by_cases h4 : post = true
    rotate_left
    · rw [if_pos (by simpa using h4)]; exact Or.inl rfl
    rw [if_neg (by simpa using h4)]
    exact Or.inr ⟨h3, rfl⟩

/-! ## Which half -/

/-- Specification: `q` is the half of the region `[start, start + size)` that does not start at byte `active`, but `active` is the start of the other one -/
def OtherHalf (start size active : Nat) (q : Part) : Prop :=
  (active = start ∧ q = ⟨start + size / 2, size / 2⟩) ∨ (active = start + size / 2 ∧ q = ⟨start, size / 2⟩)

/-- Specification: the areas do not overlap -/
def Apart (a n b m : Nat) : Prop := ∀ x, ¬ (a ≤ x ∧ x < a + n ∧ b ≤ x ∧ x < b + m)

theorem le32_lt (d : Disk) (off : Nat) : le32 d off < 4294967296 := by
  unfold le32
  have h1 := (d off).toNat_lt
  have h2 := (d (off + 1)).toNat_lt
  have h3 := (d (off + 2)).toNat_lt
  have h4 := (d (off + 3)).toNat_lt
  omega

theorem div_eq_mul {a b c : Nat} (h : a / b = c) (hm : a % b = 0) : a = c * b := by
  have := Nat.div_add_mod a b
  rw [h, hm, Nat.mul_comm] at this
  omega

/-- what `otherHalf` returns, when the region does not wrap or the boot partition is one that exists -/
theorem otherHalf_spec {sector start size boot : Nat} (hsec : 0 < sector) (ha : start % sector = 0) (hz : size % (2 * sector) = 0) (hsz : size < U64) (hst : start < U64)
    (hboot : boot * sector < 9223372036854775808) {p : Part} (h : otherHalf sector start size boot = some p) :
    9223372036854775808 ≤ p.start ∨ (start + size < U64 ∧ 2 * (size / 2) = size ∧ OtherHalf start size (boot * sector) p) := by
  obtain ⟨k, hk⟩ := Nat.dvd_of_mod_eq_zero hz
  have hhalf : size / 2 = sector * k := by rw [hk, Nat.mul_assoc]; omega
  have h2 : 2 * (size / 2) = size := by rw [hhalf, hk, Nat.mul_assoc]
  unfold otherHalf at h
  split at h
  · rename_i hb
    injection h with h
    subst h
    have hs := div_eq_mul hb ha
    by_cases hw : start + size < U64
    · right
      refine ⟨hw, h2, Or.inl ⟨hs.symm, ?_⟩⟩
      rw [Nat.mod_eq_of_lt (by omega)]
    · left
      show 9223372036854775808 ≤ (start + size / 2) % U64
      rw [Nat.mod_eq_of_lt (by unfold U64 at *; omega)]
      unfold U64 at *; omega
  · split at h
    · rename_i hb
      injection h with h
      subst h
      by_cases h63 : 9223372036854775808 ≤ start
      · exact Or.inl h63
      right
      have hnw : (start + size / 2) % U64 = start + size / 2 := Nat.mod_eq_of_lt (by unfold U64 at *; omega)
      rw [hnw] at hb
      have hm : (start + size / 2) % sector = 0 := by
        rw [hhalf, Nat.add_mul_mod_self_left]; exact ha
      have hs := div_eq_mul hb hm
      refine ⟨by unfold U64 at *; omega, h2, Or.inr ⟨hs.symm, rfl⟩⟩
    · cases h

theorem validateRegion_spec {dev sector start size : Nat} (h : validateRegion dev sector start size = true) :
    512 ≤ start ∧ size ≠ 0 ∧ start % sector = 0 ∧ size % (2 * sector) = 0 ∧ (start + size) % U64 < dev := by
  unfold validateRegion at h
  repeat' split at h
  all_goals first | cases h | skip
  refine ⟨by omega, by omega, by omega, by omega, by omega⟩

theorem entryClash_spec {d : Disk} {sector start size i : Nat} (hsec : 0 < sector) (hw : start + size < U64) (hsz : size ≠ 0) (h : entryClash d sector start size i = false) (hne : entSize d i ≠ 0) :
    Apart start size (entStart d i * sector) (entSize d i * sector) := by
  unfold entryClash at h
  rw [if_neg hne] at h
  simp only [Bool.or_eq_false_iff, decide_eq_false_iff_not] at h
  have hpos : 0 < entSize d i * sector := Nat.mul_pos (by omega) hsec
  have he : (start + size + (U64 - 1)) % U64 = start + size - 1 := by
    have : start + size + (U64 - 1) = (start + size - 1) + U64 := by unfold U64 at *; omega
    rw [this, Nat.add_mod_right, Nat.mod_eq_of_lt (by omega)]
  rw [he] at h
  intro x hx
  generalize entStart d i * sector = ps at *
  generalize entSize d i * sector = pn at *
  omega

/-- Specification: what the inactive half is, for a master boot record. Entry 0 is at the start of one half, `p` is the other one; no other entry overlaps with the region; the region is inside of the device, behind the
master boot record. -/
structure MbrInactive (d : Disk) (dev sector start size : Nat) (p : Part) : Prop where
  half : OtherHalf start size (entStart d 0 * sector) p
  psize : p.size = size / 2
  free : ∀ i, 1 ≤ i → i ≤ 3 → entSize d i ≠ 0 → Apart start size (entStart d i * sector) (entSize d i * sector)
  inside : 512 ≤ start ∧ start + size < dev ∧ 2 * (size / 2) = size ∧ p.start % sector = 0 ∧ p.size % sector = 0
  magic : mbrMagic d = true

theorem mbrInactive_spec {rd : Bool} {dev sector start size : Nat} {d : Disk} (hsec : 0 < sector) (hsec2 : sector ≤ 65536) (hdev : dev ≤ 9223372036854775808) (hst : start < U64) (hsz : size < U64) {p : Part}
    (h : mbrInactive rd dev sector start size d = some p) :
    p.size = size / 2 ∧ (9223372036854775808 ≤ p.start ∨ MbrInactive d dev sector start size p) := by
  unfold mbrInactive at h
  split at h
  · cases h
  rename_i hv
  split at h
  · cases h
  split at h
  · cases h
  rename_i hmag
  split at h
  · cases h
  rename_i hfree
  split at h
  · cases h
  simp only [Bool.not_eq_true', Bool.not_eq_false] at hv hmag hfree
  obtain ⟨v1, v2, v3, v4, v5⟩ := validateRegion_spec hv
  have hboot : entStart d 0 * sector < 9223372036854775808 := by
    have h1 : entStart d 0 < 4294967296 := le32_lt _ _
    have h2 : entStart d 0 * sector ≤ 4294967295 * 65536 := Nat.mul_le_mul (by omega) hsec2
    omega
  have hps : p.size = size / 2 := by
    unfold otherHalf at h
    split at h
    · injection h with h; rw [← h]
    · split at h
      · injection h with h; rw [← h]
      · cases h
  refine ⟨hps, ?_⟩
  rcases otherHalf_spec hsec v3 v4 hsz hst hboot h with h63 | ⟨hw, h2, hoh⟩
  · exact Or.inl h63
  right
  rw [Nat.mod_eq_of_lt hw] at v5
  obtain ⟨k, hk⟩ := Nat.dvd_of_mod_eq_zero v4
  have hhalf : size / 2 = sector * k := by rw [hk, Nat.mul_assoc]; omega
  refine ⟨hoh, hps, ?_, ⟨v1, v5, h2, ?_, ?_⟩, hmag⟩
  · intro i hi1 hi3 hne
    unfold regionFree at hfree
    simp only [Bool.not_eq_true', Bool.or_eq_false_iff] at hfree
    obtain ⟨⟨f1, f2⟩, f3⟩ := hfree
    have : i = 1 ∨ i = 2 ∨ i = 3 := by omega
    rcases this with rfl | rfl | rfl
    · exact entryClash_spec hsec hw v2 f1 hne
    · exact entryClash_spec hsec hw v2 f2 hne
    · exact entryClash_spec hsec hw v2 f3 hne
  · rcases hoh with ⟨_, rfl⟩ | ⟨_, rfl⟩
    · show (start + size / 2) % sector = 0
      rw [hhalf, Nat.add_mul_mod_self_left]; exact v3
    · exact v3
  · rw [hps, hhalf]; exact Nat.mul_mod_right _ _

/-! ## The new master boot record -/

theorem chs_length (lba heads sectors : Nat) (old : Bytes) (h : old.length = 3) : (chs lba heads sectors old).length = 3 := by
  unfold chs
  split
  · exact h
  · rfl

theorem newMbr_length (d : Disk) (sector heads sectors : Nat) (p : Part) : (newMbr d sector heads sectors p).length = 512 := by
  unfold newMbr
  simp only [List.length_append, Disk.read_length, chs_length, toLe32, List.length_cons, List.length_nil]

/-- the sector a CHS address in a partition table stands for: head, then two bits of the cylinder and the sector (from 1), then the rest of the cylinder -/
def ofChs (heads sectors : Nat) : Bytes → Option Nat
  | [h, s, c] => some (((s.toNat / 64 * 256 + c.toNat) * heads + h.toNat) * sectors + (s.toNat % 64 - 1))
  | _ => none

theorem chs_bits : ∀ s < 64, ∀ q < 4, (UInt8.ofNat s ||| (UInt8.ofNat (64 * q) &&& 0xC0)).toNat = 64 * q + s := by decide +kernel

theorem chs_mask : ∀ x < 256, UInt8.ofNat x &&& 0xC0 = UInt8.ofNat (64 * (x / 64)) &&& 0xC0 := by decide +kernel

/-- The CHS address stands for the sector, for all sectors such an address can name. -/
theorem chs_right (lba heads sectors : Nat) (old : Bytes) (hh : 0 < heads) (hh2 : heads ≤ 256) (hs : 0 < sectors) (hs2 : sectors ≤ 63) (hl : lba < 1024 * heads * sectors) :
    ofChs heads sectors (chs lba heads sectors old) = some lba := by
  have e1 : lba / sectors * sectors + lba % sectors = lba := Nat.div_add_mod' lba sectors
  have e2 : lba / sectors / heads * heads + lba / sectors % heads = lba / sectors := Nat.div_add_mod' _ _
  have m1 := Nat.mod_lt lba hs
  have m2 := Nat.mod_lt (lba / sectors) hh
  have c1 : lba / sectors / heads < 1024 := by
    rw [Nat.div_div_eq_div_mul]
    refine Nat.div_lt_of_lt_mul ?_
    rw [Nat.mul_comm sectors heads, Nat.mul_comm, ← Nat.mul_assoc]
    exact hl
  unfold chs
  rw [if_neg (by omega)]
  simp only [ofChs]
  have b := chs_bits (lba % sectors + 1) (by omega) (lba / sectors / heads / 256) (by omega)
  rw [chs_mask (lba / sectors / heads / 4) (by omega), show lba / sectors / heads / 4 / 64 = lba / sectors / heads / 256 by omega, b]
  have t1 : (UInt8.ofNat (lba / sectors % heads)).toNat = lba / sectors % heads := UInt8.toNat_ofNat_of_lt' (Nat.lt_of_lt_of_le m2 hh2)
  have t2 : (UInt8.ofNat (lba / sectors / heads)).toNat = lba / sectors / heads % 256 := UInt8.toNat_ofNat'
  rw [t1, t2]
  have d : (64 * (lba / sectors / heads / 256) + (lba % sectors + 1)) / 64 = lba / sectors / heads / 256 := by omega
  have m : (64 * (lba / sectors / heads / 256) + (lba % sectors + 1)) % 64 - 1 = lba % sectors := by omega
  rw [d, m, Nat.div_add_mod' (lba / sectors / heads) 256, e2, e1]

theorem take3 {a c : Bytes} {n : Nat} (ha : a.length = n) (hc : c.length = 3) (r : Bytes) : ((a ++ (c ++ r)).drop n).take 3 = c := by
  subst ha
  rw [List.drop_left, ← hc, List.take_left]

/-- **C41.** The CHS addresses of the new entry name the first and the last sector of the partition, if such addresses can. -/
theorem C41_chs (d : Disk) (sector heads sectors : Nat) (p : Part) (hh : 0 < heads) (hh2 : heads ≤ 256) (hs : 0 < sectors) (hs2 : sectors ≤ 63) (hn : 0 < p.size / sector)
    (hl : p.start / sector + p.size / sector ≤ 1024 * heads * sectors) (hu : p.start / sector + p.size / sector ≤ U32) (hp : p.size / sector < U32) :
    ofChs heads sectors (((newMbr d sector heads sectors p).drop 447).take 3) = some (p.start / sector) ∧
    ofChs heads sectors (((newMbr d sector heads sectors p).drop 451).take 3) = some (p.start / sector + p.size / sector - 1) := by
  have e1 : p.start / sector % U32 = p.start / sector := Nat.mod_eq_of_lt (by omega)
  have e2 : p.size / sector % U32 = p.size / sector := Nat.mod_eq_of_lt hp
  have e3 : (p.start / sector + p.size / sector + (U32 - 1)) % U32 = p.start / sector + p.size / sector - 1 := by
    rw [show p.start / sector + p.size / sector + (U32 - 1) = (p.start / sector + p.size / sector - 1) + U32 by unfold U32 at *; omega, Nat.add_mod_right]
    exact Nat.mod_eq_of_lt (by omega)
  have k1 := chs_right (p.start / sector) heads sectors (d.read 447 3) hh hh2 hs hs2 (by omega)
  have k2 := chs_right (p.start / sector + p.size / sector - 1) heads sectors (d.read 451 3) hh hh2 hs hs2 (by omega)
  unfold newMbr
  dsimp only
  rw [e1, e2, e3]
  have l1 := chs_length (p.start / sector) heads sectors (d.read 447 3) (Disk.read_length ..)
  have l2 := chs_length (p.start / sector + p.size / sector - 1) heads sectors (d.read 451 3) (Disk.read_length ..)
  generalize chs (p.start / sector) heads sectors (d.read 447 3) = c1 at *
  generalize chs (p.start / sector + p.size / sector - 1) heads sectors (d.read 451 3) = c2 at *
  have la : (d.read 0 447).length = 447 := Disk.read_length ..
  have lb : (d.read 450 1).length = 1 := Disk.read_length ..
  constructor
  · rw [← k1]
    refine congrArg _ ?_
    simp only [List.append_assoc]
    exact take3 la l1 _
  · rw [← k2]
    refine congrArg _ ?_
    have hl3 : (d.read 0 447 ++ c1 ++ d.read 450 1).length = 451 := by rw [List.length_append, List.length_append, la, l1, lb]
    have := take3 hl3 l2 (toLe32 (p.start / sector) ++ (toLe32 (p.size / sector) ++ d.read 462 50))
    simp only [List.append_assoc] at this ⊢
    exact this

/-- a partition of 1000 sectors from sector 2048 on, with the usual geometry -/
example : ofChs 255 63 (chs 2048 255 63 []) = some 2048 ∧ ofChs 255 63 (chs 3047 255 63 []) = some 3047 := by decide

/-- the bytes of the location of entry 0: the first and last CHS address, start and size -/
def LocationByte (x : Nat) : Prop := (447 ≤ x ∧ x < 450) ∨ (451 ≤ x ∧ x < 462)

instance (x : Nat) : Decidable (LocationByte x) := inferInstanceAs (Decidable (_ ∨ _))

theorem read_getD (d : Disk) (off n i : Nat) (h : i < n) : (d.read off n).getD i 0 = d (off + i) := by
  rw [List.getD_eq_getElem _ _ (by rw [Disk.read_length]; exact h), Disk.read_get _ _ _ _ h]

/-- nothing but the location of entry 0 is different -/
theorem newMbr_same (d : Disk) (sector heads sectors : Nat) (p : Part) (x : Nat) (hx : x < 512) (hl : ¬ LocationByte x) : (newMbr d sector heads sectors p).getD x 0 = d x := by
  unfold LocationByte at hl
  unfold newMbr
  simp only []
  generalize hc1 : chs (p.start / sector % U32) heads sectors (d.read 447 3) = c1
  generalize hc2 : chs ((p.start / sector % U32 + p.size / sector % U32 + (U32 - 1)) % U32) heads sectors (d.read 451 3) = c2
  have l1 : c1.length = 3 := by rw [← hc1]; exact chs_length _ _ _ _ (Disk.read_length _ _ _)
  have l2 : c2.length = 3 := by rw [← hc2]; exact chs_length _ _ _ _ (Disk.read_length _ _ _)
  generalize p.start / sector % U32 = s
  generalize p.size / sector % U32 = n
  have lt : ∀ m, (toLe32 m).length = 4 := fun _ => rfl
  by_cases h1 : x < 447
  · rw [List.getD_append _ _ _ _ (by simp only [List.length_append, Disk.read_length, l1, l2, lt]; omega),
      List.getD_append _ _ _ _ (by simp only [List.length_append, Disk.read_length, l1, l2, lt]; omega),
      List.getD_append _ _ _ _ (by simp only [List.length_append, Disk.read_length, l1, l2, lt]; omega),
      List.getD_append _ _ _ _ (by simp only [List.length_append, Disk.read_length, l1, l2, lt]; omega),
      List.getD_append _ _ _ _ (by simp only [List.length_append, Disk.read_length, l1, l2, lt]; omega),
      List.getD_append _ _ _ _ (by simp only [Disk.read_length]; omega), read_getD _ _ _ _ h1, Nat.zero_add]
  by_cases h2 : x < 462
  · have : x = 450 := by omega
    subst this
    rw [List.getD_append _ _ _ _ (by simp only [List.length_append, Disk.read_length, l1, l2, lt]; omega),
      List.getD_append _ _ _ _ (by simp only [List.length_append, Disk.read_length, l1, l2, lt]; omega),
      List.getD_append _ _ _ _ (by simp only [List.length_append, Disk.read_length, l1, l2, lt]; omega),
      List.getD_append _ _ _ _ (by simp only [List.length_append, Disk.read_length, l1, l2, lt]; omega),
      List.getD_append_right _ _ _ _ (by simp only [List.length_append, Disk.read_length, l1, l2, lt]; omega)]
    simp only [List.length_append, Disk.read_length, l1]
    exact read_getD _ _ _ _ (by omega)
  · rw [List.getD_append_right _ _ _ _ (by simp only [List.length_append, Disk.read_length, l1, l2, lt]; omega)]
    simp only [List.length_append, Disk.read_length, l1, l2, lt]
    rw [read_getD _ _ _ _ (by omega)]
    refine congrArg d ?_
    omega

theorem write_getD (d : Disk) (b : Bytes) (x : Nat) (h : x < b.length) : d.write 0 b x = b.getD x 0 := by
  unfold Disk.write
  rw [if_pos (by omega), Nat.sub_zero]

theorem le32_toLe32 (d : Disk) (off n : Nat) (hn : n < 4294967296) (h : ∀ i < 4, d (off + i) = (toLe32 n).getD i 0) : le32 d off = n := by
  unfold le32
  have h0 := h 0 (by omega)
  rw [h 1 (by omega), h 2 (by omega), h 3 (by omega)]
  rw [Nat.add_zero] at h0
  rw [h0]
  simp only [toLe32, List.getD_cons_zero, List.getD_cons_succ, UInt8.toNat_ofNat']
  omega

theorem toLe32_idx (m k i : Nat) (h : k = i) : (toLe32 m).getD i 0 = (toLe32 m).getD k 0 := by rw [h]

theorem apply_single (d : Disk) (off : Nat) (b : Bytes) : apply d [.write off b] = d.write off b := rfl

theorem newMbr_start (d : Disk) (sector heads sectors : Nat) (p : Part) : entStart (d.write 0 (newMbr d sector heads sectors p)) 0 = p.start / sector % U32 := by
  unfold entStart
  refine le32_toLe32 _ _ _ (Nat.mod_lt _ (by unfold U32; omega)) ?_
  intro i hi
  rw [write_getD _ _ _ (by rw [newMbr_length]; omega)]
  unfold newMbr
  simp only []
  generalize hc1 : chs (p.start / sector % U32) heads sectors (d.read 447 3) = c1
  generalize hc2 : chs ((p.start / sector % U32 + p.size / sector % U32 + (U32 - 1)) % U32) heads sectors (d.read 451 3) = c2
  have l1 : c1.length = 3 := by rw [← hc1]; exact chs_length _ _ _ _ (Disk.read_length _ _ _)
  have l2 : c2.length = 3 := by rw [← hc2]; exact chs_length _ _ _ _ (Disk.read_length _ _ _)
  have lt : ∀ m, (toLe32 m).length = 4 := fun _ => rfl
  rw [List.getD_append _ _ _ _ (by simp only [List.length_append, Disk.read_length, l1, l2, lt]; omega),
    List.getD_append _ _ _ _ (by simp only [List.length_append, Disk.read_length, l1, l2, lt]; omega),
    List.getD_append_right _ _ _ _ (by simp only [List.length_append, Disk.read_length, l1, l2]; omega)]
  simp only [List.length_append, Disk.read_length, l1, l2]
  exact toLe32_idx _ _ _ (by omega)

theorem newMbr_size (d : Disk) (sector heads sectors : Nat) (p : Part) : entSize (d.write 0 (newMbr d sector heads sectors p)) 0 = p.size / sector % U32 := by
  unfold entSize
  refine le32_toLe32 _ _ _ (Nat.mod_lt _ (by unfold U32; omega)) ?_
  intro i hi
  rw [write_getD _ _ _ (by rw [newMbr_length]; omega)]
  unfold newMbr
  simp only []
  generalize hc1 : chs (p.start / sector % U32) heads sectors (d.read 447 3) = c1
  generalize hc2 : chs ((p.start / sector % U32 + p.size / sector % U32 + (U32 - 1)) % U32) heads sectors (d.read 451 3) = c2
  have l1 : c1.length = 3 := by rw [← hc1]; exact chs_length _ _ _ _ (Disk.read_length _ _ _)
  have l2 : c2.length = 3 := by rw [← hc2]; exact chs_length _ _ _ _ (Disk.read_length _ _ _)
  have lt : ∀ m, (toLe32 m).length = 4 := fun _ => rfl
  rw [List.getD_append _ _ _ _ (by simp only [List.length_append, Disk.read_length, l1, l2, lt]; omega),
    List.getD_append_right _ _ _ _ (by simp only [List.length_append, Disk.read_length, l1, l2, lt]; omega)]
  simp only [List.length_append, Disk.read_length, l1, l2, lt]
  exact toLe32_idx _ _ _ (by omega)

theorem mbrSet_cases (f : MbrFaults) (sector : Nat) (p : Part) (d : Disk) :
    (mbrSet f sector p d = ⟨[], false⟩) ∨
    (mbrMagic d = true ∧ ∃ j, mbrSet f sector p d = ⟨[.write 0 ((newMbr d sector f.heads f.sectors p).take j)], decide (512 ≤ j)⟩) := by
  unfold mbrSet
  split
  · exact Or.inl rfl
  split
  · exact Or.inl rfl
  rename_i hm
  split
  · exact Or.inl rfl
  split
  · exact Or.inl rfl
  right
  refine ⟨by simpa using hm, ?_⟩
  split
  · exact ⟨_, rfl⟩
  · refine ⟨512, ?_⟩
    rw [List.take_of_length_le (by rw [newMbr_length]; omega)]
    rfl

/-! ## MBR: the theorems -/

/-- **C41 (MBR), for halves of less than 4 GiB.** Whatever fails, and whenever power is lost: a byte behind the master boot record is changed only if it is in the inactive half -- in the region, in the half where the boot partition
does not start, and in no other partition; in the master boot record only the location of entry 0 is changed, and only if the image is complete in the inactive half.
Missing: halves of 4 GiB and more, for which this is false (`C41_finding_clear_forever`). -/
theorem C41_mbr_partial (rd : Bool) (dev sector start rsize : Nat) (e : Env) (pre post : Bool) (f : MbrFaults) (size : Nat) (data : Bytes) (d d' : Disk)
    (hsec : 0 < sector) (hsec2 : sector ≤ 65536) (hdev : dev ≤ 9223372036854775808) (hst : start < U64) (hsz : rsize < U64) (hhalf : rsize / 2 < 4294967296)
    (hc : Crash d (mbrRun rd dev sector start rsize e pre post f size data d).ops d') :
    (∀ x, d' x = d x) ∨
    ∃ p, MbrInactive d dev sector start rsize p ∧
      (∀ x, 512 ≤ x → d' x ≠ d x → p.start ≤ x ∧ x < p.start + p.size) ∧
      (∀ x, x < 512 → d' x ≠ d x → LocationByte x ∧ d'.read p.start size = data.take size) := by
  have hsp : ∀ p, mbrInactive rd dev sector start rsize d = some p → p.size < 4294967296 := by
    intro p hp
    have := (mbrInactive_spec hsec hsec2 hdev hst hsz hp).1
    omega
  have hnil : ∀ {ops}, ops = [] → Crash d ops d' → ∀ x, d' x = d x := by
    rintro ops rfl h x
    exact crash_outside (lo := 0) (hi := 0) (by simp) h x (by omega)
  unfold mbrRun at hc
  rcases switchRun_shape (mbrInactive rd dev sector start rsize d) e pre post sector size data (mbrSet f sector) d hsp with h | ⟨p, hp, hfit, hwi, h | ⟨hok, h⟩⟩ <;> rw [h] at hc
  · exact Or.inl (hnil rfl hc)
  · obtain ⟨_, h63 | hin⟩ := mbrInactive_spec hsec hsec2 hdev hst hsz hp
    · refine Or.inl (hnil ?_ hc)
      show (refresh e p size 0 sector data).ops = []
      rw [refresh_seek _ _ _ _ _ _ h63]
    right
    refine ⟨p, hin, ?_, ?_⟩
    · intro x _ hne
      refine Decidable.not_not.1 fun hn => hne (crash_outside hwi hc x (by omega))
    · intro x hx hne
      exfalso
      refine hne (crash_outside hwi hc x (Or.inl ?_))
      rcases hin.half with ⟨_, rfl⟩ | ⟨_, rfl⟩
      · show x < start + rsize / 2
        have := hin.inside.1; omega
      · have := hin.inside.1
        show x < start
        omega
  · obtain ⟨_, h63 | hin⟩ := mbrInactive_spec hsec hsec2 hdev hst hsz hp
    · rw [refresh_seek _ _ _ _ _ _ h63] at hok; cases hok
    right
    have hps : 512 ≤ p.start := by
      have := hin.inside.1
      rcases hin.half with ⟨_, rfl⟩ | ⟨_, rfl⟩
      · show 512 ≤ start + rsize / 2; omega
      · show 512 ≤ start; omega
    have hin1 : ∀ x, x < 512 → Crash d (refresh e p size 0 sector data).ops d' → d' x = d x := fun x hx h => crash_outside hwi h x (by omega)
    have hin2 : ∀ x, Crash d (refresh e p size 0 sector data).ops d' → d' x ≠ d x → p.start ≤ x ∧ x < p.start + p.size := by
      intro x hcr hne
      exact Decidable.not_not.1 fun hn => hne (crash_outside hwi hcr x (by omega))
    obtain ⟨_, ⟨a, ha⟩, _⟩ := refresh_ok e p size 0 sector data (hsp p hp) hok
    -- before or after the sync
    have hsplit : Crash d (refresh e p size 0 sector data).ops d' ∨ Crash (apply d (refresh e p size 0 sector data).ops) (mbrSet f sector p (apply d (refresh e p size 0 sector data).ops)).ops d' := by
      simp only [ha] at hc ⊢
      exact crash_split hc
    rcases hsplit with hcr | hcr
    · exact ⟨p, hin, fun x _ hne => hin2 x hcr hne, fun x hx hne => absurd (hin1 x hx hcr) hne⟩
    · have hsame : ∀ x, x < p.start ∨ p.start + p.size ≤ x → apply d (refresh e p size 0 sector data).ops x = d x := fun x hx => apply_outside hwi d x hx
      have hread := refresh_read e p size 0 sector data (hsp p hp) hok d
      generalize apply d (refresh e p size 0 sector data).ops = d1 at *
      rcases mbrSet_cases f sector p d1 with hm | ⟨_, j, hm⟩ <;> rw [hm] at hcr
      · have hall : ∀ x, d' x = d1 x := fun x => crash_outside (lo := 0) (hi := 0) (by simp) hcr x (by omega)
        refine ⟨p, hin, ?_, ?_⟩
        · intro x _ hne
          rw [hall] at hne
          exact Decidable.not_not.1 fun hn => hne (hsame x (by omega))
        · intro x hx hne
          rw [hall, hsame x (by omega)] at hne
          exact absurd rfl hne
      · have hw512 : ∀ op ∈ [Op.write 0 ((newMbr d1 sector f.heads f.sectors p).take j)], Within 0 512 op := by
          intro op ho
          rw [List.mem_singleton] at ho
          subst ho
          refine Or.inr ⟨Nat.le_refl _, ?_⟩
          rw [List.length_take, newMbr_length]; omega
        refine ⟨p, hin, ?_, ?_⟩
        · intro x hx hne
          rw [crash_outside hw512 hcr x (Or.inr hx)] at hne
          exact Decidable.not_not.1 fun hn => hne (hsame x (by omega))
        · intro x hx hne
          refine ⟨?_, ?_⟩
          · refine Decidable.not_not.1 fun hl => hne ?_
            rcases crash_nosync (by simp) hcr x with hv | ⟨op, ho, hp'⟩
            · rw [hv, hsame x (by omega)]
            · rw [List.mem_singleton] at ho
              subst ho
              obtain ⟨p1, p2, p3⟩ := hp'
              rw [List.length_take, newMbr_length] at p2
              rw [← p3, ← hsame x (by omega), ← newMbr_same d1 sector f.heads f.sectors p x hx hl]
              rw [Nat.sub_zero, List.getD_eq_getElem _ _ (by rw [List.length_take, newMbr_length]; omega), List.getElem_take, List.getD_eq_getElem _ _ (by rw [newMbr_length]; omega)]
          · rw [← hread, Disk.read_eq_iff]
            intro y hy1 hy2
            exact crash_outside hw512 hcr y (by omega)

/-- **C41 (MBR).** Success means that the image is in the half that was inactive, and that entry 0 of the master boot record now is this half, provided that its sector numbers fit into 32 bits (otherwise see `C41_finding_truncated`); nothing else
has changed in the master boot record. -/
theorem C41_mbr_success_partial (rd : Bool) (dev sector start rsize : Nat) (e : Env) (pre post : Bool) (f : MbrFaults) (size : Nat) (data : Bytes) (d : Disk)
    (hsec : 0 < sector) (hsec2 : sector ≤ 65536) (hdev : dev ≤ 9223372036854775808) (hst : start < U64) (hsz : rsize < U64) (hhalf : rsize / 2 < 4294967296)
    (hok : (mbrRun rd dev sector start rsize e pre post f size data d).ok = true) (d' : Disk) (hd' : d' = apply d (mbrRun rd dev sector start rsize e pre post f size data d).ops) :
    ∃ p, MbrInactive d dev sector start rsize p ∧ (size = 0 ∨ data.length = size) ∧ d'.read p.start size = data.take size ∧
      (p.start / sector < 4294967296 → entStart d' 0 * sector = p.start ∧ entSize d' 0 * sector = p.size) ∧
      (∀ x, x < 512 → ¬ LocationByte x → d' x = d x) := by
  subst hd'
  have hsp : ∀ p, mbrInactive rd dev sector start rsize d = some p → p.size < 4294967296 := by
    intro p hp
    have := (mbrInactive_spec hsec hsec2 hdev hst hsz hp).1
    omega
  unfold mbrRun at hok ⊢
  rcases switchRun_shape (mbrInactive rd dev sector start rsize d) e pre post sector size data (mbrSet f sector) d hsp with h | ⟨p, hp, hfit, hwi, h | ⟨hrok, h⟩⟩ <;> rw [h] at hok ⊢
  · cases hok
  · cases hok
  · obtain ⟨_, h63 | hin⟩ := mbrInactive_spec hsec hsec2 hdev hst hsz hp
    · rw [refresh_seek _ _ _ _ _ _ h63] at hrok; cases hrok
    have hps : 512 ≤ p.start := by
      have := hin.inside.1
      rcases hin.half with ⟨_, rfl⟩ | ⟨_, rfl⟩
      · show 512 ≤ start + rsize / 2; omega
      · show 512 ≤ start; omega
    obtain ⟨hlen, _, _⟩ := refresh_ok e p size 0 sector data (hsp p hp) hrok
    have hread := refresh_read e p size 0 sector data (hsp p hp) hrok d
    have hsame : ∀ x, x < p.start ∨ p.start + p.size ≤ x → apply d (refresh e p size 0 sector data).ops x = d x := fun x hx => apply_outside hwi d x hx
    simp only [] at hok ⊢
    rw [apply_append]
    generalize apply d (refresh e p size 0 sector data).ops = d1 at *
    rcases mbrSet_cases f sector p d1 with hm | ⟨_, j, hm⟩ <;> rw [hm] at hok ⊢
    · cases hok
    · have hj : 512 ≤ j := by simpa using hok
      rw [List.take_of_length_le (by rw [newMbr_length]; omega)]
      rw [apply_single]
      refine ⟨p, hin, by omega, ?_, ?_, ?_⟩
      · rw [Disk.read_write_disjoint _ _ _ _ _ (Or.inr (by rw [newMbr_length]; omega)), hread]
      · intro h32
        rw [newMbr_start, newMbr_size, Nat.mod_eq_of_lt h32]
        have hn32 : p.size / sector < U32 := by
          have := Nat.div_le_self p.size sector
          have := hsp p hp
          unfold U32; omega
        rw [Nat.mod_eq_of_lt hn32]
        exact ⟨Nat.div_mul_cancel (Nat.dvd_of_mod_eq_zero hin.inside.2.2.2.1), Nat.div_mul_cancel (Nat.dvd_of_mod_eq_zero hin.inside.2.2.2.2)⟩
      · intro x hx hl
        rw [write_getD _ _ _ (by rw [newMbr_length]; omega), newMbr_same _ _ _ _ _ _ hx hl]
        exact hsame x (by omega)

/-! ## Non-vacuity -/

theorem clearLoop_total (size : Nat) (hs : size < 4294967296) (fuel i cnt pos : Nat) (hc : cnt ≤ size) (hf : size - cnt < fuel) : (clearLoop (fun _ => some 512) size fuel i cnt pos).2 = some size := by
  induction fuel generalizing i cnt pos with
  | zero => omega
  | succ n ih =>
    unfold clearLoop
    split
    · simp only []
      rw [Nat.mod_eq_of_lt (show cnt + min (min 512 (size - cnt)) 512 < 4294967296 by omega)]
      exact ih _ _ _ (by omega) (by omega)
    · have : cnt = size := by omega
      rw [this]

/-- without failures, an image that fits is written -/
theorem refresh_total (p : Part) (hs : p.size < 4294967296) (hp : p.start < 9223372036854775808) (hdr sector : Nat) (hh : hdr = 0 ∨ hdr = sector) (data : Bytes) :
    (refresh {} p data.length hdr sector data).ok = true := by
  unfold refresh
  have hc : (clearPartition false (fun _ => some 512) (p.size + 1) p.start p.size).ok = true := by
    unfold clearPartition
    rw [if_neg (by simp), if_neg (by omega)]
    simp only [decide_eq_true_eq]
    exact clearLoop_total p.size hs _ _ _ _ (by omega) (by omega)
  simp only []
  rw [if_neg (by rw [hc]; simp)]
  show (writePartition false false {} _ data.length hdr sector p.start data).ok = true
  unfold writePartition
  rw [if_neg (by simp), if_neg (by omega)]
  simp only [Bool.and_false, Bool.false_eq_true, if_false]
  exact copyRaw_total _ (fun _ => ⟨by simp, rfl⟩) hdr sector p.start hh data

/-- without failures, an image that fits into the inactive half is installed and activated -/
theorem mbrRun_total (dev sector start rsize : Nat) (d : Disk) (p : Part) (data : Bytes) (hp : mbrInactive true dev sector start rsize d = some p) (hin : MbrInactive d dev sector start rsize p) (hdev : dev ≤ 9223372036854775808)
    (hs : p.size < 4294967296) (hfit : data.length ≤ p.size) : (mbrRun true dev sector start rsize {} true true {} data.length data d).ok = true := by
  have hps : 512 ≤ p.start ∧ p.start < 9223372036854775808 := by
    obtain ⟨i1, i2, _⟩ := hin.inside
    rcases hin.half with ⟨_, rfl⟩ | ⟨_, rfl⟩
    · show 512 ≤ start + rsize / 2 ∧ start + rsize / 2 < 9223372036854775808
      omega
    · show 512 ≤ start ∧ start < 9223372036854775808
      omega
  have hr := refresh_total p hs hps.2 0 sector (Or.inl rfl) data
  unfold mbrRun switchRun
  rw [hp]
  simp only [Bool.not_true, Bool.false_eq_true, if_false]
  rw [if_neg (by omega), if_neg (by rw [hr]; simp)]
  have hwi := refresh_within {} p data.length 0 sector data hs hfit (Or.inl rfl)
  have hmag : mbrMagic (apply d (refresh {} p data.length 0 sector data).ops) = true := by
    have h1 := apply_outside hwi d 510 (by omega)
    have h2 := apply_outside hwi d 511 (by omega)
    have := hin.magic
    unfold mbrMagic at this ⊢
    rw [h1, h2]; exact this
  show (mbrSet {} sector p (apply d (refresh {} p data.length 0 sector data).ops)).ok = true
  unfold mbrSet
  rw [if_neg (by simp), if_neg (by rw [hmag]; simp), if_neg (by have := hin.inside.2.2.2; omega), if_neg (by simp)]

/-- a device whose boot partition is at sector 1 -/
def exMbr : Disk := fun x => if x = 510 then 0x55 else if x = 511 then 0xAA else if x = 454 then 1 else if x = 458 then 2 else 0

example : mbrInactive true 100000 512 512 2048 exMbr = some ⟨1536, 1024⟩ := by decide

example : (mbrRun true 100000 512 512 2048 {} true true {} 3 [1, 2, 3] exMbr).ok = true := by
  have hp : mbrInactive true 100000 512 512 2048 exMbr = some ⟨1536, 1024⟩ := by decide
  obtain ⟨_, h | h⟩ := mbrInactive_spec (by omega) (by omega) (by omega) (by unfold U64; omega) (by unfold U64; omega) hp
  · simp at h
  · exact mbrRun_total 100000 512 512 2048 exMbr ⟨1536, 1024⟩ [1, 2, 3] hp h (by omega) (by decide) (by decide)

/-! ## Findings about MBR -/

/-- a device whose boot partition is in the last sector that an MBR entry can address -/
def exBig : Disk := fun x => if x = 510 then 0x55 else if x = 511 then 0xAA else if 454 ≤ x ∧ x < 458 then 0xFF else if x = 458 then 1 else 0

/-- **C41, finding.** The start of the new boot partition is stored in 32 bits, which is not checked: if the second half of the region starts behind 2^32 sectors, then the update is successful, but the boot partition then starts at the wrong
sector (here: sector 0, which also makes all later updates fail, since this is taken for a missing boot partition). -/
theorem C41_finding_truncated (data : Bytes) (hfit : data.length ≤ 512) :
    (mbrRun true 4398046511104 512 2199023255040 1024 {} true true {} data.length data exBig).ok = true ∧
    entStart (apply exBig (mbrRun true 4398046511104 512 2199023255040 1024 {} true true {} data.length data exBig).ops) 0 = 0 := by
  have hp : mbrInactive true 4398046511104 512 2199023255040 1024 exBig = some ⟨2199023255552, 512⟩ := by decide
  obtain ⟨_, h | hin⟩ := mbrInactive_spec (by omega) (by omega) (by omega) (by unfold U64; omega) (by unfold U64; omega) hp
  · simp at h
  have hr := refresh_total ⟨2199023255552, 512⟩ (by decide) (by decide) 0 512 (Or.inl rfl) data
  have hok := mbrRun_total 4398046511104 512 2199023255040 1024 exBig ⟨2199023255552, 512⟩ data hp hin (by omega) (by decide) (by simpa using hfit)
  refine ⟨hok, ?_⟩
  unfold mbrRun at hok ⊢
  rcases switchRun_shape (mbrInactive true 4398046511104 512 2199023255040 1024 exBig) {} true true 512 data.length data (mbrSet {} 512) exBig (by
      intro p h; rw [hp] at h; injection h with h; subst h; decide) with h | ⟨p, hp', _, _, h | ⟨_, h⟩⟩ <;> rw [h] at hok ⊢
  · cases hok
  · cases hok
  · simp only [] at hok ⊢
    rw [apply_append]
    generalize apply exBig (refresh {} p data.length 0 512 data).ops = d1 at *
    rw [hp] at hp'
    injection hp' with hp'
    subst hp'
    rcases mbrSet_cases {} 512 ⟨2199023255552, 512⟩ d1 with hm | ⟨_, j, hm⟩ <;> rw [hm] at hok ⊢
    · cases hok
    · have hj : 512 ≤ j := by simpa using hok
      rw [List.take_of_length_le (by rw [newMbr_length]; omega), apply_single, newMbr_start]
      decide

/-! ## GPT -/

/-- what is known about a table reported by libfdisk: sectors are not empty, the grain is a multiple of the sector, partitions are inside of the device, the device is not too big, entry 0 is listed once -/
structure Gpt.Ok (g : Gpt) : Prop where
  sector : 0 < g.sector
  grain : 0 < g.grain ∧ g.grain % g.sector = 0
  dev : g.nsectors * g.sector ≤ 9223372036854775808
  inside : ∀ p ∈ g.parts, p.first ≤ p.last ∧ p.last < g.nsectors

/-- Specification: what the inactive half is, for a GPT -/
structure GptInactive (g : Gpt) (start size : Nat) (p : Part) : Prop where
  half : ∃ b ∈ g.parts, b.no = 0 ∧ OtherHalf start size (b.first * g.sector) p
  psize : p.size = size / 2 ∧ 2 * (size / 2) = size
  free : ∀ q ∈ g.parts, q.no ≠ 0 → Apart start size (q.first * g.sector) ((q.last - q.first + 1) * g.sector)
  inside : 34 * 512 ≤ start ∧ start + size < g.nsectors * g.sector

theorem mod_mul_left_zero {a b c : Nat} (h : a % b = 0) (h' : b % c = 0) : a % c = 0 :=
  Nat.mod_eq_zero_of_dvd (Nat.dvd_trans (Nat.dvd_of_mod_eq_zero h') (Nat.dvd_of_mod_eq_zero h))

theorem gptInactive_spec {of : Bool} {g : Gpt} (hg : g.Ok) {start size : Nat} (hst : start < U64) (hsz : size < U64) {p : Part} (h : gptInactive of g start size = some p) :
    p.size = size / 2 ∧ (9223372036854775808 ≤ p.start ∨ GptInactive g start size p) := by
  unfold gptInactive at h
  split at h
  · cases h
  split at h
  · cases h
  split at h
  · cases h
  rename_i hcr
  cases hf : g.parts.find? (fun p => p.no == 0) with
  | none => rw [hf] at h; cases h
  | some b =>
    rw [hf] at h
    simp only [] at h
    have hb : b ∈ g.parts := List.mem_of_find?_eq_some hf
    have hb0 : b.no = 0 := by simpa using List.find?_some hf
    have hps : p.size = size / 2 := by
      unfold otherHalf at h
      split at h
      · injection h with h; rw [← h]
      · split at h
        · injection h with h; rw [← h]
        · cases h
    refine ⟨hps, ?_⟩
    simp only [Bool.not_eq_true', Bool.not_eq_false] at hcr
    unfold checkRegion at hcr
    split at hcr
    · cases hcr
    rename_i c1
    split at hcr
    · cases hcr
    rename_i c2
    split at hcr
    · cases hcr
    rename_i c3
    split at hcr
    · cases hcr
    rename_i c4
    split at hcr
    · cases hcr
    rename_i c5
    simp only [] at hcr
    split at hcr
    · cases hcr
    rename_i c6
    have ha : start % g.sector = 0 := mod_mul_left_zero (Decidable.not_not.1 c2) hg.grain.2
    have h2g : (2 * g.grain) % (2 * g.sector) = 0 := by
      obtain ⟨k, hk⟩ := Nat.dvd_of_mod_eq_zero hg.grain.2
      rw [hk, ← Nat.mul_assoc]; exact Nat.mul_mod_right _ _
    have hz : size % (2 * g.sector) = 0 := mod_mul_left_zero (Decidable.not_not.1 c3) h2g
    have hboot : b.first * g.sector < 9223372036854775808 := by
      have := hg.inside b hb
      have h1 : (b.first + 1) * g.sector ≤ g.nsectors * g.sector := Nat.mul_le_mul_right _ (by omega)
      have h2 := hg.dev
      have h3 := hg.sector
      rw [Nat.add_mul] at h1
      omega
    rcases otherHalf_spec hg.sector ha hz hsz hst hboot h with h63 | ⟨hw, h2, hoh⟩
    · exact Or.inl h63
    right
    rw [Nat.mod_eq_of_lt hw] at c5
    have hzs : size % g.sector = 0 := mod_mul_left_zero hz (Nat.mul_mod_left _ _)
    obtain ⟨ka, hka⟩ := Nat.dvd_of_mod_eq_zero ha
    obtain ⟨kz, hkz⟩ := Nat.dvd_of_mod_eq_zero hzs
    have hend : start + size < g.nsectors * g.sector := by
      exact (Nat.div_lt_iff_lt_mul hg.sector).1 (by omega)
    refine ⟨⟨b, hb, hb0, hoh⟩, ⟨hps, h2⟩, ?_, ⟨by omega, hend⟩⟩
    intro q hq hq0 x hx
    simp only [List.any_eq_true, decide_eq_true_eq, not_exists, not_and] at c6
    have hc := c6 q hq hq0
    obtain ⟨x1, x2, x3, x4⟩ := hx
    have hin := hg.inside q hq
    -- the sector of `x`
    have s1 : start / g.sector ≤ x / g.sector := Nat.div_le_div_right x1
    have s2 : x / g.sector < start / g.sector + size / g.sector := by
      rw [hka, hkz, Nat.mul_div_cancel_left _ hg.sector, Nat.mul_div_cancel_left _ hg.sector]
      refine (Nat.div_lt_iff_lt_mul hg.sector).2 ?_
      rw [Nat.mul_comm, Nat.mul_add]; omega
    have s3 : q.first ≤ x / g.sector := (Nat.le_div_iff_mul_le hg.sector).2 x3
    have s4 : x / g.sector < q.last + 1 := by
      refine (Nat.div_lt_iff_lt_mul hg.sector).2 ?_
      have : q.first * g.sector + (q.last - q.first + 1) * g.sector = (q.last + 1) * g.sector := by
        rw [← Nat.add_mul]; congr 1; omega
      omega
    omega

/-- **C41 (GPT), for halves of less than 4 GiB.** All that is written before libfdisk is asked to change the partition table (`a`) is in the inactive half of the region -- the half where the boot partition does not start -- which overlaps with no other
partition; libfdisk is asked (`b`) only after the image is complete there and synced, and success is reported only if libfdisk reported success for this half.
Missing: halves of 4 GiB and more, for which this is false (`C41_finding_clear_forever`); what libfdisk writes is not modelled. -/
theorem C41_gpt_partial (of : Bool) (g : Gpt) (hg : g.Ok) (start rsize : Nat) (e : Env) (pre post : Bool) (set : Part → Disk → Run) (size : Nat) (data : Bytes) (d : Disk)
    (hst : start < U64) (hsz : rsize < U64) (hhalf : rsize / 2 < 4294967296) :
    ((gptRun of g start rsize e pre post set size data d) = ⟨[], false⟩) ∨
    ∃ p a b, GptInactive g start rsize p ∧ (gptRun of g start rsize e pre post set size data d).ops = a ++ b ∧
      (∀ d', Crash d a d' → ∀ x, d' x ≠ d x → p.start ≤ x ∧ x < p.start + p.size) ∧
      ((b = [] ∧ (gptRun of g start rsize e pre post set size data d).ok = false) ∨
       ((size = 0 ∨ data.length = size) ∧ (∃ a', a = a' ++ [.sync]) ∧ (apply d a).read p.start size = data.take size ∧
        b = (set p (apply d a)).ops ∧ (gptRun of g start rsize e pre post set size data d).ok = (set p (apply d a)).ok)) := by
  have hsp : ∀ p, gptInactive of g start rsize = some p → p.size < 4294967296 := by
    intro p hp
    have := (gptInactive_spec hg hst hsz hp).1
    omega
  unfold gptRun
  rcases switchRun_shape (gptInactive of g start rsize) e pre post g.sector size data set d hsp with h | ⟨p, hp, hfit, hwi, h⟩
  · exact Or.inl h
  obtain ⟨_, h63 | hin⟩ := gptInactive_spec hg hst hsz hp
  · left
    rcases h with h | ⟨hok, h⟩
    · rw [h, refresh_seek _ _ _ _ _ _ h63]
    · rw [refresh_seek _ _ _ _ _ _ h63] at hok; cases hok
  right
  have hw : ∀ d', Crash d (refresh e p size 0 g.sector data).ops d' → ∀ x, d' x ≠ d x → p.start ≤ x ∧ x < p.start + p.size := by
    intro d' hc x hne
    exact Decidable.not_not.1 fun hn => hne (crash_outside hwi hc x (by omega))
  rcases h with h | ⟨hok, h⟩
  · rw [h]
    exact ⟨p, _, [], hin, by simp, hw, Or.inl ⟨rfl, rfl⟩⟩
  · rw [h]
    obtain ⟨r1, r2, _⟩ := refresh_ok e p size 0 g.sector data (hsp p hp) hok
    exact ⟨p, _, _, hin, rfl, hw, Or.inr ⟨by omega, r2, refresh_read e p size 0 g.sector data (hsp p hp) hok d, rfl, rfl⟩⟩

/-- the active half and all other partitions are not in the inactive half -/
theorem GptInactive.apart {g : Gpt} {start size : Nat} {p : Part} (h : GptInactive g start size p) :
    (∃ b ∈ g.parts, b.no = 0 ∧ Apart p.start p.size (b.first * g.sector) (size / 2)) ∧
    ∀ q ∈ g.parts, q.no ≠ 0 → Apart p.start p.size (q.first * g.sector) ((q.last - q.first + 1) * g.sector) := by
  obtain ⟨⟨b, hb, hb0, hoh⟩, ⟨hps, h2⟩, hfree, _⟩ := h
  refine ⟨⟨b, hb, hb0, ?_⟩, ?_⟩
  · intro x hx
    rcases hoh with ⟨ha, rfl⟩ | ⟨ha, rfl⟩ <;> simp only [ha] at hx <;> omega
  · intro q hq hq0 x hx
    refine hfree q hq hq0 x ?_
    rcases hoh with ⟨_, rfl⟩ | ⟨_, rfl⟩ <;> simp only at hx <;> omega

theorem MbrInactive.apart {d : Disk} {dev sector start size : Nat} {p : Part} (h : MbrInactive d dev sector start size p) :
    Apart p.start p.size (entStart d 0 * sector) (size / 2) ∧ Apart p.start p.size 0 512 ∧
    ∀ i, 1 ≤ i → i ≤ 3 → entSize d i ≠ 0 → Apart p.start p.size (entStart d i * sector) (entSize d i * sector) := by
  obtain ⟨hoh, hps, hfree, ⟨hi1, hi2, hi3, _⟩, _⟩ := h
  refine ⟨?_, ?_, ?_⟩
  · intro x hx
    rcases hoh with ⟨ha, rfl⟩ | ⟨ha, rfl⟩ <;> simp only [ha] at hx <;> omega
  · intro x hx
    rcases hoh with ⟨_, rfl⟩ | ⟨_, rfl⟩ <;> simp only at hx <;> omega
  · intro i h1 h3 hne x hx
    refine hfree i h1 h3 hne x ?_
    rcases hoh with ⟨_, rfl⟩ | ⟨_, rfl⟩ <;> simp only at hx <;> omega

/-- a device of 1 MiB with a boot partition at sector 40 and a second partition -/
def exGpt : Gpt := ⟨true, 512, 512, 2048, [⟨0, 40, 49⟩, ⟨1, 1000, 1999⟩]⟩

theorem exGpt_ok : exGpt.Ok := ⟨by decide, by decide, by decide, by decide⟩

example : gptInactive false exGpt (40 * 512) (20 * 512) = some ⟨50 * 512, 10 * 512⟩ := by decide

example (set : Part → Disk → Run) (hset : ∀ p d, (set p d).ok = true) (d : Disk) : (gptRun false exGpt (40 * 512) (20 * 512) {} true true set 3 [1, 2, 3] d).ok = true := by
  have hp : gptInactive false exGpt (40 * 512) (20 * 512) = some ⟨50 * 512, 10 * 512⟩ := by decide
  have hr : (refresh {} ⟨50 * 512, 10 * 512⟩ 3 0 exGpt.sector [1, 2, 3]).ok = true := refresh_total ⟨50 * 512, 10 * 512⟩ (by decide) (by decide) 0 exGpt.sector (Or.inl rfl) [1, 2, 3]
  unfold gptRun switchRun
  rw [hp]
  simp only [Bool.not_true, Bool.false_eq_true, if_false]
  rw [if_neg (by decide), if_neg (by rw [hr]; simp)]
  exact hset _ _

/-- **C41, finding.** The area at the end of the device where the backup of the GPT is stored (its 32 sectors of entries, before the header in the last sector) is not protected: a region that contains it is accepted,
and if the boot partition is in the first half, then the second half, which is going to be cleared and overwritten, contains the backup entries. -/
theorem C41_finding_gpt_backup (n : Nat) (hn : 200 ≤ n) (hn2 : n * 512 < U64) :
    gptInactive false ⟨true, 512, 512, n, [⟨0, n - 101, n - 52⟩]⟩ ((n - 101) * 512) (100 * 512) = some ⟨(n - 51) * 512, 50 * 512⟩ ∧
    (n - 51) * 512 ≤ (n - 33) * 512 ∧ (n - 1) * 512 ≤ (n - 51) * 512 + 50 * 512 := by
  refine ⟨?_, by omega, by omega⟩
  have e1 : (n - 101) * 512 / 512 = n - 101 := Nat.mul_div_cancel _ (by omega)
  have hcr : checkRegion ⟨true, 512, 512, n, [⟨0, n - 101, n - 52⟩]⟩ ((n - 101) * 512) (100 * 512) = true := by
    unfold checkRegion
    rw [if_neg (by omega), if_neg (by simp only []; omega), if_neg (by simp only []; omega)]
    simp only [e1]
    rw [if_neg (by omega), if_neg (by unfold U64 at *; omega)]
    simp
  unfold gptInactive
  rw [if_neg (by simp), if_neg (by simp), if_neg (by rw [hcr]; simp)]
  simp only [List.find?_cons, beq_self_eq_true]
  unfold otherHalf
  have e2 : ((n - 101) * 512 + 100 * 512 / 2) % U64 = (n - 51) * 512 := by unfold U64 at *; omega
  rw [if_pos e1, e2]

end Rauc.Switch
