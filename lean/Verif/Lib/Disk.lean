import Mathlib.Data.List.GetD

/-!
# Bytes and byte-addressed storage
-/

namespace Rauc

abbrev Bytes := List UInt8

/-- contents of a device or file, by offset -/
abbrev Disk := Nat → UInt8

/-- `d` with `b` written at `off` -/
def Disk.write (d : Disk) (off : Nat) (b : Bytes) : Disk :=
  fun i => if off ≤ i ∧ i < off + b.length then b.getD (i - off) 0 else d i

/-- the `n` bytes at `off` -/
def Disk.read (d : Disk) (off n : Nat) : Bytes := (List.range n).map (fun i => d (off + i))

theorem Disk.read_length (d : Disk) (off n : Nat) : (d.read off n).length = n := by simp [Disk.read]

theorem Disk.read_zero (d : Disk) (off : Nat) : d.read off 0 = [] := rfl

theorem Disk.write_nil (d : Disk) (off : Nat) : d.write off [] = d := by
  funext i
  unfold Disk.write
  rw [if_neg]
  simp only [List.length_nil]
  omega

theorem Disk.write_out (d : Disk) (off : Nat) (b : Bytes) (i : Nat) (h : i < off ∨ off + b.length ≤ i) :
    d.write off b i = d i := by
  unfold Disk.write
  rw [if_neg]
  omega

theorem Disk.write_in (d : Disk) (off : Nat) (b : Bytes) (i : Nat) (h : i < b.length) :
    d.write off b (off + i) = b[i] := by
  unfold Disk.write
  rw [if_pos (by omega), Nat.add_sub_cancel_left, List.getD_eq_getElem _ _ h]

theorem Disk.write_append (d : Disk) (off : Nat) (a b : Bytes) :
    (d.write off a).write (off + a.length) b = d.write off (a ++ b) := by
  funext i
  unfold Disk.write
  rw [List.length_append]
  by_cases h1 : off + a.length ≤ i ∧ i < off + a.length + b.length
  · rw [if_pos h1, if_pos (by omega)]
    rw [List.getD_append_right _ _ _ _ (by omega)]
    congr 1
    omega
  · rw [if_neg h1]
    by_cases h2 : off ≤ i ∧ i < off + a.length
    · rw [if_pos h2, if_pos (by omega), List.getD_append _ _ _ _ (by omega)]
    · rw [if_neg h2, if_neg (by omega)]

theorem Disk.read_get (d : Disk) (off n i : Nat) (h : i < n) : (d.read off n)[i]'(by simp [Disk.read, h]) = d (off + i) := by
  simp [Disk.read]

theorem Disk.read_write_same (d : Disk) (off : Nat) (b : Bytes) : (d.write off b).read off b.length = b := by
  apply List.ext_getElem
  · simp [Disk.read]
  · intro i h1 h2
    simp only [Disk.read, List.getElem_map, List.getElem_range]
    exact Disk.write_in d off b i h2

theorem Disk.read_eq_iff (d e : Disk) (off n : Nat) : d.read off n = e.read off n ↔ ∀ i, off ≤ i → i < off + n → d i = e i := by
  constructor
  · intro h i h1 h2
    have h3 : (d.read off n)[i - off]? = (e.read off n)[i - off]? := by rw [h]
    rw [List.getElem?_eq_getElem (by rw [Disk.read_length]; omega), List.getElem?_eq_getElem (by rw [Disk.read_length]; omega)] at h3
    rw [Disk.read_get _ _ _ _ (by omega), Disk.read_get _ _ _ _ (by omega)] at h3
    have e1 : off + (i - off) = i := by omega
    rw [e1] at h3
    exact Option.some.inj h3
  · intro h
    apply List.map_congr_left
    intro i hi
    exact h _ (by omega) (by have := List.mem_range.1 hi; omega)

theorem Disk.write_read_same (d : Disk) (off n : Nat) : d.write off (d.read off n) = d := by
  funext i
  unfold Disk.write
  split
  · rename_i h
    rw [Disk.read_length] at h
    rw [List.getD_eq_getElem _ _ (by rw [Disk.read_length]; omega), Disk.read_get _ _ _ _ (by omega)]
    congr 1; omega
  · rfl

theorem Disk.read_append (d : Disk) (off a b : Nat) : d.read off (a + b) = d.read off a ++ d.read (off + a) b := by
  unfold Disk.read
  rw [List.range_add, List.map_append, List.map_map]
  congr 1
  apply List.map_congr_left
  intro i _
  simp [Nat.add_assoc]

theorem Disk.read_write_disjoint (d : Disk) (off : Nat) (b : Bytes) (o n : Nat) (h : o + n ≤ off ∨ off + b.length ≤ o) :
    (d.write off b).read o n = d.read o n := by
  rw [Disk.read_eq_iff]
  intro i h1 h2
  exact Disk.write_out _ _ _ _ (by omega)

end Rauc
