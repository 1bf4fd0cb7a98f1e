import Verif.Model.Download

/-!
# C75: a downloaded bundle never exceeds the configured size
-/

namespace Rauc.Download

/-- Specification: all data libcurl has delivered -/
def delivered : List Ev → Bytes
  | [] => []
  | .data d _ :: l => d ++ delivered l
  | .progress _ _ :: l => delivered l

/-- a chunk libcurl delivers is not larger than a `size_t` (in fact 16 KiB) -/
def Sane (l : List Ev) : Prop := ∀ d n, Ev.data d n ∈ l → d.length < 2 ^ 63

theorem transfer_inv (l : List Ev) : ∀ x : Xfer, Sane l → x.limit < 2 ^ 63 → x.pos = x.handed.length → (x.limit ≠ 0 → x.pos ≤ x.limit) →
    (transfer x l).1.limit = x.limit ∧ (x.limit ≠ 0 → (transfer x l).1.handed.length ≤ x.limit) ∧
    (∃ t, t <+: delivered l ∧ (transfer x l).1.handed = x.handed ++ t) ∧
    ((transfer x l).2 = true → (transfer x l).1.handed = x.handed ++ delivered l) := by
  induction l with
  | nil => intro x _ _ hp hl; exact ⟨rfl, fun h => hp ▸ hl h, ⟨[], List.prefix_refl _, by simp [transfer]⟩, fun _ => by simp [transfer, delivered]⟩
  | cons e l ih =>
    intro x hs hlim hp hl
    have hs' : Sane l := fun d n h => hs d n (List.mem_cons_of_mem _ h)
    cases e with
    | progress t n =>
      simp only [transfer, xferCb, delivered]
      by_cases hc : x.limit ≠ 0 ∧ (n > x.limit ∨ t > x.limit)
      · simp only [if_pos hc, if_true]
        exact ⟨trivial, fun h => hp ▸ hl h, ⟨[], List.nil_prefix, by simp⟩, fun h => by cases h⟩
      · simp only [if_neg hc, Bool.false_eq_true, if_false]
        exact ih x hs' hlim hp hl
    | data d n =>
      have hd := hs d n (by simp)
      simp only [transfer, writeCb, delivered]
      by_cases hc : x.limit ≠ 0 ∧ (x.pos + d.length) % 2 ^ 64 > x.limit
      · simp only [if_pos hc]
        have hdl : ¬ (0 = d.length) := by
          intro e
          have := hl hc.1
          have h2 := hc.2
          rw [← e, Nat.add_zero, Nat.mod_eq_of_lt (by omega)] at h2
          omega
        rw [if_neg hdl]
        exact ⟨rfl, fun h => hp ▸ hl h, ⟨[], List.nil_prefix, by simp⟩, fun h => by cases h⟩
      · simp only [if_neg hc]
        have htk : (d.take n).length ≤ d.length := by rw [List.length_take]; omega
        have hle : x.limit ≠ 0 → x.pos + (d.take n).length ≤ x.limit := by
          intro h0
          have h1 := hl h0
          have h2 : (x.pos + d.length) % 2 ^ 64 ≤ x.limit := Nat.le_of_not_lt (fun h => hc ⟨h0, h⟩)
          rw [Nat.mod_eq_of_lt (by omega)] at h2
          omega
        by_cases ht : (d.take n).length = d.length
        · rw [if_pos ht]
          have htd : d.take n = d := List.take_of_length_le (by rw [List.length_take] at ht; omega)
          obtain ⟨k1, k2, ⟨t, k3, k4⟩, k5⟩ := ih { x with pos := x.pos + (d.take n).length, handed := x.handed ++ d.take n } hs' hlim
            (by rw [List.length_append, hp]) hle
          refine ⟨k1, k2, ⟨d ++ t, ?_, ?_⟩, fun h => ?_⟩
          · exact (List.prefix_append_right_inj d).2 k3
          · rw [k4]; simp [htd]
          · rw [k5 h]; simp [htd]
        · rw [if_neg ht]
          refine ⟨rfl, fun h => ?_, ⟨d.take n, ?_, rfl⟩, fun h => by cases h⟩
          · rw [List.length_append, ← hp]; exact hle h
          · exact (List.take_prefix n d).trans (List.prefix_append _ _)

/-- **C75.** With a limit, the target never becomes larger than it, however much a server sends, in what portions and whatever it announces: neither at the end nor at any
earlier point (`evs` may be any beginning of a transfer, and the disk holds at most what was handed to stdio). -/
theorem C75_limit (old : Option Bytes) (opened : Bool) (limit : Nat) (evs : List Ev) (ended : Bool) (disk : Bytes → Bytes) (hd : ∀ b, disk b <+: b)
    (hs : Sane evs) (h0 : limit ≠ 0) (hl : limit < 2 ^ 63) (f : Bytes) (ho : old = none) (h : (download old opened limit evs ended disk).2 = some f) :
    f.length ≤ limit := by
  subst ho
  unfold download at h
  dsimp only at h
  split at h
  · cases h
  · cases h
    have := (transfer_inv evs { limit := limit } hs hl rfl (by intro _; exact Nat.zero_le _)).2.1 h0
    exact Nat.le_trans (hd _).length_le this

/-- **C75.** What is on disk is always a beginning of what the server sent. -/
theorem C75_prefix (opened : Bool) (limit : Nat) (evs : List Ev) (ended : Bool) (disk : Bytes → Bytes) (hd : ∀ b, disk b <+: b)
    (hs : Sane evs) (hl : limit < 2 ^ 63) (f : Bytes) (h : (download none opened limit evs ended disk).2 = some f) : f <+: delivered evs := by
  unfold download at h
  dsimp only at h
  split at h
  · cases h
  · cases h
    obtain ⟨t, h1, h2⟩ := (transfer_inv evs { limit := limit } hs hl rfl (by intro _; exact Nat.zero_le _)).2.2.1
    refine (hd _).trans ?_
    rw [h2]
    exact h1

/-- **C75 (partial).** A successful download is complete: the target is everything the server sent; given that the disk takes what stdio has buffered. Missing: this premise is needed,
since the results of `fflush` and `fclose` are ignored (`C75_flush_violated`). -/
theorem C75_complete_partial (old : Option Bytes) (opened : Bool) (limit : Nat) (evs : List Ev) (ended : Bool) (disk : Bytes → Bytes) (hd : ∀ b, disk b = b)
    (hs : Sane evs) (hl : limit < 2 ^ 63) (h : (download old opened limit evs ended disk).1 = true) :
    old = none ∧ ended = true ∧ (download old opened limit evs ended disk).2 = some (delivered evs) := by
  unfold download at h ⊢
  split at h
  · cases h
  · split at h
    · cases h
    · rename_i ho
      dsimp only at h ⊢
      rw [Bool.and_eq_true] at h
      rw [if_neg ho, hd, (transfer_inv evs { limit := limit } hs hl rfl (by intro _; exact Nat.zero_le _)).2.2.2 h.1]
      exact ⟨rfl, h.2, rfl⟩

/-- **C75.** An existing file is never overwritten. -/
theorem C75_no_overwrite (f : Bytes) (opened : Bool) (limit : Nat) (evs : List Ev) (ended : Bool) (disk : Bytes → Bytes) :
    download (some f) opened limit evs ended disk = (false, some f) := rfl

/-- **Finding (C75).** If the disk is full when the last bytes are flushed, the download is reported as a success although the file is incomplete (or empty). -/
theorem C75_flush_violated : download none true 100 [.data [1, 2, 3] 3] true (fun _ => []) = (true, some []) := by decide

/-! ## Examples -/

example : download none true 5 [.progress 4 0, .data [1, 2] 2, .data [3, 4] 2] true id = (true, some [1, 2, 3, 4]) := by decide
example : download none true 5 [.data [1, 2, 3] 3, .data [4, 5, 6] 3] true id = (false, some [1, 2, 3]) := by decide
example : download none true 5 [.progress 6 0, .data [1, 2, 3] 3] true id = (false, some []) := by decide

end Rauc.Download
