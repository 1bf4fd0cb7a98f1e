import Verif.Props.Emmc

/-!
# C43: nothing of the old content of an eMMC boot partition remains
-/

namespace Rauc.Emmc

open Rauc.Copy

/-! ## Specification -/

/-- how many bytes of zeros the kernel has taken with its first `k` answers; 1 KiB at a time is offered to it, but nothing beyond the size limit (0 is no limit) -/
def taken (counts : Nat → Wr) (limit : Nat) : Nat → Nat
  | 0 => 0
  | k + 1 =>
    let t := taken counts limit k
    let offer := if limit = 0 then 1024 else min 1024 (limit - t)
    match counts k with
    | .bytes c => t + min offer c
    | _ => t

/-- clearing came to the size limit, or (without a limit, or before it is reached) to the place where the device says that there is no space left -/
def Cleared (counts : Nat → Wr) (limit stop : Nat) : Prop :=
  (0 < limit ∧ stop = limit) ∨ ∃ k, counts k = .noSpace ∧ (∀ j, j < k → ∃ c, counts j = .bytes c) ∧ stop = taken counts limit k

/-! ## Proofs -/

theorem clearSlot_zero (counts : Nat → Wr) (limit fuel i total : Nat) (hi : total = taken counts limit i) (hj : ∀ j, j < i → ∃ c, counts j = .bytes c) (hl : limit > 0 → total ≤ limit) (hok : (clearSlot counts limit fuel i total).2 = some true) :
    ∃ stop, Cleared counts limit stop ∧ total ≤ stop ∧ ∀ d : Disk, (∀ x, total ≤ x → x < stop → apply d (clearSlot counts limit fuel i total).1 x = 0) ∧
      ∀ x, x < total → apply d (clearSlot counts limit fuel i total).1 x = d x := by
  induction fuel generalizing i total with
  | zero => cases hok
  | succ n ih =>
    unfold clearSlot at hok ⊢
    dsimp only at hok ⊢
    have hoff : (if limit > 0 ∧ total + 1024 > limit then limit - total else 1024) = (if limit = 0 then 1024 else min 1024 (limit - total)) := by
      by_cases h0 : limit = 0
      · simp [h0]
      · rw [if_neg h0]
        split <;> omega
    rw [hoff] at hok ⊢
    generalize hm : (if limit = 0 then 1024 else min 1024 (limit - total)) = m at hok ⊢
    have hml : limit > 0 → total + m ≤ limit := by
      intro h
      have := hl h
      rw [if_neg (by omega)] at hm
      omega
    cases hc : counts i with
    | error => rw [hc] at hok; cases hok
    | noSpace => exact ⟨total, .inr ⟨i, hc, hj, hi⟩, Nat.le_refl _, fun d => ⟨(fun x h1 h2 => absurd h2 (by omega)), fun x _ => rfl⟩⟩
    | bytes c =>
      rw [hc] at hok
      dsimp only at hok ⊢
      have hin : ∀ (d : Disk) x, applyOp d (.write total (List.replicate (min m c) 0)) x = if total ≤ x ∧ x < total + min m c then 0 else d x := by
        intro d x
        simp only [applyOp, Disk.write, List.length_replicate]
        split
        · rename_i h
          have : x - total < min m c := by omega
          simp [this]
        · rfl
      by_cases hd : limit > 0 ∧ total + min m c ≥ limit
      · rw [if_pos hd]
        have := hml hd.1
        refine ⟨limit, .inl ⟨hd.1, rfl⟩, hl hd.1, fun d => ⟨?_, ?_⟩⟩
        · intro x h1 h2
          change applyOp d (.write total (List.replicate (min m c) 0)) x = 0
          rw [hin, if_pos ⟨h1, by omega⟩]
        · intro x h
          change applyOp d (.write total (List.replicate (min m c) 0)) x = d x
          rw [hin, if_neg (by omega)]
      · rw [if_neg hd] at hok ⊢
        dsimp only at hok ⊢
        have hnext : total + min m c = taken counts limit (i + 1) := by
          simp only [taken, hc]
          rw [← hi, hm]
        have hj' : ∀ j, j < i + 1 → ∃ c, counts j = .bytes c := by
          intro j h
          rcases Nat.lt_succ_iff_lt_or_eq.1 h with h | h
          · exact hj j h
          · exact ⟨c, by rw [h]; exact hc⟩
        obtain ⟨stop, k1, k2, k3⟩ := ih (i + 1) (total + min m c) hnext hj' (fun h => by have := hml h; omega) hok
        refine ⟨stop, k1, by omega, fun d => ?_⟩
        obtain ⟨k3, k4⟩ := k3 (applyOp d (.write total (List.replicate (min m c) 0)))
        refine ⟨?_, ?_⟩
        · intro x h1 h2
          change apply (applyOp d _) _ x = 0
          by_cases hx : total + min m c ≤ x
          · exact k3 x hx h2
          · rw [k4 x (by omega), hin, if_pos ⟨h1, by omega⟩]
        · intro x h
          change apply (applyOp d _) _ x = d x
          rw [k4 x (by omega), hin, if_neg (by omega)]

theorem copyToDev_within (openFails closeFails : Bool) (f : Faults) (io : Nat → Io) (limit : Nat) (dev : Option Nat) (size sector : Nat) (data : Bytes) :
    ∀ op ∈ (copyToDev openFails closeFails f io limit dev size sector data).ops, Within 0 size op := by
  intro op ho
  unfold copyToDev at ho
  split at ho
  · cases ho
  split at ho
  · cases ho
  dsimp only at ho
  have hw : ∀ op ∈ (copyRaw f io size 0 sector 0 data).ops, Within 0 size op :=
    fun op ho => ((copyRaw_within _ _ _ _ _ _ _ op ho).2 (Or.inl rfl)).mono (Nat.le_refl _) (by omega)
  split at ho
  · exact hw op ho
  · exact hw op ho

theorem copyBoot_ok {e : Env} {i limit size sector : Nat} {data : Bytes} (h : (copyBoot e i limit size sector data).2 = true) :
    (clearSlot e.counts limit e.fuel 0 0).2 = some true ∧ (copyToDev (!e.copyOpen) (!e.copyClose) e.faults e.io limit e.dev size sector data).ok = true ∧
    opsOf i (copyBoot e i limit size sector data).1 = (clearSlot e.counts limit e.fuel 0 0).1 ++ (copyToDev (!e.copyOpen) (!e.copyClose) e.faults e.io limit e.dev size sector data).ops := by
  unfold copyBoot at h ⊢
  split at h
  · cases h
  split at h
  · cases h
  split at h
  · cases h
  rename_i h1 h2 h3
  rw [if_neg h1, if_neg h2, if_neg h3]
  dsimp only at h ⊢
  split at h
  · cases h
  rename_i h4
  rw [if_neg h4]
  split at h
  · cases h
  rename_i h5
  rw [if_neg h5]
  split at h
  · cases h
  rename_i h6
  rw [if_neg h6]
  split at h
  · cases h
  rename_i h7
  rw [if_neg h7]
  refine ⟨by have := not_or.1 h4; exact Classical.not_not.1 this.1, by simpa using h5, ?_⟩
  simp only [List.cons_append, opsOf, opsOf_append, opsOf_map, List.append_nil]

/-- **C43.** When the boot partition has been switched, nothing of what was there before is left in it: behind the image there are zeros up to the size limit or, without one, up to the place where the device has said that there is no more space. -/
theorem C43_cleared (e : Env) (v : UInt8) (limit size sector : Nat) (data : Bytes) (t : Nat) (l : List Act) (hr : (run e v limit size sector data).1 = l ++ [.reg (newValue v t)]) (ht : t < 2) :
    ∃ stop, Cleared e.counts limit stop ∧ ∀ d : Disk, (apply d (opsOf t l)).read 0 size = data.take size ∧ ∀ x, size ≤ x → x < stop → apply d (opsOf t l) x = 0 := by
  have hreg : ∀ (b : Nat), Act.reg (newValue v t) ∉ (copyBoot e b limit size sector data).1 := by
    intro b hm
    have := (copyBoot_spec e b limit size sector data).1 _ hm
    cases this
  rcases run_cases e v limit size sector data with h | ⟨a, -, h | ⟨hc, h, -⟩⟩
  · rw [h] at hr
    simp at hr
  · rw [h] at hr
    dsimp only at hr
    exact absurd (by rw [hr]; simp) (hreg (target a))
  · rw [hr] at h
    obtain ⟨e1, e2⟩ := List.append_inj' h rfl
    have hv : newValue v t = newValue v (target a) := by simpa using e2
    have hta : t = target a := by
      have b1 := ((C43_register v).2.2.2.2 t ht).1
      have b2 := ((C43_register v).2.2.2.2 (target a) (target_lt a)).1
      rw [hv, b2] at b1
      injection b1 with b1
      injection b1 with b1
      exact b1.symm
    subst e1
    subst hta
    obtain ⟨k1, k2, k3⟩ := copyBoot_ok hc
    have hread := (copyBoot_spec e (target a) limit size sector data).2.2.2 hc
    obtain ⟨stop, s1, -, s2⟩ := clearSlot_zero e.counts limit e.fuel 0 0 rfl (fun j h => absurd h (Nat.not_lt_zero j)) (fun _ => Nat.zero_le _) k1
    refine ⟨stop, s1, fun d => ⟨hread.2.2 d, fun x h1 h2 => ?_⟩⟩
    rw [k3, apply_append, apply_outside (copyToDev_within _ _ _ _ _ _ _ _ _) _ x (.inr h1)]
    exact (s2 d).1 x (Nat.zero_le _) h2

/-! ## Example -/

/-- a device of 3000 bytes takes 1024 bytes at a time, the last time 952 -/
def exCounts : Nat → Wr := fun k => if k < 2 then .bytes 1024 else if k = 2 then .bytes 952 else .noSpace

example : Cleared exCounts 0 3000 := .inr ⟨3, rfl, (by intro j h; match j, h with | 0, _ => exact ⟨_, rfl⟩ | 1, _ => exact ⟨_, rfl⟩ | 2, _ => exact ⟨_, rfl⟩), by decide⟩

/-- boot0 was active (and acknowledged): boot1 is cleared, written, and selected -/
def exRun : List Act × Bool := run { counts := exCounts, fuel := 5 } 0x48 0 4 0 [1, 2, 3, 4]

example : (match exRun.1.getLast? with | some (.reg w) => decide (w = newValue 0x48 1) | _ => false) = true ∧ exRun.2 = true := by decide +kernel

end Rauc.Emmc
