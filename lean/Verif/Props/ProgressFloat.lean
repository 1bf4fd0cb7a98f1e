import Verif.Props.Progress
import Verif.Lib.Str
import Mathlib.Algebra.Order.Field.Power
import Mathlib.Data.Nat.Log

/-!
# C46 with single precision

`rnd32` is the rounding of IEEE 754 (to nearest, ties to even; the exponent is not limited), and with any such rounding no assertion of the progress code fails.
-/

namespace Rauc.Progress

/-- Specification: `r` is the number with a significand of 24 bits that is nearest to the positive number `q`, and if there are two of them the one with the even significand. -/
structure Nearest (q r : ℚ) : Prop where
  ex : ∃ (m : Nat) (e : Int), (2 : ℚ) ^ 23 ≤ q * 2 ^ e ∧ q * 2 ^ e < 2 ^ 24 ∧ r * 2 ^ e = m ∧ |q * 2 ^ e - m| ≤ 1 / 2 ∧ (|q * 2 ^ e - m| = 1 / 2 → m % 2 = 0)

def scaleOf (n d : Nat) (e : Int) : Nat × Nat := if 0 ≤ e then (n * 2 ^ e.toNat, d) else (n, d * 2 ^ (-e).toNat)

theorem scaleOf_pos {n d : Nat} (hd : 0 < d) (e : Int) : 0 < (scaleOf n d e).2 := by
  unfold scaleOf; split
  · exact hd
  · exact Nat.mul_pos hd (Nat.pow_pos (by norm_num))

theorem zpow_of_nonneg {e : Int} (h : 0 ≤ e) : (2 : ℚ) ^ e = ((2 : ℚ) ^ e.toNat) := by
  conv_lhs => rw [← Int.toNat_of_nonneg h]
  rw [zpow_natCast]

theorem zpow_of_neg {e : Int} (h : ¬ 0 ≤ e) : (2 : ℚ) ^ e = ((2 : ℚ) ^ (-e).toNat)⁻¹ := by
  have h1 : e = -((-e).toNat : Int) := by omega
  conv_lhs => rw [h1]
  rw [zpow_neg, zpow_natCast]

theorem scaleOf_eq {n d : Nat} (hd : 0 < d) (e : Int) : ((scaleOf n d e).1 : ℚ) / (scaleOf n d e).2 = (n / d : ℚ) * 2 ^ e := by
  have hd' : (d : ℚ) ≠ 0 := by exact_mod_cast hd.ne'
  unfold scaleOf; split
  · rename_i h
    rw [zpow_of_nonneg h]; push_cast; ring
  · rename_i h
    rw [zpow_of_neg h]; push_cast
    rw [div_mul_eq_div_div, div_eq_mul_inv]

theorem rnd32_nearest {q : ℚ} (hq : 0 < q) : Nearest q (rnd32 q) := by
  have hd : 0 < q.den := q.den_pos
  have hn0 : 0 < q.num := Rat.num_pos.2 hq
  have hn : 0 < q.num.toNat := by omega
  have hqe : q = (q.num.toNat : ℚ) / q.den := by
    have h1 : ((q.num.toNat : Int) : ℚ) = (q.num : ℚ) := by rw [Int.toNat_of_nonneg hn0.le]
    have h2 : ((q.num.toNat : Nat) : ℚ) = (q.num : ℚ) := by rw [← h1]; norm_cast
    rw [h2, Rat.num_div_den]
  have key : ∀ e : Int, ((scaleOf q.num.toNat q.den e).1 : ℚ) / (scaleOf q.num.toNat q.den e).2 = q * 2 ^ e := fun e => by
    rw [scaleOf_eq hd, ← hqe]
  unfold rnd32
  rw [if_neg (not_le.2 hq)]
  dsimp only
  have hscale : (fun e : Int => if 0 ≤ e then (q.num.toNat * 2 ^ e.toNat, q.den) else (q.num.toNat, q.den * 2 ^ (-e).toNat)) = scaleOf q.num.toNat q.den := rfl
  generalize hn' : q.num.toNat = n at *
  generalize hd' : q.den = d at *
  set ln := Nat.log2 n with hln
  set ld := Nat.log2 d with hld
  have bn1 : 2 ^ ln ≤ n := Nat.log2_self_le hn.ne'
  have bn2 : n < 2 ^ (ln + 1) := Nat.lt_log2_self
  have bd1 : 2 ^ ld ≤ d := Nat.log2_self_le hd.ne'
  have bd2 : d < 2 ^ (ld + 1) := Nat.lt_log2_self
  have fold : ∀ e : Int, (if 0 ≤ e then (n * 2 ^ e.toNat, d) else (n, d * 2 ^ (-e).toNat)) = scaleOf n d e := fun e => rfl
  simp only [fold]
  set e0 : Int := 23 + (ld : Int) - ln with he0
  have two : (0 : ℚ) < 2 := by norm_num
  have hdq : (0 : ℚ) < d := by exact_mod_cast hd
  have up : q * 2 ^ e0 < 2 ^ 24 := by
    rw [hqe, div_mul_eq_mul_div, div_lt_iff₀ hdq]
    have h1 : (n : ℚ) < 2 ^ (ln + 1) := by exact_mod_cast bn2
    have h2 : (2 : ℚ) ^ ld ≤ d := by exact_mod_cast bd1
    have h3 : (2 : ℚ) ^ e0 = 2 ^ 23 * 2 ^ ld / 2 ^ ln := by
      rw [he0, zpow_sub₀ two.ne', zpow_add₀ two.ne', zpow_natCast, zpow_natCast]; norm_cast
    rw [h3]
    have hp : (0 : ℚ) < 2 ^ ln := by positivity
    calc (n : ℚ) * (2 ^ 23 * 2 ^ ld / 2 ^ ln) < 2 ^ (ln + 1) * (2 ^ 23 * 2 ^ ld / 2 ^ ln) := by
          apply mul_lt_mul_of_pos_right h1; positivity
      _ = 2 ^ 24 * 2 ^ ld := by field_simp; ring
      _ ≤ 2 ^ 24 * d := by apply mul_le_mul_of_nonneg_left h2; positivity
  have lo : (2 : ℚ) ^ 22 ≤ q * 2 ^ e0 := by
    rw [hqe, div_mul_eq_mul_div, le_div_iff₀ hdq]
    have h1 : (2 : ℚ) ^ ln ≤ n := by exact_mod_cast bn1
    have h2 : (d : ℚ) ≤ 2 ^ (ld + 1) := by exact_mod_cast bd2.le
    have h3 : (2 : ℚ) ^ e0 = 2 ^ 23 * 2 ^ ld / 2 ^ ln := by
      rw [he0, zpow_sub₀ two.ne', zpow_add₀ two.ne', zpow_natCast, zpow_natCast]; norm_cast
    rw [h3]
    have hp : (0 : ℚ) < 2 ^ ln := by positivity
    calc (2 : ℚ) ^ 22 * d ≤ 2 ^ 22 * 2 ^ (ld + 1) := by apply mul_le_mul_of_nonneg_left h2; positivity
      _ = 2 ^ ln * (2 ^ 23 * 2 ^ ld / 2 ^ ln) := by field_simp; ring
      _ ≤ n * (2 ^ 23 * 2 ^ ld / 2 ^ ln) := by apply mul_le_mul_of_nonneg_right h1; positivity
  have cmp : ∀ (e : Int) (c : Nat), (scaleOf n d e).1 / (scaleOf n d e).2 < c ↔ q * 2 ^ e < c := by
    intro e c
    have hp := scaleOf_pos (n := n) hd e
    rw [← key e, Nat.div_lt_iff_lt_mul hp, div_lt_iff₀ (by exact_mod_cast hp)]
    exact_mod_cast Iff.rfl
  have c23 : (scaleOf n d e0).1 / (scaleOf n d e0).2 < 2 ^ 23 ↔ q * 2 ^ e0 < 2 ^ 23 := by exact_mod_cast cmp e0 (2 ^ 23)
  have c24 : (scaleOf n d e0).1 / (scaleOf n d e0).2 < 2 ^ 24 ↔ q * 2 ^ e0 < 2 ^ 24 := by exact_mod_cast cmp e0 (2 ^ 24)
  generalize he : (if (scaleOf n d e0).1 / (scaleOf n d e0).2 < 2 ^ 23 then e0 + 1
    else if (scaleOf n d e0).1 / (scaleOf n d e0).2 ≥ 2 ^ 24 then e0 - 1 else e0) = e
  have hr : (2 : ℚ) ^ 23 ≤ q * 2 ^ e ∧ q * 2 ^ e < 2 ^ 24 := by
    rw [← he]
    split
    · rename_i h
      rw [c23] at h
      rw [zpow_add₀ two.ne', zpow_one]
      constructor <;> linarith
    · rename_i h
      rw [c23, not_lt] at h
      rw [if_neg (by rw [ge_iff_le, not_le]; exact c24.2 up)]
      exact ⟨h, up⟩
  have hk := key e
  have hpos := scaleOf_pos (n := n) hd e
  generalize scaleOf n d e = ab at hk hpos ⊢
  obtain ⟨a, b⟩ := ab
  dsimp only at hk hpos ⊢
  have hb : (0 : ℚ) < b := by exact_mod_cast hpos
  have hdm := Nat.div_add_mod a b
  have hml := Nat.mod_lt a hpos
  generalize a / b = m at hdm ⊢
  generalize a % b = r at hdm hml ⊢
  have hx : q * 2 ^ e = m + r / b := by
    rw [← hk, ← hdm]; push_cast; field_simp
  refine ⟨(if 2 * r > b ∨ 2 * r = b ∧ m % 2 = 1 then m + 1 else m), e, hr.1, hr.2, ?_, ?_, ?_⟩
  · split
    · rename_i h
      rw [zpow_of_nonneg h, div_mul_cancel₀ _ (by positivity)]
    · rename_i h
      rw [zpow_of_neg h, mul_assoc, mul_inv_cancel₀ (by positivity), mul_one]
  · rw [hx]
    have hrb : (0 : ℚ) ≤ r / b := by positivity
    split
    · rename_i h
      have h2 : (b : ℚ) ≤ 2 * r := by
        rcases h with h | h
        · exact_mod_cast h.le
        · exact_mod_cast h.1.ge
      have h3 : (1 : ℚ) / 2 ≤ r / b := by rw [div_le_div_iff₀ (by norm_num) hb]; linarith
      have h4 : (r : ℚ) / b < 1 := by rw [div_lt_one hb]; exact_mod_cast hml
      push_cast
      rw [abs_le]; constructor <;> linarith
    · rename_i h
      rw [not_or] at h
      have h2 : 2 * (r : ℚ) ≤ b := by exact_mod_cast not_lt.1 h.1
      have h3 : (r : ℚ) / b ≤ 1 / 2 := by rw [div_le_div_iff₀ hb (by norm_num)]; linarith
      rw [abs_le]; constructor <;> linarith
  · rw [hx]
    have hrb : (0 : ℚ) ≤ r / b := by positivity
    split
    · rename_i h
      have h4 : (r : ℚ) / b < 1 := by rw [div_lt_one hb]; exact_mod_cast hml
      intro h5
      push_cast at h5
      rw [abs_of_nonpos (by linarith)] at h5
      have h6 : (r : ℚ) / b = 1 / 2 := by linarith
      rw [div_eq_div_iff hb.ne' (by norm_num)] at h6
      have h7 : r * 2 = 1 * b := by exact_mod_cast h6
      omega
    · rename_i h
      intro h5
      rw [abs_of_nonneg (by linarith)] at h5
      have h6 : (r : ℚ) / b = 1 / 2 := by linarith
      rw [div_eq_div_iff hb.ne' (by norm_num)] at h6
      have h7 : r * 2 = 1 * b := by exact_mod_cast h6
      omega


/-- Specification: a rounding of the numbers that are not negative to single precision -/
structure Single (rnd : ℚ → ℚ) : Prop where
  zero : rnd 0 = 0
  near : ∀ q, 0 < q → Nearest q (rnd q)

theorem rnd32_single : Single rnd32 := ⟨rfl, fun _ => rnd32_nearest⟩

/-! ## Consequences -/

/-- the relative error -/
abbrev u : ℚ := 1 / 2 ^ 24

theorem Nearest.err {q r : ℚ} (h : Nearest q r) : |r - q| ≤ q * u := by
  obtain ⟨m, e, h1, h2, h3, h4, _⟩ := h.ex
  have hp : (0 : ℚ) < 2 ^ e := zpow_pos (by norm_num) e
  have h5 : |r - q| * 2 ^ e ≤ q * u * 2 ^ e := by
    calc |r - q| * 2 ^ e = |(r - q) * 2 ^ e| := by rw [abs_mul, abs_of_pos hp]
      _ = |q * 2 ^ e - m| := by rw [sub_mul, h3, abs_sub_comm]
      _ ≤ 1 / 2 := h4
      _ ≤ (q * 2 ^ e) * u := by rw [show u = 1 / 2 ^ 24 from rfl]; linarith
      _ = q * u * 2 ^ e := by ring
  exact le_of_mul_le_mul_right h5 hp

theorem Nearest.sig {q r : ℚ} (_h : Nearest q r) {m : Nat} {e : Int} (h1 : (2 : ℚ) ^ 23 ≤ q * 2 ^ e) (h2 : q * 2 ^ e < 2 ^ 24) (h4 : |q * 2 ^ e - m| ≤ 1 / 2) :
    2 ^ 23 ≤ m ∧ m ≤ 2 ^ 24 := by
  rw [abs_le] at h4
  constructor
  · by_contra hc
    have : (m : ℚ) + 1 ≤ 2 ^ 23 := by exact_mod_cast not_le.1 hc
    linarith
  · by_contra hc
    have : (2 : ℚ) ^ 24 + 1 ≤ m := by exact_mod_cast not_le.1 hc
    linarith

theorem two_lt {a b : Int} (h : (2 : ℚ) ^ a < 2 ^ b) : a < b := by
  by_contra hc
  exact absurd (zpow_le_zpow_right₀ (by norm_num : (1 : ℚ) ≤ 2) (not_lt.1 hc)) (not_le.2 h)

/-- numbers with a significand of 24 bits are not changed -/
theorem Nearest.fix {q r : ℚ} (h : Nearest q r) {m0 : Nat} {e0 : Int} (hm : m0 ≤ 2 ^ 24) (hq : q * 2 ^ e0 = m0) : r = q := by
  obtain ⟨m, e, h1, h2, h3, h4, _⟩ := h.ex
  have hp : (0 : ℚ) < 2 ^ e := zpow_pos (by norm_num) e
  have hp0 : (0 : ℚ) < 2 ^ e0 := zpow_pos (by norm_num) e0
  have hint : ∃ k : Int, q * 2 ^ e = k := by
    by_cases hle : e0 ≤ e
    · refine ⟨m0 * 2 ^ (e - e0).toNat, ?_⟩
      have h6 : (2 : ℚ) ^ e = 2 ^ e0 * 2 ^ (e - e0).toNat := by
        rw [← zpow_natCast, ← zpow_add₀ (by norm_num)]; congr 1; omega
      rw [h6, ← mul_assoc, hq]; push_cast; ring
    · have h6 : (2 : ℚ) ^ e0 = 2 ^ e * 2 ^ (e0 - e) := by rw [← zpow_add₀ (by norm_num)]; congr 1; ring
      have hq' : q * 2 ^ e * 2 ^ (e0 - e) = m0 := by rw [mul_assoc, ← h6, hq]
      have hm' : (m0 : ℚ) ≤ 2 ^ 24 := by exact_mod_cast hm
      have h7 : (2 : ℚ) ^ (1 : Int) ≤ 2 ^ (e0 - e) := zpow_le_zpow_right₀ (by norm_num) (by omega)
      rw [zpow_one] at h7
      refine ⟨2 ^ 23, ?_⟩
      have h8 : q * 2 ^ e * 2 ≤ q * 2 ^ e * 2 ^ (e0 - e) := mul_le_mul_of_nonneg_left h7 (by linarith)
      push_cast
      linarith
  obtain ⟨k, hk⟩ := hint
  rw [hk] at h4
  have h5 : (k : ℚ) = m := by
    rw [abs_le] at h4
    have h6 : (k : ℚ) < m + 1 := by linarith
    have h7 : (m : ℚ) < k + 1 := by linarith
    have h8 : k < (m : Int) + 1 := by exact_mod_cast h6
    have h9 : (m : Int) < k + 1 := by exact_mod_cast h7
    have : k = m := by omega
    rw [this]; norm_cast
  exact mul_right_cancel₀ hp.ne' (by rw [h3, hk, h5])

theorem Nearest.mono {q r q' r' : ℚ} (h : Nearest q r) (h' : Nearest q' r') (hq : q ≤ q') : r ≤ r' := by
  obtain ⟨m, e, h1, h2, h3, h4, h5⟩ := h.ex
  obtain ⟨m', e', h1', h2', h3', h4', h5'⟩ := h'.ex
  obtain ⟨hm1, hm2⟩ := h.sig h1 h2 h4
  obtain ⟨hm1', hm2'⟩ := h'.sig h1' h2' h4'
  have hp : (0 : ℚ) < 2 ^ e := zpow_pos (by norm_num) e
  have hp' : (0 : ℚ) < 2 ^ e' := zpow_pos (by norm_num) e'
  have hm2q : (m : ℚ) ≤ 2 ^ 24 := by exact_mod_cast hm2
  have hm1q : (2 : ℚ) ^ 23 ≤ m' := by exact_mod_cast hm1'
  have hee : e' ≤ e := by
    have h6 : q * 2 ^ e' < 2 ^ 24 := lt_of_le_of_lt (mul_le_mul_of_nonneg_right hq hp'.le) h2'
    have h7 : (2 : ℚ) ^ e' < 2 ^ (e + 1) := by
      rw [zpow_add₀ (by norm_num), zpow_one]
      by_contra hc
      rw [not_lt] at hc
      have hq0 : 0 ≤ q := by
        by_contra hn
        have := mul_neg_of_neg_of_pos (not_le.1 hn) hp
        linarith
      have := mul_le_mul_of_nonneg_left hc hq0
      linarith
    have := two_lt h7
    omega
  rcases hee.lt_or_eq with hlt | rfl
  · have h6 : (2 : ℚ) ^ e = 2 ^ e' * 2 ^ (e - e') := by rw [← zpow_add₀ (by norm_num)]; congr 1; ring
    have h7 : (2 : ℚ) ^ (1 : Int) ≤ 2 ^ (e - e') := zpow_le_zpow_right₀ (by norm_num) (by omega)
    rw [zpow_one] at h7
    have h9 : r * 2 ^ e' * 2 ^ (e - e') ≤ r' * 2 ^ e' * 2 ^ (e - e') := by
      rw [mul_assoc, ← h6, h3, h3']
      have := mul_le_mul hm1q h7 (by norm_num) (by positivity)
      linarith
    exact le_of_mul_le_mul_right (le_of_mul_le_mul_right h9 (by positivity)) hp'
  · have hx : q * 2 ^ e' ≤ q' * 2 ^ e' := mul_le_mul_of_nonneg_right hq hp.le
    have hmm : m ≤ m' := by
      by_contra hc
      have hc' : (m' : ℚ) + 1 ≤ m := by exact_mod_cast not_le.1 hc
      have a4 := abs_le.1 h4
      have a4' := abs_le.1 h4'
      have e1 : q * 2 ^ e' - m = -(1 / 2) := by linarith [a4.1, a4.2, a4'.1, a4'.2]
      have e2 : q' * 2 ^ e' - m' = 1 / 2 := by linarith [a4.1, a4.2, a4'.1, a4'.2]
      have e3 : (m : ℚ) = m' + 1 := by linarith [a4.1, a4.2, a4'.1, a4'.2]
      have e4 : m = m' + 1 := by exact_mod_cast e3
      have := h5 (by rw [e1, abs_neg]; norm_num)
      have := h5' (by rw [e2]; norm_num)
      omega
    apply le_of_mul_le_mul_right _ hp
    rw [h3, h3']; exact_mod_cast hmm

namespace Single

variable {rnd : ℚ → ℚ} (H : Single rnd)
include H

theorem nonneg {q : ℚ} (h : 0 ≤ q) : 0 ≤ rnd q := by
  rcases h.lt_or_eq with h | rfl
  · have := abs_le.1 (H.near q h).err
    have : q * u ≤ q := by rw [show u = 1 / 2 ^ 24 from rfl]; linarith
    linarith
  · rw [H.zero]

theorem mono {a b : ℚ} (h0 : 0 ≤ a) (h : a ≤ b) : rnd a ≤ rnd b := by
  rcases h0.lt_or_eq with h0 | rfl
  · exact (H.near a h0).mono (H.near b (lt_of_lt_of_le h0 h)) h
  · rw [H.zero]; exact H.nonneg h

theorem err {q : ℚ} (h : 0 ≤ q) : q * (1 - u) ≤ rnd q ∧ rnd q ≤ q * (1 + u) := by
  rcases h.lt_or_eq with h | rfl
  · have := abs_le.1 (H.near q h).err
    constructor <;> linarith
  · rw [H.zero]; simp

theorem idem {q : ℚ} (h : 0 ≤ q) : rnd (rnd q) = rnd q := by
  rcases h.lt_or_eq with h | rfl
  · have hq := H.near q h
    obtain ⟨m, e, h1, h2, h3, h4, h5⟩ := hq.ex
    have hm := hq.sig h1 h2 h4
    have hpos : 0 < rnd q := by
      have := (H.err h.le).1
      have : 0 < q * (1 - u) := mul_pos h (by norm_num)
      linarith
    exact (H.near _ hpos).fix hm.2 h3
  · rw [H.zero, H.zero]

theorem nat {n : Nat} (h : n ≤ 2 ^ 24) : rnd n = n := by
  rcases Nat.eq_zero_or_pos n with rfl | hn
  · simpa using H.zero
  · exact (H.near _ (by exact_mod_cast hn)).fix h (e0 := 0) (by simp)

end Single

/-- Everything that follows uses only this. -/
theorem C46_rounding : Single rnd32 ∧ ∀ rnd, Single rnd →
    (∀ a b, 0 ≤ a → a ≤ b → rnd a ≤ rnd b) ∧ (∀ q, 0 ≤ q → rnd (rnd q) = rnd q) ∧ (∀ n : Nat, n ≤ 2 ^ 24 → rnd n = n) ∧
    (∀ q, 0 ≤ q → q * (1 - 1 / 2 ^ 24) ≤ rnd q ∧ rnd q ≤ q * (1 + 1 / 2 ^ 24)) :=
  ⟨rnd32_single, fun _ H => ⟨fun _ _ => H.mono, fun _ => H.idem, fun _ => H.nat, fun _ => H.err⟩⟩


/-! ## The run -/

/-- Steps are used mildly: no step has more than 10000 substeps, a step inside of another one makes up all of it only if the outer one has just one substep, and in
a step that is the first one of its parent, 100 percent are not set explicitly (`k`: the substeps of the parent, `a`: the weights of the steps before). All operations of RAUC
are of this kind, as long as there are at most 1000 images. -/
def Steps.Mild : Nat → Nat → Steps → Prop
  | _, _, .nil => True
  | k, a, .node _ w n ps i _ next => k ≤ 10000 ∧ (w < k ∨ k = 1) ∧ (100 ∈ ps → 0 < a) ∧ i.Mild n 0 ∧ next.Mild k (a + w)

def sumF (rnd : ℚ → ℚ) (c : ℚ) (l : List Step) : ℚ := l.foldl (fun p s => rnd (p + s.percent)) c

section
variable {rnd : ℚ → ℚ} (H : Single rnd)
include H

theorem sumF_nonneg {l : List Step} (h : ∀ x ∈ l, 0 ≤ x.percent) {c : ℚ} (hc : 0 ≤ c) : 0 ≤ sumF rnd c l := by
  induction l generalizing c with
  | nil => exact hc
  | cons s l ih =>
    exact ih (fun x hx => h x (List.mem_cons_of_mem _ hx)) (H.nonneg (add_nonneg hc (h s List.mem_cons_self)))

omit H in
theorem sumF_zero {l : List Step} (h : ∀ x ∈ l, x.percent = 0) {c : ℚ} (hc : rnd c = c) : sumF rnd c l = c := by
  induction l generalizing c with
  | nil => rfl
  | cons s l ih =>
    unfold sumF
    rw [List.foldl_cons, h s List.mem_cons_self, add_zero, hc]
    exact ih (fun x hx => h x (List.mem_cons_of_mem _ hx)) hc

/-- while the innermost step is not complete, the report is at most 99 -/
theorem sendF_cap (top par : Step) (anc : List Step) (R : List Report) (ht : top.percent < 100) (hs : ∀ x ∈ par :: anc, 0 ≤ x.percent) :
    ∃ r, send rnd ⟨top :: par :: anc, R⟩ = some ⟨top :: par :: anc, R ++ [⟨r, anc.length + 2⟩]⟩ ∧ 0 ≤ r ∧ r ≤ 100 := by
  have h0 : 0 ≤ sumF rnd 0 (par :: anc) := sumF_nonneg H hs (le_refl _)
  have hc : (if top.percent < 100 ∧ sumF rnd 0 (par :: anc) > 99 then 99 else sumF rnd 0 (par :: anc)) = cap (sumF rnd 0 (par :: anc)) := by
    unfold cap
    by_cases h : sumF rnd 0 (par :: anc) > 99
    · rw [if_pos ⟨ht, h⟩, min_eq_right (le_of_lt h)]
    · rw [if_neg (fun hh => h hh.2), min_eq_left (not_lt.1 h)]
  have h1 : ⌊cap (sumF rnd 0 (par :: anc))⌋ ≤ ⌊(99 : ℚ)⌋ := Int.floor_le_floor (min_le_right _ _)
  have h2 : ⌊(99 : ℚ)⌋ = 99 := Int.floor_ofNat 99
  refine ⟨⌊cap (sumF rnd 0 (par :: anc))⌋, ?_, Int.floor_nonneg.2 (cap_nonneg h0), by omega⟩
  unfold send
  dsimp only
  change (if trunc (if top.percent < 100 ∧ sumF rnd 0 (par :: anc) > 99 then 99 else sumF rnd 0 (par :: anc)) ≤ 100 then _ else _) = _
  rw [show (List.foldl (fun p a => rnd (p + a.percent)) 0 (par :: anc)) = sumF rnd 0 (par :: anc) from rfl, hc, trunc_nonneg (cap_nonneg h0), if_pos (by omega)]
  rfl

/-- a complete step that makes up everything -/
theorem sendF_full (top par : Step) (anc : List Step) (R : List Report) (ht : top.percent = 100) (hp : par.percent = 100) (hs : ∀ x ∈ anc, x.percent = 0) :
    send rnd ⟨top :: par :: anc, R⟩ = some ⟨top :: par :: anc, R ++ [⟨100, anc.length + 2⟩]⟩ := by
  have h100 : rnd 100 = 100 := by exact_mod_cast H.nat (n := 100) (by norm_num)
  have h : (List.foldl (fun p a => rnd (p + a.percent)) 0 (par :: anc)) = 100 := by
    rw [List.foldl_cons, hp, zero_add, h100]
    exact sumF_zero hs h100
  unfold send
  dsimp only
  rw [h]
  have hc : (if top.percent < 100 ∧ (100 : ℚ) > 99 then (99 : ℚ) else 100) = 100 := if_neg (by rw [ht]; norm_num)
  rw [hc]
  have h2 : ⌊(100 : ℚ)⌋ = 100 := Int.floor_ofNat 100
  rw [trunc_nonneg (by norm_num), h2, if_pos (le_refl _)]
  rfl

/-- one percentage: `Q` is the parent's percentage before, `P` that at the begin of the step, `e` the last explicit percentage, `D` the difference -/
theorem piece {T P Q e D : ℚ} (hT0 : 0 ≤ T) (hT1 : T ≤ 100) (hP : 0 ≤ P) (h0e : 0 ≤ e) (hD : 1 ≤ D) (hDe : e + D ≤ 100) (hrp : rnd Q = Q) (hge : P ≤ Q)
    (hlo : (P + T * (e / 100)) * (1 - 3 * e * u) ≤ Q) :
    ∃ pc, rnd (T * rnd (D / 100)) = pc ∧ 0 ≤ pc ∧ rnd pc = pc ∧ pc ≤ rnd (Q + pc) ∧ (D ≤ 99 → pc < 100) ∧ Q ≤ rnd (Q + pc) ∧
      (P + T * ((e + D) / 100)) * (1 - 3 * (e + D) * u) ≤ rnd (Q + pc) ∧ rnd (rnd (Q + pc)) = rnd (Q + pc) := by
  have hf := H.err (q := D / 100) (by positivity)
  have hf0 : 0 ≤ rnd (D / 100) := H.nonneg (by positivity)
  have hx0 : 0 ≤ T * rnd (D / 100) := by positivity
  have hx := H.err hx0
  have hp0 : 0 ≤ rnd (T * rnd (D / 100)) := H.nonneg hx0
  have hpp : rnd (rnd (T * rnd (D / 100))) = rnd (T * rnd (D / 100)) := H.idem hx0
  refine ⟨_, rfl, hp0, hpp, ?_⟩
  generalize hpc : rnd (T * rnd (D / 100)) = pc at hx hp0 hpp ⊢
  have hpar0 : 0 ≤ Q := le_trans hP hge
  have hsum0 : 0 ≤ Q + pc := by linarith
  have hy := H.err hsum0
  refine ⟨?_, ?_, ?_, ?_, H.idem hsum0⟩
  · conv_lhs => rw [← hpp]
    exact H.mono hp0 (by linarith)
  · intro hD99
    have h1 : rnd (D / 100) ≤ 99 / 100 * (1 + u) := by
      refine le_trans hf.2 ?_
      apply mul_le_mul_of_nonneg_right _ (by norm_num)
      linarith
    have h2 : T * rnd (D / 100) ≤ 100 * (99 / 100 * (1 + u)) := mul_le_mul hT1 h1 hf0 (by norm_num)
    have h3 : T * rnd (D / 100) * (1 + u) ≤ 100 * (99 / 100 * (1 + u)) * (1 + u) := mul_le_mul_of_nonneg_right h2 (by norm_num)
    have h4 : (100 : ℚ) * (99 / 100 * (1 + u)) * (1 + u) < 100 := by norm_num
    linarith [hx.2]
  · conv_lhs => rw [← hrp]
    exact H.mono hpar0 (by linarith)
  · refine le_trans ?_ hy.1
    have hu : (0 : ℚ) < u := by norm_num
    have hu1 : u < 1 / 1000 := by norm_num
    have hTD : 0 ≤ T * (D / 100) := by positivity
    have h1 : T * (D / 100) * (1 - 2 * u) ≤ pc := by
      refine le_trans ?_ hx.1
      have : T * (D / 100 * (1 - u)) ≤ T * rnd (D / 100) := mul_le_mul_of_nonneg_left hf.1 hT0
      have h3 : T * (D / 100 * (1 - u)) * (1 - u) ≤ T * rnd (D / 100) * (1 - u) := mul_le_mul_of_nonneg_right this (by norm_num)
      nlinarith [mul_nonneg hTD (sq_nonneg u)]
    have hX : 0 ≤ P + T * (e / 100) := by positivity
    have e1 : P + T * ((e + D) / 100) = P + T * (e / 100) + T * (D / 100) := by ring
    rw [e1]
    generalize P + T * (e / 100) = X at hlo hX ⊢
    generalize T * (D / 100) = Z at hTD h1 ⊢
    have h5 : (X * (1 - 3 * e * u) + Z * (1 - 2 * u)) * (1 - u) ≤ (Q + pc) * (1 - u) :=
      mul_le_mul_of_nonneg_right (by linarith) (by norm_num)
    refine le_trans ?_ h5
    have h6 : (X + Z) * (1 - 3 * (e + D) * u) ≤ (X + Z) * (1 - 3 * (e + 1) * u) := by
      apply mul_le_mul_of_nonneg_left _ (by linarith)
      nlinarith
    refine le_trans h6 ?_
    nlinarith [mul_nonneg hX hu.le, mul_nonneg hTD hu.le, mul_nonneg (mul_nonneg hX hu.le) (mul_nonneg h0e hu.le), mul_nonneg (mul_nonneg hTD hu.le) h0e,
      mul_nonneg (mul_nonneg hTD hu.le) hu.le]

/-- the percentages set explicitly -/
theorem percentsF (ps : List Int) (name : List Char) (anc : List Step) (ha : ∀ x ∈ anc, 0 ≤ x.percent) (T P : ℚ) (hT0 : 0 ≤ T) (hT1 : T ≤ 100) (hP : 0 ≤ P) :
    ∀ (top par : Step) (R : List Report), (∀ p ∈ ps, p ≤ 100) → top.name = name → top.total = T →
    0 ≤ top.explicit → top.explicit ≤ 100 → rnd par.percent = par.percent → P ≤ par.percent →
    (P + T * (top.explicit / 100)) * (1 - 3 * top.explicit * u) ≤ par.percent → (top.explicit = 0 → par.percent = P) →
    ∃ top' P' R', run rnd ⟨top :: par :: anc, R⟩ (ps.map (Op.set name)) = some ⟨top' :: { par with percent := P' } :: anc, R ++ R'⟩ ∧
      top' = { top with percent := top'.percent, explicit := top'.explicit } ∧ 0 ≤ top'.explicit ∧ top'.explicit ≤ 100 ∧
      (top'.explicit = 100 → top.explicit = 100 ∨ 100 ∈ ps) ∧
      rnd P' = P' ∧ P ≤ P' ∧ (P + T * (top'.explicit / 100)) * (1 - 3 * top'.explicit * u) ≤ P' ∧ (top'.explicit = 0 → P' = P) ∧
      ∀ r ∈ R', 0 ≤ r.percent ∧ r.percent ≤ 100 := by
  induction ps with
  | nil =>
    intro top par R _ _ _ he0 he hrp hge hlo hz
    exact ⟨top, par.percent, [], by simp [run], rfl, he0, he, Or.inl, hrp, hge, hlo, hz, by simp⟩
  | cons p ps ih =>
    intro top par R hp hn ht he0 he hrp hge hlo hz
    have hp100 : p ≤ 100 := hp p List.mem_cons_self
    have hps : ∀ q ∈ ps, q ≤ 100 := fun q hq => hp q (List.mem_cons_of_mem _ hq)
    simp only [List.map_cons, run, op, set]
    rw [if_neg (not_not.2 hn)]
    by_cases hd : p - top.explicit < 1
    · rw [if_pos hd]
      obtain ⟨t', P', R', a1, a2, a3, a4, a5, a6⟩ := ih top par R hps hn ht he0 he hrp hge hlo hz
      exact ⟨t', P', R', a1, a2, a3, a4, fun h => (a5 h).imp_right (List.mem_cons_of_mem _), a6⟩
    · rw [if_neg hd]
      have hdq : (1 : ℚ) ≤ ((p - top.explicit : Int) : ℚ) := by exact_mod_cast (by omega : (1 : Int) ≤ p - top.explicit)
      have h0e : (0 : ℚ) ≤ top.explicit := by exact_mod_cast he0
      have hpq : (p : ℚ) ≤ 100 := by exact_mod_cast hp100
      have hcast : ((p - top.explicit : Int) : ℚ) = p - top.explicit := by push_cast; ring
      obtain ⟨pc, hpc, hp0, hpp, _, hlt, hmono, hlo', hidem⟩ := piece H (D := ((p - top.explicit : Int) : ℚ)) hT0 hT1 hP h0e hdq (by rw [hcast]; linarith) hrp hge hlo
      have hpc' : rnd (top.total * rnd (((p - top.explicit : Int) : ℚ) / 100)) = pc := by rw [ht]; exact hpc
      rw [hpc']
      rw [show (top.explicit : ℚ) + ((p - top.explicit : Int) : ℚ) = p by rw [hcast]; ring] at hlo'
      have hpar0 : 0 ≤ par.percent := le_trans hP hge
      have key : ∀ R1 r1, R1 = R ++ r1 → (∀ r ∈ r1, 0 ≤ r.percent ∧ r.percent ≤ 100) →
          ∃ top' P' R', run rnd ⟨{ top with percent := pc, explicit := p } :: { par with percent := rnd (par.percent + pc) } :: anc, R1⟩ (ps.map (Op.set name)) =
              some ⟨top' :: { par with percent := P' } :: anc, R ++ R'⟩ ∧
            top' = { top with percent := top'.percent, explicit := top'.explicit } ∧ 0 ≤ top'.explicit ∧ top'.explicit ≤ 100 ∧
            (top'.explicit = 100 → top.explicit = 100 ∨ 100 ∈ p :: ps) ∧
            rnd P' = P' ∧ P ≤ P' ∧ (P + T * (top'.explicit / 100)) * (1 - 3 * top'.explicit * u) ≤ P' ∧ (top'.explicit = 0 → P' = P) ∧
            ∀ r ∈ R', 0 ≤ r.percent ∧ r.percent ≤ 100 := by
        intro R1 r1 hR1 hr1
        obtain ⟨t', P', R', a1, a2, a3, a4, a5, a6, a7, a8, a9, a10⟩ := ih { top with percent := pc, explicit := p } { par with percent := rnd (par.percent + pc) } R1
          hps hn ht (by show 0 ≤ p; omega) hp100 hidem (le_trans hge hmono) hlo' (fun h => by change p = 0 at h; omega)
        refine ⟨t', P', r1 ++ R', by rw [a1, hR1, List.append_assoc], a2, a3, a4, ?_, a6, a7, a8, a9, ?_⟩
        · intro h
          right
          rcases a5 h with h | h
          · change p = 100 at h
            rw [h]; exact List.mem_cons_self
          · exact List.mem_cons_of_mem _ h
        · intro r hr
          rcases List.mem_append.1 hr with hr | hr
          · exact hr1 r hr
          · exact a10 r hr
      by_cases h100 : p = 100
      · rw [if_neg (not_not.2 h100)]
        exact key R [] (by simp) (by simp)
      · rw [if_pos h100]
        have hlt' : pc < 100 := hlt (by
          have : (p : ℚ) ≤ 99 := by exact_mod_cast (by omega : p ≤ 99)
          rw [hcast]; linarith)
        obtain ⟨r, hr, hr0, hr1⟩ := sendF_cap H { top with percent := pc, explicit := p } { par with percent := rnd (par.percent + pc) } anc R hlt'
          (by
            intro x hx
            rcases List.mem_cons.1 hx with rfl | hx
            · exact H.nonneg (by linarith)
            · exact ha x hx)
        rw [hr]
        exact key _ [⟨r, anc.length + 2⟩] rfl (by simp; exact ⟨hr0, hr1⟩)

/-- the end of a step -/
theorem finishF (top par : Step) (anc : List Step) (R : List Report) (ok : Bool) (P : ℚ)
    (hdone : top.done ≤ top.substeps) (hok : ok = true → top.done = top.substeps) (hT0 : 0 ≤ top.total) (hT1 : top.total ≤ 100) (hrT : rnd top.total = top.total)
    (he0 : 0 ≤ top.explicit) (he : top.explicit ≤ 100) (hP : 0 ≤ P) (hrp : rnd par.percent = par.percent) (hge : P ≤ par.percent)
    (hlo : (P + top.total * (top.explicit / 100)) * (1 - 3 * top.explicit * u) ≤ par.percent) (hz : top.explicit = 0 → par.percent = P)
    (hfull : top.explicit = 100 → top.total ≤ par.percent ∧ top.total < 100)
    (ha : ∀ x ∈ anc, 0 ≤ x.percent) (hwhole : top.total = 100 → P = 0 ∧ ∀ x ∈ anc, x.percent = 0) :
    ∃ r Q, finish rnd ⟨top :: par :: anc, R⟩ top.name ok = some ⟨{ par with done := par.done + top.weight, percent := Q } :: anc, R ++ [⟨r, anc.length + 2⟩]⟩ ∧
      0 ≤ r ∧ r ≤ 100 ∧ rnd Q = Q ∧ P ≤ Q ∧ (P + top.total) * (1 - 300 * u) ≤ Q := by
  have hpar0 : 0 ≤ par.percent := le_trans hP hge
  have nn : ∀ {d Q}, 0 ≤ Q → ∀ x ∈ ({ par with done := d, percent := Q } : Step) :: anc, 0 ≤ x.percent := by
    intro d Q hQ x hx
    rcases List.mem_cons.1 hx with rfl | hx
    · exact hQ
    · exact ha x hx
  unfold finish
  simp only []
  rw [if_neg (by omega), if_neg, if_neg (not_not.2 rfl)]
  rotate_left
  · intro h
    rw [Bool.and_eq_true, decide_eq_true_eq] at h
    have := hok h.1
    omega
  by_cases hz0 : top.explicit ≠ 0
  · rw [if_pos hz0]
    unfold set
    simp only []
    rw [if_neg (not_not.2 rfl)]
    by_cases hd : 100 - top.explicit < 1
    · rw [if_pos hd]
      have h100 : top.explicit = 100 := by omega
      obtain ⟨h1, h2⟩ := hfull h100
      obtain ⟨r, hr, hr0, hr1⟩ := sendF_cap H { top with percent := top.total } { par with done := par.done + top.weight } anc R h2 (nn hpar0)
      simp only []
      rw [if_pos]
      · rw [hr]
        refine ⟨r, par.percent, rfl, hr0, hr1, hrp, hge, ?_⟩
        rw [h100] at hlo
        norm_num at hlo ⊢
        linarith
      · rw [decide_eq_true_eq, trunc_nonneg hT0, trunc_nonneg hpar0]
        exact Int.floor_le_floor h1
    · rw [if_neg hd, if_neg (by simp)]
      have h0e : (0 : ℚ) ≤ top.explicit := by exact_mod_cast he0
      have hcast : ((100 - top.explicit : Int) : ℚ) = 100 - top.explicit := by push_cast; ring
      have hdq : (1 : ℚ) ≤ ((100 - top.explicit : Int) : ℚ) := by exact_mod_cast (by omega : (1 : Int) ≤ 100 - top.explicit)
      have h99 : ((100 - top.explicit : Int) : ℚ) ≤ 99 := by exact_mod_cast (by omega : (100 - top.explicit : Int) ≤ 99)
      obtain ⟨pc, hpc, hp0, hpp, hle, hlt, hmono, hlo', hidem⟩ := piece H (D := ((100 - top.explicit : Int) : ℚ)) hT0 hT1 hP h0e hdq (by rw [hcast]; linarith) hrp hge hlo
      rw [hpc]
      have hQ0 : 0 ≤ rnd (par.percent + pc) := H.nonneg (by linarith)
      obtain ⟨r, hr, hr0, hr1⟩ := sendF_cap H { top with percent := pc, explicit := 100 } { par with done := par.done + top.weight, percent := rnd (par.percent + pc) } anc R
        (hlt h99) (nn hQ0)
      simp only []
      rw [if_pos]
      · rw [hr]
        refine ⟨r, _, rfl, hr0, hr1, hidem, le_trans hge hmono, ?_⟩
        rw [show (top.explicit : ℚ) + ((100 - top.explicit : Int) : ℚ) = 100 by rw [hcast]; ring] at hlo'
        norm_num at hlo' ⊢
        linarith
      · rw [decide_eq_true_eq, trunc_nonneg hp0, trunc_nonneg hQ0]
        exact Int.floor_le_floor hle
  · rw [if_neg hz0]
    have hPQ := hz (not_not.1 hz0)
    have hs0 : 0 ≤ par.percent + top.total := by linarith
    have hQ0 : 0 ≤ rnd (par.percent + top.total) := H.nonneg hs0
    have hle : top.total ≤ rnd (par.percent + top.total) := by
      conv_lhs => rw [← hrT]
      exact H.mono hT0 (by linarith)
    have hmono : P ≤ rnd (par.percent + top.total) := by
      refine le_trans hge ?_
      conv_lhs => rw [← hrp]
      exact H.mono hpar0 (by linarith)
    have hlo2 : (P + top.total) * (1 - 300 * u) ≤ rnd (par.percent + top.total) := by
      refine le_trans ?_ (H.err hs0).1
      rw [hPQ]
      exact mul_le_mul_of_nonneg_left (by norm_num) (by linarith)
    have hsend : ∃ r, send rnd ⟨{ top with percent := top.total } :: { par with done := par.done + top.weight, percent := rnd (par.percent + top.total) } :: anc, R⟩ =
        some ⟨{ top with percent := top.total } :: { par with done := par.done + top.weight, percent := rnd (par.percent + top.total) } :: anc, R ++ [⟨r, anc.length + 2⟩]⟩ ∧
        0 ≤ r ∧ r ≤ 100 := by
      rcases hT1.lt_or_eq with h | h
      · exact sendF_cap H _ _ _ _ h (nn hQ0)
      · obtain ⟨hP0, hanc⟩ := hwhole h
        refine ⟨100, sendF_full H _ _ _ _ h ?_ hanc, by norm_num, by norm_num⟩
        show rnd (par.percent + top.total) = 100
        rw [hPQ, hP0, zero_add, hrT, h]
    obtain ⟨r, hr, hr0, hr1⟩ := hsend
    simp only []
    rw [if_pos]
    · rw [hr]
      exact ⟨r, _, rfl, hr0, hr1, H.idem hs0, hmono, hlo2⟩
    · rw [decide_eq_true_eq, trunc_nonneg hT0, trunc_nonneg hQ0]
      exact Int.floor_le_floor hle

theorem stepsF (f : Steps) : ∀ (par : Step) (anc : List Step) (R : List Report),
    f.Correct → f.Mild par.substeps par.done → par.done + f.weights ≤ par.substeps → 0 ≤ par.total → par.total ≤ 100 → rnd par.total = par.total →
    0 ≤ par.percent → rnd par.percent = par.percent → (0 < par.done → par.total / par.substeps * (1 - 400 * u) ≤ par.percent) →
    (∀ x ∈ anc, 0 ≤ x.percent) → (par.total = 100 → (par.done = 0 → par.percent = 0) ∧ ∀ x ∈ anc, x.percent = 0) →
    ∃ Q R', run rnd ⟨par :: anc, R⟩ f.ops = some ⟨{ par with done := par.done + f.weights, percent := Q } :: anc, R ++ R'⟩ ∧
      ∀ r ∈ R', 0 ≤ r.percent ∧ r.percent ≤ 100 := by
  induction f with
  | nil =>
    intro par anc R _ _ _ _ _ _ _ _ _ _ _
    exact ⟨par.percent, [], by simp [Steps.ops, run, Steps.weights], by simp⟩
  | node name w n ps i ok next ihi ihn =>
    intro par anc R hc hm hw hP0 hP1 hrP hpp hrpp hlow hanc hzero
    obtain ⟨hw0, hin, hiok, hpsn, hps, hci, hcn⟩ := hc
    obtain ⟨hk, hwk, h100, hmi, hmn⟩ := hm
    simp only [Steps.weights] at hw ⊢
    have hn0 : 0 < par.substeps := by omega
    have hkq : (0 : ℚ) < par.substeps := by exact_mod_cast hn0
    have hk1 : (par.substeps : ℚ) ≤ 10000 := by exact_mod_cast hk
    have hwq : (1 : ℚ) ≤ w := by exact_mod_cast hw0
    have hu : (0 : ℚ) < u := by norm_num
    -- the share of the step
    have hx0 : (0 : ℚ) ≤ w * par.total := by positivity
    have hx := H.err hx0
    have hy0 : (0 : ℚ) ≤ rnd (w * par.total) / par.substeps := div_nonneg (H.nonneg hx0) hkq.le
    have hy := H.err hy0
    have hrT : rnd (rnd (rnd (w * par.total) / par.substeps)) = rnd (rnd (w * par.total) / par.substeps) := H.idem hy0
    have hT0 : 0 ≤ rnd (rnd (w * par.total) / par.substeps) := H.nonneg hy0
    have hTlo : par.total / par.substeps * (1 - 2 * u) ≤ rnd (rnd (w * par.total) / par.substeps) := by
      refine le_trans ?_ hy.1
      have h1 : par.total * (1 - u) ≤ rnd (w * par.total) := by
        refine le_trans ?_ hx.1
        apply mul_le_mul_of_nonneg_right _ (by norm_num)
        nlinarith
      have h2 : par.total * (1 - u) / par.substeps ≤ rnd (w * par.total) / par.substeps := div_le_div_of_nonneg_right h1 hkq.le
      have h3 : par.total * (1 - u) / par.substeps * (1 - u) ≤ rnd (w * par.total) / par.substeps * (1 - u) := mul_le_mul_of_nonneg_right h2 (by norm_num)
      refine le_trans ?_ h3
      have h4 : 0 ≤ par.total / par.substeps := by positivity
      have h5 : par.total * (1 - u) / par.substeps = par.total / par.substeps * (1 - u) := by ring
      rw [h5]
      nlinarith [mul_nonneg h4 (sq_nonneg u)]
    -- it is smaller than the parent's, or the same if there is only one substep
    have hTP : (w < par.substeps ∧ rnd (rnd (w * par.total) / par.substeps) ≤ par.total * (1 - 1 / 20000)) ∨
        (w = 1 ∧ par.substeps = 1 ∧ rnd (rnd (w * par.total) / par.substeps) = par.total) := by
      rcases hwk with h | h
      · left
        refine ⟨h, ?_⟩
        have hwk' : (w : ℚ) + 1 ≤ par.substeps := by exact_mod_cast h
        refine le_trans hy.2 ?_
        have h1 : rnd (w * par.total) / par.substeps ≤ w * par.total * (1 + u) / par.substeps := div_le_div_of_nonneg_right hx.2 hkq.le
        have h2 : (w : ℚ) / par.substeps ≤ 1 - 1 / 10000 := by
          rw [div_le_iff₀ hkq]
          nlinarith
        have h3 : w * par.total * (1 + u) / par.substeps = w / par.substeps * (par.total * (1 + u)) := by ring
        have h4 : (w : ℚ) / par.substeps * (par.total * (1 + u)) ≤ (1 - 1 / 10000) * (par.total * (1 + u)) :=
          mul_le_mul_of_nonneg_right h2 (by positivity)
        rw [h3] at h1
        have h5 : rnd (w * par.total) / par.substeps * (1 + u) ≤ (1 - 1 / 10000) * (par.total * (1 + u)) * (1 + u) :=
          mul_le_mul_of_nonneg_right (le_trans h1 h4) (by norm_num)
        refine le_trans h5 ?_
        have h6 : (1 - 1 / 10000) * (par.total * (1 + u)) * (1 + u) = par.total * ((1 - 1 / 10000) * (1 + u) * (1 + u)) := by ring
        rw [h6]
        exact mul_le_mul_of_nonneg_left (by norm_num) hP0
      · right
        have hw1 : w = 1 := by omega
        refine ⟨hw1, h, ?_⟩
        rw [hw1, h]
        simp only [Nat.cast_one, one_mul, div_one]
        rw [hrP, hrP]
    generalize hT : rnd (rnd (w * par.total) / par.substeps) = T at hy hrT hT0 hTlo hTP
    have hTle : T ≤ par.total := by
      rcases hTP with ⟨_, h⟩ | ⟨_, _, h⟩
      · refine le_trans h ?_
        nlinarith
      · exact h.le
    have hT1 : T ≤ 100 := le_trans hTle hP1
    have hT100 : T = 100 → par.total = 100 ∧ par.done = 0 := by
      intro h
      rcases hTP with ⟨_, h1⟩ | ⟨h1, h2, h3⟩
      · exfalso
        rw [h] at h1
        nlinarith
      · exact ⟨by rw [← h3, h], by omega⟩
    have nnp : ∀ x ∈ par :: anc, 0 ≤ x.percent := by
      intro x hx
      rcases List.mem_cons.1 hx with rfl | hx
      · exact hpp
      · exact hanc x hx
    -- the begin
    simp only [Steps.ops, run, op]
    obtain ⟨r0, hr0, hr00, hr01⟩ := sendF_cap H ⟨name, w, n, 0, T, 0, 0⟩ par anc R (by show (0 : ℚ) < 100; norm_num) nnp
    have hbegin : begin rnd ⟨par :: anc, R⟩ name n w = some ⟨⟨name, w, n, 0, T, 0, 0⟩ :: par :: anc, R ++ [⟨r0, anc.length + 2⟩]⟩ := by
      unfold begin
      simp only []
      rw [if_neg (by omega), hT, if_pos]
      · exact hr0
      · rw [trunc_nonneg hT0, trunc_nonneg hP0]
        refine ⟨Int.floor_le_floor hTle, ?_⟩
        have h1 := Int.floor_le_floor hT1
        have h2 : ⌊(100 : ℚ)⌋ = 100 := Int.floor_ofNat 100
        omega
    rw [hbegin]
    simp only []
    rw [run_append]
    -- the percentages
    obtain ⟨t1, P1, R1, hr1, ht1, he1, he2, he100, hrP1, hgeP1, hloP1, hzP1, hb1⟩ := percentsF H ps name anc hanc T par.percent hT0 hT1 hpp
      ⟨name, w, n, 0, T, 0, 0⟩ par (R ++ [⟨r0, anc.length + 2⟩]) hps rfl rfl (le_refl _) (by show (0 : Int) ≤ 100; omega) hrpp (le_refl _)
      (by simp) (fun _ => rfl)
    rw [hr1]
    simp only [Option.bind_some]
    rw [run_append]
    -- the steps inside
    have hinside : ∃ (R2 : List Report) (tp : ℚ), run rnd ⟨t1 :: { par with percent := P1 } :: anc, R ++ [⟨r0, anc.length + 2⟩] ++ R1⟩ i.ops =
          some ⟨{ t1 with done := i.weights, percent := tp } :: { par with percent := P1 } :: anc, R ++ [⟨r0, anc.length + 2⟩] ++ R1 ++ R2⟩ ∧
        ∀ r ∈ R2, 0 ≤ r.percent ∧ r.percent ≤ 100 := by
      by_cases hz : i.weights = 0
      · cases i with
        | node a b c d e f g => obtain ⟨hb, _⟩ := hci; simp [Steps.weights] at hz; omega
        | nil =>
          refine ⟨[], t1.percent, ?_, by simp⟩
          rw [ht1]; simp [Steps.ops, run, Steps.weights]
      · have hn1 : 0 < n := by omega
        have hps0 : ps = [] := by
          cases ps with
          | nil => rfl
          | cons p ps => exact absurd (hpsn (by simp)) (by omega)
        subst hps0
        simp only [List.map_nil, run, Option.some.injEq, St.mk.injEq, List.cons.injEq, and_true] at hr1
        obtain ⟨⟨hrt, hrp⟩, hrR⟩ := hr1
        subst hrt
        rw [← hrp]
        obtain ⟨Q, R2, h1, h2⟩ := ihi ⟨name, w, n, 0, T, 0, 0⟩ (par :: anc) (R ++ [⟨r0, anc.length + 2⟩] ++ R1) hci hmi (by simpa using hin) hT0 hT1 hrT (le_refl _)
          H.zero (fun h => absurd h (lt_irrefl _)) nnp (by
            intro h
            obtain ⟨h3, h4⟩ := hT100 h
            obtain ⟨h5, h6⟩ := hzero h3
            refine ⟨fun _ => rfl, ?_⟩
            intro x hx
            rcases List.mem_cons.1 hx with rfl | hx
            · exact h5 h4
            · exact h6 x hx)
        refine ⟨R2, Q, ?_, h2⟩
        rw [h1]; simp only [Nat.zero_add]
    obtain ⟨R2, tp, hr2, hb2⟩ := hinside
    rw [hr2]
    simp only [Option.bind_some, run, op]
    -- the end
    have hname : t1.name = name := by rw [ht1]
    have htot : t1.total = T := by rw [ht1]
    have hsub : t1.substeps = n := by rw [ht1]
    have hwt : t1.weight = w := by rw [ht1]
    have hfull : t1.explicit = 100 → T ≤ P1 ∧ T < 100 := by
      intro h
      have hin100 : 100 ∈ ps := by
        rcases he100 h with h | h
        · exact absurd h (by show (0 : Int) ≠ 100; omega)
        · exact h
      have hd := h100 hin100
      have hlt : T < 100 := by
        rcases hT1.lt_or_eq with h' | h'
        · exact h'
        · have := (hT100 h').2; omega
      refine ⟨?_, hlt⟩
      rw [h] at hloP1
      have h1 := hlow hd
      have h2 : par.total * (1 / 10000) ≤ par.total / par.substeps := by
        rw [div_eq_mul_one_div par.total]
        exact mul_le_mul_of_nonneg_left (one_div_le_one_div_of_le hkq hk1) hP0
      have h3 : par.total * (1 / 10000) * (1 - 400 * u) ≤ par.percent := le_trans (mul_le_mul_of_nonneg_right h2 (by norm_num)) h1
      refine le_trans ?_ hloP1
      norm_num at h3 ⊢
      linarith
    obtain ⟨r3, Q, hr3, hb30, hb31, hrQ, hPQ, hloQ⟩ := finishF H { t1 with done := i.weights, percent := tp } { par with percent := P1 } anc
      (R ++ [⟨r0, anc.length + 2⟩] ++ R1 ++ R2) ok par.percent
      (by show i.weights ≤ t1.substeps; rw [hsub]; exact hin) (by show ok = true → i.weights = t1.substeps; rw [hsub]; exact hiok)
      (by show 0 ≤ t1.total; rw [htot]; exact hT0) (by show t1.total ≤ 100; rw [htot]; exact hT1) (by show rnd t1.total = t1.total; rw [htot]; exact hrT) he1 he2 hpp hrP1 hgeP1
      (by show (par.percent + t1.total * (t1.explicit / 100)) * (1 - 3 * t1.explicit * u) ≤ P1; rw [htot]; exact hloP1) hzP1
      (by show t1.explicit = 100 → t1.total ≤ P1 ∧ t1.total < 100; rw [htot]; exact hfull) hanc
      (by
        show t1.total = 100 → _
        rw [htot]
        intro h
        obtain ⟨h3, h4⟩ := hT100 h
        obtain ⟨h5, h6⟩ := hzero h3
        exact ⟨h5 h4, h6⟩)
    replace hr3 : finish rnd ⟨{ t1 with done := i.weights, percent := tp } :: { par with percent := P1 } :: anc, R ++ [⟨r0, anc.length + 2⟩] ++ R1 ++ R2⟩ name ok =
        some ⟨{ par with done := par.done + w, percent := Q } :: anc, R ++ [⟨r0, anc.length + 2⟩] ++ R1 ++ R2 ++ [⟨r3, anc.length + 2⟩]⟩ := by
      have h := hr3
      simp only [] at h
      rw [← hname, ← hwt]
      exact h
    replace hloQ : (par.percent + T) * (1 - 300 * u) ≤ Q := by rw [← htot]; exact hloQ
    rw [hr3]
    simp only []
    -- the following steps
    obtain ⟨Q', R4, hr4, hb4⟩ := ihn { par with done := par.done + w, percent := Q } anc
      (R ++ [⟨r0, anc.length + 2⟩] ++ R1 ++ R2 ++ [⟨r3, anc.length + 2⟩]) hcn hmn (by show par.done + w + next.weights ≤ par.substeps; omega) hP0 hP1 hrP
      (le_trans hpp hPQ) hrQ (by
        intro _
        show par.total / par.substeps * (1 - 400 * u) ≤ Q
        refine le_trans ?_ hloQ
        have h1 : T * (1 - 300 * u) ≤ (par.percent + T) * (1 - 300 * u) := mul_le_mul_of_nonneg_right (by linarith) (by norm_num)
        refine le_trans ?_ h1
        have h2 : par.total / par.substeps * (1 - 2 * u) * (1 - 300 * u) ≤ T * (1 - 300 * u) := mul_le_mul_of_nonneg_right hTlo (by norm_num)
        refine le_trans ?_ h2
        have h3 : 0 ≤ par.total / par.substeps := by positivity
        rw [mul_assoc]
        exact mul_le_mul_of_nonneg_left (by norm_num) h3) hanc (by
        intro h
        refine ⟨fun h0 => ?_, (hzero h).2⟩
        change par.done + w = 0 at h0
        omega)
    simp only [] at hr4
    refine ⟨Q', [⟨r0, anc.length + 2⟩] ++ R1 ++ R2 ++ [⟨r3, anc.length + 2⟩] ++ R4, ?_, ?_⟩
    · rw [hr4]
      simp only [Option.some.injEq, St.mk.injEq, List.cons.injEq, Step.mk.injEq, true_and, and_true]
      refine ⟨by omega, by simp only [List.append_assoc]⟩
    · intro r hr
      simp only [List.mem_append, List.mem_singleton] at hr
      rcases hr with (((rfl | hr) | hr) | rfl) | hr
      · exact ⟨hr00, hr01⟩
      · exact hb1 r hr
      · exact hb2 r hr
      · exact ⟨hb30, hb31⟩
      · exact hb4 r hr

end

/-- With single precision, no assertion of the progress code fails either, no step is left over, the reported percentages are between 0 and 100, and the last one is 100.
Partial: the steps have to be used mildly, and that the percentages never decrease is not true with single precision (`C46_finding_float`). -/
theorem C46_single_partial (rnd : ℚ → ℚ) (H : Single rnd) (name : List Char) (weight substeps : Nat) (inside : Steps) (success : Bool)
    (hc : inside.Correct) (hle : inside.weights ≤ substeps) (hok : success = true → inside.weights = substeps) (hm : inside.Mild substeps 0) :
    ∃ R, run rnd ⟨[], []⟩ (operation name weight substeps inside success) = some ⟨[], R ++ [⟨100, 1⟩]⟩ ∧ ∀ r ∈ R, 0 ≤ r.percent ∧ r.percent ≤ 100 := by
  have h100 : rnd 100 = 100 := by exact_mod_cast H.nat (n := 100) (by norm_num)
  obtain ⟨Q, R, h1, h2⟩ := stepsF H inside ⟨name, weight, substeps, 0, 100, 0, 0⟩ [] [⟨0, 1⟩] hc hm (by simpa using hle) (by norm_num) (by norm_num) h100 (le_refl _) H.zero
    (fun h => absurd h (lt_irrefl _)) (by simp) (fun _ => ⟨fun _ => rfl, by simp⟩)
  have hroot : ∀ (t : Step) (R : List Report), (t.percent = 0 ∨ t.percent = 100) → send rnd ⟨[t], R⟩ = some ⟨[t], R ++ [⟨trunc t.percent, 1⟩]⟩ :=
    fun t R h => send_root t R h
  refine ⟨⟨0, 1⟩ :: R, ?_, ?_⟩
  · unfold operation
    have hb : begin rnd ⟨[], []⟩ name substeps weight = some ⟨[⟨name, weight, substeps, 0, 100, 0, 0⟩], [⟨0, 1⟩]⟩ := by
      unfold begin
      simp only []
      rw [hroot _ _ (Or.inl rfl)]
      simp [trunc]
    simp only [run, op, hb]
    rw [run_append, h1]
    simp only [Option.bind_some, run, op, Nat.zero_add]
    unfold finish
    simp only []
    rw [if_neg (by omega), if_neg, if_neg (not_not.2 rfl)]
    · simp only [if_true]
      rw [hroot _ _ (Or.inr rfl)]
      have hf : trunc 100 = 100 := by rw [trunc_nonneg (by norm_num)]; exact Int.floor_ofNat 100
      simp [hf]
    · intro hh
      rw [Bool.and_eq_true, decide_eq_true_eq] at hh
      have := hok hh.1
      omega
  · intro r hr
    rcases List.mem_cons.1 hr with rfl | hr
    · norm_num
    · exact h2 r hr

/-! ## Installations -/

/-- the steps of the images of a bundle, install.c:1122-1220 and :1378-1430: for every image the percentages that are set while it is copied -/
def images : List (List Int) → Steps
  | [] => .nil
  | ps :: l => .node c!"check_slot" 1 0 [] .nil true (.node c!"copy_image" 9 0 ps .nil true (images l))

/-- the steps of a successful installation, install.c:1543-1760, bundle.c:2313-2640, install.c:400, :1478 -/
def installation (imgs : List (List Int)) : Steps :=
  .node c!"determine_slot_states" 1 0 [] .nil true
  (.node c!"check_bundle" 1 1 [] (.node c!"cms_verify" 1 0 [] .nil true .nil) true
  (.node c!"skip_bundle_payload" 1 0 [] .nil true
  (.node c!"determine_target_install_group" 1 0 [] .nil true
  (.node c!"update_slots" 6 (imgs.length * 10) [] (images imgs) true .nil))))

theorem images_weights (l : List (List Int)) : (images l).weights = l.length * 10 := by
  induction l with
  | nil => rfl
  | cons ps l ih => simp only [images, Steps.weights, ih, List.length_cons]; omega

theorem images_correct (l : List (List Int)) (h : ∀ ps ∈ l, ∀ p ∈ ps, p ≤ 100) : (images l).Correct := by
  induction l with
  | nil => trivial
  | cons ps l ih =>
    have h1 := h ps List.mem_cons_self
    have h2 := ih fun qs hq => h qs (List.mem_cons_of_mem _ hq)
    simp only [images, Steps.Correct, Steps.weights]
    simpa using ⟨h1, h2⟩

theorem images_mild (l : List (List Int)) (k a : Nat) (hk : k ≤ 10000) (hl : l ≠ [] → 10 ≤ k) : (images l).Mild k a := by
  induction l generalizing a with
  | nil => trivial
  | cons ps l ih =>
    have h10 := hl (by simp)
    have h2 := ih (a + 1 + 9) (fun _ => h10)
    simp only [images, Steps.Mild]
    refine ⟨hk, Or.inl (by omega), by simp, trivial, hk, Or.inl (by omega), fun _ => by omega, trivial, h2⟩

/-- An installation of up to 1000 images: with single precision no assertion fails, the percentages stay between 0 and 100, and the last one is 100. -/
theorem C46_installation_partial (rnd : ℚ → ℚ) (H : Single rnd) (imgs : List (List Int)) (hn : imgs.length ≤ 1000) (hp : ∀ ps ∈ imgs, ∀ p ∈ ps, p ≤ 100) :
    ∃ R, run rnd ⟨[], []⟩ (operation c!"do_install_bundle" 1 10 (installation imgs) true) = some ⟨[], R ++ [⟨100, 1⟩]⟩ ∧ ∀ r ∈ R, 0 ≤ r.percent ∧ r.percent ≤ 100 := by
  have hw : (installation imgs).weights = 10 := rfl
  refine C46_single_partial rnd H _ _ _ _ _ ?_ hw.le (fun _ => hw) ?_
  · have h1 := images_correct imgs hp
    have h2 := images_weights imgs
    simp only [installation, Steps.Correct, Steps.weights, h2]
    simp [h1]
  · have h1 := images_mild imgs (imgs.length * 10) 0 (by omega) (by
      intro h
      have : 0 < imgs.length := List.length_pos_iff.2 h
      omega)
    simp only [installation, Steps.Mild]
    simp [h1]

example : backwards.Mild 12 0 ∧ sample.Mild 10 0 ∧
    ((run rnd32 ⟨[], []⟩ (operation c!"do_install_bundle" 1 10 (installation [[33, 66, 100], []]) true)).map fun s => s.reports.map (·.percent)) =
      some [0, 0, 10, 10, 10, 20, 20, 20, 30, 30, 40, 40, 40, 43, 43, 51, 60, 70, 70, 73, 73, 99, 99, 100] := by
  refine ⟨by simp [backwards, Steps.Mild], by simp [sample, Steps.Mild], by decide +kernel⟩

end Rauc.Progress
