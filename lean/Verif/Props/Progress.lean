import Verif.Model.Progress
import Mathlib.Tactic.Linarith
import Mathlib.Tactic.FieldSimp
import Mathlib.Tactic.Ring
import Mathlib.Tactic.LinearCombination
import Mathlib.Tactic.Positivity

/-!
# C46: progress
-/

namespace Rauc.Progress

/-! ## Correctly nested steps -/

/-- a sequence of steps with everything inside of them: the first step (`node`), and those that follow it on the same level (`next`).
`percents` are the percentages set explicitly while the step runs. -/
inductive Steps
  | nil
  | node (name : List Char) (weight substeps : Nat) (percents : List Int) (inside : Steps) (success : Bool) (next : Steps)
deriving DecidableEq, Repr

/-- the calls made by the steps, in order -/
def Steps.ops : Steps → List Op
  | .nil => []
  | .node name w n ps i ok next => .begin name n w :: (ps.map (Op.set name) ++ (i.ops ++ (.finish name ok :: next.ops)))

/-- the sum of the weights of the steps on the first level -/
def Steps.weights : Steps → Nat
  | .nil => 0
  | .node _ w _ _ _ _ next => w + next.weights

/-- The steps are used as documented (context.h:101-176): weights are positive, the steps inside of a step do not exceed the number of its substeps, and if it is successful, they are complete;
percentages are at most 100 and only set in steps without substeps. -/
def Steps.Correct : Steps → Prop
  | .nil => True
  | .node _ w n ps i ok next =>
    0 < w ∧ i.weights ≤ n ∧ (ok = true → i.weights = n) ∧ (ps ≠ [] → n = 0) ∧ (∀ p ∈ ps, p ≤ 100) ∧ i.Correct ∧ next.Correct

/-! ## Helper lemmas -/

theorem run_append (rnd) (a b : List Op) (s : St) : run rnd s (a ++ b) = (run rnd s a).bind fun s' => run rnd s' b := by
  induction a generalizing s with
  | nil => rfl
  | cons o l ih =>
    simp only [List.cons_append, run]
    cases op rnd s o with
    | none => rfl
    | some s' => exact ih s'

/-- the sum that is reported: of all steps in the list -/
def sumP : List Step → ℚ
  | [] => 0
  | s :: l => s.percent + sumP l

theorem foldl_sum (l : List Step) (a : ℚ) : l.foldl (fun p s => id (p + s.percent)) a = a + sumP l := by
  induction l generalizing a with
  | nil => simp [sumP]
  | cons s l ih => rw [List.foldl_cons, ih, sumP]; simp only [id]; ring

theorem trunc_nonneg {q : ℚ} (h : 0 ≤ q) : trunc q = ⌊q⌋ := if_pos h

/-- the cap -/
def cap (q : ℚ) : ℚ := min q 99

theorem cap_mono {a b : ℚ} (h : a ≤ b) : ⌊cap a⌋ ≤ ⌊cap b⌋ := Int.floor_le_floor (min_le_min_right _ h)

theorem cap_nonneg {a : ℚ} (h : 0 ≤ a) : 0 ≤ cap a := le_min h (by norm_num)

theorem send_cap (top par : Step) (anc : List Step) (R : List Report) (ht : top.percent < 100) (hs : 0 ≤ sumP (par :: anc)) :
    send id ⟨top :: par :: anc, R⟩ = some ⟨top :: par :: anc, R ++ [⟨⌊cap (sumP (par :: anc))⌋, anc.length + 2⟩]⟩ := by
  unfold send
  simp only []
  rw [foldl_sum, zero_add]
  have hc : (if top.percent < 100 ∧ sumP (par :: anc) > 99 then 99 else sumP (par :: anc)) = cap (sumP (par :: anc)) := by
    unfold cap
    by_cases h : sumP (par :: anc) > 99
    · rw [if_pos ⟨ht, h⟩, min_eq_right (le_of_lt h)]
    · rw [if_neg (fun hh => h hh.2), min_eq_left (not_lt.1 h)]
  rw [hc, trunc_nonneg (cap_nonneg hs), if_pos]
  · simp
  · have h1 : ⌊cap (sumP (par :: anc))⌋ ≤ ⌊(99 : ℚ)⌋ := Int.floor_le_floor (min_le_right _ _)
    have h2 : ⌊(99 : ℚ)⌋ = 99 := Int.floor_ofNat 99
    omega

theorem send_full (top par : Step) (anc : List Step) (R : List Report) (ht : top.percent = 100) (hs : sumP (par :: anc) = 100) :
    send id ⟨top :: par :: anc, R⟩ = some ⟨top :: par :: anc, R ++ [⟨100, anc.length + 2⟩]⟩ := by
  unfold send
  simp only []
  rw [foldl_sum, zero_add, hs]
  have hc : (if top.percent < 100 ∧ (100 : ℚ) > 99 then (99 : ℚ) else 100) = 100 := if_neg (by rw [ht]; norm_num)
  rw [hc]
  have h2 : ⌊(100 : ℚ)⌋ = 100 := Int.floor_ofNat 100
  rw [trunc_nonneg (by norm_num), h2, if_pos (le_refl _)]
  simp

theorem send_root (top : Step) (R : List Report) (h : top.percent = 0 ∨ top.percent = 100) :
    send id ⟨[top], R⟩ = some ⟨[top], R ++ [⟨trunc top.percent, 1⟩]⟩ := by
  unfold send
  simp only []
  have hc : (if top.percent < 100 ∧ top.percent > 99 then (99 : ℚ) else top.percent) = top.percent := if_neg (by rcases h with h | h <;> rw [h] <;> norm_num)
  rw [hc, if_pos]
  · rfl
  · rcases h with h | h <;> rw [h]
    · rw [trunc_nonneg (le_refl _)]; simp
    · rw [trunc_nonneg (by norm_num)]; exact le_of_eq (Int.floor_ofNat 100)

/-! ## Explicit percentages -/

/-- the stack inside of a step without substeps: `S` is what was reported before it, `T` its share -/
theorem run_percents (ps : List Int) (name : List Char) (anc : List Step) : ∀ (top par : Step) (R : List Report) (S : ℚ),
    (∀ p ∈ ps, p ≤ 100) → top.name = name → 0 ≤ top.total → top.total ≤ 100 → 0 ≤ top.explicit → top.explicit ≤ 100 → top.percent < 100 ∨ top.explicit = 100 →
    0 ≤ S → sumP (par :: anc) = S + top.total * (top.explicit / 100) →
    ∃ top' par' R', run id ⟨top :: par :: anc, R⟩ (ps.map (Op.set name)) = some ⟨top' :: par' :: anc, R ++ R'⟩ ∧
      top' = { top with percent := top'.percent, explicit := top'.explicit } ∧ par' = { par with percent := par.percent + top.total * ((top'.explicit - top.explicit) / 100) } ∧
      top.explicit ≤ top'.explicit ∧ top'.explicit ≤ 100 ∧ (top'.percent < 100 ∨ top'.explicit = 100) ∧
      (top'.explicit = 0 → top'.percent = top.percent) ∧
      (R'.map (·.percent)).Pairwise (· ≤ ·) ∧
      ∀ r ∈ R', ⌊cap (S + top.total * (top.explicit / 100))⌋ ≤ r.percent ∧ r.percent ≤ ⌊cap (S + top.total * (top'.explicit / 100))⌋ := by
  induction ps with
  | nil =>
    intro top par R S _ _ _ _ _ he hlt _ _
    refine ⟨top, par, [], by simp [run], rfl, ?_, le_refl _, he, hlt, fun _ => rfl, List.Pairwise.nil, by simp⟩
    simp
  | cons p ps ih =>
    intro top par R S hp hn hT0 hT1 he0 he hlt hS hsum
    have hp100 : p ≤ 100 := hp p List.mem_cons_self
    have hps : ∀ q ∈ ps, q ≤ 100 := fun q hq => hp q (List.mem_cons_of_mem _ hq)
    simp only [List.map_cons, run, op, set]
    rw [if_neg (not_not.2 hn)]
    by_cases hd : p - top.explicit < 1
    · rw [if_pos hd]
      exact ih top par R S hps hn hT0 hT1 he0 he hlt hS hsum
    · rw [if_neg hd]
      simp only [id]
      have hle : (top.explicit : ℚ) ≤ p := by exact_mod_cast (by omega : top.explicit ≤ p)
      have h0e : (0 : ℚ) ≤ top.explicit := by exact_mod_cast he0
      have hpq : (p : ℚ) ≤ 100 := by exact_mod_cast hp100
      have hsum' : sumP ({ par with percent := par.percent + top.total * (((p - top.explicit : Int) : ℚ) / 100) } :: anc) = S + top.total * ((p : ℚ) / 100) := by
        simp only [sumP] at hsum ⊢
        push_cast
        linear_combination hsum
      have hge : S + top.total * (top.explicit / 100) ≤ S + top.total * (p / 100) := by
        have := mul_le_mul_of_nonneg_left (div_le_div_of_nonneg_right hle (by norm_num : (0 : ℚ) ≤ 100)) hT0
        linarith
      have hpos : 0 ≤ S + top.total * ((p : ℚ) / 100) := by
        have := mul_nonneg hT0 (div_nonneg (le_trans h0e hle) (by norm_num : (0 : ℚ) ≤ 100))
        linarith
      have key : ∀ (R1 : List Report) (r1 : List Report), R1 = R ++ r1 → (r1.map (·.percent)).Pairwise (· ≤ ·) →
          (∀ r ∈ r1, ⌊cap (S + top.total * (top.explicit / 100))⌋ ≤ r.percent ∧ r.percent ≤ ⌊cap (S + top.total * (p / 100))⌋) →
          (top.total * (((p - top.explicit : Int) : ℚ) / 100) < 100 ∨ p = 100) →
          ∃ top' par' R', run id ⟨{ top with percent := top.total * (((p - top.explicit : Int) : ℚ) / 100), explicit := p } ::
                { par with percent := par.percent + top.total * (((p - top.explicit : Int) : ℚ) / 100) } :: anc, R1⟩ (ps.map (Op.set name)) = some ⟨top' :: par' :: anc, R ++ R'⟩ ∧
            top' = { top with percent := top'.percent, explicit := top'.explicit } ∧ par' = { par with percent := par.percent + top.total * ((top'.explicit - top.explicit) / 100) } ∧
            top.explicit ≤ top'.explicit ∧ top'.explicit ≤ 100 ∧ (top'.percent < 100 ∨ top'.explicit = 100) ∧
            (top'.explicit = 0 → top'.percent = top.percent) ∧
            (R'.map (·.percent)).Pairwise (· ≤ ·) ∧
            ∀ r ∈ R', ⌊cap (S + top.total * (top.explicit / 100))⌋ ≤ r.percent ∧ r.percent ≤ ⌊cap (S + top.total * (top'.explicit / 100))⌋ := by
        intro R1 r1 hR1 hr1 hb hlt1
        subst hR1
        obtain ⟨top', par', R', h1, h2, h3, h4, h5, h6, h7, h8, h9⟩ :=
          ih { top with percent := top.total * (((p - top.explicit : Int) : ℚ) / 100), explicit := p }
            { par with percent := par.percent + top.total * (((p - top.explicit : Int) : ℚ) / 100) } (R ++ r1) S hps hn hT0 hT1 (by show 0 ≤ p; omega) hp100 hlt1 hS hsum'
        simp only [] at h2 h3 h4 h9
        refine ⟨top', par', r1 ++ R', by rw [h1, List.append_assoc], h2, ?_, by omega, h5, h6, ?_, ?_, ?_⟩
        · rw [h3]
          congr 1
          push_cast
          ring
        · intro h0; omega
        · rw [List.map_append, List.pairwise_append]
          refine ⟨hr1, h8, ?_⟩
          intro a ha b hb'
          obtain ⟨x, hx, rfl⟩ := List.mem_map.1 ha
          obtain ⟨y, hy, rfl⟩ := List.mem_map.1 hb'
          exact le_trans (hb x hx).2 (h9 y hy).1
        · intro r hr
          have hq : ((p : Int) : ℚ) ≤ top'.explicit := by exact_mod_cast h4
          have hge2 : S + top.total * (p / 100) ≤ S + top.total * (top'.explicit / 100) := by
            have := mul_le_mul_of_nonneg_left (div_le_div_of_nonneg_right hq (by norm_num : (0 : ℚ) ≤ 100)) hT0
            linarith
          rcases List.mem_append.1 hr with hr | hr
          · exact ⟨(hb r hr).1, le_trans (hb r hr).2 (cap_mono hge2)⟩
          · exact ⟨le_trans (cap_mono hge) (h9 r hr).1, (h9 r hr).2⟩
      by_cases h100 : p = 100
      · rw [if_neg (not_not.2 h100)]
        exact key R [] (by simp) List.Pairwise.nil (by simp) (Or.inr h100)
      · rw [if_pos h100]
        have hlt1 : top.total * (((p - top.explicit : Int) : ℚ) / 100) < 100 := by
          have hp99 : (p : ℚ) ≤ 99 := by exact_mod_cast (by omega : p ≤ 99)
          push_cast
          have h1 : ((p : ℚ) - top.explicit) / 100 ≤ 99 / 100 := div_le_div_of_nonneg_right (by linarith) (by norm_num)
          have h2 : top.total * (((p : ℚ) - top.explicit) / 100) ≤ top.total * (99 / 100) := mul_le_mul_of_nonneg_left h1 hT0
          linarith
        rw [send_cap _ _ _ _ hlt1 (by rw [hsum']; exact hpos)]
        simp only []
        rw [hsum']
        exact key _ [⟨⌊cap (S + top.total * (p / 100))⌋, anc.length + 2⟩] rfl (by simp) (by simp; exact cap_mono hge) (Or.inl hlt1)

/-! ## The end of a step -/

theorem finish_step (top par : Step) (anc : List Step) (R : List Report) (ok : Bool) (S : ℚ)
    (hdone : top.done ≤ top.substeps) (hok : ok = true → top.done = top.substeps) (hT0 : 0 ≤ top.total) (hT1 : top.total ≤ 100)
    (he0 : 0 ≤ top.explicit) (he : top.explicit ≤ 100) (hpar : top.total * (top.explicit / 100) ≤ par.percent)
    (hsum : sumP (par :: anc) = S + top.total * (top.explicit / 100)) (hS : 0 ≤ S) (hST : S + top.total ≤ 100) :
    ∃ r, finish id ⟨top :: par :: anc, R⟩ top.name ok =
        some ⟨{ par with done := par.done + top.weight, percent := par.percent + top.total * (1 - top.explicit / 100) } :: anc, R ++ [⟨r, anc.length + 2⟩]⟩ ∧
      (r = ⌊cap (S + top.total)⌋ ∨ top.total = 100 ∧ r = 100) := by
  have heq : (top.explicit : ℚ) ≤ 100 := by exact_mod_cast he
  have hsum' : ∀ (d : Nat), sumP ({ par with done := d, percent := par.percent + top.total * (1 - top.explicit / 100) } :: anc) = S + top.total := by
    intro d
    simp only [sumP] at hsum ⊢
    linear_combination hsum
  have hpp : top.total ≤ par.percent + top.total * (1 - top.explicit / 100) := by linarith
  -- whatever percentage the step has in the end, the report is as claimed
  have last : ∀ t : Step, t.percent ≤ top.total → 0 ≤ t.percent →
      ∃ r, send id ⟨t :: { par with done := par.done + top.weight, percent := par.percent + top.total * (1 - top.explicit / 100) } :: anc, R⟩ =
        some ⟨t :: { par with done := par.done + top.weight, percent := par.percent + top.total * (1 - top.explicit / 100) } :: anc, R ++ [⟨r, anc.length + 2⟩]⟩ ∧
      (r = ⌊cap (S + top.total)⌋ ∨ top.total = 100 ∧ r = 100) := by
    intro t ht1 ht0
    by_cases h100 : t.percent < 100
    · refine ⟨_, send_cap _ _ _ _ h100 (by rw [hsum']; linarith), Or.inl ?_⟩
      rw [hsum']
    · have hT : top.total = 100 := by linarith [not_lt.1 h100]
      refine ⟨_, send_full _ _ _ _ (by linarith [not_lt.1 h100]) (by rw [hsum']; linarith), Or.inr ⟨hT, rfl⟩⟩
  unfold finish
  simp only []
  rw [if_neg (by omega), if_neg, if_neg (not_not.2 rfl)]
  rotate_left
  · intro h
    rw [Bool.and_eq_true, decide_eq_true_eq] at h
    have := hok h.1
    omega
  by_cases hz : top.explicit ≠ 0
  · rw [if_pos hz]
    unfold set
    simp only []
    rw [if_neg (not_not.2 rfl)]
    by_cases hd : 100 - top.explicit < 1
    · rw [if_pos hd]
      have h100 : top.explicit = 100 := by omega
      have hone : (1 : ℚ) - top.explicit / 100 = 0 := by rw [h100]; norm_num
      obtain ⟨r, hr, hr'⟩ := last { top with percent := top.total } (le_refl _) hT0
      rw [hone, mul_zero, add_zero] at hr hpp ⊢
      simp only []
      rw [if_pos]
      · rw [hr]
        exact ⟨r, rfl, hr'⟩
      · rw [decide_eq_true_eq, trunc_nonneg hT0, trunc_nonneg (le_trans hT0 hpp)]
        exact Int.floor_le_floor hpp
    · rw [if_neg hd, if_neg (by simp)]
      simp only [id]
      have hq : ((100 - top.explicit : Int) : ℚ) / 100 = 1 - top.explicit / 100 := by push_cast; ring
      rw [hq]
      have hfrac0 : (0 : ℚ) ≤ 1 - top.explicit / 100 := by linarith
      have hfrac1 : (1 : ℚ) - top.explicit / 100 ≤ 1 := by
        have : (0 : ℚ) ≤ top.explicit := by exact_mod_cast he0
        linarith
      have hle : top.total * (1 - top.explicit / 100) ≤ top.total := mul_le_of_le_one_right hT0 hfrac1
      have hge : 0 ≤ top.total * (1 - top.explicit / 100) := mul_nonneg hT0 hfrac0
      obtain ⟨r, hr, hr'⟩ := last { top with percent := top.total * (1 - top.explicit / 100), explicit := 100 } hle hge
      rw [if_pos]
      · rw [hr]
        exact ⟨r, rfl, hr'⟩
      · rw [decide_eq_true_eq, trunc_nonneg hge, trunc_nonneg (le_trans hT0 hpp)]
        exact Int.floor_le_floor (le_trans hle hpp)
  · rw [if_neg hz]
    have hz0 : top.explicit = 0 := not_not.1 hz
    have hone : (1 : ℚ) - top.explicit / 100 = 1 := by rw [hz0]; norm_num
    obtain ⟨r, hr, hr'⟩ := last { top with percent := top.total } (le_refl _) hT0
    rw [hone, mul_one] at hr hpp ⊢
    simp only [id]
    rw [if_pos]
    · rw [hr]
      exact ⟨r, rfl, hr'⟩
    · rw [decide_eq_true_eq, trunc_nonneg hT0, trunc_nonneg (le_trans hT0 hpp)]
      exact Int.floor_le_floor hpp

/-! ## All steps -/

/-- the first step makes up all of a parent that itself makes up everything: only then can 100 be reported before the end -/
def Steps.whole (f : Steps) (par : Step) : Prop :=
  match f with
  | .nil => False
  | .node _ w _ _ _ _ _ => w = par.substeps ∧ par.total = 100

theorem run_steps (f : Steps) : ∀ (par : Step) (anc : List Step) (R : List Report) (S : ℚ),
    f.Correct → par.done + f.weights ≤ par.substeps → 0 ≤ par.total → par.total ≤ 100 → 0 ≤ par.percent → sumP (par :: anc) = S → 0 ≤ S →
    S + f.weights * par.total / par.substeps ≤ 100 →
    ∃ R', run id ⟨par :: anc, R⟩ f.ops =
        some ⟨{ par with done := par.done + f.weights, percent := par.percent + f.weights * par.total / par.substeps } :: anc, R ++ R'⟩ ∧
      (R'.map (·.percent)).Pairwise (· ≤ ·) ∧
      ∀ r ∈ R', ⌊cap S⌋ ≤ r.percent ∧ (r.percent ≤ ⌊cap (S + f.weights * par.total / par.substeps)⌋ ∨ f.whole par ∧ r.percent = 100) := by
  induction f with
  | nil =>
    intro par anc R S _ _ _ _ _ _ _ _
    refine ⟨[], ?_, List.Pairwise.nil, by simp⟩
    simp [Steps.ops, run, Steps.weights]
  | node name w n ps i ok next ihi ihn =>
    intro par anc R S hc hw hP0 hP1 hpp hsum hS hroom
    obtain ⟨hw0, hin, hiok, hpsn, hps, hci, hcn⟩ := hc
    simp only [Steps.weights] at hw hroom ⊢
    have hn0 : 0 < par.substeps := by omega
    have hnq : (0 : ℚ) < par.substeps := by exact_mod_cast hn0
    have hwn : (w : ℚ) ≤ par.substeps := by exact_mod_cast (by omega : w ≤ par.substeps)
    have hwq : (0 : ℚ) < w := by exact_mod_cast hw0
    -- the share of the step
    generalize hT : (w : ℚ) * par.total / par.substeps = T
    have hT0 : 0 ≤ T := by rw [← hT]; positivity
    have hTP : T ≤ par.total := by
      rw [← hT, div_le_iff₀ hnq, mul_comm par.total]
      exact mul_le_mul_of_nonneg_right hwn hP0
    have hT1 : T ≤ 100 := le_trans hTP hP1
    have hD : 0 ≤ (next.weights : ℚ) * par.total / par.substeps := by positivity
    have hsplit : ((w + next.weights : Nat) : ℚ) * par.total / par.substeps = T + next.weights * par.total / par.substeps := by
      rw [← hT]; push_cast; ring
    rw [hsplit] at hroom ⊢
    have hST : S + T ≤ 100 := by linarith
    have hwhole : T = 100 → (w = par.substeps ∧ par.total = 100) := by
      intro h
      have hp100 : par.total = 100 := by linarith
      refine ⟨?_, hp100⟩
      rw [hp100, h, div_eq_iff (ne_of_gt hnq)] at hT
      have : (w : ℚ) = par.substeps := by linarith
      exact_mod_cast this
    -- the begin
    simp only [Steps.ops, run, op]
    have hbegin : begin id ⟨par :: anc, R⟩ name n w = some ⟨⟨name, w, n, 0, T, 0, 0⟩ :: par :: anc, R ++ [⟨⌊cap S⌋, anc.length + 2⟩]⟩ := by
      unfold begin
      simp only [id]
      rw [if_neg (by omega), hT, if_pos]
      · have hs0 : sumP (par :: anc) ≥ 0 := by rw [hsum]; exact hS
        have h := send_cap ⟨name, w, n, 0, T, 0, 0⟩ par anc R (by show (0 : ℚ) < 100; norm_num) hs0
        rw [hsum] at h
        exact h
      · rw [trunc_nonneg hT0, trunc_nonneg hP0]
        refine ⟨Int.floor_le_floor hTP, ?_⟩
        have h1 := Int.floor_le_floor hT1
        have h2 : ⌊(100 : ℚ)⌋ = 100 := Int.floor_ofNat 100
        omega
    rw [hbegin]
    simp only []
    rw [run_append]
    -- the percentages
    obtain ⟨t1, p1, R1, hr1, ht1, hp1, he1, he2, _, _, hpw1, hb1⟩ := run_percents ps name anc ⟨name, w, n, 0, T, 0, 0⟩ par (R ++ [⟨⌊cap S⌋, anc.length + 2⟩]) S
      hps rfl hT0 hT1 (le_refl _) (by show (0 : Int) ≤ 100; omega) (Or.inl (by show (0 : ℚ) < 100; norm_num)) hS (by rw [hsum]; simp)
    simp only [Int.cast_zero, zero_div, mul_zero, add_zero, sub_zero] at ht1 hp1 he1 he2 hb1
    rw [hr1]
    simp only [Option.bind_some]
    rw [run_append]
    have he1q : (0 : ℚ) ≤ t1.explicit := by exact_mod_cast he1
    have he2q : (t1.explicit : ℚ) ≤ 100 := by exact_mod_cast he2
    -- `run_steps` inside; without substeps there is nothing
    have hEx0 : 0 ≤ T * (t1.explicit / 100) := by positivity
    have hEx1 : T * (t1.explicit / 100) ≤ T := by
      apply mul_le_of_le_one_right hT0
      rw [div_le_one (by norm_num)]
      exact he2q
    have hsum1 : sumP (p1 :: anc) = S + T * (t1.explicit / 100) := by
      rw [hp1]
      simp only [sumP] at hsum ⊢
      linear_combination hsum
    -- the steps inside
    have hinside : ∃ (R2 : List Report) (tp : ℚ), run id ⟨t1 :: p1 :: anc, R ++ [⟨⌊cap S⌋, anc.length + 2⟩] ++ R1⟩ i.ops =
          some ⟨{ t1 with done := i.weights, percent := tp } :: p1 :: anc, R ++ [⟨⌊cap S⌋, anc.length + 2⟩] ++ R1 ++ R2⟩ ∧
        (R2.map (·.percent)).Pairwise (· ≤ ·) ∧
        ∀ r ∈ R2, ⌊cap (S + T * (t1.explicit / 100))⌋ ≤ r.percent ∧ (r.percent ≤ ⌊cap (S + T)⌋ ∨ T = 100 ∧ r.percent = 100) := by
      by_cases hz : i.weights = 0
      · cases i with
        | node a b c d e f g => obtain ⟨hb, _⟩ := hci; simp [Steps.weights] at hz; omega
        | nil =>
          refine ⟨[], t1.percent, ?_, List.Pairwise.nil, by simp⟩
          rw [ht1]; simp [Steps.ops, run, Steps.weights]
      · have hn1 : 0 < n := by omega
        have hps0 : ps = [] := by
          cases ps with
          | nil => rfl
          | cons p ps => exact absurd (hpsn (by simp)) (by omega)
        subst hps0
        simp only [List.map_nil, run, Option.some.injEq, St.mk.injEq, List.cons.injEq, and_true] at hr1
        obtain ⟨⟨hrt, hrp⟩, hrR⟩ := hr1
        subst hrt
        subst hrp
        simp only [Int.cast_zero, zero_div, mul_zero, add_zero]
        have hnq1 : (0 : ℚ) < n := by exact_mod_cast hn1
        have hiq : (i.weights : ℚ) ≤ n := by exact_mod_cast hin
        have hsh : (i.weights : ℚ) * T / n ≤ T := by
          rw [div_le_iff₀ hnq1, mul_comm T]
          exact mul_le_mul_of_nonneg_right hiq hT0
        obtain ⟨R2, h1, h2, h3⟩ := ihi ⟨name, w, n, 0, T, 0, 0⟩ (par :: anc) (R ++ [⟨⌊cap S⌋, anc.length + 2⟩] ++ R1) S hci (by simpa using hin) hT0 hT1 (le_refl _)
          (by rw [sumP, hsum]; simp) hS (by show S + i.weights * T / n ≤ 100; linarith)
        refine ⟨R2, 0 + i.weights * T / n, ?_, h2, ?_⟩
        · rw [h1]; simp only [Nat.zero_add]
        · intro r hr
          obtain ⟨h4, h5⟩ := h3 r hr
          refine ⟨h4, ?_⟩
          rcases h5 with h5 | h5
          · left
            refine le_trans h5 (cap_mono ?_)
            show S + i.weights * T / n ≤ S + T
            linarith
          · right
            refine ⟨?_, h5.2⟩
            have h6 := h5.1
            cases i with
            | nil => exact absurd h6 id
            | node a b c d e f g => exact h6.2
    obtain ⟨R2, tp, hr2, hpw2, hb2⟩ := hinside
    rw [hr2]
    simp only [Option.bind_some, run, op]
    -- the end
    have hname : t1.name = name := by rw [ht1]
    have htot : t1.total = T := by rw [ht1]
    have hsub : t1.substeps = n := by rw [ht1]
    have hwt : t1.weight = w := by rw [ht1]
    obtain ⟨r3, hr3, hb3⟩ := finish_step { t1 with done := i.weights, percent := tp } p1 anc (R ++ [⟨⌊cap S⌋, anc.length + 2⟩] ++ R1 ++ R2) ok S
      (by show i.weights ≤ t1.substeps; rw [hsub]; exact hin) (by show ok = true → i.weights = t1.substeps; rw [hsub]; exact hiok)
      (by show 0 ≤ t1.total; rw [htot]; exact hT0) (by show t1.total ≤ 100; rw [htot]; exact hT1) he1 he2
      (by show t1.total * (t1.explicit / 100) ≤ p1.percent; rw [htot, hp1]; show _ ≤ par.percent + T * (t1.explicit / 100); linarith)
      (by show _ = S + t1.total * (t1.explicit / 100); rw [htot]; exact hsum1) hS (by show S + t1.total ≤ 100; rw [htot]; exact hST)
    replace hr3 : finish id ⟨{ t1 with done := i.weights, percent := tp } :: p1 :: anc, R ++ [⟨⌊cap S⌋, anc.length + 2⟩] ++ R1 ++ R2⟩ name ok =
        some ⟨{ p1 with done := p1.done + w, percent := p1.percent + T * (1 - (t1.explicit : ℚ) / 100) } :: anc,
          R ++ [⟨⌊cap S⌋, anc.length + 2⟩] ++ R1 ++ R2 ++ [⟨r3, anc.length + 2⟩]⟩ := by
      have h := hr3
      simp only [] at h
      rw [← hname, ← hwt, ← htot]
      exact h
    replace hb3 : r3 = ⌊cap (S + T)⌋ ∨ T = 100 ∧ r3 = 100 := by rw [← htot]; exact hb3
    rw [hr3]
    simp only []
    have hfinal : ({ p1 with done := p1.done + w, percent := p1.percent + T * (1 - (t1.explicit : ℚ) / 100) } : Step) = { par with done := par.done + w, percent := par.percent + T } := by
      rw [hp1]
      simp only [Step.mk.injEq, true_and, and_true]
      ring
    rw [hfinal]
    -- the following steps
    obtain ⟨R4, hr4, hpw4, hb4⟩ := ihn { par with done := par.done + w, percent := par.percent + T } anc
      (R ++ [⟨⌊cap S⌋, anc.length + 2⟩] ++ R1 ++ R2 ++ [⟨r3, anc.length + 2⟩]) (S + T) hcn (by show par.done + w + next.weights ≤ par.substeps; omega) hP0 hP1
      (by show 0 ≤ par.percent + T; linarith) (by simp only [sumP] at hsum ⊢; linarith) (by linarith)
      (by show S + T + next.weights * par.total / par.substeps ≤ 100; linarith)
    simp only [] at hr4 hb4
    refine ⟨[⟨⌊cap S⌋, anc.length + 2⟩] ++ R1 ++ R2 ++ [⟨r3, anc.length + 2⟩] ++ R4, ?_, ?_, ?_⟩
    · rw [hr4]
      simp only [Option.some.injEq, St.mk.injEq, List.cons.injEq, Step.mk.injEq, true_and, and_true]
      refine ⟨⟨by omega, by ring⟩, by simp only [List.append_assoc]⟩
    · -- order
      have hcap1 : ⌊cap S⌋ ≤ ⌊cap (S + T * (t1.explicit / 100))⌋ := cap_mono (by linarith)
      have hcap2 : ⌊cap (S + T * (t1.explicit / 100))⌋ ≤ ⌊cap (S + T)⌋ := cap_mono (by linarith)
      have h99 : ⌊cap (S + T)⌋ ≤ 100 := by
        have h1 : ⌊cap (S + T)⌋ ≤ ⌊(99 : ℚ)⌋ := Int.floor_le_floor (min_le_right _ _)
        have h2 : ⌊(99 : ℚ)⌋ = 99 := Int.floor_ofNat 99
        omega
      -- if the step makes up everything, nothing follows
      have hR4 : T = 100 → R4 = [] := by
        intro h
        obtain ⟨h1, _⟩ := hwhole h
        have hnx : next.weights = 0 := by omega
        cases next with
        | nil =>
          simp only [Steps.ops, run, Option.some.injEq, St.mk.injEq] at hr4
          have := hr4.2
          simpa using this
        | node a b c d e f g => obtain ⟨hb, _⟩ := hcn; simp [Steps.weights] at hnx; omega
      have hr3le : ∀ r ∈ R2, r.percent ≤ r3 := by
        intro r hr
        rcases (hb2 r hr).2 with h | h
        · rcases hb3 with h3 | h3
          · rw [h3]; exact h
          · rw [h3.2]; omega
        · rcases hb3 with h3 | h3
          · -- then the last report would be 100 too
            exfalso
            have hzero : ps = [] := by
              cases ps with
              | nil => rfl
              | cons p ps =>
                have hn2 := hpsn (by simp)
                have hiz : i = .nil := by
                  cases i with
                  | nil => rfl
                  | node a b c d e f g => obtain ⟨hb, _⟩ := hci; simp [Steps.weights] at hin; omega
                subst hiz
                simp only [Steps.ops, run, Option.some.injEq, St.mk.injEq] at hr2
                have h5 := hr2.2
                simp at h5
                rw [h5] at hr
                cases hr
            subst hzero
            simp only [List.map_nil, run, Option.some.injEq, St.mk.injEq, List.cons.injEq, and_true] at hr1
            obtain ⟨⟨hrt, _⟩, _⟩ := hr1
            -- no explicit percentage: the report at the end is 100
            rw [← hrt] at hr3
            unfold finish at hr3
            simp only [] at hr3
            rw [if_neg (by omega), if_neg, if_neg (not_not.2 rfl)] at hr3
            · simp only [ne_eq, not_true_eq_false, if_false] at hr3
              have hsumx : sumP ({ p1 with done := p1.done + w, percent := id (p1.percent + T) } :: anc) = 100 := by
                simp only [sumP, id] at hsum hsum1 ⊢
                rw [← hrt] at hsum1
                simp at hsum1
                linarith [h.1]
              rw [send_full _ _ _ _ (by exact h.1) hsumx] at hr3
              split at hr3
              · simp only [Option.some.injEq, St.mk.injEq, List.append_cancel_left_eq, List.cons.injEq, Report.mk.injEq] at hr3
                have h5 := hr3.2.1.1
                have h6 : ⌊cap (S + T)⌋ ≤ ⌊(99 : ℚ)⌋ := Int.floor_le_floor (min_le_right _ _)
                have h7 : ⌊(99 : ℚ)⌋ = 99 := Int.floor_ofNat 99
                omega
              · cases hr3
            · intro hh
              rw [Bool.and_eq_true, decide_eq_true_eq] at hh
              have := hiok hh.1
              omega
          · rw [h3.2]; omega
      have hr3ge : ⌊cap (S + T)⌋ ≤ r3 := by
        rcases hb3 with h3 | h3
        · rw [h3]
        · rw [h3.2]; exact h99
      have h4ge : ∀ r ∈ R4, r3 ≤ r.percent := by
        intro r hr
        rcases hb3 with h3 | h3
        · rw [h3]; exact (hb4 r hr).1
        · rw [hR4 h3.1] at hr; cases hr
      simp only [List.map_append, List.map_cons, List.map_nil, List.pairwise_append, List.pairwise_cons, List.Pairwise.nil, List.mem_append, List.mem_map, List.mem_singleton,
        List.not_mem_nil, false_imp_iff, implies_true, and_true, true_and]
      refine ⟨⟨⟨⟨hpw1, ?_⟩, hpw2, ?_⟩, ?_⟩, hpw4, ?_⟩
      · rintro a rfl b ⟨x, hx, rfl⟩
        exact (hb1 x hx).1
      · rintro a (rfl | ⟨x, hx, rfl⟩) b ⟨y, hy, rfl⟩
        · exact le_trans hcap1 (hb2 y hy).1
        · exact le_trans (hb1 x hx).2 (hb2 y hy).1
      · rintro a ((rfl | ⟨x, hx, rfl⟩) | ⟨x, hx, rfl⟩) b rfl
        · exact le_trans hcap1 (le_trans hcap2 hr3ge)
        · exact le_trans (hb1 x hx).2 (le_trans hcap2 hr3ge)
        · exact hr3le x hx
      · rintro a (((rfl | ⟨x, hx, rfl⟩) | ⟨x, hx, rfl⟩) | rfl) b ⟨y, hy, rfl⟩
        · exact le_trans hcap1 (le_trans hcap2 (le_trans hr3ge (h4ge y hy)))
        · exact le_trans (hb1 x hx).2 (le_trans hcap2 (le_trans hr3ge (h4ge y hy)))
        · exact le_trans (hr3le x hx) (h4ge y hy)
        · exact h4ge y hy
    · -- bounds
      have hcap1 : ⌊cap S⌋ ≤ ⌊cap (S + T * (t1.explicit / 100))⌋ := cap_mono (by linarith)
      have hcap2 : ⌊cap (S + T * (t1.explicit / 100))⌋ ≤ ⌊cap (S + T)⌋ := cap_mono (by linarith)
      have hcap3 : ⌊cap (S + T)⌋ ≤ ⌊cap (S + (T + next.weights * par.total / par.substeps))⌋ := cap_mono (by linarith)
      have h99 : ⌊cap (S + T)⌋ ≤ 100 := by
        have h1 : ⌊cap (S + T)⌋ ≤ ⌊(99 : ℚ)⌋ := Int.floor_le_floor (min_le_right _ _)
        have h2 : ⌊(99 : ℚ)⌋ = 99 := Int.floor_ofNat 99
        omega
      intro r hr
      simp only [List.mem_append, List.mem_singleton] at hr
      rcases hr with (((rfl | hr) | hr) | rfl) | hr
      · exact ⟨le_refl _, Or.inl (le_trans hcap1 (le_trans hcap2 hcap3))⟩
      · exact ⟨(hb1 r hr).1, Or.inl (le_trans (hb1 r hr).2 (le_trans hcap2 hcap3))⟩
      · refine ⟨le_trans hcap1 (hb2 r hr).1, ?_⟩
        rcases (hb2 r hr).2 with h | h
        · exact Or.inl (le_trans h hcap3)
        · exact Or.inr ⟨hwhole h.1, h.2⟩
      · rcases hb3 with h3 | h3
        · exact ⟨by rw [h3]; exact le_trans hcap1 hcap2, Or.inl (by rw [h3]; exact hcap3)⟩
        · refine ⟨?_, Or.inr ⟨hwhole h3.1, h3.2⟩⟩
          show ⌊cap S⌋ ≤ r3
          rw [h3.2]
          exact le_trans hcap1 (le_trans hcap2 h99)
      · refine ⟨le_trans hcap1 (le_trans hcap2 (hb4 r hr).1), ?_⟩
        rcases (hb4 r hr).2 with h | h
        · left; rw [← add_assoc]; exact h
        · exfalso
          cases next with
          | nil => exact h.1
          | node a b c d e f g =>
            obtain ⟨hb, _⟩ := hcn
            have h7 : b = par.substeps := h.1.1
            simp only [Steps.weights] at hw
            omega

/-! ## C46 -/

/-- the calls of one operation: a root step with everything inside -/
def operation (name : List Char) (weight substeps : Nat) (inside : Steps) (success : Bool) : List Op :=
  .begin name substeps weight :: (inside.ops ++ [.finish name success])

theorem run_operation (name : List Char) (weight substeps : Nat) (inside : Steps) (success : Bool)
    (hc : inside.Correct) (hle : inside.weights ≤ substeps) (hok : success = true → inside.weights = substeps) :
    ∃ R, run id ⟨[], []⟩ (operation name weight substeps inside success) = some ⟨[], ⟨0, 1⟩ :: (R ++ [⟨100, 1⟩])⟩ ∧
      (R.map (·.percent)).Pairwise (· ≤ ·) ∧
      ∀ r ∈ R, 0 ≤ r.percent ∧ (r.percent ≤ 99 ∨ inside.whole ⟨name, weight, substeps, 0, 100, 0, 0⟩ ∧ r.percent = 100) := by
  have hq : (inside.weights : ℚ) ≤ substeps := by exact_mod_cast hle
  have hshare : (0 : ℚ) + inside.weights * 100 / substeps ≤ 100 := by
    rw [zero_add]
    rcases Nat.eq_zero_or_pos substeps with h | h
    · rw [h]; simp
    · have hs : (0 : ℚ) < substeps := by exact_mod_cast h
      rw [div_le_iff₀ hs]; linarith
  obtain ⟨R, h1, h2, h3⟩ := run_steps inside ⟨name, weight, substeps, 0, 100, 0, 0⟩ [] [⟨0, 1⟩] 0 hc (by simpa using hle) (by norm_num) (by norm_num) (le_refl _) (by simp [sumP]) (le_refl _) hshare
  refine ⟨R, ?_, h2, ?_⟩
  · unfold operation
    have hb : begin id ⟨[], []⟩ name substeps weight = some ⟨[⟨name, weight, substeps, 0, 100, 0, 0⟩], [⟨0, 1⟩]⟩ := by
      unfold begin
      simp only []
      rw [send_root _ _ (Or.inl rfl)]
      simp [trunc]
    simp only [run, op, hb]
    rw [run_append, h1]
    simp only [Option.bind_some, run, op, Nat.zero_add]
    unfold finish
    simp only []
    rw [if_neg (by omega), if_neg, if_neg (not_not.2 rfl)]
    · simp only [if_true]
      rw [send_root _ _ (Or.inr rfl)]
      have hf : trunc 100 = 100 := by rw [trunc_nonneg (by norm_num)]; exact Int.floor_ofNat 100
      simp [hf]
    · intro hh
      rw [Bool.and_eq_true, decide_eq_true_eq] at hh
      have := hok hh.1
      omega
  · intro r hr
    have hc0 : ⌊cap 0⌋ = 0 := by
      have : cap 0 = 0 := min_eq_left (by norm_num)
      rw [this]; exact Int.floor_zero
    have := h3 r hr
    rw [hc0] at this
    refine ⟨this.1, ?_⟩
    rcases this.2 with h | h
    · left
      have h1 : r.percent ≤ ⌊(99 : ℚ)⌋ := le_trans h (Int.floor_le_floor (min_le_right _ _))
      have h2 : ⌊(99 : ℚ)⌋ = 99 := Int.floor_ofNat 99
      omega
    · exact Or.inr h

/-- For all correctly nested steps, no assertion fails, no step is left over, the reported percentages are between 0 and 100 and never decrease, and the last one is 100. Partial: percentages are computed exactly
here, in the code with single precision (see `C46_finding_float`); and 100 is not only reported for success (`C46_finding_failed`). -/
theorem C46_progress_partial (name : List Char) (weight substeps : Nat) (inside : Steps) (success : Bool)
    (hc : inside.Correct) (hle : inside.weights ≤ substeps) (hok : success = true → inside.weights = substeps) :
    ∃ s, run id ⟨[], []⟩ (operation name weight substeps inside success) = some s ∧ s.stack = [] ∧
      (s.reports.map (·.percent)).Pairwise (· ≤ ·) ∧ (∀ r ∈ s.reports, 0 ≤ r.percent ∧ r.percent ≤ 100) ∧
      (s.reports.map (·.percent)).getLast? = some 100 := by
  obtain ⟨R, h1, h2, h3⟩ := run_operation name weight substeps inside success hc hle hok
  have hb : ∀ r ∈ R, 0 ≤ r.percent ∧ r.percent ≤ 100 := fun r hr => by
    have := h3 r hr
    refine ⟨this.1, ?_⟩
    rcases this.2 with h | h <;> omega
  refine ⟨_, h1, rfl, ?_, ?_, ?_⟩
  · simp only [List.map_cons, List.map_append, List.map_nil, List.pairwise_cons, List.pairwise_append, List.mem_append, List.mem_map, List.mem_singleton,
      List.Pairwise.nil, List.not_mem_nil, false_imp_iff, implies_true, and_true, true_and]
    refine ⟨?_, h2, ?_⟩
    · rintro a (⟨x, hx, rfl⟩ | rfl)
      · exact (hb x hx).1
      · norm_num
    · rintro a ⟨x, hx, rfl⟩ b rfl
      exact (hb x hx).2
  · intro r hr
    simp only [List.mem_cons, List.mem_append, List.not_mem_nil, or_false] at hr
    rcases hr with rfl | hr | rfl
    · norm_num
    · exact hb r hr
    · norm_num
  · simp only [List.map_cons, List.map_append, List.map_nil]
    rw [← List.cons_append, List.getLast?_append]
    rfl

/-- the same for any moment: what was reported up to now is ordered and in range, whatever will happen to the steps that are still open -/
theorem C46_prefix_partial (name : List Char) (weight substeps : Nat) (inside : Steps) (success : Bool)
    (hc : inside.Correct) (hle : inside.weights ≤ substeps) (hok : success = true → inside.weights = substeps)
    (a b : List Op) (hab : operation name weight substeps inside success = a ++ b) :
    ∃ s, run id ⟨[], []⟩ a = some s ∧ (s.reports.map (·.percent)).Pairwise (· ≤ ·) ∧ ∀ r ∈ s.reports, 0 ≤ r.percent ∧ r.percent ≤ 100 := by
  obtain ⟨s, h1, _, h2, h3, _⟩ := C46_progress_partial name weight substeps inside success hc hle hok
  rw [hab, run_append] at h1
  cases hr : run id ⟨[], []⟩ a with
  | none => rw [hr] at h1; cases h1
  | some t =>
    rw [hr] at h1
    have hp : t.reports <+: s.reports := by
      have key : ∀ {c : Prop} [Decidable c] {x : Option St} {t : St}, (if c then x else none) = some t → x = some t := by
        intro c _ x t h
        split at h
        · exact h
        · cases h
      have hsend : ∀ (k : List Step) (Q : List Report) (t : St), send id ⟨k, Q⟩ = some t → Q <+: t.reports := by
        intro k Q t h
        unfold send at h
        cases k with
        | nil => cases h
        | cons top anc =>
          have h' := key h
          cases h'
          exact List.prefix_append _ _
      have hset : ∀ (k : List Step) (Q : List Report) (t : St) n p, set id ⟨k, Q⟩ n p = some t → Q <+: t.reports := by
        intro k Q t n p h
        unfold set at h
        split at h
        · simp only [] at h
          split at h
          · cases h
          · split at h
            · cases h; exact List.prefix_refl _
            · split at h
              · exact hsend _ _ _ h
              · cases h; exact List.prefix_refl _
        · cases h
      have hop : ∀ (s t : St) o, op id s o = some t → s.reports <+: t.reports := by
        intro s t o h
        cases o with
        | begin n k w =>
          simp only [op, begin] at h
          split at h
          · exact hsend _ _ _ h
          · split at h
            · cases h
            · split at h
              · exact hsend _ _ _ h
              · cases h
        | set n p => exact hset _ _ _ _ _ h
        | finish n ok =>
          simp only [op, finish] at h
          split at h
          · cases h
          · split at h
            · cases h
            · split at h
              · cases h
              · split at h
                · cases h
                · split at h
                  · cases h
                  · rename_i s1 hs1
                    have hpre : s.reports <+: s1.reports := by
                      split at hs1
                      · cases hs1; exact List.prefix_refl _
                      · split at hs1
                        · exact hset _ _ _ _ _ hs1
                        · cases hs1; exact List.prefix_refl _
                    have h' := key h
                    split at h'
                    · cases h'
                    · rename_i s2 hs2
                      cases h'
                      exact List.IsPrefix.trans hpre (hsend s1.stack s1.reports s2 hs2)
      have : ∀ (l : List Op) (s t : St), run id s l = some t → s.reports <+: t.reports := by
        intro l
        induction l with
        | nil => intro s t h; cases h; exact List.prefix_refl _
        | cons o l ih =>
          intro s t h
          simp only [run] at h
          cases ho : op id s o with
          | none => rw [ho] at h; cases h
          | some s' =>
            rw [ho] at h
            exact List.IsPrefix.trans (hop _ _ _ ho) (ih _ _ h)
      exact this b t s h1
    obtain ⟨rest, hrest⟩ := hp
    refine ⟨t, rfl, ?_, ?_⟩
    · rw [← hrest, List.map_append, List.pairwise_append] at h2
      exact h2.1
    · intro r hr'
      exact h3 r (by rw [← hrest]; exact List.mem_append_left _ hr')

/-- If no single step makes up the whole operation, 100 is reported only at the very end. -/
theorem C46_hundred_partial (name : List Char) (weight substeps : Nat) (inside : Steps) (success : Bool)
    (hc : inside.Correct) (hle : inside.weights ≤ substeps) (hok : success = true → inside.weights = substeps)
    (hw : ∀ n w k p i o x, inside = .node n w k p i o x → w ≠ substeps) :
    ∃ s, run id ⟨[], []⟩ (operation name weight substeps inside success) = some s ∧
      ∃ R, s.reports = R ++ [⟨100, 1⟩] ∧ ∀ r ∈ R, r.percent ≤ 99 := by
  obtain ⟨R, h1, _, h3⟩ := run_operation name weight substeps inside success hc hle hok
  refine ⟨_, h1, ⟨0, 1⟩ :: R, rfl, ?_⟩
  intro r hr
  rcases List.mem_cons.1 hr with rfl | hr
  · norm_num
  · rcases (h3 r hr).2 with h | h
    · exact h
    · exfalso
      cases inside with
      | nil => exact h.1
      | node n w k p i o x => exact hw n w k p i o x rfl h.1.1

/-! ## Findings -/

/-- five steps of twelve, then one with ten steps inside -/
def backwards : Steps :=
  let leaf : Steps → Steps := fun next => .node ['a'] 1 0 [] .nil true next
  leaf (leaf (leaf (leaf (leaf (.node ['b'] 1 10 [] (leaf (leaf (leaf (leaf (leaf (leaf (leaf (leaf (leaf (leaf .nil)))))))))) true
    (leaf (leaf (leaf (leaf (leaf (leaf .nil)))))))))))

/-- With the rounding of single precision, the reported percentage can run backwards: from 50 to 49 at the end of the sixth of twelve steps, if this one has ten steps inside. -/
theorem C46_finding_float : backwards.Correct ∧ backwards.weights = 12 ∧
    ((run rnd32 ⟨[], []⟩ (operation ['r'] 1 12 backwards true)).map fun s => s.reports.map (·.percent)) =
      some [0, 0, 8, 8, 16, 16, 25, 25, 33, 33, 41, 41, 41, 42, 42, 43, 43, 44, 44, 44, 44, 45, 45, 46, 46, 47, 47, 48, 48, 49, 49, 50, 49, 49, 58, 58, 66, 66, 75, 75, 83, 83, 91, 91, 99, 100] := by
  refine ⟨?_, by decide, by decide +kernel⟩
  simp [backwards, Steps.Correct, Steps.weights]

/-- A failed operation reports 100 percent too. -/
theorem C46_finding_failed :
    ((run id ⟨[], []⟩ (operation ['r'] 1 4 (.node ['a'] 1 0 [] .nil false .nil) false)).map fun s => s.reports.map (·.percent)) = some [0, 0, 25, 100] := by
  decide +kernel

/-- A step that makes up its whole parent reports 100 percent before the operation is complete. -/
theorem C46_finding_single :
    ((run id ⟨[], []⟩ (operation ['r'] 1 1 (.node ['a'] 1 0 [] .nil true .nil) true)).map fun s => s.reports) = some [⟨0, 1⟩, ⟨0, 2⟩, ⟨100, 2⟩, ⟨100, 1⟩] := by
  decide +kernel

/-- an installation with one slot: four small steps, then the slots with the weight six, in which an image is copied with explicit percentages -/
def sample : Steps :=
  .node ['a'] 1 0 [] .nil true (.node ['b'] 1 1 [] (.node ['c'] 1 0 [] .nil true .nil) true (.node ['d'] 1 0 [] .nil true (.node ['e'] 1 0 [] .nil true
    (.node ['u'] 6 10 [] (.node ['s'] 1 0 [] .nil true (.node ['c'] 9 0 [10, 50, 50, 100] .nil true .nil)) true .nil))))

example : sample.Correct ∧ sample.weights = 10 ∧ (∀ n w k p i o x, sample = .node n w k p i o x → w ≠ 10) ∧
    ((run id ⟨[], []⟩ (operation ['r'] 1 10 sample true)).map fun s => s.reports.map (·.percent)) =
      some [0, 0, 10, 10, 10, 20, 20, 20, 30, 30, 40, 40, 40, 46, 46, 51, 73, 99, 99, 100] := by
  refine ⟨?_, by decide, ?_, by decide +kernel⟩
  · simp [sample, Steps.Correct, Steps.weights]
  · intro n w k p i o x h
    simp only [sample, Steps.node.injEq] at h
    omega

end Rauc.Progress
