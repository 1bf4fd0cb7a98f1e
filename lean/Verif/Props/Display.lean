import Verif.Model.Display
import Verif.Props.Json
import Verif.Props.StatusShell
import Verif.Props.ManifestRound
import Mathlib.Algebra.BigOperators.Group.Finset.Basic
import Mathlib.Algebra.BigOperators.Group.List.Basic
import Mathlib.Tactic.Linarith
import Mathlib.Data.List.Induction

/-!
# C99: statistics, durations and progress bars tell the truth
-/

namespace Rauc.Display

open StatusView (decInt)

/-! ## Specification -/

/-- a number with sign and what follows it -/
def readInt (s : Str) : Option (Int × Str) :=
  if s.head? = some '-' then (Json.readNat s.tail).map (fun x => (-(x.1 : Int), x.2)) else (Json.readNat s).map (fun x => ((x.1 : Int), x.2))

/-- seconds -/
def unitOf (c : Char) : Option Int :=
  if c = 'd' then some 86400 else if c = 'h' then some 3600 else if c = 'm' then some 60 else if c = 's' then some 1 else none

/-- a number with a unit, such as `3h` -/
def readWord (w : Str) : Option Int :=
  (readInt w).bind (fun x => if x.2.length = 1 then (x.2.head?.bind unitOf).map (x.1 * ·) else none)

/-- the seconds that a text such as `1d 3h 20s` means -/
def readDuration (s : Str) : Option Int := ((splitAux ' ' [] s).mapM readWord).map List.sum

/-- all values that were added, in this order -/
def added (big tiny : Rat) (xs : List Rat) : Stats := xs.foldl statsAdd (statsNew big tiny)

/-- the mean of a list -/
def Mean (xs : List Rat) (m : Rat) : Prop := m * xs.length = xs.sum

/-! ## Statistics -/

theorem added_snoc (big tiny : Rat) (xs : List Rat) (v : Rat) : added big tiny (xs ++ [v]) = statsAdd (added big tiny xs) v := by
  simp [added]

theorem added_count (big tiny : Rat) (xs : List Rat) : (added big tiny xs).count = xs.length % 2 ^ 64 ∧ (added big tiny xs).next = xs.length % 64 := by
  induction xs using List.reverseRecOn with
  | nil => exact ⟨rfl, rfl⟩
  | append_singleton xs v ih =>
    rw [added_snoc]
    simp only [statsAdd, ih, List.length_append, List.length_singleton]
    constructor <;> omega

theorem added_sum (big tiny : Rat) (xs : List Rat) : (added big tiny xs).sum = xs.sum := by
  induction xs using List.reverseRecOn with
  | nil => rfl
  | append_singleton xs v ih =>
    rw [added_snoc]
    simp [statsAdd, ih]

theorem added_min (big tiny : Rat) (xs : List Rat) :
    (∀ x ∈ xs, (added big tiny xs).min ≤ x) ∧ (added big tiny xs).min ≤ big ∧ ((added big tiny xs).min = big ∨ (added big tiny xs).min ∈ xs) := by
  induction xs using List.reverseRecOn with
  | nil => exact ⟨by simp, le_refl _, Or.inl rfl⟩
  | append_singleton xs v ih =>
    rw [added_snoc]
    obtain ⟨h1, h2, h3⟩ := ih
    simp only [statsAdd, List.mem_append, List.mem_singleton]
    split
    · rename_i h
      refine ⟨?_, le_trans h.le h2, Or.inr (Or.inr rfl)⟩
      rintro x (hx | rfl)
      · exact le_trans h.le (h1 x hx)
      · exact le_refl _
    · rename_i h
      refine ⟨?_, h2, h3.imp_right Or.inl⟩
      rintro x (hx | rfl)
      · exact h1 x hx
      · exact not_lt.1 h

theorem added_max (big tiny : Rat) (xs : List Rat) :
    (∀ x ∈ xs, x ≤ (added big tiny xs).max) ∧ tiny ≤ (added big tiny xs).max ∧ ((added big tiny xs).max = tiny ∨ (added big tiny xs).max ∈ xs) := by
  induction xs using List.reverseRecOn with
  | nil => exact ⟨by simp, le_refl _, Or.inl rfl⟩
  | append_singleton xs v ih =>
    rw [added_snoc]
    obtain ⟨h1, h2, h3⟩ := ih
    simp only [statsAdd, List.mem_append, List.mem_singleton, gt_iff_lt]
    split
    · rename_i h
      refine ⟨?_, le_trans h2 h.le, Or.inr (Or.inr rfl)⟩
      rintro x (hx | rfl)
      · exact le_trans (h1 x hx) h.le
      · exact le_refl _
    · rename_i h
      refine ⟨?_, h2, h3.imp_right Or.inl⟩
      rintro x (hx | rfl)
      · exact h1 x hx
      · exact not_lt.1 h

/-- the ring holds the last 64 values -/
theorem added_values (big tiny : Rat) (xs : List Rat) (k : Nat) (hk : k < xs.length) (h64 : xs.length ≤ k + 64) :
    some ((added big tiny xs).values (k % 64)) = xs[k]? := by
  induction xs using List.reverseRecOn with
  | nil => simp at hk
  | append_singleton xs v ih =>
    rw [added_snoc]
    simp only [List.length_append, List.length_singleton] at hk h64
    simp only [statsAdd, (added_count big tiny xs).2]
    by_cases he : k = xs.length
    · subst he; simp
    · rw [if_neg (by omega), ih (by omega) (by omega), List.getElem?_append_left (by omega)]

theorem foldl_sum (f : Nat → Rat) (n : Nat) : (List.range n).foldl (fun a i => a + f i) 0 = ∑ i ∈ Finset.range n, f i := by
  induction n with
  | zero => rfl
  | succ n ih => rw [List.range_succ, List.foldl_append, ih, Finset.sum_range_succ]; rfl

/-- the sum of the last 64 values -/
theorem recent_sum (big tiny : Rat) (xs : List Rat) :
    ∑ i ∈ Finset.range (min xs.length 64), (added big tiny xs).values i = (xs.drop (xs.length - 64)).sum := by
  induction xs using List.reverseRecOn with
  | nil => rfl
  | append_singleton xs v ih =>
    rw [added_snoc]
    simp only [statsAdd, (added_count big tiny xs).2, List.length_append, List.length_singleton]
    by_cases h : xs.length < 64
    · have e1 : min (xs.length + 1) 64 = xs.length + 1 := by omega
      have e2 : min xs.length 64 = xs.length := by omega
      have e3 : xs.length - 64 = 0 := by omega
      have e4 : xs.length + 1 - 64 = 0 := by omega
      have e5 : xs.length % 64 = xs.length := by omega
      rw [e2, e3] at ih
      rw [e1, e4, e5, Finset.sum_range_succ]
      simp only [if_true, List.drop_zero, List.sum_append, List.sum_singleton] at ih ⊢
      rw [← ih]
      congr 1
      refine Finset.sum_congr rfl (fun i hi => ?_)
      rw [if_neg (by have := Finset.mem_range.1 hi; omega)]
    · have e1 : min (xs.length + 1) 64 = 64 := by omega
      have e2 : min xs.length 64 = 64 := by omega
      rw [e2] at ih
      rw [e1, List.drop_append_of_le_length (by omega), List.sum_append, List.sum_singleton]
      have hm : xs.length % 64 ∈ Finset.range 64 := Finset.mem_range.2 (Nat.mod_lt _ (by decide))
      have hold := added_values big tiny xs (xs.length - 64) (by omega) (by omega)
      rw [show (xs.length - 64) % 64 = xs.length % 64 by omega] at hold
      rw [List.drop_eq_getElem_cons (show xs.length - 64 < xs.length by omega), List.sum_cons] at ih
      rw [List.getElem?_eq_getElem (by omega)] at hold
      rw [show xs.length + 1 - 64 = xs.length - 64 + 1 by omega]
      rw [← Finset.add_sum_erase _ _ hm] at ih ⊢
      simp only [if_true]
      have hc : ∑ x ∈ (Finset.range 64).erase (xs.length % 64), (if x = xs.length % 64 then v else (added big tiny xs).values x) =
          ∑ x ∈ (Finset.range 64).erase (xs.length % 64), (added big tiny xs).values x := by
        refine Finset.sum_congr rfl (fun i hi => ?_)
        rw [if_neg (Finset.ne_of_mem_erase hi)]
      rw [hc]
      have := Option.some.inj hold
      rw [this] at ih
      linarith

/-- **C99, statistics.** After any number of values (fewer than 2^64): the count and the sum are those of all values, the averages are those of all and of the last
64 values; minimum and maximum are the least and the greatest value, provided that the values are between `tiny` and `big`. -/
theorem C99_stats (big tiny : Rat) (xs : List Rat) (hn : xs.length < 2 ^ 64) :
    (added big tiny xs).count = xs.length ∧ (added big tiny xs).sum = xs.sum ∧
    Mean xs (statsAvg (added big tiny xs)) ∧ Mean (xs.drop (xs.length - 64)) (statsRecentAvg (added big tiny xs)) ∧
    (xs ≠ [] → (∀ x ∈ xs, x ≤ big) → (added big tiny xs).min ∈ xs ∧ ∀ x ∈ xs, (added big tiny xs).min ≤ x) ∧
    ((∃ x ∈ xs, tiny ≤ x) → (added big tiny xs).max ∈ xs ∧ ∀ x ∈ xs, x ≤ (added big tiny xs).max) := by
  have hc : (added big tiny xs).count = xs.length := by rw [(added_count big tiny xs).1]; omega
  have hs := added_sum big tiny xs
  refine ⟨hc, hs, ?_, ?_, ?_, ?_⟩
  · unfold Mean statsAvg
    rw [hc, hs]
    split
    · rename_i h
      have : (xs.length : Rat) ≠ 0 := by exact_mod_cast h
      exact div_mul_cancel₀ _ this
    · rename_i h
      have : xs = [] := List.length_eq_zero_iff.1 (by omega)
      subst this; simp
  · unfold Mean statsRecentAvg
    have e : (if (added big tiny xs).count > 64 then 64 else (added big tiny xs).count) = min xs.length 64 := by
      rw [hc]; split <;> omega
    rw [e]
    simp only []
    rw [foldl_sum, recent_sum]
    have hl : (xs.drop (xs.length - 64)).length = min xs.length 64 := by rw [List.length_drop]; omega
    rw [hl]
    split
    · rename_i h
      have : ((min xs.length 64 : Nat) : Rat) ≠ 0 := by exact_mod_cast h
      exact div_mul_cancel₀ _ this
    · rename_i h
      have : xs = [] := List.length_eq_zero_iff.1 (by omega)
      subst this; simp
  · intro hne hb
    obtain ⟨h1, h2, h3⟩ := added_min big tiny xs
    refine ⟨?_, h1⟩
    rcases h3 with h3 | h3
    · obtain ⟨x, hx⟩ := List.exists_mem_of_ne_nil xs hne
      have := le_antisymm (hb x hx) (h3 ▸ h1 x hx)
      rw [h3, ← this]; exact hx
    · exact h3
  · rintro ⟨x, hx, ht⟩
    obtain ⟨h1, h2, h3⟩ := added_max big tiny xs
    refine ⟨?_, h1⟩
    rcases h3 with h3 | h3
    · have := le_antisymm (h3 ▸ h1 x hx) ht
      rw [h3, ← this]; exact hx
    · exact h3

/-- **C99, log line.** The line shows the label, the number of values and, if there are any, what `C99_stats` speaks of, in separate words. -/
theorem C99_show (fmt : Rat → Str) (hf : ∀ x, ' ' ∉ fmt x) (label : Str) (big tiny : Rat) (xs : List Rat) (hn : xs.length < 2 ^ 64) :
    splitAux ' ' [] (statsShow fmt label none (added big tiny xs)) = splitAux ' ' [] (label ++ c!": count=" ++ toDec xs.length) ++
      if xs = [] then [] else [c!"sum=" ++ fmt xs.sum, c!"min=" ++ fmt (added big tiny xs).min, c!"max=" ++ fmt (added big tiny xs).max,
        c!"avg=" ++ fmt (statsAvg (added big tiny xs)), c!"recent-avg=" ++ fmt (statsRecentAvg (added big tiny xs))] := by
  obtain ⟨hc, hs, -⟩ := C99_stats big tiny xs hn
  unfold statsShow
  simp only [hc, hs]
  by_cases h : xs = []
  · subst h; simp
  · rw [if_neg (by simpa using h), if_neg h]
    have step : ∀ (a w : Str) (r : Str), splitAux ' ' [] (a ++ ' ' :: r) = splitAux ' ' [] a ++ splitAux ' ' [] r := by
      intro a w r
      have gen : ∀ (a acc : Str), splitAux ' ' acc (a ++ ' ' :: r) = splitAux ' ' acc a ++ splitAux ' ' [] r := by
        intro a
        induction a with
        | nil => intro acc; simp [splitAux]
        | cons c a ih =>
          intro acc
          simp only [List.cons_append, splitAux]
          split
          · rw [ih]; rfl
          · rw [ih]
      exact gen a []
    have w : ∀ (k : Str) (x : Rat), ' ' ∉ k → splitAux ' ' [] (k ++ fmt x) = [k ++ fmt x] := by
      intro k x hk
      rw [splitAux_nodelim ' ' _ [] (by simp [hk, hf x])]; simp
    have hall : ∀ (k : Str) (x : Rat) (r : Str), ' ' ∉ k → splitAux ' ' [] (k ++ fmt x ++ ' ' :: r) = (k ++ fmt x) :: splitAux ' ' [] r := by
      intro k x r hk
      rw [step _ [], w k x hk]; rfl
    have e : ∀ (a b c d e f : Str), a ++ c!" sum=" ++ b ++ c!" min=" ++ c ++ c!" max=" ++ d ++ c!" avg=" ++ e ++ c!" recent-avg=" ++ f =
        a ++ ' ' :: (c!"sum=" ++ b ++ ' ' :: (c!"min=" ++ c ++ ' ' :: (c!"max=" ++ d ++ ' ' :: (c!"avg=" ++ e ++ ' ' :: (c!"recent-avg=" ++ f))))) := by
      intros; simp
    rw [e, step _ [], hall _ _ _ (by decide), hall _ _ _ (by decide), hall _ _ _ (by decide), hall _ _ _ (by decide), w _ _ (by decide)]

/-- FINDING: the maximum starts at the least positive number instead of the least number: it is wrong for negative values -/
theorem C99_finding_max (big tiny : Rat) (ht : 0 < tiny) : (added big tiny [-2, -1]).max = tiny := by
  have h1 : ¬ (-2 : Rat) > tiny := by linarith
  have h2 : ¬ (-1 : Rat) > tiny := by linarith
  simp only [added, List.foldl_cons, List.foldl_nil, statsAdd, statsNew, h1, h2, if_false]

example : (added 1000 (1 / 1000) [3, 1, 2]).min = 1 ∧ (added 1000 (1 / 1000) [3, 1, 2]).max = 3 ∧ statsAvg (added 1000 (1 / 1000) [3, 1, 2]) = 2 := by
  decide +kernel

/-! ## Durations -/

theorem readNat_unit (n : Nat) (c : Char) (hc : ∀ v, digitVal c = some v → 10 ≤ v) : Json.readNat (toDec n ++ [c]) = some (n, [c]) := by
  have hd := Config.toDec_digits n
  have hval : (digitsAux 10 0 0 (toDec n)).1 = n := digitsAux_toBase 10 (by omega) (by omega) n
  have hlen : (digitsAux 10 0 0 (toDec n)).2 = (toDec n).length := by
    have := digitsAux_full 10 (toDec n) 0 0 hd
    simpa using this
  have hst := Config.digitsAux_append_stop 10 (toDec n) [c] 0 0 hd (fun c' r e v hv => by cases e; exact Nat.not_lt.2 (hc v hv))
  have hne : toDec n ≠ [] := toBase_ne_nil 10 n
  unfold Json.readNat
  simp only [hst, hval, hlen]
  rw [if_neg (by simpa using hne), List.drop_left]

theorem readInt_dec (n : Int) (c : Char) (hc : ∀ v, digitVal c = some v → 10 ≤ v) : readInt (decInt n ++ [c]) = some (n, [c]) := by
  cases n with
  | ofNat n =>
    unfold readInt decInt
    simp only []
    obtain ⟨x, r, h1, h2, h3⟩ := Json.toDec_head n
    rw [if_neg, readNat_unit n c hc]
    · rfl
    · rw [h1]
      simp only [List.cons_append, List.head?_cons, Option.some.injEq]
      rintro rfl
      exact absurd h2 (by decide)
  | negSucc n =>
    unfold readInt decInt
    simp only [List.cons_append, List.head?_cons, if_true, List.tail_cons]
    rw [readNat_unit _ c hc]
    rfl

theorem readWord_dec (n : Int) (c : Char) (hc : ∀ v, digitVal c = some v → 10 ≤ v) (u : Int) (hu : unitOf c = some u) : readWord (decInt n ++ [c]) = some (n * u) := by
  unfold readWord
  rw [readInt_dec n c hc]
  simp [hu]

theorem decInt_no_space (n : Int) : ∀ c ∈ decInt n, isSpace c = false := by
  have h : ∀ n, ∀ c ∈ toDec n, isSpace c = false := by
    intro n c hc
    obtain ⟨h1, h2⟩ := StatusView.digit_name hc
    unfold isSpace
    have h1' : 48 ≤ c.toNat := h1
    have h2' : c.toNat ≤ 57 := h2
    have key : ∀ d : Char, d.toNat < 48 → c ≠ d := fun d hd e => by subst e; omega
    simp [key ' ' (by decide), key '\t' (by decide), key '\n' (by decide), key '\r' (by decide), key (Char.ofNat 12) (by decide)]
  cases n with
  | ofNat n => exact h n
  | negSucc n =>
    intro c hc
    simp only [decInt, List.mem_cons] at hc
    rcases hc with rfl | hc
    · decide
    · exact h _ c hc

/-- the parts of a duration that are not zero -/
def parts (n : Int) : List (Int × Char) :=
  [(n.tdiv (3600 * 24), 'd'), ((n.tdiv 3600).tmod 24, 'h'), ((n.tdiv 60).tmod 60, 'm'), (n.tmod 60, 's')].filter (fun x => x.1 ≠ 0)

def word (x : Int × Char) : Str := decInt x.1 ++ [x.2]

theorem word_clean {x : Int × Char} (hx : isSpace x.2 = false) : ∀ c ∈ word x, isSpace c = false := by
  intro c hc
  unfold word at hc
  rcases List.mem_append.1 hc with h | h
  · exact decInt_no_space _ c h
  · simp only [List.mem_singleton] at h; subst h; exact hx

theorem word_ne (x : Int × Char) : word x ≠ [] := by simp [word]

theorem join_ne {l : List (Int × Char)} (hne : l ≠ []) : join ' ' (l.map word) ≠ [] := by
  match l, hne with
  | [x], _ => exact word_ne x
  | x :: y :: l, _ => simp [join]

/-- words, each with a space behind it -/
theorem chomp_words (l : List (Int × Char)) (hl : ∀ x ∈ l, isSpace x.2 = false) (hne : l ≠ []) :
    chomp (l.flatMap (fun x => word x ++ [' '])) = join ' ' (l.map word) := by
  induction l with
  | nil => exact absurd rfl hne
  | cons x l ih =>
    rw [List.flatMap_cons]
    by_cases h : l = []
    · subst h
      rw [List.flatMap_nil, List.append_nil, chomp_append_of_nil _ _ (by decide), chomp_nospace _ (word_clean (hl x (by simp)))]
      rfl
    · have ih' := ih (fun y hy => hl y (List.mem_cons_of_mem _ hy)) h
      rw [chomp_append_nonspace _ _ (by rw [ih']; exact join_ne h), ih']
      obtain ⟨y, l', rfl⟩ := List.exists_cons_of_ne_nil h
      simp [join]

theorem parts_unit {n : Int} {x : Int × Char} (hx : x ∈ parts n) : x.2 = 'd' ∨ x.2 = 'h' ∨ x.2 = 'm' ∨ x.2 = 's' := by
  unfold parts at hx
  have := (List.mem_filter.1 hx).1
  simp only [List.mem_cons, List.not_mem_nil, or_false] at this
  rcases this with rfl | rfl | rfl | rfl <;> simp

theorem tparts (n : Int) : n = n.tdiv (3600 * 24) * 86400 + (n.tdiv 3600).tmod 24 * 3600 + (n.tdiv 60).tmod 60 * 60 + n.tmod 60 ∧
    |(n.tdiv 3600).tmod 24| < 24 ∧ |(n.tdiv 60).tmod 60| < 60 ∧ |n.tmod 60| < 60 := by
  have key : ∀ k : Nat, ((k : Int) = (k : Int).tdiv (3600 * 24) * 86400 + ((k : Int).tdiv 3600).tmod 24 * 3600 + ((k : Int).tdiv 60).tmod 60 * 60 + (k : Int).tmod 60 ∧
      |((k : Int).tdiv 3600).tmod 24| < 24 ∧ |((k : Int).tdiv 60).tmod 60| < 60 ∧ |(k : Int).tmod 60| < 60) := by
    intro k
    rw [Int.tdiv_eq_ediv_of_nonneg (by omega), Int.tdiv_eq_ediv_of_nonneg (by omega), Int.tdiv_eq_ediv_of_nonneg (by omega), Int.tmod_eq_emod_of_nonneg (by omega),
      Int.tmod_eq_emod_of_nonneg (by omega), Int.tmod_eq_emod_of_nonneg (by omega)]
    refine ⟨by omega, ?_, ?_, ?_⟩ <;> rw [abs_lt] <;> omega
  obtain ⟨k, rfl | rfl⟩ := n.eq_nat_or_neg
  · exact key k
  · simp only [Int.neg_tdiv, Int.neg_tmod, abs_neg]
    obtain ⟨h1, h2⟩ := key k
    exact ⟨by omega, h2⟩

theorem parts_ne {n : Int} (h : n ≠ 0) : parts n ≠ [] := by
  intro e
  unfold parts at e
  rw [List.filter_eq_nil_iff] at e
  simp only [List.mem_cons, List.not_mem_nil, or_false, decide_eq_true_eq, not_not, forall_eq_or_imp, forall_eq] at e
  obtain ⟨h1, h2, h3, h4⟩ := e
  have := (tparts n).1
  rw [h1, h2, h3, h4] at this
  exact h (by simpa using this)

theorem format_parts {n : Int} (h : n ≠ 0) : formatDuration n = join ' ' ((parts n).map word) := by
  rw [← chomp_words _ (fun x hx => by rcases parts_unit hx with e | e | e | e <;> rw [e] <;> decide) (parts_ne h)]
  unfold formatDuration parts
  simp only [h, or_false]
  by_cases h1 : n.tdiv (3600 * 24) = 0 <;> by_cases h2 : (n.tdiv 3600).tmod 24 = 0 <;> by_cases h3 : (n.tdiv 60).tmod 60 = 0 <;> by_cases h4 : n.tmod 60 = 0 <;>
    simp only [h1, h2, h3, h4, ne_eq, not_true_eq_false, not_false_eq_true, if_true, if_false, List.filter_cons, List.filter_nil, decide_true, decide_false,
      Bool.false_eq_true, List.flatMap_cons, List.flatMap_nil, List.append_nil, List.nil_append, word] <;>
    first
      | (simp only [List.append_assoc, List.cons_append, List.nil_append]; done)
      | (rw [chomp_append_of_nil _ [' '] (by decide)]; done)
      | (rw [← chomp_append_of_nil _ c!" " (by decide)]; simp only [List.append_assoc, List.cons_append, List.nil_append])
      | skip

/-- **C99, durations.** The text for a duration means this duration, for every number of seconds (also negative ones). It consists of days, hours, minutes and seconds
in this order; hours are below 24, minutes and seconds below 60, parts that are zero are left out. -/
theorem C99_duration (n : Int) : readDuration (formatDuration n) = some n := by
  by_cases h : n = 0
  · subst h; decide
  rw [format_parts h]
  unfold readDuration
  rw [splitAux_join ' ' _ (by simpa using parts_ne h)]
  · have key : ∀ l : List (Int × Char), (∀ x ∈ l, x.2 = 'd' ∨ x.2 = 'h' ∨ x.2 = 'm' ∨ x.2 = 's') →
        (l.map word).mapM readWord = some (l.map (fun x => x.1 * (unitOf x.2).getD 0)) := by
      intro l hl
      induction l with
      | nil => rfl
      | cons x l ih =>
        have hx : readWord (word x) = some (x.1 * (unitOf x.2).getD 0) := by
          unfold word
          rcases hl x (by simp) with e | e | e | e <;> rw [e] <;>
            exact readWord_dec _ _ (by decide) _ rfl
        rw [List.map_cons, List.mapM_cons, hx, ih (fun y hy => hl y (List.mem_cons_of_mem _ hy))]
        rfl
    rw [key _ (fun x hx => parts_unit hx)]
    simp only [Option.map_some, Option.some.injEq]
    have hz : ∀ l : List (Int × Char), ((l.filter (fun x => x.1 ≠ 0)).map (fun x => x.1 * (unitOf x.2).getD 0)).sum = (l.map (fun x => x.1 * (unitOf x.2).getD 0)).sum := by
      intro l
      induction l with
      | nil => rfl
      | cons x l ih =>
        rw [List.filter_cons]
        split
        · rw [List.map_cons, List.sum_cons, ih, List.map_cons, List.sum_cons]
        · rename_i h0
          have : x.1 = 0 := by simpa using h0
          rw [ih, List.map_cons, List.sum_cons, this]; simp
    unfold parts
    rw [hz]
    simp only [List.map_cons, List.map_nil, List.sum_cons, List.sum_nil, unitOf]
    simp only [show ('d' = 'd') = True from by simp, if_true, show ('h' = 'd') = False by simp, show ('h' = 'h') = True by simp, if_false, show ('m' = 'd') = False by simp,
      show ('m' = 'h') = False by simp, show ('m' = 'm') = True by simp, show ('s' = 'd') = False by simp, show ('s' = 'h') = False by simp, show ('s' = 'm') = False by simp,
      show ('s' = 's') = True by simp, Option.getD_some]
    have := (tparts n).1
    omega
  · intro t ht
    obtain ⟨x, hx, rfl⟩ := List.mem_map.1 ht
    intro hs
    have := word_clean (x := x) (by rcases parts_unit hx with e | e | e | e <;> rw [e] <;> decide) ' ' hs
    cases this

/-- the units in their order, with the bounds of their numbers -/
theorem C99_duration_form (n : Int) (h : n ≠ 0) : ∃ d hh m s : Int, |hh| < 24 ∧ |m| < 60 ∧ |s| < 60 ∧ n = d * 86400 + hh * 3600 + m * 60 + s ∧
    formatDuration n = join ' ' (([(d, 'd'), (hh, 'h'), (m, 'm'), (s, 's')].filter (fun x => x.1 ≠ 0)).map (fun x => StatusView.signedDec x.1 ++ [x.2])) := by
  obtain ⟨h1, h2, h3, h4⟩ := tparts n
  refine ⟨n.tdiv (3600 * 24), (n.tdiv 3600).tmod 24, (n.tdiv 60).tmod 60, n.tmod 60, h2, h3, h4, h1, (format_parts h).trans ?_⟩
  unfold parts
  congr 1
  refine List.map_congr_left (fun x _ => ?_)
  rw [← StatusView.decInt_eq]
  rfl

example : formatDuration 93784 = c!"1d 2h 3m 4s" ∧ formatDuration 0 = c!"0s" ∧ formatDuration (-3601) = c!"-1h -1s" ∧ formatDuration 86400 = c!"1d" := by decide +kernel

/-! ## Progress bar -/

theorem bar_eq (len q : Nat) : (List.range len).map (fun i : Nat => if (i : Int) > (q : Int) then ' ' else '#') =
    List.replicate (min len (q + 1)) '#' ++ List.replicate (len - (q + 1)) ' ' := by
  apply List.ext_getElem
  · simp; omega
  · intro i h1 h2
    simp only [List.length_map, List.length_range] at h1
    simp only [List.getElem_map, List.getElem_range]
    by_cases h : i < min len (q + 1)
    · rw [List.getElem_append_left (by simpa using h), List.getElem_replicate, if_neg (by omega)]
    · rw [List.getElem_append_right (by rw [List.length_replicate]; omega), List.getElem_replicate, if_pos (by omega)]

/-- the part of the line between the brackets -/
def inside (line : Str) : Str := (line.drop 1).takeWhile (· ≠ ']')

def fill (line : Str) : Nat := (inside line).count '#'

theorem pad3_spec (p : Nat) (hp : p ≤ 100) : (pad3 p).length = 3 ∧ ∃ k, pad3 p = List.replicate k ' ' ++ toDec p := by
  refine ⟨?_, 3 - (decInt (p : Int)).length, rfl⟩
  have : ∀ p : Fin 101, (pad3 (p.val : Int)).length = 3 := by decide +kernel
  exact this ⟨p, by omega⟩

/-- **C99, progress bar.** For 0 to 100 percent on a terminal with 8 or more columns: the line leaves the last column free; the bar has one `#` more than the percentage of its length (but not
more than fit), from the left; behind it is the percentage. -/
theorem C99_bar (cols p : Nat) (hc : 8 ≤ cols) (hp : p ≤ 100) : ∃ line, progressLine cols p = some line ∧ line.length = cols - 1 ∧
    (inside line).length = cols - 7 ∧ inside line = List.replicate (fill line) '#' ++ List.replicate (cols - 7 - fill line) ' ' ∧
    fill line = min (cols - 7) ((cols - 7) * p / 100 + 1) ∧
    ∃ pre, line = pre ++ toDec p ++ c!"%" ∧ pre.getLast? ∈ [some ' ', some ']'] := by
  have e1 : ((cols : Int) - 1 - 1 - 5) = ((cols - 7 : Nat) : Int) := by omega
  have e2 : ((((cols - 7 : Nat) : Int)) * (p : Int)).tdiv 100 = (((cols - 7) * p / 100 : Nat) : Int) := by
    rw [← Int.natCast_mul, Int.tdiv_eq_ediv_of_nonneg (by omega)]; omega
  have hpad := pad3_spec p hp
  generalize hq : (cols - 7) * p / 100 = q at *
  generalize hn : cols - 7 = n at *
  have hline : progressLine cols p = some ('[' :: (List.replicate (min n (q + 1)) '#' ++ List.replicate (n - (q + 1)) ' ') ++ c!"]" ++ pad3 p ++ c!"%") := by
    unfold progressLine
    rw [if_pos (by omega)]
    simp only [e1, e2, Int.toNat_natCast, bar_eq]
  have hin : inside ('[' :: (List.replicate (min n (q + 1)) '#' ++ List.replicate (n - (q + 1)) ' ') ++ c!"]" ++ pad3 p ++ c!"%") =
      List.replicate (min n (q + 1)) '#' ++ List.replicate (n - (q + 1)) ' ' := by
    unfold inside
    simp only [List.cons_append, List.drop_succ_cons, List.drop_zero, List.append_assoc]
    rw [← List.append_assoc, List.takeWhile_append_of_pos]
    · simp
    · intro c hc
      rcases List.mem_append.1 hc with h | h
      · rw [(List.mem_replicate.1 h).2]; decide
      · rw [(List.mem_replicate.1 h).2]; decide
  have hfill : fill ('[' :: (List.replicate (min n (q + 1)) '#' ++ List.replicate (n - (q + 1)) ' ') ++ c!"]" ++ pad3 p ++ c!"%") = min n (q + 1) := by
    unfold fill
    rw [hin, List.count_append, List.count_replicate, List.count_replicate]
    simp
  refine ⟨_, hline, ?_, ?_, ?_, hfill, ?_⟩
  · simp only [List.length_append, List.length_cons, List.length_replicate, List.length_nil, hpad.1]; omega
  · rw [hin]; simp only [List.length_append, List.length_replicate]; omega
  · rw [hfill, hin]
    congr 2
    omega
  · obtain ⟨k, hk⟩ := hpad.2
    refine ⟨'[' :: (List.replicate (min n (q + 1)) '#' ++ List.replicate (n - (q + 1)) ' ') ++ c!"]" ++ List.replicate k ' ', by rw [hk]; simp, ?_⟩
    cases k with
    | zero =>
      rw [List.replicate_zero, List.append_nil, List.getLast?_concat]; simp
    | succ k =>
      rw [List.replicate_succ', ← List.append_assoc, List.getLast?_concat]; simp

/-- more progress never shows as a shorter bar, and 100 % is a full bar -/
theorem C99_bar_grows (cols p p' : Nat) (hc : 8 ≤ cols) (hpp : p ≤ p') (hp : p' ≤ 100) (l l' : Str) (h : progressLine cols p = some l) (h' : progressLine cols p' = some l') :
    fill l ≤ fill l' ∧ (p' = 100 → fill l' = (inside l').length) := by
  obtain ⟨x, h1, -, -, -, h2, -⟩ := C99_bar cols p hc (by omega)
  obtain ⟨x', h1', -, h3', -, h2', -⟩ := C99_bar cols p' hc hp
  rw [h] at h1; cases h1
  rw [h'] at h1'; cases h1'
  rw [h2, h2', h3']
  have : (cols - 7) * p / 100 ≤ (cols - 7) * p' / 100 := Nat.div_le_div_right (Nat.mul_le_mul_left _ hpp)
  refine ⟨by omega, ?_⟩
  rintro rfl
  omega

/-- without a terminal, percentage and message can be read from the line -/
theorem C99_progress_text (p : Nat) (hp : p ≤ 100) (msg : Str) : Json.readNat ((progressText p msg).dropWhile (· = ' ')) = some (p, c!"% " ++ msg) := by
  obtain ⟨-, k, hk⟩ := pad3_spec p hp
  unfold progressText
  rw [hk]
  obtain ⟨x, r, h1, h2, h3⟩ := Json.toDec_head p
  have : (List.replicate k ' ' ++ toDec p ++ c!"% " ++ msg).dropWhile (· = ' ') = toDec p ++ (c!"% " ++ msg) := by
    rw [List.append_assoc, List.append_assoc, List.dropWhile_append_of_pos (by intro c hc; rw [(List.mem_replicate.1 hc).2]; rfl), h1]
    rw [List.cons_append, List.dropWhile_cons_of_neg]
    simp only [decide_eq_true_eq]
    rintro rfl
    exact absurd h2 (by decide)
  rw [this]
  exact Json.readNat_dec p _ (by intro c r e; cases e; decide)

/-- FINDING: the bar is never empty, even at 0 %, and it is already full before 100 %: on a terminal with 80 columns at 99 %. -/
theorem C99_finding_bar : (∀ cols, 8 ≤ cols → ∃ l, progressLine cols 0 = some l ∧ fill l = 1) ∧ ∃ l, progressLine 80 99 = some l ∧ fill l = (inside l).length := by
  constructor
  · intro cols hc
    obtain ⟨l, h1, -, -, -, h2, -⟩ := C99_bar cols 0 hc (by omega)
    exact ⟨l, h1, by rw [h2]; omega⟩
  · obtain ⟨l, h1, -, h3, -, h2, -⟩ := C99_bar 80 99 (by omega) (by omega)
    exact ⟨l, h1, by rw [h2, h3]; decide⟩

/-- FINDING: terminals that do not know their size (0 columns, e.g. serial consoles) show no bar at all; the default of 80 columns is only used when asking fails. -/
theorem C99_finding_no_columns : progressLine 0 50 = some c!"[] 50%" := by decide

end Rauc.Display
