import Verif.Model.Semver

/-!
# C21, C22: version comparison and version limit
-/

namespace Rauc.Semver

/-! ## Specification: semantic versions (semver.org, version 2.0.0, items 2, 9, 10, 11) -/

/-- an identifier of the pre-release part -/
inductive Ident where
  /-- only digits -/
  | num (n : Nat)
  /-- anything else -/
  | alpha (s : Str)
deriving DecidableEq, Repr

/-- item 11.4: numeric identifiers compare numerically, others in ASCII order, numeric ones come first -/
inductive Ident.Lt : Ident → Ident → Prop
  | nums {m n : Nat} : m < n → Ident.Lt (.num m) (.num n)
  | mixed {m : Nat} {s : Str} : Ident.Lt (.num m) (.alpha s)
  | alphas {s t : Str} : s < t → Ident.Lt (.alpha s) (.alpha t)

/-- item 11.4: field by field from the left; if all are equal, the longer list has the higher precedence -/
inductive PreLE : List Ident → List Ident → Prop
  | nil {l} : PreLE [] l
  | lt {a b as bs} : Ident.Lt a b → PreLE (a :: as) (b :: bs)
  | eq {a as bs} : PreLE as bs → PreLE (a :: as) (a :: bs)

/-- a version without its build part -/
structure Ver where
  major : Nat
  minor : Nat
  patch : Nat
  /-- `none`: no pre-release part -/
  pre : Option (List Ident)
deriving DecidableEq, Repr

/-- item 11: precedence. The core decides numerically; with equal cores, a version with a pre-release part comes
before the one without. -/
inductive Ver.LE : Ver → Ver → Prop
  | major {v w : Ver} : v.major < w.major → Ver.LE v w
  | minor {v w : Ver} : v.major = w.major → v.minor < w.minor → Ver.LE v w
  | patch {v w : Ver} : v.major = w.major → v.minor = w.minor → v.patch < w.patch → Ver.LE v w
  | release {v w : Ver} : v.major = w.major → v.minor = w.minor → v.patch = w.patch → w.pre = none → Ver.LE v w
  | pre {v w : Ver} {p q : List Ident} : v.major = w.major → v.minor = w.minor → v.patch = w.patch → v.pre = some p →
      w.pre = some q → PreLE p q → Ver.LE v w

/-- spelling of an identifier -/
def Ident.str : Ident → Str
  | .num n => toDec n
  | .alpha s => s

def preText : Option (List Ident) → Str
  | none => []
  | some ids => '-' :: join '.' (ids.map Ident.str)

def buildText : Option Str → Str
  | none => []
  | some b => '+' :: b

/-- the text of a version, with an optional build part -/
def render (v : Ver) (build : Option Str) : Str :=
  toDec v.major ++ '.' :: (toDec v.minor ++ '.' :: (toDec v.patch ++
    (preText v.pre ++ buildText build)))

/-- identifiers RAUC handles as the standard says: not empty, characters `[0-9A-Za-z]` (hyphens, which the standard
allows too, excluded), numbers below 2^64 -/
def Ident.Ok : Ident → Prop
  | .num n => n ≤ u64max
  | .alpha s => (∃ c ∈ s, c.isAlpha = true) ∧ ∀ c ∈ s, c.isAlphanum = true

structure Ver.Ok (v : Ver) : Prop where
  major : v.major ≤ u64max
  minor : v.minor ≤ u64max
  patch : v.patch ≤ u64max
  pre : ∀ ids, v.pre = some ids → ids ≠ [] ∧ ∀ i ∈ ids, i.Ok

/-! ## Lemmas -/

theorem strLt_iff (a b : Str) : strLt a b = true ↔ a < b := by
  induction a generalizing b with
  | nil => cases b <;> simp [strLt]
  | cons x a ih =>
    cases b with
    | nil => simp [strLt]
    | cons y b =>
      rw [strLt, List.cons_lt_cons_iff]
      have hxy : x < y ↔ x.toNat < y.toNat := Iff.rfl
      have heq : x = y ↔ x.toNat = y.toNat := by
        constructor
        · rintro rfl; rfl
        · intro h; exact Char.ext (UInt32.toNat_inj.mp h)
      rw [hxy, heq]
      by_cases h1 : x.toNat < y.toNat
      · simp [h1]
      · by_cases h2 : y.toNat < x.toNat
        · simp [h1, h2]; omega
        · have : x.toNat = y.toNat := by omega
          simp [this, ih]

/-- what kind of identifier a field is for the code -/
def ident (s : Str) : Ident :=
  match strToUnsigned s with
  | some n => .num n
  | none => .alpha s

theorem Ident.lt_irrefl (a : Ident) : ¬ Ident.Lt a a := by
  cases a
  · rintro ⟨⟩; omega
  · rintro ⟨⟩; exact absurd ‹_› (List.lt_irrefl _)

theorem Ident.lt_trans {a b c : Ident} (h : Ident.Lt a b) (h' : Ident.Lt b c) : Ident.Lt a c := by
  cases h <;> cases h'
  · exact .nums (by omega)
  · exact .mixed
  · exact .mixed
  · exact .alphas (List.lt_trans ‹_› ‹_›)

theorem Ident.trichotomy (a b : Ident) : Ident.Lt a b ∨ a = b ∨ Ident.Lt b a := by
  cases a with
  | num m =>
    cases b with
    | num n =>
      rcases Nat.lt_trichotomy m n with h | h | h
      · exact Or.inl (.nums h)
      · exact Or.inr (Or.inl (by rw [h]))
      · exact Or.inr (Or.inr (.nums h))
    | alpha t => exact Or.inl .mixed
  | alpha s =>
    cases b with
    | num n => exact Or.inr (Or.inr .mixed)
    | alpha t =>
      by_cases h : s < t
      · exact Or.inl (.alphas h)
      · by_cases h' : t < s
        · exact Or.inr (Or.inr (.alphas h'))
        · exact Or.inr (Or.inl (by rw [List.le_antisymm (List.not_lt.mp h') (List.not_lt.mp h)]))

theorem fieldsLE_iff (as bs : List Str) : fieldsLE as bs = true ↔ PreLE (as.map ident) (bs.map ident) := by
  induction as generalizing bs with
  | nil => simp only [fieldsLE, List.map_nil, true_iff]; exact .nil
  | cons a as ih =>
    cases bs with
    | nil =>
      simp only [fieldsLE, List.map_cons, List.map_nil, Bool.false_eq_true, false_iff]
      rintro ⟨⟩
    | cons b bs =>
      simp only [List.map_cons]
      have key : ∀ i j : Ident, PreLE (i :: as.map ident) (j :: bs.map ident) ↔
          Ident.Lt i j ∨ (i = j ∧ PreLE (as.map ident) (bs.map ident)) := by
        intro i j
        constructor
        · rintro (_ | h | h)
          · exact Or.inl ‹_›
          · exact Or.inr ⟨rfl, ‹_›⟩
        · rintro (h | ⟨rfl, h⟩)
          · exact .lt h
          · exact .eq h
      rw [key]
      have nn : ∀ x y, Ident.Lt (.num x) (.num y) ↔ x < y := by
        intro x y; constructor
        · rintro ⟨h⟩; assumption
        · exact .nums
      have na : ∀ x s, Ident.Lt (.num x) (.alpha s) := fun x s => .mixed
      have an : ∀ x s, ¬ Ident.Lt (.alpha s) (.num x) := by rintro x s ⟨⟩
      have aa : ∀ x y, Ident.Lt (.alpha x) (.alpha y) ↔ x < y := by
        intro x y; constructor
        · rintro ⟨h⟩; assumption
        · exact .alphas
      cases ha : strToUnsigned a with
      | some x =>
        cases hb : strToUnsigned b with
        | some y =>
          simp only [fieldsLE, ident, ha, hb, nn, Ident.num.injEq]
          by_cases h1 : x < y
          · simp [h1]
          · by_cases h2 : y < x
            · simp [h1, h2]; omega
            · have : x = y := by omega
              simp [this, ih]
        | none => simp [fieldsLE, ident, ha, hb, na]
      | none =>
        cases hb : strToUnsigned b with
        | some y => simp [fieldsLE, ident, ha, hb, an]
        | none =>
          simp only [fieldsLE, ident, ha, hb, aa, Ident.alpha.injEq]
          by_cases h1 : a < b
          · simp [(strLt_iff a b).mpr h1, h1]
          · have h1' : strLt a b = false := by rw [Bool.eq_false_iff]; exact fun h => h1 ((strLt_iff a b).mp h)
            by_cases h2 : b < a
            · have h3 : a ≠ b := by rintro rfl; exact List.lt_irrefl _ h2
              simp [h1', (strLt_iff b a).mpr h2, h1, h3]
            · have h2' : strLt b a = false := by rw [Bool.eq_false_iff]; exact fun h => h2 ((strLt_iff b a).mp h)
              have h3 : a = b := List.le_antisymm (List.not_lt.mp h2) (List.not_lt.mp h1)
              rw [h1', h2']
              simp only [Bool.false_eq_true, ↓reduceIte, h1, false_or]
              rw [ih bs]
              exact ⟨fun h => ⟨h3, h⟩, fun h => h.2⟩

theorem PreLE.refl (l : List Ident) : PreLE l l := by
  induction l with
  | nil => exact .nil
  | cons a l ih => exact .eq ih

theorem PreLE.trans {a b c : List Ident} (h : PreLE a b) (h' : PreLE b c) : PreLE a c := by
  induction h generalizing c with
  | nil => exact .nil
  | lt h =>
    cases h' with
    | lt h' => exact .lt (Ident.lt_trans h h')
    | eq h' => exact .lt h
  | eq h ih =>
    cases h' with
    | lt h' => exact .lt h'
    | eq h' => exact .eq (ih h')

theorem PreLE.total (a b : List Ident) : PreLE a b ∨ PreLE b a := by
  induction a generalizing b with
  | nil => exact Or.inl .nil
  | cons x a ih =>
    cases b with
    | nil => exact Or.inr .nil
    | cons y b =>
      rcases Ident.trichotomy x y with h | rfl | h
      · exact Or.inl (.lt h)
      · exact (ih b).imp .eq .eq
      · exact Or.inr (.lt h)

theorem PreLE.antisymm {a b : List Ident} (h : PreLE a b) (h' : PreLE b a) : a = b := by
  induction h with
  | nil => cases h'; rfl
  | lt h =>
    cases h' with
    | lt h' => exact absurd (Ident.lt_trans h h') (Ident.lt_irrefl _)
    | eq h' => exact absurd h (Ident.lt_irrefl _)
  | eq h ih =>
    cases h' with
    | lt h' => exact absurd h' (Ident.lt_irrefl _)
    | eq h' => rw [ih h']

/-! ### The order on versions -/

theorem Ver.le_refl (v : Ver) : Ver.LE v v := by
  cases h : v.pre with
  | none => exact .release rfl rfl rfl h
  | some p => exact .pre rfl rfl rfl h h (PreLE.refl p)

theorem Ver.le_total (v w : Ver) : Ver.LE v w ∨ Ver.LE w v := by
  rcases Nat.lt_trichotomy v.major w.major with h1 | h1 | h1
  · exact Or.inl (.major h1)
  · rcases Nat.lt_trichotomy v.minor w.minor with h2 | h2 | h2
    · exact Or.inl (.minor h1 h2)
    · rcases Nat.lt_trichotomy v.patch w.patch with h3 | h3 | h3
      · exact Or.inl (.patch h1 h2 h3)
      · cases hv : v.pre with
        | none => exact Or.inr (.release h1.symm h2.symm h3.symm hv)
        | some p =>
          cases hw : w.pre with
          | none => exact Or.inl (.release h1 h2 h3 hw)
          | some q =>
            exact (PreLE.total p q).imp (fun h => .pre h1 h2 h3 hv hw h)
              (fun h => .pre h1.symm h2.symm h3.symm hw hv h)
      · exact Or.inr (.patch h1.symm h2.symm h3)
    · exact Or.inr (.minor h1.symm h2)
  · exact Or.inr (.major h1)

theorem Ver.le_trans {u v w : Ver} (h : Ver.LE u v) (h' : Ver.LE v w) : Ver.LE u w := by
  cases h with
  | major a =>
    cases h' with
    | major b => exact .major (by omega)
    | minor b _ | patch b _ _ | release b _ _ _ | pre b _ _ _ _ _ => exact .major (by omega)
  | minor a b =>
    cases h' with
    | major c => exact .major (by omega)
    | minor c d => exact .minor (by omega) (by omega)
    | patch c d _ | release c d _ _ | pre c d _ _ _ _ => exact .minor (by omega) (by omega)
  | patch a b c =>
    cases h' with
    | major d => exact .major (by omega)
    | minor d e => exact .minor (by omega) (by omega)
    | patch d e f => exact .patch (by omega) (by omega) (by omega)
    | release d e f _ | pre d e f _ _ _ => exact .patch (by omega) (by omega) (by omega)
  | release a b c hp =>
    cases h' with
    | major d => exact .major (by omega)
    | minor d e => exact .minor (by omega) (by omega)
    | patch d e f => exact .patch (by omega) (by omega) (by omega)
    | release d e f hq => exact .release (by omega) (by omega) (by omega) hq
    | pre d e f hv hw _ => rw [hp] at hv; exact absurd hv (by simp)
  | pre a b c hu hv hpq =>
    cases h' with
    | major d => exact .major (by omega)
    | minor d e => exact .minor (by omega) (by omega)
    | patch d e f => exact .patch (by omega) (by omega) (by omega)
    | release d e f hq => exact .release (by omega) (by omega) (by omega) hq
    | pre d e f hv' hw hqr =>
      rw [hv] at hv'
      cases hv'
      exact .pre (by omega) (by omega) (by omega) hu hw (hpq.trans hqr)

/-- the version a parsed string stands for -/
def Parsed.ver (p : Parsed) : Ver :=
  ⟨p.core.1, p.core.2.1, p.core.2.2, p.pre.map (fun s => (split '.' s).map ident)⟩

theorem preLE_iff (a b : Option Str) (x y z : Nat) :
    preLE a b = true ↔ Ver.LE ⟨x, y, z, a.map (fun s => (split '.' s).map ident)⟩
      ⟨x, y, z, b.map (fun s => (split '.' s).map ident)⟩ := by
  cases a with
  | none =>
    cases b with
    | none => simp only [preLE, true_iff]; exact Ver.le_refl _
    | some b =>
      simp only [preLE, Bool.false_eq_true, false_iff]
      rintro (h | ⟨_, h⟩ | ⟨_, _, h⟩ | ⟨_, _, _, h⟩ | ⟨_, _, _, h, _⟩)
      · exact absurd h (Nat.lt_irrefl _)
      · exact absurd h (Nat.lt_irrefl _)
      · exact absurd h (Nat.lt_irrefl _)
      · simp at h
      · simp at h
  | some a =>
    cases b with
    | none => simp only [preLE, true_iff]; exact .release rfl rfl rfl rfl
    | some b =>
      simp only [preLE, fieldsLE_iff]
      constructor
      · intro h; exact .pre rfl rfl rfl rfl rfl h
      · rintro (h | ⟨_, h⟩ | ⟨_, _, h⟩ | ⟨_, _, _, h⟩ | ⟨_, _, _, h1, h2, h⟩)
        · exact absurd h (Nat.lt_irrefl _)
        · exact absurd h (Nat.lt_irrefl _)
        · exact absurd h (Nat.lt_irrefl _)
        · simp at h
        · simp only [Option.map_some, Option.some.injEq] at h1 h2
          rw [h1, h2]; exact h

theorem parsedLE_iff (a b : Parsed) : parsedLE a b = true ↔ Ver.LE a.ver b.ver := by
  obtain ⟨⟨x, y, z⟩, p⟩ := a
  obtain ⟨⟨x', y', z'⟩, q⟩ := b
  simp only [parsedLE, Parsed.ver]
  have no : ∀ {u v : Ver}, (v.major < u.major ∨ v.major = u.major ∧ (v.minor < u.minor ∨ v.minor = u.minor ∧ v.patch < u.patch)) →
      ¬ Ver.LE u v := by
    intro u v h hle
    cases hle <;> omega
  rcases Nat.lt_trichotomy x x' with h1 | rfl | h1
  · simp only [h1, ↓reduceIte, true_iff]; exact .major h1
  · rcases Nat.lt_trichotomy y y' with h2 | rfl | h2
    · simp only [Nat.lt_irrefl, h2, ↓reduceIte, true_iff]; exact .minor rfl h2
    · rcases Nat.lt_trichotomy z z' with h3 | rfl | h3
      · simp only [Nat.lt_irrefl, h3, ↓reduceIte, true_iff]; exact .patch rfl rfl h3
      · simp only [Nat.lt_irrefl, ↓reduceIte]
        exact preLE_iff p q x y z
      · simp only [Nat.lt_irrefl, h3, Nat.lt_asymm h3, ↓reduceIte, Bool.false_eq_true, false_iff]
        exact no (Or.inr ⟨rfl, Or.inr ⟨rfl, h3⟩⟩)
    · simp only [Nat.lt_irrefl, h2, Nat.lt_asymm h2, ↓reduceIte, Bool.false_eq_true, false_iff]
      exact no (Or.inr ⟨rfl, Or.inl h2⟩)
  · simp only [h1, Nat.lt_asymm h1, ↓reduceIte, Bool.false_eq_true, false_iff]
    exact no (Or.inl h1)

/-! ### Reading a rendered version -/

theorem strToUnsigned_toDec (n : Nat) (h : n ≤ u64max) : strToUnsigned (toDec n) = some n := by
  have h1 := digitsAux_toBase 10 (by omega) (by omega) n
  have h2 : (digitsAux 10 0 0 (toDec n)).2 = (toDec n).length := by
    have := digitsAux_full 10 (toDec n) 0 0 (by
      intro c hc
      obtain ⟨d, hd, rfl⟩ := toBase_chars 10 (by omega) n c hc
      exact ⟨d, digitVal_digitChar d (by omega), hd⟩)
    simpa using this
  have h1' : (digitsAux 10 0 0 (toDec n)).1 = n := h1
  rw [strToUnsigned, if_pos ⟨toBase_ne_nil 10 n, h2, by rw [h1']; exact h⟩, h1']

theorem cutLast_none {d : Char} {s : Str} (h : d ∉ s) : cutLast d s = none := by
  induction s with
  | nil => rfl
  | cons c s ih =>
    simp only [List.mem_cons, not_or] at h
    simp [cutLast, ih h.2, Ne.symm h.1]

theorem cutLast_append {d : Char} (a b : Str) (h : d ∉ b) : cutLast d (a ++ d :: b) = some (a, b) := by
  induction a with
  | nil => simp [cutLast, cutLast_none h]
  | cons c a ih => simp [cutLast, ih]

theorem toDec_nochar (n : Nat) {c : Char} (hc : c = '.' ∨ c = '-' ∨ c = '+') : c ∉ toDec n := by
  intro h
  obtain ⟨d, hd, rfl⟩ := toBase_chars 10 (by omega) n c h
  have := digitChar_facts ⟨d, by omega⟩
  simp only [] at this
  rcases hc with hc | hc | hc
  · exact this.2.2.2.2.2.2.2 hc
  · exact this.2.2.1 hc
  · exact this.2.2.2.1 hc

theorem parseCore_render (x y z : Nat) (hx : x ≤ u64max) (hy : y ≤ u64max) (hz : z ≤ u64max) :
    parseCore (toDec x ++ '.' :: (toDec y ++ '.' :: toDec z)) = some (x, y, z) := by
  have hs : splitMax '.' 3 (toDec x ++ '.' :: (toDec y ++ '.' :: toDec z)) = [toDec x, toDec y, toDec z] := by
    have : split '.' (join '.' [toDec x, toDec y, toDec z]) = [toDec x, toDec y, toDec z] :=
      split_join '.' _ (by
        intro t ht
        simp only [List.mem_cons, List.not_mem_nil, or_false] at ht
        rcases ht with rfl | rfl | rfl <;> exact toDec_nochar _ (Or.inl rfl)) (by simp)
    simp only [join] at this
    rw [splitMax, this]
    rfl
  simp [parseCore, hs, strToUnsigned_toDec, hx, hy, hz]

theorem isAlphanum_facts {c : Char} (h : c.isAlphanum = true) : c ≠ '.' ∧ c ≠ '-' ∧ c ≠ '+' := by
  refine ⟨?_, ?_, ?_⟩ <;> rintro rfl <;> exact absurd h (by decide)

theorem ident_chars {i : Ident} (h : i.Ok) {c : Char} (hc : c = '.' ∨ c = '-' ∨ c = '+') : c ∉ i.str := by
  cases i with
  | num n => exact toDec_nochar n hc
  | alpha s =>
    intro hm
    have := isAlphanum_facts (h.2 c hm)
    rcases hc with rfl | rfl | rfl
    · exact this.1 rfl
    · exact this.2.1 rfl
    · exact this.2.2 rfl

theorem alpha_not_digit {c : Char} (h : c.isAlpha = true) : ¬ ∃ v, digitVal c = some v ∧ v < 10 := by
  rintro ⟨v, hv, hlt⟩
  unfold digitVal at hv
  split at hv
  · rename_i hr
    have h1 : '0'.toNat ≤ c.toNat := hr.1
    have h2 : c.toNat ≤ '9'.toNat := hr.2
    have e0 : '0'.toNat = 48 := rfl
    have e9 : '9'.toNat = 57 := rfl
    rw [e0] at h1; rw [e9] at h2
    simp only [Char.isAlpha, Char.isUpper, Char.isLower, Bool.or_eq_true, Bool.and_eq_true, decide_eq_true_eq] at h
    have hv : c.val.toNat = c.toNat := rfl
    rcases h with ⟨ha, hb⟩ | ⟨ha, hb⟩
    · have : (65 : Nat) ≤ c.val.toNat := by simpa using UInt32.le_iff_toNat_le.mp ha
      omega
    · have : (97 : Nat) ≤ c.val.toNat := by simpa using UInt32.le_iff_toNat_le.mp ha
      omega
  · split at hv
    · simp only [Option.some.injEq] at hv; omega
    · split at hv
      · simp only [Option.some.injEq] at hv; omega
      · exact absurd hv (by simp)

theorem digitsAux_len (b : Nat) (s : Str) (a k : Nat) (h : (digitsAux b a k s).2 = k + s.length) :
    ∀ c ∈ s, ∃ v, digitVal c = some v ∧ v < b := by
  have le : ∀ (s : Str) (a k : Nat), (digitsAux b a k s).2 ≤ k + s.length := by
    intro s
    induction s with
    | nil => intro a k; simp [digitsAux]
    | cons c s ih =>
      intro a k
      rw [digitsAux]
      split
      · split
        · simp only [List.length_cons]
          rename_i v _ _
          have := ih (a * b + v) (k + 1)
          omega
        · simp
      · simp
  induction s generalizing a k with
  | nil => simp
  | cons c s ih =>
    rw [digitsAux] at h
    cases hd : digitVal c with
    | none => rw [hd] at h; simp at h
    | some v =>
      rw [hd] at h
      simp only [] at h
      by_cases hv : v < b
      · rw [if_pos hv] at h
        intro x hx
        rcases List.mem_cons.mp hx with rfl | hx
        · exact ⟨v, hd, hv⟩
        · exact ih _ _ (by rw [h, List.length_cons]; omega) x hx
      · rw [if_neg hv] at h
        simp at h

theorem ident_str {i : Ident} (h : i.Ok) : ident i.str = i := by
  cases i with
  | num n => simp [ident, Ident.str, strToUnsigned_toDec n h]
  | alpha s =>
    have : strToUnsigned s = none := by
      rw [strToUnsigned, if_neg]
      rintro ⟨-, h2, -⟩
      obtain ⟨c, hc, ha⟩ := h.1
      exact alpha_not_digit ha (digitsAux_len 10 s 0 0 (by simpa using h2) c hc)
    simp [ident, Ident.str, this]

theorem mem_join {d : Char} {l : List Str} {c : Char} (h : c ∈ join d l) : c = d ∨ ∃ t ∈ l, c ∈ t := by
  induction l with
  | nil => exact absurd h (by simp [join])
  | cons t l ih =>
    cases l with
    | nil => exact Or.inr ⟨t, by simp, by simpa [join] using h⟩
    | cons u l =>
      simp only [join, List.mem_append, List.mem_cons] at h
      rcases h with h | h | h
      · exact Or.inr ⟨t, by simp, h⟩
      · exact Or.inl h
      · rcases ih h with h | ⟨t', h1, h2⟩
        · exact Or.inl h
        · exact Or.inr ⟨t', List.mem_cons_of_mem _ h1, h2⟩

theorem parse_render (v : Ver) (hv : v.Ok) (build : Option Str) (hb : ∀ b, build = some b → '+' ∉ b) :
    ∃ p, parse (render v build) = some p ∧ p.ver = v := by
  obtain ⟨x, y, z, pre⟩ := v
  -- the part before the build
  have nodot : ∀ (n : Nat), '-' ∉ toDec n ∧ '+' ∉ toDec n :=
    fun n => ⟨toDec_nochar n (Or.inr (Or.inl rfl)), toDec_nochar n (Or.inr (Or.inr rfl))⟩
  let core : Str := toDec x ++ '.' :: (toDec y ++ '.' :: toDec z)
  have hcore : '-' ∉ core ∧ '+' ∉ core := by
    simp only [core, List.mem_append, List.mem_cons, not_or]
    exact ⟨⟨(nodot x).1, by decide, (nodot y).1, by decide, (nodot z).1⟩, ⟨(nodot x).2, by decide, (nodot y).2, by decide, (nodot z).2⟩⟩
  have hids : ∀ ids, pre = some ids → '+' ∉ join '.' (ids.map Ident.str) ∧ '-' ∉ join '.' (ids.map Ident.str) := by
    intro ids h
    have hok := (hv.pre ids h).2
    constructor <;> intro hm <;> rcases mem_join hm with h | ⟨t, h1, h2⟩
    · exact absurd h (by decide)
    · obtain ⟨i, hi, rfl⟩ := List.mem_map.mp h1
      exact ident_chars (hok i hi) (Or.inr (Or.inr rfl)) h2
    · exact absurd h (by decide)
    · obtain ⟨i, hi, rfl⟩ := List.mem_map.mp h1
      exact ident_chars (hok i hi) (Or.inr (Or.inl rfl)) h2
  have hr : render ⟨x, y, z, pre⟩ build = (core ++ preText pre) ++ buildText build := by
    simp only [render, core, List.append_assoc, List.cons_append]
  have htail : '+' ∉ core ++ preText pre := by
    rw [List.mem_append, not_or]
    refine ⟨hcore.2, ?_⟩
    cases hp : pre with
    | none => simp [preText]
    | some ids =>
      simp only [preText, List.mem_cons, not_or]
      exact ⟨by decide, (hids ids hp).1⟩
  have h1 : beforeLast '+' (render ⟨x, y, z, pre⟩ build) = core ++ preText pre := by
    rw [hr]
    cases hbd : build with
    | none =>
      simp only [buildText, List.append_nil]
      rw [beforeLast, cutLast_none htail]
    | some b =>
      simp only [buildText]
      rw [beforeLast, cutLast_append _ _ (hb b hbd)]
  have hpc := parseCore_render x y z hv.major hv.minor hv.patch
  unfold parse
  simp only [h1]
  cases hp : pre with
  | none =>
    simp only [preText, List.append_nil]
    rw [beforeLast, cutLast_none hcore.1]
    exact ⟨⟨(x, y, z), none⟩, by simp only [core, hpc, Option.map_none], rfl⟩
  | some ids =>
    simp only [preText]
    rw [beforeLast, cutLast_append _ _ (hids ids hp).2]
    refine ⟨⟨(x, y, z), some (join '.' (ids.map Ident.str))⟩, by simp only [core, hpc, Option.map_some], ?_⟩
    simp only [Parsed.ver, Option.map_some]
    congr 2
    obtain ⟨hne, hok⟩ := hv.pre ids hp
    rw [split_join]
    · rw [List.map_map]
      conv => rhs; rw [← List.map_id ids]
      apply List.map_congr_left
      intro i hi
      exact ident_str (hok i hi)
    · intro t htm
      obtain ⟨i, hi, rfl⟩ := List.mem_map.mp htm
      exact ident_chars (hok i hi) (Or.inl rfl)
    · intro he
      cases ids with
      | nil => exact hne rfl
      | cons i ids =>
        simp only [List.map_cons, List.cons.injEq] at he
        have hi := hok i (by simp)
        cases i with
        | num n => exact toBase_ne_nil 10 n he.1
        | alpha s =>
          obtain ⟨c, hc, -⟩ := hi.1
          have : s = [] := he.1
          rw [this] at hc
          exact absurd hc (by simp)

/-! ## C21 -/

/-- The comparison is the precedence order of the versions the strings stand for; it fails exactly when one of the
strings is not accepted. -/
theorem C21_is_precedence (a b : Str) :
    (∀ pa pb, parse a = some pa → parse b = some pb →
      ∃ r, lessEqual a b = some r ∧ (r = true ↔ Ver.LE pa.ver pb.ver)) ∧
    (parse a = none ∨ parse b = none → lessEqual a b = none) := by
  constructor
  · intro pa pb ha hb
    exact ⟨parsedLE pa pb, by simp [lessEqual, ha, hb], parsedLE_iff pa pb⟩
  · intro h
    unfold lessEqual
    rcases h with h | h
    · rw [h]
    · rw [h]; split <;> rfl

/-- Reflexive on accepted strings, transitive and total. -/
theorem C21_refl (a : Str) (h : lessEqual a a ≠ none) : lessEqual a a = some true := by
  unfold lessEqual at h ⊢
  cases ha : parse a with
  | none => rw [ha] at h; exact absurd rfl h
  | some p => simp only [(parsedLE_iff p p).mpr (Ver.le_refl _)]

theorem C21_trans (a b c : Str) (h1 : lessEqual a b = some true) (h2 : lessEqual b c = some true) :
    lessEqual a c = some true := by
  unfold lessEqual at *
  cases ha : parse a with
  | none => rw [ha] at h1; exact absurd h1 (by simp)
  | some pa =>
    cases hb : parse b with
    | none => rw [hb] at h2; exact absurd h2 (by simp)
    | some pb =>
      cases hc : parse c with
      | none => rw [hb, hc] at h2; exact absurd h2 (by simp)
      | some pc =>
        simp only [ha, hb, hc, Option.some.injEq, parsedLE_iff] at *
        exact Ver.le_trans h1 h2

theorem C21_total (a b : Str) (h : lessEqual a b ≠ none) :
    lessEqual a b = some true ∨ lessEqual b a = some true := by
  unfold lessEqual at *
  cases ha : parse a with
  | none => rw [ha] at h; exact absurd rfl h
  | some pa =>
    cases hb : parse b with
    | none => rw [ha, hb] at h; exact absurd rfl h
    | some pb =>
      simp only [Option.some.injEq, parsedLE_iff]
      exact Ver.le_total _ _

/-- Whether a string is accepted does not depend on the other one. -/
theorem C21_error_symm (a b : Str) : lessEqual a b = none ↔ lessEqual b a = none := by
  unfold lessEqual
  cases parse a <;> cases parse b <;> simp

/-- Two semantic versions written out, with any build parts: the answer is that of the standard. (Partial: identifiers
with hyphens are refused, see below, and numbers above 2^64-1 are not covered.) -/
theorem C21_semver_partial (v w : Ver) (hv : v.Ok) (hw : w.Ok) (bv bw : Option Str)
    (hbv : ∀ b, bv = some b → '+' ∉ b) (hbw : ∀ b, bw = some b → '+' ∉ b) :
    ∃ r, lessEqual (render v bv) (render w bw) = some r ∧ (r = true ↔ Ver.LE v w) := by
  obtain ⟨p, hp, hpv⟩ := parse_render v hv bv hbv
  obtain ⟨q, hq, hqw⟩ := parse_render w hw bw hbw
  obtain ⟨r, h1, h2⟩ := (C21_is_precedence _ _).1 p q hp hq
  exact ⟨r, h1, by rw [h2, hpv, hqw]⟩

/-- Versions the standard allows, but RAUC refuses (a hyphen within a pre-release identifier) or orders differently
(numeric identifiers of 2^64 and more count as text). -/
theorem C21_semver_violated :
    lessEqual (c!"1.0.0-alpha-1") (c!"1.0.0") = none ∧
    lessEqual (c!"1.0.0-100000000000000000000") (c!"1.0.0-20000000000000000000") = some true := by
  decide

/-! ## C22 -/

/-- With a minimum version configured and not ignored, the check passes iff the bundle has a version which is at least
the minimum; an unparsable version on either side fails. -/
theorem C22_fails_closed (m : Str) (version : Option Str) :
    checkVersionLimits (some m) false version = true ↔
      ∃ v pm pv, version = some v ∧ parse m = some pm ∧ parse v = some pv ∧ Ver.LE pm.ver pv.ver := by
  unfold checkVersionLimits
  cases version with
  | none => simp
  | some v =>
    simp only [Bool.false_eq_true, ↓reduceIte]
    cases hm : parse m with
    | none => simp [lessEqual, hm]
    | some pm =>
      cases hv : parse v with
      | none => simp [lessEqual, hm, hv]
      | some pv =>
        have := parsedLE_iff pm pv
        simp only [lessEqual, hm, hv]
        cases hle : parsedLE pm pv with
        | true => simp [← this, hle, hv]
        | false => simp [← this, hle, hv]

/-- without a configured minimum, or when ignored, nothing is refused -/
theorem C22_off (m version : Option Str) (ignore : Bool) (h : m = none ∨ ignore = true) :
    checkVersionLimits m ignore version = true := by
  unfold checkVersionLimits
  cases m with
  | none => rfl
  | some m =>
    rcases h with h | h
    · exact absurd h (by simp)
    · simp [h]

/-! ## Concrete cases -/

example : lessEqual (c!"1.0.0-alpha") (c!"1.0.0-alpha.1") = some true := by decide
example : lessEqual (c!"1.0.0-beta.11") (c!"1.0.0-beta.2") = some false := by decide
example : lessEqual (c!"1.0.0-rc.1") (c!"1.0.0") = some true := by decide
example : lessEqual (c!"1.0.0") (c!"1.0.0-rc.1+b") = some false := by decide
example : lessEqual (c!"1.2.3.4") (c!"2") = none := by decide
example : lessEqual [] (c!"1") = none := by decide
example : checkVersionLimits (some (c!"2.0")) false (some (c!"10.0")) = true := by decide
example : checkVersionLimits (some (c!"2.0")) false (some (c!"1.9")) = false := by decide
example : checkVersionLimits (some (c!"2.0")) false (some (c!"v3")) = false := by decide
/-- hypotheses of `C21_semver_partial` -/
example : (⟨1, 2, 3, some [.alpha (c!"rc"), .num 1]⟩ : Ver).Ok :=
  ⟨by decide, by decide, by decide, by
    intro ids h
    cases h
    refine ⟨by simp, ?_⟩
    intro i hi
    simp only [List.mem_cons, List.not_mem_nil, or_false] at hi
    rcases hi with rfl | rfl
    · exact ⟨⟨'r', by decide⟩, by decide⟩
    · exact (by decide : 1 ≤ u64max)⟩
example : render ⟨1, 2, 3, some [.alpha (c!"rc"), .num 1]⟩ (some (c!"b-7")) = c!"1.2.3-rc.1+b-7" := by decide

end Rauc.Semver
