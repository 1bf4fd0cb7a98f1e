import Verif.Model.Verity
import Mathlib.Tactic.Linarith
import Mathlib.Tactic.Ring

/-!
# C31: hash tree creation and verification
-/

namespace Rauc.Verity

/-! ## Specification: the Merkle tree of dm-verity -/

/-- Block `g` of the level above `n` blocks `blk`: the digests one after the other, filled with zeros. -/
def hashBlock (H : Bytes → Bytes) (P : Par) (n : Nat) (blk : Nat → Bytes) (g : Nat) : Bytes :=
  (List.range P.B).map fun x =>
    if (g * P.B + x) / P.D < n then (H (blk ((g * P.B + x) / P.D))).getD ((g * P.B + x) % P.D) 0 else 0

/-- `r` is the root hash over the `n` blocks `blk`. -/
inductive IsRoot (H : Bytes → Bytes) (P : Par) : Nat → (Nat → Bytes) → Bytes → Prop
  | leaf (blk) : IsRoot H P 1 blk (H (blk 0))
  | node (n blk r) : 1 < n → IsRoot H P ((n + P.hpb - 1) / P.hpb) (hashBlock H P n blk) r → IsRoot H P n blk r

/-- block `i` of a file -/
def File.block (P : Par) (f : File) (i : Nat) : Bytes := f.data.read (i * P.B) P.B

/-- `x` is a block of the hash tree over the `n` blocks `blk`, or one of these -/
inductive InTree (H : Bytes → Bytes) (P : Par) : Nat → (Nat → Bytes) → Bytes → Prop
  | data {n : Nat} {blk : Nat → Bytes} (j : Nat) : j < n → InTree H P n blk (blk j)
  | hash {n : Nat} {blk : Nat → Bytes} {x : Bytes} : 1 < n → InTree H P ((n + P.hpb - 1) / P.hpb) (hashBlock H P n blk) x → InTree H P n blk x

/-- A block of one tree and a different one of another tree have the same hash. (That there are any two blocks with the same hash is trivial.) -/
def Collision (H : Bytes → Bytes) (P : Par) (n : Nat) (f g : Nat → Bytes) : Prop := ∃ x y : Bytes, x ≠ y ∧ InTree H P n f x ∧ InTree H P n g y ∧ H x = H y

theorem hashBlock_length (H P n blk g) : (hashBlock H P n blk g).length = P.B := by simp [hashBlock]

theorem hashBlock_congr {H P n f g} (h : ∀ j, j < n → f j = g j) (i : Nat) : hashBlock H P n f i = hashBlock H P n g i := by
  unfold hashBlock
  apply List.map_congr_left
  intro x _
  split
  · rename_i hl; rw [h _ hl]
  · rfl

theorem IsRoot.congr {H P n f r} (h : IsRoot H P n f r) : ∀ {g : Nat → Bytes}, (∀ j, j < n → f j = g j) → IsRoot H P n g r := by
  induction h with
  | leaf blk =>
    intro g hg
    rw [hg 0 (by omega)]
    exact .leaf g
  | node n blk r hn _ ih =>
    intro g hg
    exact .node n g r hn (ih (fun j _ => hashBlock_congr hg j))

theorem IsRoot.det {H P n f r} (h : IsRoot H P n f r) : ∀ {r'}, IsRoot H P n f r' → r = r' := by
  induction h with
  | leaf blk =>
    intro r' h'
    cases h' with
    | leaf => rfl
    | node _ _ _ hn _ => omega
  | node n blk r hn _ ih =>
    intro r' h'
    cases h' with
    | leaf => omega
    | node _ _ _ _ h2 => exact ih h2

theorem up_mul (P : Par) (w : P.WF) (n : Nat) : n * P.D ≤ P.up n * P.B := by
  have h1 : n ≤ P.up n * P.hpb := by
    unfold Par.up
    have := Nat.lt_div_mul_add (a := n + P.hpb - 1) (b := P.hpb) (by have := w.two; omega)
    have := w.two
    omega
  calc n * P.D ≤ (P.up n * P.hpb) * P.D := Nat.mul_le_mul_right _ h1
    _ = P.up n * P.B := by rw [w.b, Nat.mul_assoc]

theorem hashBlock_inj {H : Bytes → Bytes} {P : Par} (w : P.WF) (hH : ∀ b, (H b).length = P.D) {n f g}
    (h : ∀ i, i < P.up n → hashBlock H P n f i = hashBlock H P n g i) : ∀ j, j < n → H (f j) = H (g j) := by
  intro j hj
  apply List.ext_getElem
  · rw [hH, hH]
  intro k h1 h2
  rw [hH] at h1
  have hB : 0 < P.B := by rw [w.b]; have := w.two; have := w.d; positivity
  have hy : j * P.D + k < n * P.D := by
    have : (j + 1) * P.D ≤ n * P.D := Nat.mul_le_mul_right _ hj
    rw [Nat.add_mul, Nat.one_mul] at this
    omega
  have hlt : (j * P.D + k) / P.B < P.up n := by
    rw [Nat.div_lt_iff_lt_mul hB]
    exact lt_of_lt_of_le hy (up_mul P w n)
  have hb := h _ hlt
  have hx : (j * P.D + k) % P.B < P.B := Nat.mod_lt _ hB
  have e : (j * P.D + k) / P.B * P.B + (j * P.D + k) % P.B = j * P.D + k := Nat.div_add_mod' _ _
  have hq : (j * P.D + k) / P.D = j := by
    rw [Nat.mul_comm, Nat.mul_add_div w.d, Nat.div_eq_of_lt h1, Nat.add_zero]
  have hr : (j * P.D + k) % P.D = k := by
    rw [Nat.mul_comm, Nat.mul_add_mod, Nat.mod_eq_of_lt h1]
  have hb' : (hashBlock H P n f ((j * P.D + k) / P.B))[(j * P.D + k) % P.B]? = (hashBlock H P n g ((j * P.D + k) / P.B))[(j * P.D + k) % P.B]? := by
    rw [hb]
  unfold hashBlock at hb'
  rw [List.getElem?_map, List.getElem?_map, List.getElem?_range hx] at hb'
  simp only [Option.map_some, e, hq, hr, if_pos hj, Option.some.injEq] at hb'
  rw [List.getD_eq_getElem _ _ (by rw [hH]; exact h1), List.getD_eq_getElem _ _ (by rw [hH]; exact h1)] at hb'
  exact hb'

theorem IsRoot.binding {H : Bytes → Bytes} {P : Par} (w : P.WF) (hH : ∀ b, (H b).length = P.D) {n f r} (h : IsRoot H P n f r) :
    ∀ {g}, IsRoot H P n g r → (∀ j, j < n → f j = g j) ∨ Collision H P n f g := by
  induction h with
  | leaf blk =>
    intro g h'
    generalize hr : H (blk 0) = r at h'
    cases h' with
    | leaf =>
      by_cases h : blk 0 = g 0
      · left; intro j hj
        have : j = 0 := by omega
        rw [this]; exact h
      · exact Or.inr ⟨_, _, h, .data 0 (by omega), .data 0 (by omega), hr⟩
    | node _ _ _ hn _ => omega
  | node n blk r hn _ ih =>
    intro g h'
    cases h' with
    | leaf => omega
    | node _ _ _ _ h2 =>
      rcases ih h2 with h | ⟨x, y, h3, h4, h5, h6⟩
      · have := hashBlock_inj w hH h
        by_cases hall : ∀ j, j < n → blk j = g j
        · exact Or.inl hall
        · push Not at hall
          obtain ⟨j, hj, hne⟩ := hall
          exact Or.inr ⟨_, _, hne, .data j hj, .data j hj, this j hj⟩
      · exact Or.inr ⟨x, y, h3, .hash hn h4, .hash hn h5, h6⟩

/-! ## Layout -/

/-- number of blocks below level `i` -/
def cnt (P : Par) (n i : Nat) : Nat := (n + P.hpb ^ i - 1) / P.hpb ^ i

theorem levelSize_eq (P : Par) (n i : Nat) : levelSize P n i = cnt P n (i + 1) := rfl

theorem cnt_zero (P : Par) (n : Nat) : cnt P n 0 = n := by simp [cnt]

theorem cnt_succ {P : Par} (w : P.WF) (n i : Nat) : cnt P n (i + 1) = P.up (cnt P n i) := by
  unfold cnt Par.up
  have h2 := w.two
  have hp : 0 < P.hpb ^ i := by positivity
  rw [pow_succ, ← Nat.div_div_eq_div_mul]
  congr 1
  have e : n + P.hpb ^ i * P.hpb - 1 = (n + P.hpb ^ i - 1) + P.hpb ^ i * (P.hpb - 1) := by
    have : P.hpb ^ i * P.hpb = P.hpb ^ i * (P.hpb - 1) + P.hpb ^ i := by
      rw [← Nat.mul_succ]
      congr 1
      omega
    omega
  rw [e, Nat.add_mul_div_left _ _ hp]
  generalize (n + P.hpb ^ i - 1) / P.hpb ^ i = q
  omega

theorem source_snd {P : Par} (n L i : Nat) : (source P n L i).2 = cnt P n i := by
  cases i with
  | zero => exact (cnt_zero P n).symm
  | succ i => rfl

theorem levelSize_up {P : Par} (w : P.WF) (n L i : Nat) : levelSize P n i = P.up (source P n L i).2 := by
  rw [levelSize_eq, cnt_succ w, source_snd]

theorem levelsLoop_zero {P : Par} (m : Nat) : ∀ fuel l, m < P.hpb ^ (l + fuel) → m / P.hpb ^ (levelsLoop P m fuel l) = 0 := by
  intro fuel
  induction fuel with
  | zero => intro l h; exact Nat.div_eq_of_lt h
  | succ k ih =>
    intro l h
    simp only [levelsLoop]
    split
    · exact ih (l + 1) (by rw [show l + 1 + k = l + (k + 1) by omega]; exact h)
    · rename_i h1; exact Decidable.not_not.1 h1

theorem levelsLoop_min {P : Par} (m : Nat) : ∀ fuel l j, l ≤ j → j < levelsLoop P m fuel l → m / P.hpb ^ j ≠ 0 := by
  intro fuel
  induction fuel with
  | zero => intro l j h1 h2; simp only [levelsLoop] at h2; omega
  | succ k ih =>
    intro l j h1 h2
    simp only [levelsLoop] at h2
    split at h2
    · rename_i h3
      rcases Nat.lt_or_eq_of_le h1 with h4 | h4
      · exact ih (l + 1) j h4 h2
      · rw [← h4]; exact h3
    · omega

theorem cnt_le_one {P : Par} (w : P.WF) {n i} (hn : n ≠ 0) : cnt P n i = 1 ↔ (n - 1) / P.hpb ^ i = 0 := by
  have hp : 0 < P.hpb ^ i := by have := w.two; positivity
  unfold cnt
  have : n + P.hpb ^ i - 1 = (n - 1) + P.hpb ^ i := by omega
  rw [this, Nat.add_div_right _ hp]
  omega

theorem cnt_pos {P : Par} (w : P.WF) {n i} (hn : n ≠ 0) : 0 < cnt P n i := by
  have hp : 0 < P.hpb ^ i := by have := w.two; positivity
  unfold cnt
  apply Nat.div_pos _ hp
  omega

theorem cnt_levels {P : Par} (w : P.WF) {n} (hn : n ≠ 0) (hlt : n * P.B < 2 ^ 64) : cnt P n (levels P n) = 1 := by
  rw [cnt_le_one w hn]
  apply levelsLoop_zero
  have hB : 1 ≤ P.B := by
    rw [w.b]
    have h1 := w.two
    have h2 := w.d
    exact Nat.mul_pos (by omega) h2
  have h1 : n * 1 ≤ n * P.B := Nat.mul_le_mul_left _ hB
  have h2 : 2 ^ 64 ≤ P.hpb ^ 64 := Nat.pow_le_pow_left w.two _
  rw [Nat.zero_add]
  omega

theorem cnt_below {P : Par} (w : P.WF) {n i} (hn : n ≠ 0) (hi : i < levels P n) : 1 < cnt P n i := by
  have h1 := cnt_pos w hn (i := i)
  have h2 : cnt P n i ≠ 1 := by
    rw [Ne, cnt_le_one w hn]
    exact levelsLoop_min _ _ 0 i (by omega) hi
  omega

theorem posOf_bounds (P : Par) (n : Nat) : ∀ L p i, i < L → p ≤ posOf P n L p i ∧ posOf P n L p i + levelSize P n i ≤ endPos P n L p := by
  have he : ∀ L p, p ≤ endPos P n L p := by
    intro L
    induction L with
    | zero => intro p; exact le_refl _
    | succ L ih => intro p; simp only [endPos]; have := ih (p + levelSize P n L); omega
  intro L
  induction L with
  | zero => intro p i h; omega
  | succ L ih =>
    intro p i h
    simp only [posOf, endPos]
    split
    · rename_i e; subst e
      exact ⟨le_refl _, he _ _⟩
    · have := ih (p + levelSize P n L) i (by omega)
      exact ⟨by omega, this.2⟩

theorem posOf_disj (P : Par) (n : Nat) : ∀ L p i j, i < j → j < L → posOf P n L p j + levelSize P n j ≤ posOf P n L p i := by
  intro L
  induction L with
  | zero => intro p i j _ h; omega
  | succ L ih =>
    intro p i j hij hj
    simp only [posOf]
    rw [if_neg (by omega : ¬ i = L)]
    split
    · rename_i e; subst e
      exact (posOf_bounds P n j _ i hij).1
    · exact ih _ _ _ hij (by omega)

/-- the last level ends where everything ends -/
theorem posOf_zero (P : Par) (n : Nat) : ∀ L p, 0 < L → posOf P n L p 0 + levelSize P n 0 = endPos P n L p := by
  intro L
  induction L with
  | zero => intro p h; omega
  | succ L ih =>
    intro p _
    simp only [posOf, endPos]
    by_cases h : L = 0
    · subst h; rfl
    · rw [if_neg (by omega)]; exact ih _ (by omega)

/-! ## One level -/

/-- the level at `wr` belongs to the `n` blocks at `rd` -/
def LevelOk (P : Par) (H : Bytes → Bytes) (d : Disk) (rd wr n : Nat) : Prop :=
  ∀ g, g < P.up n → d.read ((wr + g) * P.B) P.B = hashBlock H P n (fun j => d.read ((rd + j) * P.B) P.B) g

/-- byte by byte -/
theorem levelOk_iff {P : Par} {H d rd wr n} (hB : 0 < P.B) : LevelOk P H d rd wr n ↔
    ∀ y, y < P.up n * P.B → d (wr * P.B + y) =
      if y / P.D < n then (H (d.read ((rd + y / P.D) * P.B) P.B)).getD (y % P.D) 0 else 0 := by
  constructor
  · intro h y hy
    have hg : y / P.B < P.up n := (Nat.div_lt_iff_lt_mul hB).2 hy
    have hx : y % P.B < P.B := Nat.mod_lt _ hB
    have e : y / P.B * P.B + y % P.B = y := Nat.div_add_mod' _ _
    have h1 : (d.read ((wr + y / P.B) * P.B) P.B)[y % P.B]? = (hashBlock H P n (fun j => d.read ((rd + j) * P.B) P.B) (y / P.B))[y % P.B]? := by
      rw [h _ hg]
    unfold hashBlock Disk.read at h1
    rw [List.getElem?_map, List.getElem?_map, List.getElem?_range hx] at h1
    simp only [Option.map_some, e, Option.some.injEq] at h1
    rw [Nat.add_mul, Nat.add_assoc, e] at h1
    exact h1
  · intro h g hg
    unfold hashBlock
    conv_lhs => unfold Disk.read
    apply List.map_congr_left
    intro x hx
    rw [List.mem_range] at hx
    have hy : g * P.B + x < P.up n * P.B := by
      have : (g + 1) * P.B ≤ P.up n * P.B := Nat.mul_le_mul_right _ hg
      rw [Nat.add_mul, Nat.one_mul] at this
      omega
    rw [Nat.add_mul, Nat.add_assoc]
    exact h _ hy

theorem verifyBlocks_iff {P : Par} {H rd wr f} : ∀ m i, verifyBlocks P H rd wr f m i = true ↔
    ∀ j, i ≤ j → j < i + m → rd * P.B + j * P.B + P.B ≤ f.size ∧ wr * P.B + j * P.D + P.D ≤ f.size ∧
      f.data.read (wr * P.B + j * P.D) P.D = H (f.data.read (rd * P.B + j * P.B) P.B) := by
  intro m
  induction m with
  | zero => intro i; simp only [verifyBlocks, true_iff]; intro j h1 h2; omega
  | succ m ih =>
    intro i
    simp only [verifyBlocks, File.read?]
    constructor
    · intro h
      split at h
      · cases h
      rename_i b hb
      split at hb
      · rename_i h1
        cases hb
        split at h
        · cases h
        rename_i x hx
        split at hx
        · rename_i h2
          cases hx
          split at h
          · rename_i h3
            intro j hj1 hj2
            rcases Nat.lt_or_eq_of_le hj1 with hj | hj
            · exact (ih (i + 1)).1 h j hj (by omega)
            · rw [← hj]; exact ⟨h1, h2, h3⟩
          · cases h
        · cases hx
      · cases hb
    · intro h
      obtain ⟨h1, h2, h3⟩ := h i (le_refl _) (by omega)
      rw [if_pos h1]
      simp only []
      rw [if_pos h2]
      simp only []
      rw [if_pos h3]
      exact (ih (i + 1)).2 (fun j hj1 hj2 => h j (by omega) (by omega))

theorem verifyZero_iff {f : File} {off n} : verifyZero f off n = true ↔ n = 0 ∨ (off + n ≤ f.size ∧ ∀ x, x < n → f.data (off + x) = 0) := by
  unfold verifyZero File.read?
  split
  · simp [*]
  · rename_i hn
    split
    · rename_i h
      split at h
      · cases h
      · rename_i h2
        simp only [Bool.false_eq_true, false_iff]
        rintro (h3 | h3)
        · exact hn h3
        · exact h2 h3.1
    · rename_i b h
      split at h
      · rename_i h2
        cases h
        simp only [List.all_eq_true, beq_iff_eq, Disk.read, List.mem_map, List.mem_range]
        constructor
        · intro h3
          exact Or.inr ⟨h2, fun x hx => h3 _ ⟨x, hx, rfl⟩⟩
        · rintro (h3 | h3)
          · exact absurd h3 hn
          · rintro _ ⟨x, hx, rfl⟩
            exact h3.2 x hx
      · cases h

theorem WF.posB {P : Par} (w : P.WF) : 0 < P.B := by
  rw [w.b]
  have h1 := w.two
  have h2 := w.d
  exact Nat.mul_pos (by omega) h2

theorem digest_iff {P : Par} (w : P.WF) {H : Bytes → Bytes} (hH : ∀ b, (H b).length = P.D) (d : Disk) (rd wr n : Nat) :
    (∀ y, y < n * P.D → d (wr * P.B + y) = (H (d.read ((rd + y / P.D) * P.B) P.B)).getD (y % P.D) 0) ↔
    ∀ j, j < n → d.read (wr * P.B + j * P.D) P.D = H (d.read (rd * P.B + j * P.B) P.B) := by
  constructor
  · intro h j hj
    apply List.ext_getElem
    · rw [Disk.read_length, hH]
    intro k h1 h2
    rw [Disk.read_length] at h1
    rw [Disk.read_get _ _ _ _ h1]
    have hy : j * P.D + k < n * P.D := by
      have : (j + 1) * P.D ≤ n * P.D := Nat.mul_le_mul_right _ hj
      rw [Nat.add_mul, Nat.one_mul] at this
      omega
    have hq : (j * P.D + k) / P.D = j := by
      rw [Nat.mul_comm, Nat.mul_add_div w.d, Nat.div_eq_of_lt h1, Nat.add_zero]
    have hr : (j * P.D + k) % P.D = k := by
      rw [Nat.mul_comm, Nat.mul_add_mod, Nat.mod_eq_of_lt h1]
    have := h _ hy
    rw [hq, hr, List.getD_eq_getElem _ _ (by rw [hH]; exact h1)] at this
    rw [Nat.add_assoc, this]
    simp only [Nat.add_mul]
  · intro h y hy
    have hj : y / P.D < n := (Nat.div_lt_iff_lt_mul w.d).2 hy
    have hk : y % P.D < P.D := Nat.mod_lt _ w.d
    have e := h _ hj
    rw [Nat.add_mul, ← e, List.getD_eq_getElem _ _ (by rw [Disk.read_length]; exact hk), Disk.read_get _ _ _ _ hk, Nat.add_assoc,
      Nat.div_add_mod']

/-- the level check does what it should -/
theorem verifyLevel_iff {P : Par} (w : P.WF) {H : Bytes → Bytes} (hH : ∀ b, (H b).length = P.D) {rd wr n f} (hn : 0 < n) :
    verifyLevel P H rd wr n f = true ↔ LevelOk P H f.data rd wr n ∧ (rd + n) * P.B ≤ f.size ∧ (wr + P.up n) * P.B ≤ f.size := by
  have hB := WF.posB w
  have hup := up_mul P w n
  have hdiv : ∀ y, y / P.D < n ↔ y < n * P.D := fun y => Nat.div_lt_iff_lt_mul w.d
  unfold verifyLevel
  rw [Bool.and_eq_true, verifyBlocks_iff, verifyZero_iff, levelOk_iff hB]
  constructor
  · rintro ⟨h1, h2⟩
    have hd := (digest_iff w hH f.data rd wr n).2 (fun j hj => (h1 j (by omega) (by omega)).2.2)
    refine ⟨?_, ?_, ?_⟩
    · intro y hy
      split
      · rename_i hl
        exact hd y ((hdiv y).1 hl)
      · rename_i hl
        rw [hdiv] at hl
        rcases h2 with h2 | h2
        · omega
        · have := h2.2 (y - n * P.D) (by omega)
          rwa [show wr * P.B + n * P.D + (y - n * P.D) = wr * P.B + y by omega] at this
    · have := (h1 (n - 1) (by omega) (by omega)).1
      rw [Nat.add_mul]
      have e : n * P.B = (n - 1) * P.B + P.B := by
        conv_lhs => rw [show n = n - 1 + 1 by omega]
        rw [Nat.add_mul, Nat.one_mul]
      omega
    · rw [Nat.add_mul]
      rcases h2 with h2 | h2
      · have := (h1 (n - 1) (by omega) (by omega)).2.1
        have e : n * P.D = (n - 1) * P.D + P.D := by
          conv_lhs => rw [show n = n - 1 + 1 by omega]
          rw [Nat.add_mul, Nat.one_mul]
        omega
      · omega
  · rintro ⟨h1, h2, h3⟩
    rw [Nat.add_mul] at h2 h3
    have hd := (digest_iff w hH f.data rd wr n).1 (by
      intro y hy
      have := h1 y (by omega)
      rwa [if_pos ((hdiv y).2 hy)] at this)
    constructor
    · intro j _ hj
      have e1 : (j + 1) * P.B ≤ n * P.B := Nat.mul_le_mul_right _ (by omega)
      have e2 : (j + 1) * P.D ≤ n * P.D := Nat.mul_le_mul_right _ (by omega)
      rw [Nat.add_mul, Nat.one_mul] at e1 e2
      exact ⟨by omega, by omega, hd j (by omega)⟩
    · by_cases h0 : P.up n * P.B - n * P.D = 0
      · exact Or.inl h0
      · refine Or.inr ⟨by omega, ?_⟩
        intro x hx
        have := h1 (n * P.D + x) (by omega)
        rw [if_neg (by rw [hdiv]; omega)] at this
        rwa [Nat.add_assoc]

theorem createBlocks_spec {P : Par} {H : Bytes → Bytes} (hH : ∀ b, (H b).length = P.D) {rd wr N : Nat}
    (hdis : rd * P.B + N * P.B ≤ wr * P.B ∨ wr * P.B + N * P.D ≤ rd * P.B) :
    ∀ m i f f', i + m ≤ N → createBlocks P H rd wr m i f = some f' →
      (∀ x, x < wr * P.B + i * P.D ∨ wr * P.B + (i + m) * P.D ≤ x → f'.data x = f.data x) ∧
      (∀ j, i ≤ j → j < i + m → f'.data.read (wr * P.B + j * P.D) P.D = H (f.data.read (rd * P.B + j * P.B) P.B)) ∧
      f.size ≤ f'.size := by
  intro m
  induction m with
  | zero =>
    intro i f f' _ h
    cases h
    exact ⟨fun _ _ => rfl, fun j h1 h2 => by omega, le_refl _⟩
  | succ m ih =>
    intro i f f' hi h
    simp only [createBlocks, File.read?] at h
    split at h
    · cases h
    rename_i b hb
    split at hb
    · cases hb
      obtain ⟨h1, h2, h3⟩ := ih (i + 1) _ _ (by omega) h
      have e1 : (i + 1) * P.D = i * P.D + P.D := by rw [Nat.add_mul, Nat.one_mul]
      have e2 : (i + 1 + m) * P.D = (i + (m + 1)) * P.D := by congr 1; omega
      have e3 : (i + (m + 1)) * P.D ≤ N * P.D := Nat.mul_le_mul_right _ hi
      have e4 : (i + 1) * P.D ≤ (i + (m + 1)) * P.D := Nat.mul_le_mul_right _ (by omega)
      refine ⟨?_, ?_, ?_⟩
      · intro x hx
        rw [h1 x (by omega)]
        exact Disk.write_out _ _ _ _ (by rw [hH]; omega)
      · intro j hj1 hj2
        rcases Nat.lt_or_eq_of_le hj1 with hj | hj
        · rw [h2 j hj (by omega)]
          congr 1
          apply Disk.read_write_disjoint
          rw [hH]
          have e5 : (j + 1) * P.B ≤ N * P.B := Nat.mul_le_mul_right _ (by omega)
          rw [Nat.add_mul, Nat.one_mul] at e5
          omega
        · subst hj
          have hr : f'.data.read (wr * P.B + i * P.D) P.D =
              (f.write (wr * P.B + i * P.D) (H (f.data.read (rd * P.B + i * P.B) P.B))).data.read (wr * P.B + i * P.D) P.D := by
            rw [Disk.read_eq_iff]
            intro x hx1 hx2
            exact h1 x (by omega)
          rw [hr]
          have := Disk.read_write_same f.data (wr * P.B + i * P.D) (H (f.data.read (rd * P.B + i * P.B) P.B))
          rw [hH] at this
          exact this
      · refine le_trans ?_ h3
        exact le_max_left _ _
    · cases hb

theorem createBlocks_some {P : Par} {H : Bytes → Bytes} {rd wr : Nat} :
    ∀ m i (f : File), rd * P.B + (i + m) * P.B ≤ f.size → ∃ f', createBlocks P H rd wr m i f = some f' := by
  intro m
  induction m with
  | zero => intro i f _; exact ⟨_, rfl⟩
  | succ m ih =>
    intro i f h
    simp only [createBlocks, File.read?]
    have e : (i + 1) * P.B ≤ (i + (m + 1)) * P.B := Nat.mul_le_mul_right _ (by omega)
    rw [Nat.add_mul, Nat.one_mul] at e
    rw [if_pos (by omega)]
    simp only []
    apply ih
    rw [show i + 1 + m = i + (m + 1) by omega]
    exact le_trans h (le_max_left _ _)

theorem createLevel_spec {P : Par} (w : P.WF) {H : Bytes → Bytes} (hH : ∀ b, (H b).length = P.D) {rd wr n : Nat}
    (hdis : rd + n ≤ wr ∨ wr + P.up n ≤ rd) {f f'} (h : createLevel P H rd wr n f = some f') :
    (∀ x, x < wr * P.B ∨ (wr + P.up n) * P.B ≤ x → f'.data x = f.data x) ∧ LevelOk P H f'.data rd wr n ∧
    f.size ≤ f'.size ∧ (wr + P.up n) * P.B ≤ f'.size := by
  have hB := WF.posB w
  have hup := up_mul P w n
  have hdiv : ∀ y, y / P.D < n ↔ y < n * P.D := fun y => Nat.div_lt_iff_lt_mul w.d
  have hdis' : rd * P.B + n * P.B ≤ wr * P.B ∨ wr * P.B + P.up n * P.B ≤ rd * P.B := by
    rcases hdis with h | h
    · left; rw [← Nat.add_mul]; exact Nat.mul_le_mul_right _ h
    · right; rw [← Nat.add_mul]; exact Nat.mul_le_mul_right _ h
  unfold createLevel at h
  split at h
  · cases h
  rename_i f1 hf1
  cases h
  obtain ⟨h1, h2, h3⟩ := createBlocks_spec hH (N := n) (by omega) n 0 f f1 (by omega) hf1
  simp only [Nat.zero_mul, Nat.zero_add, Nat.add_zero] at h1 h2
  have hw : ∀ x, x < wr * P.B + n * P.D ∨ wr * P.B + P.up n * P.B ≤ x →
      (f1.write (wr * P.B + n * P.D) (List.replicate (P.up n * P.B - n * P.D) 0)).data x = f1.data x := by
    intro x hx
    apply Disk.write_out
    rw [List.length_replicate]
    omega
  refine ⟨?_, ?_, ?_, ?_⟩
  · intro x hx
    rw [Nat.add_mul] at hx
    rw [hw x (by omega), h1 x (by omega)]
  · rw [levelOk_iff hB]
    intro y hy
    by_cases hl : y < n * P.D
    · rw [if_pos ((hdiv y).2 hl), hw _ (by omega)]
      have key := (digest_iff w hH f1.data rd wr n).2 (by
        intro j hj
        rw [h2 j (by omega) hj]
        congr 1
        rw [Disk.read_eq_iff]
        intro x hx1 hx2
        have e5 : (j + 1) * P.B ≤ n * P.B := Nat.mul_le_mul_right _ (by omega)
        rw [Nat.add_mul, Nat.one_mul] at e5
        exact (h1 x (by omega)).symm) y hl
      rw [key]
      congr 2
      rw [Disk.read_eq_iff]
      intro x hx1 hx2
      have hj : y / P.D < n := (hdiv y).2 hl
      have e5 : (y / P.D + 1) * P.B ≤ n * P.B := Nat.mul_le_mul_right _ hj
      rw [Nat.add_mul, Nat.one_mul] at e5
      rw [Nat.add_mul] at hx1 hx2
      exact (hw x (by omega)).symm
    · rw [if_neg (by rw [hdiv]; exact hl)]
      have hz : y - n * P.D < (List.replicate (P.up n * P.B - n * P.D) (0 : UInt8)).length := by rw [List.length_replicate]; omega
      have := Disk.write_in f1.data (wr * P.B + n * P.D) (List.replicate (P.up n * P.B - n * P.D) 0) (y - n * P.D) hz
      rw [show wr * P.B + n * P.D + (y - n * P.D) = wr * P.B + y by omega, List.getElem_replicate] at this
      exact this
  · exact le_trans h3 (le_max_left _ _)
  · refine le_trans ?_ (le_max_right _ _)
    rw [List.length_replicate, Nat.add_mul]
    omega

theorem LevelOk.frame {P : Par} {H d e rd wr n} (h : LevelOk P H d rd wr n)
    (h1 : ∀ x, rd * P.B ≤ x → x < (rd + n) * P.B → e x = d x)
    (h2 : ∀ x, wr * P.B ≤ x → x < (wr + P.up n) * P.B → e x = d x) : LevelOk P H e rd wr n := by
  intro g hg
  have e1 : e.read ((wr + g) * P.B) P.B = d.read ((wr + g) * P.B) P.B := by
    rw [Disk.read_eq_iff]
    intro x hx1 hx2
    have e5 : (wr + g + 1) * P.B ≤ (wr + P.up n) * P.B := Nat.mul_le_mul_right _ (by omega)
    have e6 : wr * P.B ≤ (wr + g) * P.B := Nat.mul_le_mul_right _ (by omega)
    rw [Nat.add_mul (wr + g), Nat.one_mul] at e5
    exact h2 x (by omega) (by omega)
  rw [e1, h g hg]
  apply hashBlock_congr
  intro j hj
  rw [Disk.read_eq_iff]
  intro x hx1 hx2
  have e5 : (rd + j + 1) * P.B ≤ (rd + n) * P.B := Nat.mul_le_mul_right _ (by omega)
  have e6 : rd * P.B ≤ (rd + j) * P.B := Nat.mul_le_mul_right _ (by omega)
  rw [Nat.add_mul (rd + j), Nat.one_mul] at e5
  exact (h1 x (by omega) (by omega)).symm

/-! ## All levels -/

theorem source_fst_le {P : Par} (n L i : Nat) (hi : i ≤ L) : (source P n L i).1 + (source P n L i).2 ≤ endPos P n L n ∧
    (∀ k, i ≤ k → k < L → (source P n L i).1 + (source P n L i).2 ≤ posOf P n L n k ∨
      posOf P n L n k + levelSize P n k ≤ (source P n L i).1) := by
  cases i with
  | zero =>
    simp only [source, Nat.zero_add]
    constructor
    · by_cases hL : L = 0
      · subst hL; exact le_refl _
      · have := posOf_bounds P n L n 0 (by omega); omega
    · intro k _ hk
      left; exact (posOf_bounds P n L n k hk).1
  | succ i =>
    simp only [source]
    refine ⟨(posOf_bounds P n L n i (by omega)).2, ?_⟩
    intro k hk1 hk2
    right
    exact posOf_disj P n L n i k (by omega) hk2

theorem verifyLevels_iff {P : Par} {H n L f} : ∀ m i, verifyLevels P H n L f m i = true ↔
    ∀ j, i ≤ j → j < i + m → verifyLevel P H (source P n L j).1 (posOf P n L n j) (source P n L j).2 f = true := by
  intro m
  induction m with
  | zero => intro i; simp only [verifyLevels, true_iff]; intro j h1 h2; omega
  | succ m ih =>
    intro i
    simp only [verifyLevels, Bool.and_eq_true, ih (i + 1)]
    constructor
    · rintro ⟨h1, h2⟩ j hj1 hj2
      rcases Nat.lt_or_eq_of_le hj1 with hj | hj
      · exact h2 j hj (by omega)
      · rw [← hj]; exact h1
    · intro h
      exact ⟨h i (le_refl _) (by omega), fun j h1 h2 => h j (by omega) (by omega)⟩

/-- a tree with all levels right gives the root -/
theorem isRoot_of_levels {P : Par} (w : P.WF) {H n} {d : Disk} (hn : n ≠ 0) (hlt : n * P.B < 2 ^ 64)
    (h : ∀ j, j < levels P n → LevelOk P H d (source P n (levels P n) j).1 (posOf P n (levels P n) n j) (source P n (levels P n) j).2) :
    ∀ k i, i + k = levels P n → IsRoot H P (cnt P n i) (fun j => d.read (((source P n (levels P n) i).1 + j) * P.B) P.B)
      (H (d.read ((source P n (levels P n) (levels P n)).1 * P.B) P.B)) := by
  intro k
  induction k with
  | zero =>
    intro i hi
    have : i = levels P n := by omega
    rw [this, cnt_levels w hn hlt]
    exact IsRoot.leaf (fun j => d.read (((source P n (levels P n) (levels P n)).1 + j) * P.B) P.B)
  | succ k ih =>
    intro i hi
    refine .node _ _ _ (cnt_below w hn (by omega)) ?_
    have h1 := ih (i + 1) (by omega)
    rw [cnt_succ w] at h1
    refine h1.congr ?_
    intro j hj
    have h2 := h i (by omega) j (by rw [source_snd]; exact hj)
    rw [source_snd] at h2
    exact h2

theorem sizesOk_iff {P : Par} {n} : sizesOk P n = true ↔ n ≠ 0 ∧ n * P.B < 2 ^ 64 ∧ endPos P n (levels P n) n * P.B < 2 ^ 64 := by
  unfold sizesOk
  simp only [Bool.and_eq_true, decide_eq_true_eq, and_assoc]

/-- **C31.** If verification succeeds, the given root hash is the Merkle root of the data. -/
theorem C31_verify_root (P : Par) (w : P.WF) (H : Bytes → Bytes) (hH : ∀ b, (H b).length = P.D) (n : Nat) (root : Bytes) (f : File)
    (h : verify P H n root f = true) : IsRoot H P n (f.block P) root := by
  unfold verify at h
  simp only [Bool.and_eq_true, sizesOk_iff, verifyLevels_iff] at h
  obtain ⟨⟨⟨hn, hlt, -⟩, hv⟩, hr⟩ := h
  have hr' : H (f.data.read ((source P n (levels P n) (levels P n)).1 * P.B) P.B) = root := by
    unfold rootOf File.read? at hr
    split at hr
    · cases hr
    · rename_i r hr2
      split at hr2
      · cases hr2
        simpa using hr
      · cases hr2
  rw [← hr']
  have := isRoot_of_levels w (H := H) (d := f.data) hn hlt (by
    intro j hj
    exact ((verifyLevel_iff w hH (by rw [source_snd]; exact cnt_pos w hn)).1 (hv j (by omega) (by omega))).1) (levels P n) 0 (by omega)
  rw [cnt_zero] at this
  refine this.congr ?_
  intro j _
  simp only [source, Nat.zero_add]
  rfl

/-- **C31.** Verification with the same root hash succeeds for two files only if their data is equal (whatever their hash areas contain) - or a block of one of them, or of its hash tree,
and a different one of the other have the same hash. -/
theorem C31_binding (P : Par) (w : P.WF) (H : Bytes → Bytes) (hH : ∀ b, (H b).length = P.D) (n : Nat) (root : Bytes) (f g : File)
    (h1 : verify P H n root f = true) (h2 : verify P H n root g = true) :
    f.data.read 0 (n * P.B) = g.data.read 0 (n * P.B) ∨ Collision H P n (f.block P) (g.block P) := by
  rcases (C31_verify_root P w H hH n root f h1).binding w hH (C31_verify_root P w H hH n root g h2) with h | h
  · left
    rw [Disk.read_eq_iff]
    intro x _ hx
    have hB := WF.posB w
    have hj : x / P.B < n := (Nat.div_lt_iff_lt_mul hB).2 (by omega)
    have e := h _ hj
    unfold File.block at e
    rw [Disk.read_eq_iff] at e
    have e2 : x / P.B * P.B + x % P.B = x := Nat.div_add_mod' _ _
    have := Nat.mod_lt x hB
    exact e x (by omega) (by omega)
  · exact Or.inr h

/-- **C31.** A different root hash is not accepted for the same data. -/
theorem C31_root_unique (P : Par) (w : P.WF) (H : Bytes → Bytes) (hH : ∀ b, (H b).length = P.D) (n : Nat) (r r' : Bytes) (f g : File)
    (hd : f.data.read 0 (n * P.B) = g.data.read 0 (n * P.B)) (h1 : verify P H n r f = true) (h2 : verify P H n r' g = true) : r = r' := by
  refine (C31_verify_root P w H hH n r f h1).det ((C31_verify_root P w H hH n r' g h2).congr ?_)
  intro j hj
  unfold File.block
  rw [Disk.read_eq_iff] at hd ⊢
  intro x hx1 hx2
  have e5 : (j + 1) * P.B ≤ n * P.B := Nat.mul_le_mul_right _ hj
  rw [Nat.add_mul, Nat.one_mul] at e5
  exact (hd x (by omega) (by omega)).symm

/-- what is known after the levels below `i` were created -/
structure CInv (P : Par) (H : Bytes → Bytes) (n L : Nat) (f0 : File) (i : Nat) (f : File) : Prop where
  data : ∀ x, x < n * P.B → f.data x = f0.data x
  ok : ∀ j, j < i → LevelOk P H f.data (source P n L j).1 (posOf P n L n j) (source P n L j).2
  size : f0.size ≤ f.size
  full : 0 < i → endPos P n L n * P.B ≤ f.size

theorem CInv.step {P : Par} (w : P.WF) {H : Bytes → Bytes} (hH : ∀ b, (H b).length = P.D) {n L f0 i f f'} (hi : i < L)
    (I : CInv P H n L f0 i f)
    (h : createLevel P H (source P n L i).1 (posOf P n L n i) (source P n L i).2 f = some f') : CInv P H n L f0 (i + 1) f' := by
  have hls : levelSize P n i = P.up (source P n L i).2 := levelSize_up w n L i
  obtain ⟨h1, h2, h3, h4⟩ := createLevel_spec w hH (by
    rcases (source_fst_le (P := P) n L i (by omega)).2 i (le_refl _) hi with h | h
    · exact Or.inl h
    · right; rw [← hls]; exact h) h
  have hp := posOf_bounds P n L n i hi
  rw [← hls] at h1 h4
  constructor
  · intro x hx
    rw [h1 x, I.data x hx]
    left
    have : n * P.B ≤ posOf P n L n i * P.B := Nat.mul_le_mul_right _ hp.1
    omega
  · intro j hj
    rcases Nat.lt_or_eq_of_le (Nat.lt_succ_iff.1 hj) with hj' | hj'
    · refine (I.ok j hj').frame ?_ ?_
      · intro x hx1 hx2
        apply h1
        rcases (source_fst_le (P := P) n L j (by omega)).2 i (by omega) hi with h5 | h5
        · left
          have := Nat.mul_le_mul_right P.B h5
          omega
        · right
          have := Nat.mul_le_mul_right P.B h5
          omega
      · intro x hx1 _
        apply h1
        right
        have := Nat.mul_le_mul_right P.B (posOf_disj P n L n j i hj' hi)
        omega
    · rw [hj']; exact h2
  · exact le_trans I.size h3
  · intro _
    by_cases h0 : i = 0
    · subst h0
      rw [← posOf_zero P n L n hi]
      exact h4
    · exact le_trans (I.full (by omega)) h3

theorem createLevels_inv {P : Par} (w : P.WF) {H : Bytes → Bytes} (hH : ∀ b, (H b).length = P.D) {n L f0} : ∀ m i f f', i + m = L →
    CInv P H n L f0 i f → createLevels P H n L m i f = some f' → CInv P H n L f0 L f' := by
  intro m
  induction m with
  | zero =>
    intro i f f' hi I h
    cases h
    have : i = L := by omega
    exact this ▸ I
  | succ m ih =>
    intro i f f' hi I h
    simp only [createLevels] at h
    split at h
    · cases h
    · rename_i f1 hf1
      exact ih (i + 1) f1 f' (by omega) (I.step w hH (by omega) hf1) h

/-- **C31.** Creating a tree leaves the data alone, and verifying the result with the returned root hash succeeds. The hash area ends
at the returned number of blocks. -/
theorem C31_roundtrip (P : Par) (w : P.WF) (H : Bytes → Bytes) (hH : ∀ b, (H b).length = P.D) (n : Nat) (f f' : File) (root : Bytes)
    (total : Nat) (h : create P H n f = some (f', root, total)) :
    verify P H n root f' = true ∧ f'.data.read 0 (n * P.B) = f.data.read 0 (n * P.B) ∧
    n ≤ total ∧ total * P.B ≤ max f'.size (n * P.B) := by
  unfold create at h
  split at h
  · rename_i hs
    split at h
    · cases h
    rename_i f1 hf1
    split at h
    · cases h
    rename_i r hr
    cases h
    have hs' := hs
    rw [sizesOk_iff] at hs'
    obtain ⟨hn, hlt, -⟩ := hs'
    have I := createLevels_inv w hH (f0 := f) _ 0 f f' (by omega)
      ⟨fun _ _ => rfl, fun j hj => by omega, le_refl _, fun h => by omega⟩ hf1
    refine ⟨?_, ?_, ?_, ?_⟩
    · unfold verify
      rw [hs, Bool.true_and, Bool.and_eq_true, hr]
      refine ⟨?_, by simp⟩
      rw [verifyLevels_iff]
      intro j _ hj
      have hj : j < levels P n := by omega
      rw [verifyLevel_iff w hH (by rw [source_snd]; exact cnt_pos w hn)]
      refine ⟨I.ok j hj, ?_, ?_⟩
      · have := Nat.mul_le_mul_right P.B (source_fst_le (P := P) n (levels P n) j (by omega)).1
        have := I.full (by omega)
        omega
      · rw [← levelSize_up w]
        have := Nat.mul_le_mul_right P.B (posOf_bounds P n (levels P n) n j hj).2
        have := I.full (by omega)
        omega
    · rw [Disk.read_eq_iff]
      intro x _ hx
      exact I.data x (by omega)
    · by_cases hL : levels P n = 0
      · rw [hL]; exact le_refl _
      · have := posOf_bounds P n (levels P n) n 0 (by omega); omega
    · by_cases hL : levels P n = 0
      · rw [hL]; exact le_max_right _ _
      · exact le_trans (I.full (by omega)) (le_max_left _ _)
  · cases h

/-- **C31.** Creation succeeds for every file that contains the data blocks (at least one) if the sizes fit in 64 bits. -/
theorem C31_create_succeeds (P : Par) (w : P.WF) (H : Bytes → Bytes) (hH : ∀ b, (H b).length = P.D) (n : Nat) (f : File)
    (hn : n ≠ 0) (hsz : n * P.B ≤ f.size) (h64 : n * P.B < 2 ^ 64) (h64' : endPos P n (levels P n) n * P.B < 2 ^ 64) :
    ∃ r, create P H n f = some r := by
  have key : ∀ m i f1, i + m = levels P n → CInv P H n (levels P n) f i f1 →
      ∃ f', createLevels P H n (levels P n) m i f1 = some f' := by
    intro m
    induction m with
    | zero => intro i f1 _ _; exact ⟨_, rfl⟩
    | succ m ih =>
      intro i f1 hi I
      have : ∃ f2, createLevel P H (source P n (levels P n) i).1 (posOf P n (levels P n) n i) (source P n (levels P n) i).2 f1 = some f2 := by
        obtain ⟨f2, h2⟩ := createBlocks_some (P := P) (H := H) (rd := (source P n (levels P n) i).1) (wr := posOf P n (levels P n) n i)
          (source P n (levels P n) i).2 0 f1 (by
            rw [Nat.zero_add, ← Nat.add_mul]
            by_cases h0 : i = 0
            · subst h0
              simp only [source, Nat.zero_add]
              exact le_trans hsz I.size
            · have := Nat.mul_le_mul_right P.B (source_fst_le (P := P) n (levels P n) i (by omega)).1
              have := I.full (by omega)
              omega)
        unfold createLevel
        rw [h2]
        exact ⟨_, rfl⟩
      obtain ⟨f2, h2⟩ := this
      simp only [createLevels]
      rw [h2]
      exact ih (i + 1) f2 (by omega) (I.step w hH (by omega) h2)
  have I0 : CInv P H n (levels P n) f 0 f := ⟨fun _ _ => rfl, fun j hj => by omega, le_refl _, fun h => by omega⟩
  obtain ⟨f', hf'⟩ := key (levels P n) 0 f (by omega) I0
  have I := createLevels_inv w hH _ 0 f f' (by omega) I0 hf'
  unfold create
  rw [if_pos (sizesOk_iff.2 ⟨hn, h64, h64'⟩), hf']
  simp only []
  have hr : ∃ r, rootOf P H n (levels P n) f' = some r := by
    unfold rootOf File.read?
    rw [if_pos]
    · exact ⟨_, rfl⟩
    · by_cases h0 : levels P n = 0
      · rw [h0]
        simp only [source, Nat.zero_mul, Nat.zero_add]
        have h1 : 1 * P.B ≤ n * P.B := Nat.mul_le_mul_right _ (by omega)
        have := I.size
        omega
      · have h1 := Nat.mul_le_mul_right P.B (source_fst_le (P := P) n (levels P n) (levels P n) (le_refl _)).1
        rw [source_snd, cnt_levels w hn h64, Nat.add_mul, Nat.one_mul] at h1
        have := I.full (by omega)
        omega
  obtain ⟨r, hr⟩ := hr
  rw [hr]
  exact ⟨_, rfl⟩

/-- the constants of the code -/
theorem code_wf : code.WF := ⟨rfl, by decide, by decide⟩

/-- a small tree with two levels: 3 blocks, 2 digests per block -/
def exP : Par := ⟨2, 1, 2⟩
def exH (b : Bytes) : Bytes := [b.foldl (fun a x => 3 * a + x + 1) 0]
def exF : File := ⟨fun i => if i < 6 then (UInt8.ofNat i) else 9, 6⟩
theorem exP_wf : exP.WF := ⟨rfl, by decide, by decide⟩
example : (create exP exH 3 exF).map (fun r => (r.1.data.read 0 12, r.2)) = some ([0, 1, 2, 3, 4, 5, 32, 67, 5, 13, 21, 0], [167], 6) := by decide
example : levels code 1 = 0 ∧ levels code 128 = 1 ∧ levels code 129 = 2 ∧ sizesOk code (2 ^ 30) = true := by decide
example : endPos code 129 (levels code 129) 129 = 129 + 3 := by decide

end Rauc.Verity
