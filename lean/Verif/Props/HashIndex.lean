import Verif.Model.HashIndex
import Mathlib.Tactic.Linarith
import Mathlib.Tactic.Ring

/-!
# C29 and C30: block hash index and adaptive copy
-/

namespace Rauc.HashIndex

/-! ## the lookup table -/

instance (hs : List Nat) : Std.Total (Before hs) := ⟨by
  intro a b; unfold Before
  omega⟩

instance (hs : List Nat) : IsTrans Nat (Before hs) := ⟨by
  intro a b c; unfold Before
  omega⟩

theorem lookup_length (hs : List Nat) : (buildLookup hs).length = hs.length := by
  unfold buildLookup; rw [List.length_insertionSort, List.length_range]

theorem lookup_mem (hs : List Nat) (i : Nat) : i ∈ buildLookup hs ↔ i < hs.length := by
  unfold buildLookup; rw [List.mem_insertionSort, List.mem_range]

theorem lookup_sorted (hs : List Nat) (p q : Nat) (hpq : p < q) (hq : q < hs.length) :
    Before hs ((buildLookup hs).getD p 0) ((buildLookup hs).getD q 0) := by
  have h := List.pairwise_insertionSort (Before hs) (List.range hs.length)
  have hl := lookup_length hs
  rw [List.getD_eq_getElem _ _ (by omega), List.getD_eq_getElem _ _ (by omega)]
  exact List.pairwise_iff_getElem.1 h p q _ _ hpq

theorem lookup_lt (hs : List Nat) (p : Nat) (hp : p < hs.length) : (buildLookup hs).getD p 0 < hs.length := by
  rw [← lookup_mem, List.getD_eq_getElem _ _ (by rw [lookup_length]; exact hp)]
  exact List.getElem_mem _

theorem lookup_pos (hs : List Nat) (i : Nat) (hi : i < hs.length) : ∃ p, p < hs.length ∧ (buildLookup hs).getD p 0 = i := by
  have := (lookup_mem hs i).2 hi
  obtain ⟨p, hp, e⟩ := List.getElem_of_mem this
  refine ⟨p, by rw [← lookup_length hs]; exact hp, ?_⟩
  rw [List.getD_eq_getElem _ _ hp, e]

/-! ## the three loops -/

theorem bsearch_sound (lk : List Nat) (hs : List Nat) (h : Nat) : ∀ n l r m, bsearch lk hs h n l r = some m →
    l ≤ m ∧ m ≤ r ∧ hashAt hs (lk.getD m 0) = h := by
  intro n
  induction n with
  | zero => intro l r m e; cases e
  | succ n ih =>
    intro l r m e
    simp only [bsearch] at e
    split at e
    · rename_i hlr
      split at e
      · rename_i hx
        cases e
        exact ⟨by omega, by omega, hx⟩
      · split at e
        · have := ih _ _ _ e
          exact ⟨by omega, by omega, this.2.2⟩
        · split at e
          · have := ih _ _ _ e
            exact ⟨by omega, by omega, this.2.2⟩
          · cases e
    · cases e

theorem bsearch_complete (hs : List Nat) (h : Nat) : ∀ n l r p, l ≤ p → p ≤ r → r < hs.length → r - l < n →
    hashAt hs ((buildLookup hs).getD p 0) = h → ∃ m, bsearch (buildLookup hs) hs h n l r = some m := by
  intro n
  induction n with
  | zero => intro l r p h1 h2 h3 h4; omega
  | succ n ih =>
    intro l r p h1 h2 h3 h4 hp
    simp only [bsearch]
    rw [if_pos (by omega)]
    split
    · exact ⟨_, rfl⟩
    · rename_i hx
      split
      · rename_i hlt
        have hmp : l + (r - l) / 2 + 1 ≤ p := by
          by_contra hcon
          rcases Nat.lt_or_eq_of_le (show p ≤ l + (r - l) / 2 by omega) with h5 | h5
          · have := lookup_sorted hs p _ h5 (by omega)
            unfold Before at this
            omega
          · rw [h5] at hp; exact hx hp
        exact ih _ _ p hmp h2 h3 (by omega) hp
      · rename_i hlt
        have hpm : p < l + (r - l) / 2 := by
          by_contra hcon
          rcases Nat.lt_or_eq_of_le (show l + (r - l) / 2 ≤ p by omega) with h5 | h5
          · have := lookup_sorted hs _ p h5 (by omega)
            unfold Before at this
            omega
          · rw [← h5] at hp; exact hx hp
        rw [if_pos (by omega)]
        exact ih _ _ p h1 (by omega) (by omega) (by omega) hp

/-- what the walk back finds -/
theorem walkBack_spec (lk : List Nat) (hs : List Nat) (h : Nat) (orig : Nat) : ∀ k, k ≤ orig →
    (∀ i, k ≤ i → i < orig → hashAt hs (lk.getD i 0) = h) →
    (walkBack lk hs h orig k = orig ∧ ∀ i, i < orig → hashAt hs (lk.getD i 0) = h) ∨
    (walkBack lk hs h orig k ≤ orig ∧ 0 < walkBack lk hs h orig k ∧ hashAt hs (lk.getD (walkBack lk hs h orig k - 1) 0) ≠ h ∧
      ∀ i, walkBack lk hs h orig k ≤ i → i < orig → hashAt hs (lk.getD i 0) = h) := by
  intro k
  induction k with
  | zero => intro _ hall; exact Or.inl ⟨rfl, fun i hi => hall i (by omega) hi⟩
  | succ k ih =>
    intro hk hall
    simp only [walkBack]
    split
    · rename_i hne
      exact Or.inr ⟨hk, by omega, by simpa using hne, hall⟩
    · rename_i he
      simp only [ne_eq, Decidable.not_not] at he
      refine ih (by omega) ?_
      intro i h1 h2
      rcases Nat.lt_or_eq_of_le h1 with h1 | h1
      · exact hall i (by omega) h2
      · rw [← h1]; exact he

theorem scan_sound (lk : List Nat) (hs : List Nat) (h : Nat) (below upto count : Nat) : ∀ n i j,
    scan lk hs h below upto count n i = some j →
    j < count ∧ hashAt hs (lk.getD j 0) = h ∧ below ≤ lk.getD j 0 ∧ lk.getD j 0 < upto := by
  intro n
  induction n with
  | zero => intro i j e; cases e
  | succ n ih =>
    intro i j e
    simp only [scan] at e
    split at e
    · split at e
      · cases e
      · rename_i hx
        split at e
        · cases e
        · split at e
          · split at e
            · exact ih _ _ e
            · cases e
          · cases e
            exact ⟨by omega, by simpa using hx, by omega, by omega⟩
    · cases e

theorem scan_complete (hs : List Nat) (h : Nat) (below upto : Nat) : ∀ n i p, i ≤ p → p < hs.length → hs.length - i ≤ n →
    (∀ q, i ≤ q → q ≤ p → hashAt hs ((buildLookup hs).getD q 0) = h) →
    below ≤ (buildLookup hs).getD p 0 → (buildLookup hs).getD p 0 < upto →
    ∃ j, scan (buildLookup hs) hs h below upto hs.length n i = some j := by
  intro n
  induction n with
  | zero => intro i p h1 h2 h3; omega
  | succ n ih =>
    intro i p h1 h2 h3 hall hb hu
    have hi := hall i (by omega) h1
    have hle : (buildLookup hs).getD i 0 ≤ (buildLookup hs).getD p 0 := by
      rcases Nat.lt_or_eq_of_le h1 with h5 | h5
      · have := lookup_sorted hs i p h5 h2
        unfold Before at this
        rw [hi, hall p h1 (by omega)] at this
        omega
      · rw [h5]
    simp only [scan]
    rw [if_pos (by omega), if_neg (by simpa using hi), if_neg (by omega)]
    split
    · rename_i hlt
      have : i ≠ p := by intro e; rw [e] at hlt; omega
      rw [if_pos (by omega)]
      exact ih _ p (by omega) h2 (by omega) (fun q h5 h6 => hall q (by omega) h6) hb hu
    · exact ⟨_, rfl⟩

/-! ## C29 -/

theorem select_sound {idx : Idx} {h i} (hs : select idx h = some i) (hc : idx.count ≤ idx.hashes.length) :
    i < idx.hashes.length ∧ hashAt idx.hashes i = h ∧ idx.below ≤ i ∧ i < idx.upto := by
  unfold select at hs
  simp only [] at hs
  split at hs
  · cases hs
  split at hs
  · cases hs
  rename_i m hm
  cases hsc : scan (buildLookup idx.hashes) idx.hashes h idx.below idx.upto idx.count idx.count
      (walkBack (buildLookup idx.hashes) idx.hashes h m m) with
  | none => rw [hsc] at hs; cases hs
  | some j =>
    rw [hsc] at hs
    cases hs
    obtain ⟨a, b, c, d⟩ := scan_sound _ _ _ _ _ _ _ _ _ hsc
    exact ⟨lookup_lt _ _ (by omega), b, c, d⟩

/-- **C29.** Whatever the index contains: a returned chunk is a chunk of the data file inside the valid window whose recorded hash is the
requested one, and for an index that is verified on reading its actual hash is the requested one. -/
theorem C29_sound (sha : Bytes → Nat) (cs : Nat) (idx : Idx) (d : Disk) (size : Nat) (rd : Bool) (h : Nat) (b : Bytes)
    (hc : idx.count ≤ idx.hashes.length) (hg : getChunk sha cs idx d size rd h = some b) :
    (∃ i, idx.below ≤ i ∧ i < idx.upto ∧ idx.hashes[i]? = some h ∧ (i + 1) * cs ≤ size ∧ b = d.read (i * cs) cs) ∧
    (idx.skip = false → sha b = h) := by
  unfold getChunk at hg
  split at hg
  · cases hg
  rename_i i hi
  obtain ⟨h1, h2, h3, h4⟩ := select_sound hi hc
  split at hg
  · rename_i hr
    simp only [Bool.and_eq_true, decide_eq_true_eq] at hr
    simp only [] at hg
    split at hg
    · cases hg
    · rename_i hsk
      cases hg
      refine ⟨⟨i, h3, h4, ?_, hr.2, rfl⟩, ?_⟩
      · rw [List.getElem?_eq_getElem h1, ← h2]
        unfold hashAt
        rw [List.getD_eq_getElem _ _ h1]
      · intro e
        rw [e] at hsk
        simpa using hsk
  · cases hg

theorem select_complete (idx : Idx) (h : Nat) (i : Nat) (hc : idx.count = idx.hashes.length) (hi : i < idx.hashes.length)
    (hh : hashAt idx.hashes i = h) (hb : idx.below ≤ i) (hu : i < idx.upto)
    (hw : (∃ j, j < idx.hashes.length ∧ hashAt idx.hashes j < h) ∨ (idx.below = 0 ∧ idx.hashes.length ≤ idx.upto)) :
    ∃ k, select idx h = some k := by
  obtain ⟨p, hp, ep⟩ := lookup_pos idx.hashes i hi
  have hpos : idx.count ≠ 0 := by omega
  obtain ⟨m, hm⟩ := bsearch_complete idx.hashes h idx.count 0 (idx.count - 1) p (by omega) (by omega) (by omega) (by omega)
    (by rw [ep]; exact hh)
  obtain ⟨-, m1, m2⟩ := bsearch_sound _ _ _ _ _ _ _ hm
  unfold select
  simp only []
  rw [if_neg hpos, hm]
  simp only []
  have key : ∃ j, scan (buildLookup idx.hashes) idx.hashes h idx.below idx.upto idx.hashes.length idx.count
      (walkBack (buildLookup idx.hashes) idx.hashes h m m) = some j := by
    rcases walkBack_spec (buildLookup idx.hashes) idx.hashes h m m (by omega) (by intro i h1 h2; omega) with ⟨w1, w2⟩ | ⟨w1, w2, w3, w4⟩
    · rw [w1]
      rcases hw with ⟨j, hj, hjl⟩ | ⟨hb0, hu0⟩
      · exfalso
        obtain ⟨q, hq, eq⟩ := lookup_pos idx.hashes j hj
        rcases Nat.lt_or_ge q m with hqm | hqm
        · have := w2 q hqm
          rw [eq] at this; omega
        · rcases Nat.lt_or_eq_of_le hqm with hqm | hqm
          · have := lookup_sorted idx.hashes m q hqm hq
            unfold Before at this
            rw [eq, m2] at this
            omega
          · rw [hqm, eq] at m2; omega
      · refine scan_complete idx.hashes h _ _ _ m m (by omega) (by omega) (by omega) ?_ (by omega) ?_
        · intro q h1 h2
          have : q = m := by omega
          rw [this]; exact m2
        · have := lookup_lt idx.hashes m (by omega)
          omega
    · generalize walkBack (buildLookup idx.hashes) idx.hashes h m m = w at *
      -- everything from w to p has the hash
      have hwp : w ≤ p := by
        by_contra hcon
        have hlt : p ≤ w - 1 := by omega
        rcases Nat.lt_or_eq_of_le hlt with h5 | h5
        · have s1 := lookup_sorted idx.hashes p (w - 1) h5 (by omega)
          have s2 : Before idx.hashes ((buildLookup idx.hashes).getD (w - 1) 0) ((buildLookup idx.hashes).getD m 0) :=
            lookup_sorted idx.hashes (w - 1) m (by omega) (by omega)
          unfold Before at s1 s2
          rw [ep, hh] at s1
          rw [m2] at s2
          omega
        · rw [← h5, ep] at w3
          exact w3 hh
      refine scan_complete idx.hashes h _ _ _ w p hwp hp (by omega) ?_ (by rw [ep]; exact hb) (by rw [ep]; exact hu)
      intro q h1 h2
      rcases Nat.lt_or_ge q m with h5 | h5
      · exact w4 q h1 h5
      · rcases Nat.lt_or_eq_of_le h2 with h6 | h6
        · have s1 := lookup_sorted idx.hashes q p h6 hp
          unfold Before at s1
          rw [ep, hh] at s1
          rcases Nat.lt_or_eq_of_le h5 with h7 | h7
          · have s2 := lookup_sorted idx.hashes m q h7 (by omega)
            unfold Before at s2
            rw [m2] at s2
            omega
          · rw [← h7]; exact m2
        · rw [h6, ep]; exact hh
  obtain ⟨j, hj⟩ := key
  rw [hc] at hj ⊢
  rw [hj]
  exact ⟨_, rfl⟩

/-- the recorded hashes are those of the data -/
def Intact (sha : Bytes → Nat) (cs : Nat) (idx : Idx) (d : Disk) (size : Nat) : Prop :=
  idx.count = idx.hashes.length ∧ idx.count * cs ≤ size ∧ ∀ i, i < idx.count → idx.hashes[i]? = some (sha (d.read (i * cs) cs))

theorem getChunk_of_select {sha cs idx d size h k} (hI : Intact sha cs idx d size) (hs : select idx h = some k) :
    ∃ b, getChunk sha cs idx d size true h = some b := by
  obtain ⟨h1, h2, -, -⟩ := select_sound hs (by rw [hI.1])
  have h3 : (k + 1) * cs ≤ size := by
    have : (k + 1) * cs ≤ idx.count * cs := Nat.mul_le_mul_right _ (by rw [hI.1]; exact h1)
    exact le_trans this hI.2.1
  have h4 : sha (d.read (k * cs) cs) = h := by
    have := hI.2.2 k (by rw [hI.1]; exact h1)
    rw [List.getElem?_eq_getElem h1] at this
    unfold hashAt at h2
    rw [List.getD_eq_getElem _ _ h1, Option.some.inj this] at h2
    exact h2
  unfold getChunk
  rw [hs]
  simp only []
  rw [if_pos (by simp [h3])]
  rw [if_neg (by simp [h4])]
  exact ⟨_, rfl⟩

theorem hashAt_of_get {hs : List Nat} {i h} (e : hs[i]? = some h) : i < hs.length ∧ hashAt hs i = h := by
  have hi : i < hs.length := by
    by_contra hcon
    rw [List.getElem?_eq_none (by omega)] at e; cases e
  refine ⟨hi, ?_⟩
  unfold hashAt
  rw [List.getD_eq_getElem _ _ hi]
  rw [List.getElem?_eq_getElem hi] at e
  exact Option.some.inj e

/-- **C29.** An index over intact data without window restriction finds every chunk it contains. -/
theorem C29_complete (sha : Bytes → Nat) (cs : Nat) (idx : Idx) (d : Disk) (size : Nat) (h : Nat)
    (hI : Intact sha cs idx d size) (hb : idx.below = 0) (hu : idx.hashes.length ≤ idx.upto) (hm : h ∈ idx.hashes) :
    ∃ b, getChunk sha cs idx d size true h = some b := by
  obtain ⟨i, hi, e⟩ := List.getElem_of_mem hm
  obtain ⟨k, hk⟩ := select_complete idx h i hI.1 hi (hashAt_of_get (by rw [List.getElem?_eq_getElem hi, e])).2 (by omega) (by omega)
    (Or.inr ⟨hb, hu⟩)
  exact getChunk_of_select hI hk

/-- **C29.** With a window, an index over intact data finds every chunk inside the window, provided that the requested hash is not the
smallest one of the index. -/
theorem C29_window_complete_partial (sha : Bytes → Nat) (cs : Nat) (idx : Idx) (d : Disk) (size : Nat) (h : Nat)
    (hI : Intact sha cs idx d size) (i : Nat) (hi : idx.hashes[i]? = some h) (hb : idx.below ≤ i) (hu : i < idx.upto)
    (hsmall : ∃ x ∈ idx.hashes, x < h) : ∃ b, getChunk sha cs idx d size true h = some b := by
  obtain ⟨x, hx, hlt⟩ := hsmall
  obtain ⟨j, hj, e⟩ := List.getElem_of_mem hx
  obtain ⟨h1, h2⟩ := hashAt_of_get hi
  obtain ⟨k, hk⟩ := select_complete idx h i hI.1 h1 h2 hb hu
    (Or.inl ⟨j, hj, by rw [(hashAt_of_get (show idx.hashes[j]? = some x by rw [List.getElem?_eq_getElem hj, e])).2]; exact hlt⟩)
  exact getChunk_of_select hI hk

/-- Finding: for the smallest hash the chunk can be missed although it is inside the window, because the search for the first occurrence
stops at the start of the table without moving there. (Here three equal chunks, of which only the first is valid.) -/
theorem C29_window_violated : ∃ (sha : Bytes → Nat) (idx : Idx) (d : Disk), Intact sha 1 idx d 3 ∧
    idx.hashes[0]? = some 5 ∧ idx.below ≤ 0 ∧ 0 < idx.upto ∧ getChunk sha 1 idx d 3 true 5 = none := by
  refine ⟨fun _ => 5, { hashes := [5, 5, 5], count := 3, upto := 1 }, fun _ => 0, ⟨rfl, by decide, ?_⟩, rfl, by decide, by decide, by decide⟩
  intro i hi
  have : i < 3 := hi
  match i with
  | 0 => rfl
  | 1 => rfl
  | 2 => rfl

/-- a concrete index with duplicates -/
example : getChunk (fun b => (b.getD 0 0).toNat) 1 { hashes := [7, 3, 7, 9], count := 4, below := 1 }
    (fun i => if i = 0 then 7 else if i = 1 then 3 else if i = 2 then 7 else 9) 4 true 7 = some [7] := by decide

/-! ## C30 -/

/-- One of the first `n` chunks on a disk is not that of the image, but has the same hash. (That such chunks exist somewhere is trivial, as there are more chunks
than hashes; here they are on the disk and in the image.) -/
def Forged (sha : Bytes → Nat) (cs n : Nat) (d img : Disk) : Prop :=
  ∃ c < n, d.read (c * cs) cs ≠ img.read (c * cs) cs ∧ sha (d.read (c * cs) cs) = sha (img.read (c * cs) cs)

/-- state of the copy before chunk `c` -/
structure CInv (sha : Bytes → Nat) (cs : Nat) (img : Disk) (n : Nat) (hs : List Nat) (S : Sources) (c : Nat) (d d0 : Disk) : Prop where
  hashes : ∀ i, i < n → hs[i]? = some (sha (img.read (i * cs) cs))
  len : hs.length = n
  wcount : S.written.count ≤ S.written.hashes.length
  whashes : ∀ (i h : Nat), S.written.hashes[i]? = some h → hs[i]? = some h
  wupto : S.written.upto = c
  ocount : S.old.count ≤ S.old.hashes.length
  oskip : S.old.skip = false
  seed : ∀ s, S.seed = some s → s.idx.count ≤ s.idx.hashes.length ∧ s.idx.skip = false
  icount : S.image.idx.count ≤ S.image.idx.hashes.length
  ihashes : ∀ (i h : Nat), S.image.idx.hashes[i]? = some h → i < n → hs[i]? = some h
  iwin : S.image.idx.upto ≥ n ∧ S.image.idx.below = 0
  ilen : S.image.idx.hashes.length = n
  idata : S.image.data = img
  done : ∀ i < c, sha (d.read (i * cs) cs) = sha (img.read (i * cs) cs)
  rest : ∀ i, c * cs ≤ i → d i = d0 i

theorem fetch_correct {sha zeroHash cs io img n hs S c d d0 tsize} (hz : zeroHash = sha (List.replicate cs 0))
    (I : CInv sha cs img n hs S c d d0) (hc : c < n) {h b}
    (hf : fetch sha zeroHash cs io S d tsize c h = some b) : b.length = cs ∧ sha b = h := by
  have fin : b.length = cs → sha b = h → b.length = cs ∧ sha b = h := And.intro
  -- a verified source
  have ver : ∀ (idx : Idx) (dd : Disk) (sz : Nat) (rd : Bool), idx.count ≤ idx.hashes.length → idx.skip = false →
      getChunk sha cs idx dd sz rd h = some b → b.length = cs ∧ sha b = h := by
    intro idx dd sz rd h1 h2 h3
    obtain ⟨⟨i, -, -, -, -, e⟩, h4⟩ := C29_sound sha cs idx dd sz rd h b h1 h3
    exact fin (by rw [e, Disk.read_length]) (h4 h2)
  have image : getChunk sha cs S.image.idx S.image.data S.image.size (io.rd c 3) h = some b →
      b.length = cs ∧ sha b = h := by
    intro h3
    obtain ⟨⟨i, -, -, e1, -, e⟩, -⟩ := C29_sound _ _ _ _ _ _ _ _ I.icount h3
    have hi : i < n := by
      rw [← I.ilen]
      by_contra hcon
      rw [List.getElem?_eq_none (by omega)] at e1; cases e1
    have := I.ihashes i h e1 hi
    rw [I.hashes i hi] at this
    rw [I.idata] at e
    exact fin (by rw [e, Disk.read_length]) (by rw [e]; exact Option.some.inj this)
  unfold fetch at hf
  split at hf
  · rename_i hzero
    cases hf
    exact fin (by simp) (by rw [← hz, hzero])
  · split at hf
    · rename_i x hx
      cases hf
      obtain ⟨⟨i, -, e0, e1, -, e⟩, -⟩ := C29_sound _ _ _ _ _ _ _ _ I.wcount hx
      rw [I.wupto] at e0
      have e2 := I.whashes i h e1
      rw [I.hashes i (by omega)] at e2
      exact fin (by rw [e, Disk.read_length]) (by rw [e, I.done i e0]; exact Option.some.inj e2)
    · split at hf
      · rename_i x hx
        cases hf
        exact ver _ _ _ _ I.ocount I.oskip hx
      · split at hf
        · rename_i s hs'
          obtain ⟨s1, s2⟩ := I.seed s hs'
          split at hf
          · rename_i x hx
            cases hf
            exact ver _ _ _ _ s1 s2 hx
          · exact image hf
        · exact image hf

theorem fetch_length {sha zeroHash cs io S c d tsize h b} (hw : S.written.count ≤ S.written.hashes.length)
    (ho : S.old.count ≤ S.old.hashes.length) (hs : ∀ s, S.seed = some s → s.idx.count ≤ s.idx.hashes.length)
    (hi : S.image.idx.count ≤ S.image.idx.hashes.length) (hf : fetch sha zeroHash cs io S d tsize c h = some b) : b.length = cs := by
  have ver : ∀ (idx : Idx) (dd : Disk) (sz : Nat) (rd : Bool), idx.count ≤ idx.hashes.length →
      getChunk sha cs idx dd sz rd h = some b → b.length = cs := by
    intro idx dd sz rd h1 h3
    obtain ⟨⟨i, -, -, -, -, e⟩, h4⟩ := C29_sound sha cs idx dd sz rd h b h1 h3
    rw [e, Disk.read_length]
  unfold fetch at hf
  split at hf
  · cases hf; simp
  · split at hf
    · rename_i x hx; cases hf; exact ver _ _ _ _ hw hx
    · split at hf
      · rename_i x hx; cases hf; exact ver _ _ _ _ ho hx
      · split at hf
        · rename_i s hs'
          split at hf
          · rename_i x hx; cases hf; exact ver _ _ _ _ (hs s hs') hx
          · exact ver _ _ _ _ hi hf
        · exact ver _ _ _ _ hi hf

theorem CInv.step {sha cs img n hs S c d d0 b} (I : CInv sha cs img n hs S c d d0) (hl : b.length = cs) (hb : sha b = sha (img.read (c * cs) cs)) :
    CInv sha cs img n hs { S with written := { S.written with upto := c + 1 }, old := { S.old with below := c } } (c + 1)
      (d.write (c * cs) b) d0 where
  hashes := I.hashes
  len := I.len
  wcount := I.wcount
  whashes := I.whashes
  wupto := rfl
  ocount := I.ocount
  oskip := I.oskip
  seed := I.seed
  icount := I.icount
  ihashes := I.ihashes
  iwin := I.iwin
  ilen := I.ilen
  idata := I.idata
  done := by
    intro i hi
    by_cases h : i < c
    · have : (i + 1) * cs ≤ c * cs := Nat.mul_le_mul_right _ h
      rw [Nat.add_mul, Nat.one_mul] at this
      rw [Disk.read_write_disjoint _ _ _ _ _ (Or.inl this)]
      exact I.done i h
    · have e : i = c := by omega
      subst e
      have := Disk.read_write_same d (i * cs) b
      rw [hl] at this
      rw [this, hb]
  rest := by
    intro i hi
    rw [Nat.add_mul, Nat.one_mul] at hi
    rw [Disk.write_out _ _ _ _ (Or.inr (by rw [hl]; omega))]
    exact I.rest i (by omega)

theorem copyLoop_correct {sha zeroHash cs io img n hs tsize d0} (hz : zeroHash = sha (List.replicate cs 0)) :
    ∀ (rest : List Nat) (S : Sources) (c : Nat) (d : Disk), CInv sha cs img n hs S c d d0 → rest = hs.drop c → c ≤ n →
      (copyLoop sha zeroHash cs io tsize S c rest d).2 = true →
      (∀ i < n, sha ((copyLoop sha zeroHash cs io tsize S c rest d).1.read (i * cs) cs) = sha (img.read (i * cs) cs)) ∧
        ∀ i, n * cs ≤ i → (copyLoop sha zeroHash cs io tsize S c rest d).1 i = d0 i := by
  intro rest
  induction rest with
  | nil =>
    intro S c d I hr hc _
    have : n ≤ c := by
      have := congrArg List.length hr
      rw [List.length_drop, I.len] at this
      simp at this; omega
    have e : c = n := by omega
    subst e
    exact ⟨I.done, I.rest⟩
  | cons h rest ih =>
    intro S c d I hr hc hok
    have hcn : c < n := by
      have := congrArg List.length hr
      rw [List.length_drop, I.len] at this
      simp at this; omega
    have hh : hs[c]? = some h := by
      have : (hs.drop c)[0]? = some h := by rw [← hr]; rfl
      rw [List.getElem?_drop] at this
      simpa using this
    have hr' : rest = hs.drop (c + 1) := by
      have := congrArg List.tail hr
      rw [List.tail_drop] at this
      simpa using this
    simp only [copyLoop] at hok ⊢
    split at hok
    · cases hok
    · rename_i b hb
      obtain ⟨e1, e2⟩ := fetch_correct hz I hcn hb
      have e3 : h = sha (img.read (c * cs) cs) := by
        have := I.hashes c hcn
        rw [hh] at this; exact Option.some.inj this
      by_cases hsz : (c + 1) * cs ≤ tsize
      · simp only [if_pos hsz] at hok ⊢
        cases hw : io.wr c with
        | some k => simp only [hw] at hok; cases hok
        | none =>
          simp only [hw] at hok ⊢
          exact ih _ _ _ (I.step e1 (e2.trans e3)) hr' (by omega) hok
      · simp only [if_neg hsz] at hok; cases hok

theorem read_of_chunks {d e : Disk} {cs n : Nat} (h : ∀ c < n, d.read (c * cs) cs = e.read (c * cs) cs) : d.read 0 (n * cs) = e.read 0 (n * cs) := by
  induction n with
  | zero => simp [Disk.read_zero]
  | succ n ih =>
    rw [Nat.add_mul, Nat.one_mul, Disk.read_append, Disk.read_append, Nat.zero_add, ih (fun c hc => h c (by omega)), h n (by omega)]

theorem openIdx_spec {sha : Bytes → Nat} {cs p d size st idx} (h : openIdx sha cs p d size st = .ok idx) :
    idx.count ≤ idx.hashes.length ∧ idx.skip = false ∧ idx.below = 0 ∧ idx.upto = 2 ^ 32 - 1 ∧ idx.count ≤ maxChunks ∧
    idx.count * cs ≤ size ∧ chunkCount cs size ≠ 0 ∧
    (st = none → idx.hashes = hashFile sha cs d (chunkCount cs size) ∧ idx.count = chunkCount cs size) ∧
    (∀ hs, st = some hs → idx.hashes = hs ∧ idx.count = min hs.length (chunkCount cs size)) := by
  have hle : chunkCount cs size * cs ≤ size ∧ chunkCount cs size ≤ maxChunks := by
    unfold chunkCount
    split
    · simp
    · split
      · simp
      · split
        · simp
        · exact ⟨Nat.div_mul_le_self _ _, by omega⟩
  unfold openIdx at h
  split at h
  · cases h
  · rename_i hne
    split at h
    · rename_i hs
      cases h
      refine ⟨?_, rfl, rfl, rfl, ?_, ?_, hne, fun e => (by cases e), ?_⟩
      · show (if hs.length < chunkCount cs size then hs.length else chunkCount cs size) ≤ hs.length
        split <;> omega
      · show (if hs.length < chunkCount cs size then hs.length else chunkCount cs size) ≤ maxChunks
        split <;> omega
      · show (if hs.length < chunkCount cs size then hs.length else chunkCount cs size) * cs ≤ size
        split
        · rename_i hl
          exact le_trans (Nat.mul_le_mul_right _ (le_of_lt hl)) hle.1
        · exact hle.1
      · intro hs' e
        cases e
        refine ⟨rfl, ?_⟩
        show (if hs.length < chunkCount cs size then hs.length else chunkCount cs size) = _
        split <;> omega
    · split at h
      · cases h
      · cases h
        exact ⟨by simp [hashFile], rfl, rfl, rfl, hle.2, hle.1, hne, fun _ => ⟨rfl, rfl⟩, fun _ e => (by cases e)⟩

/-- Specification: the hash index that belongs to an image (this is what bundle creation puts into the bundle, and what is computed
if there is none). -/
def ImageIndex (sha : Bytes → Nat) (cs : Nat) (img : Disk) (isize : Nat) (st : Option (List Nat)) : Prop :=
  st = none ∨ st = some (hashFile sha cs img (isize / cs))

theorem hashFile_get {sha : Bytes → Nat} {cs d n i} (hi : i < n) : (hashFile sha cs d n)[i]? = some (sha (d.read (i * cs) cs)) := by
  unfold hashFile
  rw [List.getElem?_map, List.getElem?_range hi]
  rfl

theorem withSeed_cases {sha zeroHash cs io I tgt old seed r} (h : copyAdaptive.withSeed sha zeroHash cs io I tgt old seed = .ok r) :
    r = (tgt, false) ∨ ∃ ii wi, openIdx sha cs I.progress I.image I.isize I.istored = .ok ii ∧ reuseIdx cs ii I.tsize = some wi ∧
      r = copyLoop sha zeroHash cs io I.tsize
          ⟨{ wi with upto := 0, skip := true }, old, seed, ⟨{ ii with skip := true }, I.image, I.isize⟩⟩
          0 (ii.hashes.take ii.count) tgt := by
  unfold copyAdaptive.withSeed at h
  split at h
  · cases h; exact Or.inl rfl
  · cases h
  · rename_i ii hii
    split at h
    · cases h; exact Or.inl rfl
    · rename_i wi hwi
      cases h
      exact Or.inr ⟨ii, wi, hii, hwi, rfl⟩

theorem copyAdaptive_cases {sha zeroHash cs io I tgt r} (h : copyAdaptive sha zeroHash cs io I tgt = .ok r) :
    r = (tgt, false) ∨ ∃ old seed ii wi, openIdx sha cs I.progress tgt I.tsize I.tstored = .ok old ∧ I.isize ≤ I.tsize ∧
      (∀ s, seed = some s → s.idx.count ≤ s.idx.hashes.length ∧ s.idx.skip = false) ∧
      openIdx sha cs I.progress I.image I.isize I.istored = .ok ii ∧ reuseIdx cs ii I.tsize = some wi ∧
      r = copyLoop sha zeroHash cs io I.tsize
          ⟨{ wi with upto := 0, skip := true }, old, seed, ⟨{ ii with skip := true }, I.image, I.isize⟩⟩
          0 (ii.hashes.take ii.count) tgt := by
  unfold copyAdaptive at h
  split at h
  · cases h; exact Or.inl rfl
  · cases h
  · rename_i old hold
    split at h
    · cases h; exact Or.inl rfl
    · rename_i hsz
      split at h
      · rename_i sd ssize sst hseed
        split at h
        · cases h; exact Or.inl rfl
        · cases h
        · rename_i si hsi
          rcases withSeed_cases h with e | ⟨ii, wi, h1, h2, h3⟩
          · exact Or.inl e
          · refine Or.inr ⟨old, _, ii, wi, hold, by omega, ?_, h1, h2, h3⟩
            intro s hs
            cases hs
            obtain ⟨a, b, -⟩ := openIdx_spec hsi
            exact ⟨a, b⟩
      · rcases withSeed_cases h with e | ⟨ii, wi, h1, h2, h3⟩
        · exact Or.inl e
        · exact Or.inr ⟨old, none, ii, wi, hold, by omega, (by intro s hs; cases hs), h1, h2, h3⟩

theorem start_inv {sha : Bytes → Nat} {cs : Nat} {I : Input} {tgt old seed ii wi}
    (hidx : ImageIndex sha cs I.image I.isize I.istored)
    (hold : openIdx sha cs I.progress tgt I.tsize I.tstored = .ok old)
    (hseed : ∀ s : Src, seed = some s → s.idx.count ≤ s.idx.hashes.length ∧ s.idx.skip = false)
    (hii : openIdx sha cs I.progress I.image I.isize I.istored = .ok ii) (hwi : reuseIdx cs ii I.tsize = some wi) :
    CInv sha cs I.image (I.isize / cs) ii.hashes
      ⟨{ wi with upto := 0, skip := true }, old, seed, ⟨{ ii with skip := true }, I.image, I.isize⟩⟩ 0 tgt tgt ∧
    ii.count = ii.hashes.length ∧ I.isize / cs * cs = I.isize ∧ ii.hashes.length = I.isize / cs := by
  obtain ⟨i1, i2, i3, i4, i5, i6, i7, i8, i9⟩ := openIdx_spec hii
  obtain ⟨o1, o2, -⟩ := openIdx_spec hold
  have hcc : chunkCount cs I.isize = I.isize / cs ∧ I.isize % cs = 0 := by
    unfold chunkCount at i7 ⊢
    by_cases a : I.isize = 0
    · simp [a] at i7
    by_cases b : I.isize / cs > maxChunks
    · simp [a, b] at i7
    by_cases c : I.isize % cs ≠ 0
    · simp [a, b, c] at i7
    · rw [if_neg a, if_neg b, if_neg c]
      exact ⟨rfl, by simpa using c⟩
  have hh : ii.hashes = hashFile sha cs I.image (I.isize / cs) ∧ ii.count = I.isize / cs := by
    rcases hidx with e | e
    · obtain ⟨a, b⟩ := i8 e
      exact ⟨by rw [a, hcc.1], by rw [b, hcc.1]⟩
    · obtain ⟨a, b⟩ := i9 _ e
      exact ⟨a, by rw [b, hcc.1]; simp [hashFile]⟩
  have hlen : ii.hashes.length = I.isize / cs := by rw [hh.1]; simp [hashFile]
  have hw : wi.count ≤ wi.hashes.length ∧ ∀ (i h : Nat), wi.hashes[i]? = some h → ii.hashes[i]? = some h := by
    unfold reuseIdx at hwi
    split at hwi
    · cases hwi
    · cases hwi
      simp only []
      constructor
      · rw [List.length_take]
        split <;> omega
      · intro i h e
        by_cases hlt : i < (if chunkCount cs I.tsize > ii.count then ii.count else chunkCount cs I.tsize)
        · rwa [List.getElem?_take_of_lt hlt] at e
        · rw [List.getElem?_eq_none (by rw [List.length_take]; omega)] at e
          cases e
  refine ⟨?_, by rw [hh.2, hlen], Nat.div_mul_cancel (Nat.dvd_of_mod_eq_zero hcc.2), hlen⟩
  exact
    { hashes := by intro i hi; rw [hh.1]; exact hashFile_get hi
      len := hlen
      wcount := hw.1
      whashes := hw.2
      wupto := rfl
      ocount := o1
      oskip := o2
      seed := hseed
      icount := i1
      ihashes := by intro i h e _; exact e
      iwin := by
        refine ⟨?_, i3⟩
        show ii.upto ≥ _
        rw [i4, ← hh.2]
        have : maxChunks ≤ 2 ^ 32 - 1 := by decide
        omega
      ilen := hlen
      idata := rfl
      done := by simp [Disk.read_zero]
      rest := fun _ _ => rfl }

/-- **C30.** If the adaptive copy reports success, the target starts with exactly the image and is otherwise unchanged, whatever the target and
the seed slot contained, whatever their stored indices say, and whichever reads failed — unless one of the chunks that are now on the target is different from that in
the image, but has the same SHA-256 hash. -/
theorem C30_exact (sha : Bytes → Nat) (zeroHash : Nat) (cs : Nat) (io : Io) (I : Input) (tgt d' : Disk)
    (hz : zeroHash = sha (List.replicate cs 0)) (hidx : ImageIndex sha cs I.image I.isize I.istored)
    (h : copyAdaptive sha zeroHash cs io I tgt = .ok (d', true)) :
    (d'.read 0 I.isize = I.image.read 0 I.isize ∨ Forged sha cs (I.isize / cs) d' I.image) ∧ ∀ i, I.isize ≤ i → d' i = tgt i := by
  rcases copyAdaptive_cases h with e | ⟨old, seed, ii, wi, hold, hsz, hseed, hii, hwi, hr⟩
  · cases e
  · obtain ⟨inv, hcnt, hmul, hlen⟩ := start_inv hidx hold hseed hii hwi
    have htake : ii.hashes.take ii.count = ii.hashes := by rw [hcnt, List.take_length]
    rw [htake] at hr
    have := copyLoop_correct (io := io) (tsize := I.tsize) hz ii.hashes _ 0 tgt inv (by simp) (by omega) (by rw [← hr])
    rw [← hr, hmul] at this
    refine ⟨?_, this.2⟩
    by_cases hf : Forged sha cs (I.isize / cs) d' I.image
    · exact Or.inr hf
    left
    have := read_of_chunks (d := d') (e := I.image) (cs := cs) (n := I.isize / cs) (by
      intro c hc
      by_contra hne
      exact hf ⟨c, hc, hne, this.1 c hc⟩)
    rwa [hmul] at this

/-- invariant for the absence of failures; contents play no role -/
structure FInv (sha : Bytes → Nat) (cs : Nat) (img : Disk) (n : Nat) (hs : List Nat) (S : Sources) : Prop where
  hashes : ∀ i, i < n → hs[i]? = some (sha (img.read (i * cs) cs))
  len : hs.length = n
  iidx : S.image.idx.hashes = hs ∧ S.image.idx.count = n ∧ S.image.idx.below = 0 ∧ n ≤ S.image.idx.upto
  idata : S.image.data = img ∧ n * cs ≤ S.image.size

theorem fetch_some' {sha zeroHash cs io img n hs S c d tsize} (I : FInv sha cs img n hs S) {h} (hh : hs[c]? = some h)
    (hrd : io.rd c 3 = true) : ∃ b, fetch sha zeroHash cs io S d tsize c h = some b := by
  obtain ⟨e1, e2, e3, e4⟩ := I.iidx
  have hint : Intact sha cs S.image.idx S.image.data S.image.size := by
    refine ⟨by rw [e1, e2, I.len], by rw [e2]; exact I.idata.2, ?_⟩
    intro i hi
    rw [e2] at hi
    rw [e1, I.idata.1]
    exact I.hashes i hi
  have hm : h ∈ S.image.idx.hashes := by
    rw [e1]; exact List.mem_of_getElem? hh
  obtain ⟨b, hb⟩ := C29_complete sha cs S.image.idx S.image.data S.image.size h hint e3 (by rw [e1, I.len]; exact e4) hm
  unfold fetch
  split
  · exact ⟨_, rfl⟩
  · split
    · exact ⟨_, rfl⟩
    · split
      · exact ⟨_, rfl⟩
      · split
        · split
          · exact ⟨_, rfl⟩
          · rw [hrd]; exact ⟨b, hb⟩
        · rw [hrd]; exact ⟨b, hb⟩

theorem copyLoop_total {sha zeroHash cs io img n hs tsize} (ht : n * cs ≤ tsize) (hrd : ∀ c, io.rd c 3 = true) (hwr : ∀ c, io.wr c = none) :
    ∀ (rest : List Nat) (S : Sources) (c : Nat) (d : Disk), FInv sha cs img n hs S → rest = hs.drop c →
      (copyLoop sha zeroHash cs io tsize S c rest d).2 = true := by
  intro rest
  induction rest with
  | nil => intro S c d _ _; rfl
  | cons h rest ih =>
    intro S c d I hr
    have hcn : c < n := by
      have := congrArg List.length hr
      rw [List.length_drop, I.len] at this
      simp at this; omega
    have hh : hs[c]? = some h := by
      have : (hs.drop c)[0]? = some h := by rw [← hr]; rfl
      rw [List.getElem?_drop] at this
      simpa using this
    have hr' : rest = hs.drop (c + 1) := by
      have := congrArg List.tail hr
      rw [List.tail_drop] at this
      simpa using this
    obtain ⟨b, hb⟩ := fetch_some' (zeroHash := zeroHash) (io := io) (d := d) (tsize := tsize) I hh (hrd c)
    simp only [copyLoop]
    rw [hb]
    simp only []
    rw [if_pos (le_trans (Nat.mul_le_mul_right _ hcn) ht), hwr]
    simp only []
    exact ih _ _ _ ⟨I.hashes, I.len, I.iidx, I.idata⟩ hr'

/-- The size is a positive multiple of the chunk size (and at most 2^27 chunks), and there are enough chunks if the index has to be
created while progress is reported. -/
def CanOpen (cs : Nat) (progress : Bool) (size : Nat) (st : Option (List Nat)) : Prop :=
  chunkCount cs size ≠ 0 ∧ (progress = true → st = none → 9 ≤ chunkCount cs size)

/-- **C30.** The copy never fails because of the contents of target or seed or of their stored indices: if the image can be read and the target
be written, the sizes are multiples of the chunk size and the image fits, it succeeds (reads from target and seed may even fail).
Because of the division by zero below, an index that has to be created while progress is reported needs at least nine chunks. -/
theorem C30_never_fails (sha : Bytes → Nat) (zeroHash : Nat) (cs : Nat) (io : Io) (I : Input) (tgt : Disk)
    (hidx : ImageIndex sha cs I.image I.isize I.istored)
    (ht : CanOpen cs I.progress I.tsize I.tstored) (hi : CanOpen cs I.progress I.isize I.istored)
    (hs : ∀ d n st, I.seed = some (d, n, st) → CanOpen cs I.progress n st)
    (hfit : I.isize ≤ I.tsize) (hrd : ∀ c, io.rd c 3 = true) (hwr : ∀ c, io.wr c = none) :
    ∃ d', copyAdaptive sha zeroHash cs io I tgt = .ok (d', true) := by
  have hopen : ∀ d n st, CanOpen cs I.progress n st → ∃ idx, openIdx sha cs I.progress d n st = .ok idx := by
    intro d n st hn
    unfold openIdx
    rw [if_neg hn.1]
    cases st with
    | none =>
      simp only []
      rw [if_neg]
      · exact ⟨_, rfl⟩
      · cases hp : I.progress with
        | false => simp
        | true =>
          have := hn.2 hp rfl
          simp only [Bool.true_and, decide_eq_true_eq]
          omega
    | some hs => exact ⟨_, rfl⟩
  obtain ⟨old, hold⟩ := hopen tgt I.tsize I.tstored ht
  obtain ⟨ii, hii⟩ := hopen I.image I.isize I.istored hi
  obtain ⟨wi, hwi⟩ : ∃ wi, reuseIdx cs ii I.tsize = some wi := by
    unfold reuseIdx
    rw [if_neg ht.1]
    exact ⟨_, rfl⟩
  have main : ∀ seed : Option Src, (∀ s : Src, seed = some s → s.idx.count ≤ s.idx.hashes.length ∧ s.idx.skip = false) →
      ∃ d', copyAdaptive.withSeed sha zeroHash cs io I tgt old seed = .ok (d', true) := by
    intro seed hseed
    obtain ⟨inv, hcnt, hmul, hlen⟩ := start_inv hidx hold hseed hii hwi
    unfold copyAdaptive.withSeed
    rw [hii]
    simp only []
    rw [hwi]
    simp only []
    refine ⟨_, congrArg Open.ok (Prod.ext rfl ?_)⟩
    have htake : ii.hashes.take ii.count = ii.hashes := by rw [hcnt, List.take_length]
    rw [htake]
    refine copyLoop_total (img := I.image) (n := I.isize / cs) (by rw [hmul]; exact hfit) hrd hwr ii.hashes _ 0 tgt ⟨inv.hashes, inv.len, ?_, ?_⟩ (by simp)
    · exact ⟨rfl, hcnt.trans hlen, inv.iwin.2, inv.iwin.1⟩
    · exact ⟨rfl, le_of_eq hmul⟩
  unfold copyAdaptive
  rw [hold]
  simp only []
  rw [if_neg (by omega)]
  cases hsd : I.seed with
  | none => exact main none (by intro s e; cases e)
  | some p =>
    obtain ⟨sd, sn, st⟩ := p
    obtain ⟨si, hsi⟩ := hopen sd sn st (hs _ _ _ hsd)
    simp only []
    rw [hsi]
    refine main _ ?_
    intro s e
    cases e
    obtain ⟨a, b, -⟩ := openIdx_spec hsi
    exact ⟨a, b⟩

/-- a successful run with a stale index of the target, a seed, and a duplicate chunk -/
def exSha (b : Bytes) : Nat := b.foldl (fun a x => a * 256 + x.toNat) 1
def exImage : Disk := fun i => if i = 0 then 1 else if i = 1 then 2 else if i = 2 then 1 else 0
def exInput : Input :=
  { tsize := 4, tstored := some [260, 261, 257], seed := some (fun i => if i = 0 then 9 else 2, 2, none),
    image := exImage, isize := 4, istored := none, progress := false }

example : (match copyAdaptive exSha 256 1 {} exInput (fun _ => 1) with
    | .ok (d, b) => (d.read 0 5, b)
    | _ => ([], false)) = ([1, 2, 1, 0, 1], true) := by decide
example : (256 : Nat) = exSha (List.replicate 1 0) ∧ chunkCount 1 exInput.tsize ≠ 0 ∧ chunkCount 1 exInput.isize ≠ 0 := by decide
example : CanOpen 4096 true (9 * 4096) none := ⟨by decide, fun _ _ => by decide⟩

/-- Finding: if the index file in the bundle covers only part of the image, only that part is written, and success is reported. -/
theorem C30_truncated_index_violated : ∃ (I : Input) (tgt d' : Disk),
    copyAdaptive exSha 256 1 {} I tgt = .ok (d', true) ∧ d'.read 0 I.isize ≠ I.image.read 0 I.isize :=
  ⟨{ tsize := 4, tstored := some [], seed := none, image := exImage, isize := 4, istored := some [257], progress := false },
   fun _ => 7, _, rfl, by decide⟩

/-- Finding: creating an index for less than nine chunks while progress is reported divides by zero. -/
theorem C30_small_crash (sha : Bytes → Nat) (zeroHash : Nat) (io : Io) (I : Input) (tgt : Disk) (cs : Nat)
    (h1 : I.progress = true) (h2 : I.tstored = none) (h3 : chunkCount cs I.tsize ≠ 0) (h4 : chunkCount cs I.tsize < 9) :
    copyAdaptive sha zeroHash cs io I tgt = .crash := by
  unfold copyAdaptive
  have : openIdx sha cs I.progress tgt I.tsize I.tstored = .crash := by
    unfold openIdx
    rw [if_neg h3, h2, h1]
    simp only [Bool.true_and]
    rw [if_pos (by simp; omega)]
  rw [this]

example : chunkCount 4096 32768 = 8 := by decide

end Rauc.HashIndex
