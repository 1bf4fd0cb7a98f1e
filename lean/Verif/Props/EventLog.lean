import Verif.Model.EventLog

/-!
# C40: log files stay bounded, and only the oldest records are dropped
-/

namespace Rauc.EventLog

/-! ## Specification -/

/-- the highest suffix: `.1` up to `.maxfiles-1`, but at least `.1` -/
def top (cfg : Cfg) : Nat := max 1 (cfg.maxFiles - 1)

/-- the only files are the log file and `.1` to `.k`, all of them at most `b` bytes long -/
structure Bounded (k b : Nat) (fs : FS) : Prop where
  names : ∀ n, fs.old n ≠ none → 1 ≤ n ∧ n ≤ k
  cur : (fs.cur.getD []).length ≤ b
  old : ∀ n c, fs.old n = some c → c.length ≤ b

/-- the records in the rotated files, from the oldest on -/
def older (fs : FS) : Nat → Bytes
  | 0 => []
  | n + 1 => (fs.old (n + 1)).getD [] ++ older fs n

/-- all that can be read in the log files, from the oldest record on -/
def chron (fs : FS) (k : Nat) : Bytes := older fs k ++ fs.cur.getD []

/-- nothing but the oldest file was dropped, and `w` added -/
def Kept (k : Nat) (fs fs' : FS) (w : Bytes) : Prop :=
  chron fs' k = chron fs k ++ w ∨ ∃ b rest, fs.old k = some b ∧ chron fs k = b ++ rest ∧ chron fs' k = rest ++ w

/-! ## Renames -/

theorem older_congr {fs fs' : FS} {k : Nat} (h : ∀ n, 1 ≤ n → n ≤ k → fs'.old n = fs.old n) : older fs' k = older fs k := by
  induction k with
  | zero => rfl
  | succ k ih =>
    simp only [older]
    rw [h (k + 1) (by omega) (by omega), ih (fun n h1 h2 => h n h1 (by omega))]

theorem old_move (fs : FS) (n : Nat) (b : Bytes) (hn : 1 ≤ n) (m : Nat) :
    (setOld (setOld fs n (some b)) (n - 1) none).old m = if m = n - 1 then none else if m = n then some b else fs.old m := rfl

/-- the part below the files that are moved stays, and the contents move up -/
theorem older_move_self (fs : FS) (m : Nat) (b : Bytes) :
    older (setOld (setOld fs (m + 2) (some b)) (m + 1) none) (m + 2) = b ++ older fs m := by
  have h1 : (setOld (setOld fs (m + 2) (some b)) (m + 1) none).old (m + 2) = some b := by
    simp [setOld]
  have h2 : (setOld (setOld fs (m + 2) (some b)) (m + 1) none).old (m + 1) = none := by simp [setOld]
  simp only [older, h1, h2, Option.getD_some, Option.getD_none, List.nil_append]
  congr 1
  apply older_congr
  intro n _ hn
  simp only [setOld]
  rw [if_neg (by omega), if_neg (by omega)]

theorem older_move (fs : FS) (m : Nat) (b : Bytes) (hb : fs.old (m + 1) = some b) (hn : fs.old (m + 2) = none) (k : Nat) (hk : m + 2 ≤ k) :
    older (setOld (setOld fs (m + 2) (some b)) (m + 1) none) k = older fs k := by
  induction k with
  | zero => omega
  | succ k ih =>
    by_cases he : k + 1 = m + 2
    · have hkm : k = m + 1 := by omega
      subst hkm
      rw [older_move_self]
      simp [older, hb, hn]
    · have h1 : (setOld (setOld fs (m + 2) (some b)) (m + 1) none).old (k + 1) = fs.old (k + 1) := by
        simp only [setOld]; rw [if_neg (by omega), if_neg (by omega)]
      simp only [older, h1]
      rw [ih (by omega)]

theorem older_first (fs : FS) (b : Bytes) (hn : fs.old 1 = none) (k : Nat) (hk : 1 ≤ k) : older (setOld fs 1 (some b)) k = older fs k ++ b := by
  induction k with
  | zero => omega
  | succ k ih =>
    by_cases he : k = 0
    · subst he; simp [older, hn, setOld]
    · have h1 : (setOld fs 1 (some b)).old (k + 1) = fs.old (k + 1) := by simp only [setOld]; rw [if_neg (by omega)]
      simp only [older, h1]
      rw [ih (by omega), List.append_assoc]

/-! ## The loop -/

/-- what every state during the loop has in common with the first one -/
structure Same (k b : Nat) (fs st : FS) : Prop where
  ok : Bounded k b st
  cur : st.cur = fs.cur
  chron : chron st k = chron fs k

theorem bounded_move {k b : Nat} {fs : FS} (h : Bounded k b fs) (m : Nat) (c : Bytes) (hc : fs.old (m + 1) = some c) (hm : m + 2 ≤ k) :
    Bounded k b (setOld (setOld fs (m + 2) (some c)) (m + 1) none) := by
  refine ⟨?_, h.cur, ?_⟩
  · intro n hn
    simp only [setOld] at hn
    split at hn
    · exact absurd rfl hn
    · split at hn
      · omega
      · exact h.names n hn
  · intro n c' hn
    simp only [setOld] at hn
    split at hn
    · cases hn
    · split at hn
      · cases hn; exact h.old _ _ hc
      · exact h.old n c' hn

theorem renameOld_spec {k b : Nat} (l : Log) (fs : FS) (m : Nat) (hfs : Bounded k b fs) (hm : m + 1 ≤ k) (hn : fs.old (m + 1) = none) :
    (∀ st ∈ (renameOld l fs (m + 1)).states, Same k b fs st) ∧ Same k b fs (renameOld l fs (m + 1)).fs ∧
    ((renameOld l fs (m + 1)).ok = true → (renameOld l fs (m + 1)).fs.old m = none) := by
  unfold renameOld
  simp only [Nat.add_sub_cancel]
  cases hc : fs.old m with
  | none => exact ⟨by intro st hst; simp only [List.mem_singleton] at hst; subst hst; exact ⟨hfs, rfl, rfl⟩, ⟨hfs, rfl, rfl⟩, fun _ => hc⟩
  | some c =>
    obtain ⟨m, rfl⟩ : ∃ m', m = m' + 1 := ⟨m - 1, by have := (hfs.names m (by rw [hc]; simp)).1; omega⟩
    simp only
    split
    · exact ⟨by intro st hst; simp only [List.mem_singleton] at hst; subst hst; exact ⟨hfs, rfl, rfl⟩, ⟨hfs, rfl, rfl⟩, by simp⟩
    · have hs : Same k b fs (setOld (setOld fs (m + 2) (some c)) (m + 1) none) := by
        refine ⟨bounded_move hfs m c hc (by omega), rfl, ?_⟩
        unfold chron
        rw [older_move fs m c hc hn k (by omega)]
        rfl
      refine ⟨?_, hs, ?_⟩
      · intro st hst
        simp only [List.mem_cons, List.not_mem_nil, or_false] at hst
        rcases hst with rfl | rfl
        · exact ⟨hfs, rfl, rfl⟩
        · exact hs
      · intro _; simp [setOld]

theorem Same.trans {k b : Nat} {x y z : FS} (h : Same k b x y) (h' : Same k b y z) : Same k b x z :=
  ⟨h'.ok, h'.cur.trans h.cur, h'.chron.trans h.chron⟩

/-- below a gap, the loop does not drop anything -/
theorem rotateLoop_gap {k b : Nat} (l : Log) : ∀ (n : Nat) (fs : FS), Bounded k b fs → n ≤ k → fs.old n = none →
    (∀ st ∈ (rotateLoop l n fs).states, Same k b fs st) ∧ Same k b fs (rotateLoop l n fs).fs ∧
    ((rotateLoop l n fs).ok = true → 1 ≤ n → (rotateLoop l n fs).fs.old 1 = none) := by
  intro n
  induction n with
  | zero =>
    intro fs h _ _
    refine ⟨?_, ⟨h, rfl, rfl⟩, by omega⟩
    intro st hst
    simp only [rotateLoop, List.mem_singleton] at hst
    subst hst; exact ⟨h, rfl, rfl⟩
  | succ n ih =>
    intro fs h hk hn
    obtain ⟨r1, r2, r3⟩ := renameOld_spec l fs n h hk hn
    unfold rotateLoop
    simp only
    by_cases hok : (renameOld l fs (n + 1)).ok = true
    · rw [if_pos hok]
      obtain ⟨i1, i2, i3⟩ := ih _ r2.ok (by omega) (r3 hok)
      refine ⟨?_, r2.trans i2, ?_⟩
      · intro st hst
        simp only [List.mem_append] at hst
        rcases hst with hst | hst
        · exact r1 st hst
        · exact r2.trans (i1 st hst)
      · intro hq _
        by_cases h0 : n = 0
        · subst h0
          have hz : (renameOld l fs 1).fs = fs := by
            unfold renameOld
            have h0 : fs.old 0 = none := by
              cases hx : fs.old 0 with
              | none => rfl
              | some c => have := (h.names 0 (by rw [hx]; simp)).1; omega
            simp [h0]
          show (rotateLoop l 0 (renameOld l fs 1).fs).fs.old 1 = none
          rw [hz]; exact hn
        · exact i3 hq (by omega)
    · rw [if_neg hok]
      exact ⟨r1, r2, fun hq => absurd hq hok⟩

/-- nothing was dropped but the oldest file -/
structure Dropped (k b : Nat) (fs st : FS) : Prop where
  ok : Bounded k b st
  cur : st.cur = fs.cur
  kept : Kept k fs st []

theorem Same.dropped {k b : Nat} {fs st : FS} (h : Same k b fs st) : Dropped k b fs st := ⟨h.ok, h.cur, Or.inl (by rw [h.chron, List.append_nil])⟩

theorem Dropped.same {k b : Nat} {x y z : FS} (h : Dropped k b x y) (h' : Same k b y z) : Dropped k b x z := by
  refine ⟨h'.ok, h'.cur.trans h.cur, ?_⟩
  rcases h.kept with hk | ⟨c, rest, h1, h2, h3⟩
  · exact Or.inl (by rw [h'.chron, hk])
  · exact Or.inr ⟨c, rest, h1, h2, by rw [h'.chron, h3]⟩

/-- the first rename of the loop drops the oldest file -/
theorem renameOld_top {b : Nat} (l : Log) (fs : FS) (m : Nat) (hfs : Bounded (m + 1) b fs) :
    (∀ st ∈ (renameOld l fs (m + 1)).states, Dropped (m + 1) b fs st) ∧ Dropped (m + 1) b fs (renameOld l fs (m + 1)).fs ∧
    ((renameOld l fs (m + 1)).ok = true → (renameOld l fs (m + 1)).fs.old m = none) := by
  have h0 : Dropped (m + 1) b fs fs := Same.dropped ⟨hfs, rfl, rfl⟩
  unfold renameOld
  simp only [Nat.add_sub_cancel]
  cases hc : fs.old m with
  | none => exact ⟨by intro st hst; simp only [List.mem_singleton] at hst; subst hst; exact h0, h0, fun _ => hc⟩
  | some c =>
    obtain ⟨m, rfl⟩ : ∃ m', m = m' + 1 := ⟨m - 1, by have := (hfs.names m (by rw [hc]; simp)).1; omega⟩
    simp only
    split
    · exact ⟨by intro st hst; simp only [List.mem_singleton] at hst; subst hst; exact h0, h0, by simp⟩
    · have hs : Dropped (m + 2) b fs (setOld (setOld fs (m + 2) (some c)) (m + 1) none) := by
        refine ⟨bounded_move hfs m c hc (by omega), rfl, ?_⟩
        have hch : chron (setOld (setOld fs (m + 2) (some c)) (m + 1) none) (m + 2) = c ++ older fs m ++ fs.cur.getD [] := by
          unfold chron; rw [older_move_self]; rfl
        have hch0 : chron fs (m + 2) = (fs.old (m + 2)).getD [] ++ (c ++ older fs m ++ fs.cur.getD []) := by
          unfold chron; simp [older, hc]
        cases hx : fs.old (m + 2) with
        | none => left; rw [hch, hch0, hx]; simp
        | some d => right; exact ⟨d, _, hx, by rw [hch0, hx]; rfl, by rw [hch]; simp⟩
      refine ⟨?_, hs, ?_⟩
      · intro st hst
        simp only [List.mem_cons, List.not_mem_nil, or_false] at hst
        rcases hst with rfl | rfl
        · exact h0
        · exact hs
      · intro _; simp [setOld]

/-- the whole loop -/
theorem rotateLoop_top {b : Nat} (l : Log) (fs : FS) (m : Nat) (hfs : Bounded (m + 1) b fs) :
    (∀ st ∈ (rotateLoop l (m + 1) fs).states, Dropped (m + 1) b fs st) ∧ Dropped (m + 1) b fs (rotateLoop l (m + 1) fs).fs ∧
    ((rotateLoop l (m + 1) fs).ok = true → 1 ≤ m → (rotateLoop l (m + 1) fs).fs.old 1 = none) := by
  obtain ⟨r1, r2, r3⟩ := renameOld_top l fs m hfs
  unfold rotateLoop
  simp only
  by_cases hok : (renameOld l fs (m + 1)).ok = true
  · rw [if_pos hok]
    obtain ⟨i1, i2, i3⟩ := rotateLoop_gap (k := m + 1) (b := b) l m _ r2.ok (by omega) (r3 hok)
    refine ⟨?_, r2.same i2, i3⟩
    intro st hst
    simp only [List.mem_append] at hst
    rcases hst with hst | hst
    · exact r1 st hst
    · exact r2.same (i1 st hst)
  · rw [if_neg hok]
    exact ⟨r1, r2, fun hq => absurd hq hok⟩

/-! ## Rotation -/

theorem bounded_final {k b : Nat} {fs : FS} (h : Bounded k b fs) (hk : 1 ≤ k) (c : Bytes) (hc : fs.cur = some c) (cur : Option Bytes) (hcur : (cur.getD []).length ≤ b) :
    Bounded k b { setOld fs 1 (some c) with cur := cur } := by
  refine ⟨?_, hcur, ?_⟩
  · intro n hn
    simp only [setOld] at hn
    split at hn
    · omega
    · exact h.names n hn
  · intro n c' hn
    simp only [setOld] at hn
    split at hn
    · cases hn
      have := h.cur
      rw [hc] at this
      exact this
    · exact h.old n c' hn

/-- no bound on the state except the size is lost, and the log file is empty after success -/
theorem rotate_spec (cfg : Cfg) (l : Log) (fs : FS) (b : Nat) (hfs : Bounded (top cfg) b fs) :
    (∀ st ∈ (rotate cfg l fs).states, Bounded (top cfg) b st ∧ Kept (top cfg) fs st []) ∧
    Bounded (top cfg) b (rotate cfg l fs).fs ∧ Kept (top cfg) fs (rotate cfg l fs).fs [] ∧
    ((rotate cfg l fs).ok = true → (rotate cfg l fs).fs.cur = some []) := by
  -- the loop: dropped, and `.1` is free if it is not the last one; if it is the last one, nothing was dropped
  have hloop : (∀ st ∈ (rotateLoop l (cfg.maxFiles - 1) fs).states, Dropped (top cfg) b fs st) ∧ Dropped (top cfg) b fs (rotateLoop l (cfg.maxFiles - 1) fs).fs ∧
      ((rotateLoop l (cfg.maxFiles - 1) fs).ok = true →
        (top cfg = 1 ∧ (rotateLoop l (cfg.maxFiles - 1) fs).fs = fs) ∨ (rotateLoop l (cfg.maxFiles - 1) fs).fs.old 1 = none) := by
    have h0 : Dropped (top cfg) b fs fs := Same.dropped ⟨hfs, rfl, rfl⟩
    have hz : fs.old 0 = none := by
      cases hx : fs.old 0 with
      | none => rfl
      | some c => have := (hfs.names 0 (by rw [hx]; simp)).1; omega
    rcases hm : cfg.maxFiles - 1 with _ | _ | m
    · have ht : top cfg = 1 := by unfold top; omega
      refine ⟨?_, h0, fun _ => Or.inl ⟨ht, rfl⟩⟩
      intro st hst
      simp only [rotateLoop, List.mem_singleton] at hst
      subst hst; exact h0
    · have ht : top cfg = 1 := by unfold top; omega
      have hr : rotateLoop l (0 + 1) fs = ⟨[fs, fs], fs, true⟩ := by simp [rotateLoop, renameOld, hz]
      rw [hr]
      refine ⟨?_, h0, fun _ => Or.inl ⟨ht, rfl⟩⟩
      intro st hst
      simp only [List.mem_cons, List.not_mem_nil, or_false, or_self] at hst
      subst hst; exact h0
    · have ht : top cfg = m + 1 + 1 := by unfold top; omega
      rw [ht] at hfs ⊢
      obtain ⟨i1, i2, i3⟩ := rotateLoop_top l fs (m + 1) hfs
      exact ⟨i1, i2, fun hok => Or.inr (i3 hok (by omega))⟩
  obtain ⟨l1, l2, l3⟩ := hloop
  unfold rotate
  simp only
  generalize rotateLoop l (cfg.maxFiles - 1) fs = r at l1 l2 l3 ⊢
  obtain ⟨states, rfs, ok⟩ := r
  simp only at l1 l2 l3 ⊢
  cases ok with
  | false => exact ⟨fun st hst => ⟨(l1 st hst).ok, (l1 st hst).kept⟩, l2.ok, l2.kept, by simp⟩
  | true =>
    simp only [Bool.not_true, Bool.false_eq_true, if_false]
    cases hc : rfs.cur with
    | none => exact ⟨fun st hst => ⟨(l1 st hst).ok, (l1 st hst).kept⟩, l2.ok, l2.kept, by simp⟩
    | some c =>
      simp only
      split
      · exact ⟨fun st hst => ⟨(l1 st hst).ok, (l1 st hst).kept⟩, l2.ok, l2.kept, by simp⟩
      · have ht1 : 1 ≤ top cfg := by unfold top; omega
        have key : ∀ cur : Option Bytes, cur.getD [] = [] →
            Bounded (top cfg) b { setOld rfs 1 (some c) with cur := cur } ∧ Kept (top cfg) fs { setOld rfs 1 (some c) with cur := cur } [] := by
          intro cur hcur
          refine ⟨bounded_final l2.ok ht1 c hc cur (by rw [hcur]; simp), ?_⟩
          have hch : chron { setOld rfs 1 (some c) with cur := cur } (top cfg) = older (setOld rfs 1 (some c)) (top cfg) := by
            unfold chron
            rw [hcur, List.append_nil]
            exact older_congr (fun _ _ _ => rfl)
          rcases l3 rfl with ⟨t1, rfl⟩ | h1
          · rw [t1] at hch ⊢
            have e1 : older (setOld rfs 1 (some c)) 1 = c := by simp [older, setOld]
            have e2 : chron rfs 1 = (rfs.old 1).getD [] ++ c := by unfold chron; simp [older, hc]
            cases hx : rfs.old 1 with
            | none => left; rw [hch, e1, e2, hx]; simp
            | some d => right; exact ⟨d, c, hx, by rw [e2, hx]; rfl, by rw [hch, e1]; simp⟩
          · have e1 : chron { setOld rfs 1 (some c) with cur := cur } (top cfg) = chron rfs (top cfg) := by
              rw [hch, older_first rfs c h1 _ ht1]
              unfold chron; rw [hc]; rfl
            rcases l2.kept with hk | ⟨d, rest, k1, k2, k3⟩
            · exact Or.inl (by rw [e1, hk])
            · exact Or.inr ⟨d, rest, k1, k2, by rw [e1, k3]⟩
        have kn := key none rfl
        have ks := key (some []) rfl
        split
        · refine ⟨?_, kn.1, kn.2, by simp⟩
          intro st hst
          simp only [List.mem_append, List.mem_singleton] at hst
          rcases hst with hst | rfl
          · exact ⟨(l1 st hst).ok, (l1 st hst).kept⟩
          · exact kn
        · refine ⟨?_, ks.1, ks.2, by simp⟩
          intro st hst
          simp only [List.mem_append, List.mem_cons, List.not_mem_nil, or_false] at hst
          rcases hst with hst | rfl | rfl
          · exact ⟨(l1 st hst).ok, (l1 st hst).kept⟩
          · exact kn
          · exact ks

/-! ## Writing -/

theorem chron_append (fs : FS) (w : Bytes) (k : Nat) : chron (append fs w) k = chron fs k ++ w := by
  unfold chron append
  simp only [Option.getD_some]
  rw [← List.append_assoc]
  congr 2
  exact older_congr (fun _ _ _ => rfl)

theorem bounded_append {k b : Nat} {fs : FS} (h : Bounded k b fs) (w : Bytes) (hw : (fs.cur.getD []).length + w.length ≤ b) : Bounded k b (append fs w) :=
  ⟨h.names, by simp [append]; omega, h.old⟩

theorem write_spec (l : Log) (fs : FS) (k b : Nat) (h : Bounded k b fs) (hw : (fs.cur.getD []).length + l.record.length ≤ b) :
    (∀ st ∈ (write l fs).states, Bounded k b st ∧ ∃ w, w <+: l.record ∧ st = append fs w) ∧
    Bounded k b (write l fs).fs ∧ (∃ w, w <+: l.record ∧ (write l fs).fs = append fs w) ∧ ((write l fs).ok = true → (write l fs).fs = append fs l.record) := by
  have hpre : ∀ w, w <+: l.record → Bounded k b (append fs w) := fun w hw' => bounded_append h w (by have := hw'.length_le; omega)
  unfold write
  cases hwr : l.write with
  | none =>
    refine ⟨?_, hpre _ (List.prefix_refl _), ⟨_, List.prefix_refl _, rfl⟩, fun _ => rfl⟩
    intro st hst
    simp only [appendStates, List.mem_map] at hst
    obtain ⟨j, _, rfl⟩ := hst
    exact ⟨hpre _ (List.take_prefix _ _), _, List.take_prefix _ _, rfl⟩
  | some j =>
    refine ⟨?_, hpre _ (List.take_prefix _ _), ⟨_, List.take_prefix _ _, rfl⟩, by simp⟩
    intro st hst
    simp only [appendStates, List.mem_map] at hst
    obtain ⟨i, _, rfl⟩ := hst
    have : (l.record.take j).take i <+: l.record := (List.take_prefix _ _).trans (List.take_prefix _ _)
    exact ⟨hpre _ this, _, this, rfl⟩

theorem Kept.append {k : Nat} {fs fs' : FS} (h : Kept k fs fs' []) (w : Bytes) : Kept k fs (append fs' w) w := by
  rcases h with h | ⟨b, rest, h1, h2, h3⟩
  · exact Or.inl (by rw [chron_append, h]; simp)
  · exact Or.inr ⟨b, rest, h1, h2, by rw [chron_append, h3]; simp⟩

theorem kept_refl (k : Nat) (fs : FS) : Kept k fs fs [] := Or.inl (by simp)

/-- one event, in all the states it leads through -/
theorem log_spec (cfg : Cfg) (l : Log) (fs : FS) (size b : Nat) (hmax : cfg.maxSize ≠ 0) (hb : cfg.maxSize ≤ b) (hrec : l.record.length ≤ b) (hfs : Bounded (top cfg) b fs)
    (hsize : size = (fs.cur.getD []).length) :
    (∀ st ∈ (log cfg l fs size).1, Bounded (top cfg) b st ∧ ∃ w, w <+: l.record ∧ Kept (top cfg) fs st w) ∧
    Bounded (top cfg) b (log cfg l fs size).2.1 ∧ (∃ w, w <+: l.record ∧ Kept (top cfg) fs (log cfg l fs size).2.1 w) ∧
    (∀ n, (log cfg l fs size).2.2 = .up n → n = ((log cfg l fs size).2.1.cur.getD []).length ∧ Kept (top cfg) fs (log cfg l fs size).2.1 l.record ∧
      ∃ pre, (log cfg l fs size).2.1.cur = some (pre ++ l.record)) ∧
    (log cfg l fs size).2.2 ≠ .down := by
  unfold log
  split
  · rename_i hle
    have hle' : size + l.record.length ≤ cfg.maxSize := by
      rcases hle with h | h
      · exact absurd h hmax
      · exact h
    obtain ⟨w1, w2, ⟨w, w3, w4⟩, w5⟩ := write_spec l fs (top cfg) b hfs (by omega)
    refine ⟨?_, w2, ⟨w, w3, ?_⟩, ?_, ?_⟩
    · intro st hst
      obtain ⟨s1, v, s2, rfl⟩ := w1 st hst
      exact ⟨s1, v, s2, (kept_refl _ _).append v⟩
    · show Kept _ _ (write l fs).fs _
      rw [w4]; exact (kept_refl _ _).append w
    · intro n hn
      simp only at hn ⊢
      split at hn
      · rename_i hok
        cases hn
        rw [w5 hok]
        refine ⟨by rw [hsize]; simp [append], (kept_refl _ _).append _, fs.cur.getD [], rfl⟩
      · cases hn
    · simp only; split <;> simp
  · rename_i hgt
    obtain ⟨r1, r2, r3, r4⟩ := rotate_spec cfg l fs b hfs
    simp only
    split
    · rename_i hok
      have hcur := r4 hok
      obtain ⟨w1, w2, ⟨w, w3, w4⟩, w5⟩ := write_spec l (rotate cfg l fs).fs (top cfg) b r2 (by rw [hcur]; simpa using hrec)
      refine ⟨?_, w2, ⟨w, w3, ?_⟩, ?_, ?_⟩
      · intro st hst
        simp only [List.mem_append] at hst
        rcases hst with hst | hst
        · exact ⟨(r1 st hst).1, [], List.nil_prefix, (r1 st hst).2⟩
        · obtain ⟨s1, v, s2, rfl⟩ := w1 st hst
          exact ⟨s1, v, s2, r3.append v⟩
      · show Kept _ _ (write l (rotate cfg l fs).fs).fs _
        rw [w4]; exact r3.append w
      · intro n hn
        simp only at hn ⊢
        split at hn
        · rename_i hok'
          cases hn
          rw [w5 hok']
          refine ⟨by simp [append, hcur], r3.append _, (rotate cfg l fs).fs.cur.getD [], rfl⟩
        · cases hn
      · simp only; split <;> simp
    · exact ⟨fun st hst => ⟨(r1 st hst).1, [], List.nil_prefix, (r1 st hst).2⟩, r2, ⟨[], List.nil_prefix, r3⟩, by simp, by simp⟩

/-! ## Histories -/

/-- the record of an event -/
def recordOf : Ev → Bytes
  | .log l => l.record
  | .killed l _ => l.record
  | _ => []

/-- the state is as it should be -/
structure Good (cfg : Cfg) (b : Nat) (s : St) : Prop where
  fs : Bounded (top cfg) b s.fs
  size : ∀ n, s.logger = .up n → n = (s.fs.cur.getD []).length

theorem bounded_setup {k b : Nat} {fs : FS} (h : Bounded k b fs) : Bounded k b { fs with cur := some (fs.cur.getD []) } := ⟨h.names, h.cur, h.old⟩

theorem step_good (cfg : Cfg) (b : Nat) (hmax : cfg.maxSize ≠ 0) (hb : cfg.maxSize ≤ b) (s : St) (e : Ev) (h : Good cfg b s) (hr : (recordOf e).length ≤ b) :
    Good cfg b (step cfg s e) ∧ ∃ w, w <+: recordOf e ∧ Kept (top cfg) s.fs (step cfg s e).fs w ∧
      ((∃ l n n', e = .log l ∧ s.logger = .up n ∧ (step cfg s e).logger = .up n') → w = recordOf e ∧ ∃ pre, (step cfg s e).fs.cur = some (pre ++ recordOf e)) := by
  cases e with
  | setup f =>
    simp only [step, setup]
    split
    · exact ⟨⟨h.fs, by simp⟩, [], List.nil_prefix, kept_refl _ _, by rintro ⟨_, _, _, h, _⟩; cases h⟩
    · refine ⟨⟨bounded_setup h.fs, ?_⟩, [], List.nil_prefix, ?_, by rintro ⟨_, _, _, h, _⟩; cases h⟩
      · intro n hn; simp only [Logger.up.injEq] at hn; rw [← hn]; simp
      · left
        unfold chron
        simp only [Option.getD_some, List.append_nil]
        congr 1
        exact older_congr (fun _ _ _ => rfl)
  | stop => exact ⟨⟨h.fs, by simp [step]⟩, [], List.nil_prefix, kept_refl _ _, by rintro ⟨_, _, _, h, _⟩; cases h⟩
  | log l =>
    cases hl : s.logger with
    | up size =>
      obtain ⟨_, l2, ⟨w, l3, l4⟩, l5, _⟩ := log_spec cfg l s.fs size b hmax hb hr h.fs (h.size size hl)
      have hst : step cfg s (.log l) = ⟨(log cfg l s.fs size).2.1, (log cfg l s.fs size).2.2⟩ := by simp [step, hl]
      rw [hst]
      refine ⟨⟨l2, fun n hn => (l5 n hn).1⟩, ?_⟩
      by_cases hu : ∃ n, (log cfg l s.fs size).2.2 = .up n
      · obtain ⟨n, hn⟩ := hu
        exact ⟨l.record, List.prefix_refl _, (l5 n hn).2.1, fun _ => ⟨rfl, (l5 n hn).2.2⟩⟩
      · refine ⟨w, l3, l4, ?_⟩
        rintro ⟨_, _, n', _, _, hn⟩
        exact absurd ⟨n', hn⟩ hu
    | down =>
      have hst : step cfg s (.log l) = s := by simp [step, hl]
      rw [hst]
      exact ⟨h, [], List.nil_prefix, kept_refl _ _, by rintro ⟨_, _, _, _, h, _⟩; cases h⟩
    | broken =>
      have hst : step cfg s (.log l) = s := by simp [step, hl]
      rw [hst]
      exact ⟨h, [], List.nil_prefix, kept_refl _ _, by rintro ⟨_, _, _, _, h, _⟩; cases h⟩
  | killed l k =>
    cases hl : s.logger with
    | up size =>
      obtain ⟨l1, _⟩ := log_spec cfg l s.fs size b hmax hb hr h.fs (h.size size hl)
      have hst : step cfg s (.killed l k) = ⟨((log cfg l s.fs size).1[k]?).getD s.fs, .down⟩ := by simp [step, hl]
      rw [hst]
      have key : Bounded (top cfg) b (((log cfg l s.fs size).1[k]?).getD s.fs) ∧ ∃ w, w <+: l.record ∧ Kept (top cfg) s.fs (((log cfg l s.fs size).1[k]?).getD s.fs) w := by
        cases hk : (log cfg l s.fs size).1[k]? with
        | none => exact ⟨h.fs, [], List.nil_prefix, kept_refl _ _⟩
        | some st => exact l1 st (List.mem_of_getElem? hk)
      obtain ⟨k1, w, k2, k3⟩ := key
      exact ⟨⟨k1, by simp⟩, w, k2, k3, by rintro ⟨_, _, _, h, _⟩; cases h⟩
    | down =>
      have hst : step cfg s (.killed l k) = { s with logger := .down } := by simp [step, hl]
      rw [hst]
      exact ⟨⟨h.fs, by simp⟩, [], List.nil_prefix, kept_refl _ _, by rintro ⟨_, _, _, h, _⟩; cases h⟩
    | broken =>
      have hst : step cfg s (.killed l k) = { s with logger := .down } := by simp [step, hl]
      rw [hst]
      exact ⟨⟨h.fs, by simp⟩, [], List.nil_prefix, kept_refl _ _, by rintro ⟨_, _, _, h, _⟩; cases h⟩

theorem run_good (cfg : Cfg) (b : Nat) (hmax : cfg.maxSize ≠ 0) (hb : cfg.maxSize ≤ b) (evs : List Ev) : ∀ s : St, Good cfg b s → (∀ e ∈ evs, (recordOf e).length ≤ b) →
    Good cfg b (run cfg s evs) := by
  induction evs with
  | nil => intro s h _; exact h
  | cons e l ih => intro s h hr; exact ih _ (step_good cfg b hmax hb s e h (hr e List.mem_cons_self)).1 (fun e' he => hr e' (List.mem_cons_of_mem _ he))

/-- **C40.** After any history of starts, events, failing system calls and kills: the only files are the log file and `.1`, ..., `.max(1, maxfiles-1)`, and none of them is larger than the configured size, unless a
single record is (or the files were larger in the beginning). -/
theorem C40_bounded (cfg : Cfg) (hmax : cfg.maxSize ≠ 0) (fs : FS) (evs : List Ev) (largest : Nat) (hrec : ∀ e ∈ evs, (recordOf e).length ≤ largest)
    (hfs : Bounded (top cfg) (max cfg.maxSize largest) fs) : Bounded (top cfg) (max cfg.maxSize largest) (run cfg ⟨fs, .down⟩ evs).fs :=
  (run_good cfg _ hmax (by omega) evs ⟨fs, .down⟩ ⟨hfs, by simp⟩ (fun e he => by have := hrec e he; omega)).fs

/-- **C40.** There are at most `maxfiles` rotated files; with the log file there are at most `maxfiles` -- but 2 for `maxfiles` 1, see `C40_finding_one`. -/
theorem C40_number (cfg : Cfg) (h1 : 1 ≤ cfg.maxFiles) : top cfg ≤ cfg.maxFiles ∧ top cfg + 1 = max 2 cfg.maxFiles := by unfold top; omega

/-- which parts of the records were written -/
def Written (cfg : Cfg) : St → List Ev → List Bytes → Prop
  | _, [], ws => ws = []
  | s, e :: l, ws => ∃ w ws', ws = w :: ws' ∧ w <+: recordOf e ∧
      ((∃ r n n', e = .log r ∧ s.logger = .up n ∧ (step cfg s e).logger = .up n') → w = recordOf e) ∧ Written cfg (step cfg s e) l ws'

theorem Kept.suffix {k : Nat} {fs fs' : FS} {w : Bytes} (h : Kept k fs fs' w) : chron fs' k <:+ chron fs k ++ w := by
  rcases h with h | ⟨b, rest, _, h2, h3⟩
  · rw [h]; exact List.suffix_refl _
  · rw [h3, h2, List.append_assoc]; exact List.suffix_append _ _

/-- **C40.** After any history, what can be read in the log files (from the oldest on) is a suffix of everything that was ever written: records are lost at the old end only, never reordered or mixed up. The records
of all events that did not break the logger were written completely. -/
theorem C40_suffix (cfg : Cfg) (hmax : cfg.maxSize ≠ 0) (evs : List Ev) (b : Nat) (hb : cfg.maxSize ≤ b) (s : St) (hs : Good cfg b s) (hrec : ∀ e ∈ evs, (recordOf e).length ≤ b) :
    ∃ ws, Written cfg s evs ws ∧ chron (run cfg s evs).fs (top cfg) <:+ chron s.fs (top cfg) ++ ws.flatten := by
  induction evs generalizing s with
  | nil => exact ⟨[], rfl, by simp [run]⟩
  | cons e l ih =>
    obtain ⟨g, w, h1, h2, h3⟩ := step_good cfg b hmax hb s e hs (hrec e List.mem_cons_self)
    obtain ⟨ws, i1, i2⟩ := ih _ g (fun e' he => hrec e' (List.mem_cons_of_mem _ he))
    refine ⟨w :: ws, ⟨w, ws, rfl, h1, fun hx => (h3 hx).1, i1⟩, ?_⟩
    refine i2.trans ?_
    obtain ⟨p, hp⟩ := h2.suffix
    exact ⟨p, by rw [← List.append_assoc, hp]; simp⟩

/-- **C40.** One event drops at most the oldest file, in every state it leads through; and if the logger goes on working, the log file ends with the record. -/
theorem C40_step (cfg : Cfg) (hmax : cfg.maxSize ≠ 0) (b : Nat) (hb : cfg.maxSize ≤ b) (s : St) (hs : Good cfg b s) (l : Log) (n : Nat) (hup : s.logger = .up n) (hrec : l.record.length ≤ b) :
    (∀ k, ∃ w, w <+: l.record ∧ Kept (top cfg) s.fs (step cfg s (.killed l k)).fs w) ∧
    ∀ n', (step cfg s (.log l)).logger = .up n' → Kept (top cfg) s.fs (step cfg s (.log l)).fs l.record ∧ ∃ pre, (step cfg s (.log l)).fs.cur = some (pre ++ l.record) := by
  constructor
  · intro k
    obtain ⟨_, w, h1, h2, _⟩ := step_good cfg b hmax hb s (.killed l k) hs hrec
    exact ⟨w, h1, h2⟩
  · intro n' hn
    obtain ⟨_, w, _, h2, h3⟩ := step_good cfg b hmax hb s (.log l) hs hrec
    obtain ⟨rfl, hp⟩ := h3 ⟨l, n, n', rfl, hup, hn⟩
    exact ⟨h2, hp⟩

/-- **C40.** Nothing is dropped as long as the log file has room. -/
theorem C40_room (cfg : Cfg) (l : Log) (s : St) (n : Nat) (hup : s.logger = .up n) (hroom : cfg.maxSize = 0 ∨ n + l.record.length ≤ cfg.maxSize) (k : Nat) :
    ∃ w, w <+: l.record ∧ chron (step cfg s (.log l)).fs k = chron s.fs k ++ w := by
  have hst : step cfg s (.log l) = ⟨(log cfg l s.fs n).2.1, (log cfg l s.fs n).2.2⟩ := by simp [step, hup]
  rw [hst]
  simp only [log]
  rw [if_pos hroom]
  simp only [write]
  cases l.write with
  | none => exact ⟨_, List.prefix_refl _, chron_append _ _ _⟩
  | some j => exact ⟨_, List.take_prefix _ _, chron_append _ _ _⟩

/-! ## Examples and findings -/

def noFail (r : Bytes) : Log := ⟨r, fun _ => false, false, false, none⟩
def empty : FS := ⟨none, fun _ => none⟩
def exCfg : Cfg := ⟨3, 3⟩

example : Bounded (top exCfg) (max exCfg.maxSize 2) empty := ⟨by simp [empty], by simp [empty], by simp [empty]⟩

/-- three files are used in turn -/
def exEvs : List Ev := [.setup false, .log (noFail [1, 1]), .log (noFail [2, 2]), .stop, .setup false, .log (noFail [3, 3]), .log (noFail [4, 4])]
example : (run exCfg ⟨empty, .down⟩ exEvs).logger = .up 2 ∧ (run exCfg ⟨empty, .down⟩ exEvs).fs.cur = some [4, 4] ∧
    (run exCfg ⟨empty, .down⟩ exEvs).fs.old 1 = some [3, 3] ∧ (run exCfg ⟨empty, .down⟩ exEvs).fs.old 2 = some [2, 2] ∧ (run exCfg ⟨empty, .down⟩ exEvs).fs.old 3 = none ∧
    chron (run exCfg ⟨empty, .down⟩ exEvs).fs 2 = [2, 2, 3, 3, 4, 4] := by decide

/-- **C40, finding.** With `max-files=1`, two files are kept: the documentation says that the maximum number of files to keep is configured. -/
theorem C40_finding_one : ∃ evs, (run ⟨3, 1⟩ ⟨empty, .down⟩ evs).fs.cur = some [2, 2] ∧ (run ⟨3, 1⟩ ⟨empty, .down⟩ evs).fs.old 1 = some [1, 1] :=
  ⟨[.setup false, .log (noFail [1, 1]), .log (noFail [2, 2])], by decide⟩

/-- **C40, finding.** A file with the suffix `.0` (of somebody else) is overwritten: with `max-files` of 2 or more, the first rotation moves it to `.1`, and the log file over it. -/
theorem C40_finding_zero : ∃ fs evs, fs.old 0 = some [9] ∧ (run exCfg ⟨fs, .down⟩ evs).fs.old 0 = none ∧ chron (run exCfg ⟨fs, .down⟩ evs).fs 2 = [1, 1, 2, 2] :=
  ⟨⟨none, fun n => if n = 0 then some [9] else none⟩, [.setup false, .log (noFail [1, 1]), .log (noFail [2, 2])], by decide⟩

end Rauc.EventLog
