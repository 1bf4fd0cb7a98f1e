import Verif.Model.Select

/-!
# C09-C11: selection of the target slots
-/

namespace Rauc.Select

/-! ## Specification -/

/-- `r` is the root of `s`: `s` itself if it has no parent, else its parent. Loading the configuration
guarantees that parents exist and have no parent themselves (`FlatParents`). -/
def HasRoot (slots : List Slot) (s r : Slot) : Prop :=
  (s.parent = none ∧ r = s) ∨ (s.parent = some r.name ∧ r ∈ slots)

/-- every parent exists and is itself a root (src/config_file.c:612-700, C23) -/
def FlatParents (slots : List Slot) : Prop :=
  ∀ s ∈ slots, ∀ n, s.parent = some n → ∃ p ∈ slots, p.name = n ∧ p.parent = none

/-- the slot belongs to the running system: it is the booted slot, or has the same root -/
def InBootedGroup (slots : List Slot) (booted t : Slot) : Prop :=
  t = booted ∨ ∃ r, HasRoot slots t r ∧ HasRoot slots booted r

/-- chronological order: year, then month, ... (lexicographic) -/
def Earlier (a b : DateTime) : Prop :=
  a.year < b.year ∨ a.year = b.year ∧ (a.month < b.month ∨ a.month = b.month ∧ (a.day < b.day ∨ a.day = b.day ∧
    (a.hour < b.hour ∨ a.hour = b.hour ∧ (a.minute < b.minute ∨ a.minute = b.minute ∧
      (a.second < b.second ∨ a.second = b.second ∧ a.usec < b.usec)))))

/-- inactive member of a class -/
def Candidate (state : Slot → State) (slots : List Slot) (cls : Str) (s : Slot) : Prop :=
  s ∈ slots ∧ state s = .inactive ∧ s.sclass = cls

/-- recorded as failed, or never installed -/
def Urgent (status : Slot → SlotStatus) (s : Slot) : Prop :=
  (status s).status = some (c!"failed") ∨ (status s).installedTimestamp = none

/-! ## Lemmas: time -/

theorem lex_step {x y x' y' k : Nat} (h : y < k) (h' : y' < k) :
    x * k + y < x' * k + y' ↔ x < x' ∨ x = x' ∧ y < y' := by
  constructor
  · intro hl
    rcases Nat.lt_trichotomy x x' with hx | hx | hx
    · exact Or.inl hx
    · subst hx; exact Or.inr ⟨rfl, by omega⟩
    · exfalso
      have : (x' + 1) * k ≤ x * k := Nat.mul_le_mul_right k hx
      rw [Nat.add_mul, Nat.one_mul] at this
      omega
  · rintro (hx | ⟨rfl, hy⟩)
    · have : (x + 1) * k ≤ x' * k := Nat.mul_le_mul_right k hx
      rw [Nat.add_mul, Nat.one_mul] at this
      omega
    · omega

theorem lex_eq {x y x' y' k : Nat} (h : y < k) (h' : y' < k) :
    x * k + y = x' * k + y' ↔ x = x' ∧ y = y' := by
  have a := @lex_step x y x' y' k h h'
  have b := @lex_step x' y' x y k h' h
  constructor
  · intro e
    rw [e] at a b
    simp only [Nat.lt_irrefl, false_iff, not_or, not_and, Nat.not_lt] at a b
    have : x = x' := by omega
    subst this
    exact ⟨rfl, by omega⟩
  · rintro ⟨rfl, rfl⟩; rfl

theorem daysInMonth_lt (y m : Nat) : daysInMonth y m < 32 := by
  unfold daysInMonth; repeat' split
  all_goals omega

/-- the comparison of the code is the chronological order -/
theorem key_lt_iff (a b : DateTime) (ha : a.ok = true) (hb : b.ok = true) (hua : a.usec < 1000000) (hub : b.usec < 1000000) :
    a.key < b.key ↔ Earlier a b := by
  simp only [DateTime.ok, decide_eq_true_eq] at ha hb
  obtain ⟨-, -, -, am, -, ad, ah, ami, as⟩ := ha
  obtain ⟨-, -, -, bm, -, bd, bh, bmi, bs⟩ := hb
  have := daysInMonth_lt a.year a.month
  have := daysInMonth_lt b.year b.month
  unfold DateTime.key Earlier
  rw [lex_step hua hub, lex_step as bs, lex_step ami bmi, lex_step ah bh, lex_step (by omega) (by omega),
    lex_step (by omega) (by omega), lex_eq as bs, lex_eq ami bmi, lex_eq ah bh, lex_eq (x := a.year * 13 + a.month) (by omega) (by omega),
    lex_eq (x := a.year) (by omega) (by omega)]
  simp only [and_or_left, and_assoc, or_assoc]

/-! ## Lemmas: class lists -/

theorem removeFast_perm (k : Str) (l : List Str) : (removeFast k l).Perm (l.erase k) := by
  induction l with
  | nil => exact List.Perm.refl _
  | cons x xs ih =>
    rw [removeFast]
    by_cases h : x = k
    · subst h
      rw [if_pos rfl, List.erase_cons_head]
      cases hl : xs.getLast? with
      | none =>
        rw [List.getLast?_eq_none_iff] at hl
        subst hl; exact List.Perm.refl _
      | some z =>
        have : xs = xs.dropLast ++ [z] := by
          rw [List.getLast?_eq_some_iff] at hl
          obtain ⟨ys, rfl⟩ := hl
          simp
        show (z :: xs.dropLast).Perm xs
        conv => rhs; rw [this]
        exact (List.perm_append_singleton z xs.dropLast).symm
    · rw [if_neg h, List.erase_cons_tail (by simpa using h)]
      exact ih.cons x

theorem addClass_facts (acc : List Str) (k : Str) (h : acc.Nodup) :
    (addClass acc k).Nodup ∧ ∀ x, x ∈ addClass acc k ↔ x ∈ acc ∨ x = k := by
  have p := removeFast_perm k acc
  have hm : ∀ x, x ∈ removeFast k acc ↔ x ∈ acc ∧ x ≠ k := by
    intro x; rw [p.mem_iff, h.mem_erase_iff]; exact And.comm
  constructor
  · rw [addClass, List.nodup_append]
    refine ⟨p.nodup_iff.mpr (h.sublist List.erase_sublist), by simp, ?_⟩
    intro a ha b hb
    simp only [List.mem_singleton] at hb
    subst hb
    exact ((hm a).mp ha).2
  · intro x
    simp only [addClass, List.mem_append, List.mem_singleton, hm]
    by_cases hx : x = k <;> simp [hx]

theorem foldl_addClass (l acc : List Str) (h : acc.Nodup) :
    (l.foldl addClass acc).Nodup ∧ ∀ x, x ∈ l.foldl addClass acc ↔ x ∈ acc ∨ x ∈ l := by
  induction l generalizing acc with
  | nil => simpa using h
  | cons k l ih =>
    obtain ⟨h1, h2⟩ := addClass_facts acc k h
    obtain ⟨h3, h4⟩ := ih (addClass acc k) h1
    refine ⟨h3, fun x => ?_⟩
    rw [List.foldl_cons, h4, h2, List.mem_cons, or_assoc]

theorem mem_rootClasses (slots : List Slot) (c : Str) :
    c ∈ rootClasses slots ↔ ∃ s ∈ slots, s.parent = none ∧ s.sclass = c := by
  rw [rootClasses, (foldl_addClass _ [] List.nodup_nil).2]
  simp only [List.not_mem_nil, false_or, List.mem_map, List.mem_filter, Option.isNone_iff_eq_none, and_assoc]

theorem mem_manifestClasses (images : List Image) (c : Str) :
    c ∈ manifestClasses images ↔ ∃ i ∈ images, i.artifact = none ∧ i.slotclass = c := by
  rw [manifestClasses, (foldl_addClass _ [] List.nodup_nil).2]
  simp only [List.not_mem_nil, false_or, List.mem_map, List.mem_filter, Option.isNone_iff_eq_none, and_assoc]

theorem manifestClasses_nodup (images : List Image) : (manifestClasses images).Nodup :=
  (foldl_addClass _ [] List.nodup_nil).1

/-! ## Lemmas: selection -/

theorem cand_cons {state : Slot → State} {a : Slot} {l : List Slot} {cls : Str} {s : Slot} :
    Candidate state (a :: l) cls s ↔ (s = a ∧ state a = .inactive ∧ a.sclass = cls) ∨ Candidate state l cls s := by
  unfold Candidate
  rw [List.mem_cons]
  constructor
  · rintro ⟨rfl | h, h1, h2⟩
    · exact Or.inl ⟨rfl, h1, h2⟩
    · exact Or.inr ⟨h, h1, h2⟩
  · rintro (⟨rfl, h1, h2⟩ | ⟨h, h1, h2⟩)
    · exact ⟨Or.inl rfl, h1, h2⟩
    · exact ⟨Or.inr h, h1, h2⟩

section
variable (perSlot : Bool) (state : Slot → State) (status : Slot → SlotStatus) (cls : Str)

/-- non-members are skipped -/
theorem select_skip (sel : Option Slot) (a : Slot) (l : List Slot) (h : ¬ (state a = .inactive ∧ a.sclass = cls)) :
    selectMember perSlot state status cls sel (a :: l) = selectMember perSlot state status cls sel l := by
  rw [selectMember]
  by_cases h1 : state a = .inactive
  · rw [if_neg (by simpa using h1), if_pos (fun h2 => h ⟨h1, h2⟩)]
  · rw [if_pos h1]

/-- members: taken at once, or compared with the candidate -/
theorem select_take (sel : Option Slot) (a : Slot) (l : List Slot) (h : state a = .inactive ∧ a.sclass = cls)
    (hu : perSlot = true ∨ Urgent status a) :
    selectMember perSlot state status cls sel (a :: l) = some a := by
  rw [selectMember, if_neg (by simpa using h.1), if_neg (by simpa using h.2)]
  by_cases hp : perSlot = true
  · rw [if_pos hp]
  · rw [if_neg hp]
    rcases hu with hu | hu | hu
    · exact absurd hu hp
    · rw [if_pos hu]
    · by_cases hf : (status a).status = some (c!"failed")
      · rw [if_pos hf]
      · rw [if_neg hf, hu]

theorem select_step (sel : Option Slot) (a : Slot) (l : List Slot) (h : state a = .inactive ∧ a.sclass = cls)
    (hp : perSlot = false) (hu : ¬ Urgent status a) :
    ∃ ts, (status a).installedTimestamp = some ts ∧
    ((selectMember perSlot state status cls sel (a :: l) = selectMember perSlot state status cls (some a) l ∧
        ∀ c, sel = some c → ∃ tc, (status c).installedTimestamp = some tc ∧ ts.key < tc.key) ∨
     (∃ c, sel = some c ∧ selectMember perSlot state status cls sel (a :: l) = selectMember perSlot state status cls sel l ∧
        ∀ tc, (status c).installedTimestamp = some tc → ¬ ts.key < tc.key)) := by
  simp only [Urgent, not_or] at hu
  cases ht : (status a).installedTimestamp with
  | none => exact absurd ht hu.2
  | some ts =>
    refine ⟨ts, rfl, ?_⟩
    rw [selectMember, if_neg (by simpa using h.1), if_neg (by simpa using h.2), hp, if_neg (by decide), if_neg hu.1, ht]
    cases sel with
    | none => exact Or.inl ⟨rfl, by intro c hc; exact absurd hc (by simp)⟩
    | some c =>
      simp only []
      cases hc : (status c).installedTimestamp with
      | none => exact Or.inr ⟨c, rfl, rfl, by intro tc h; rw [hc] at h; exact absurd h (by simp)⟩
      | some tc =>
        by_cases hk : ts.key < tc.key
        · refine Or.inl ⟨by simp only [if_pos hk], ?_⟩
          intro c' hc'
          cases hc'
          exact ⟨tc, hc, hk⟩
        · refine Or.inr ⟨c, rfl, by simp only [if_neg hk], ?_⟩
          intro tc' h
          rw [hc] at h
          cases h
          exact hk

theorem select_sound (l : List Slot) (sel : Option Slot) (t : Slot)
    (h : selectMember perSlot state status cls sel l = some t) : sel = some t ∨ Candidate state l cls t := by
  induction l generalizing sel with
  | nil => exact Or.inl h
  | cons a l ih =>
    by_cases hc : state a = .inactive ∧ a.sclass = cls
    · by_cases hu : perSlot = true ∨ Urgent status a
      · rw [select_take perSlot state status cls sel a l hc hu] at h
        cases h
        exact Or.inr (cand_cons.mpr (Or.inl ⟨rfl, hc⟩))
      · rw [not_or] at hu
        obtain ⟨ts, -, h' | ⟨c, -, h', -⟩⟩ := select_step perSlot state status cls sel a l hc (by simpa using hu.1) hu.2
        · rw [h'.1] at h
          rcases ih _ h with h | h
          · cases h
            exact Or.inr (cand_cons.mpr (Or.inl ⟨rfl, hc⟩))
          · exact Or.inr (cand_cons.mpr (Or.inr h))
        · rw [h'] at h
          exact (ih _ h).imp id (fun h => cand_cons.mpr (Or.inr h))
    · rw [select_skip _ _ _ _ _ _ _ hc] at h
      exact (ih _ h).imp id (fun h => cand_cons.mpr (Or.inr h))

theorem select_some (l : List Slot) (c : Slot) : ∃ t, selectMember perSlot state status cls (some c) l = some t := by
  induction l generalizing c with
  | nil => exact ⟨c, rfl⟩
  | cons a l ih =>
    by_cases hc : state a = .inactive ∧ a.sclass = cls
    · by_cases hu : perSlot = true ∨ Urgent status a
      · exact ⟨a, select_take perSlot state status cls _ a l hc hu⟩
      · rw [not_or] at hu
        obtain ⟨ts, -, h' | ⟨c', hc', h', -⟩⟩ :=
          select_step perSlot state status cls (some c) a l hc (by simpa using hu.1) hu.2
        · rw [h'.1]; exact ih a
        · rw [h']; exact ih c
    · rw [select_skip _ _ _ _ _ _ _ hc]; exact ih c

theorem select_complete (l : List Slot) (s : Slot) (hs : Candidate state l cls s) (sel : Option Slot) :
    ∃ t, selectMember perSlot state status cls sel l = some t := by
  induction l generalizing sel with
  | nil => exact absurd hs.1 (by simp)
  | cons a l ih =>
    by_cases hc : state a = .inactive ∧ a.sclass = cls
    · by_cases hu : perSlot = true ∨ Urgent status a
      · exact ⟨a, select_take perSlot state status cls _ a l hc hu⟩
      · rw [not_or] at hu
        obtain ⟨ts, -, h' | ⟨c', hc', h', -⟩⟩ :=
          select_step perSlot state status cls sel a l hc (by simpa using hu.1) hu.2
        · rw [h'.1]; exact select_some _ _ _ _ l a
        · rw [h', hc']; exact select_some _ _ _ _ l c'
    · rw [select_skip _ _ _ _ _ _ _ hc]
      rcases cand_cons.mp hs with ⟨-, h⟩ | h
      · exact absurd h hc
      · exact ih h sel

theorem select_urgent (hp : perSlot = false) (l : List Slot) (s : Slot) (hs : Candidate state l cls s)
    (hsu : Urgent status s) (sel : Option Slot) :
    ∃ t, selectMember perSlot state status cls sel l = some t ∧ Candidate state l cls t ∧ Urgent status t := by
  induction l generalizing sel with
  | nil => exact absurd hs.1 (by simp)
  | cons a l ih =>
    by_cases hc : state a = .inactive ∧ a.sclass = cls
    · by_cases hu : Urgent status a
      · exact ⟨a, select_take perSlot state status cls _ a l hc (Or.inr hu), cand_cons.mpr (Or.inl ⟨rfl, hc⟩), hu⟩
      · have hs' : Candidate state l cls s := by
          rcases cand_cons.mp hs with ⟨rfl, -⟩ | h
          · exact absurd hsu hu
          · exact h
        obtain ⟨ts, -, h' | ⟨c', hc', h', -⟩⟩ := select_step perSlot state status cls sel a l hc hp hu
        · rw [h'.1]
          obtain ⟨t, h1, h2, h3⟩ := ih hs' (some a)
          exact ⟨t, h1, cand_cons.mpr (Or.inr h2), h3⟩
        · rw [h']
          obtain ⟨t, h1, h2, h3⟩ := ih hs' sel
          exact ⟨t, h1, cand_cons.mpr (Or.inr h2), h3⟩
    · rw [select_skip _ _ _ _ _ _ _ hc]
      rcases cand_cons.mp hs with ⟨-, h⟩ | h
      · exact absurd h hc
      · obtain ⟨t, h1, h2, h3⟩ := ih h sel
        exact ⟨t, h1, cand_cons.mpr (Or.inr h2), h3⟩

theorem select_oldest (hp : perSlot = false) (l : List Slot) (hn : ∀ s, Candidate state l cls s → ¬ Urgent status s)
    (sel : Option Slot) (hsel : ∀ c, sel = some c → (status c).installedTimestamp ≠ none) (t : Slot)
    (h : selectMember perSlot state status cls sel l = some t) (s : Slot) (hs : sel = some s ∨ Candidate state l cls s)
    (ts tt : DateTime) (hts : (status s).installedTimestamp = some ts) (htt : (status t).installedTimestamp = some tt) :
    tt.key ≤ ts.key := by
  induction l generalizing sel s ts with
  | nil =>
    rcases hs with hs | hs
    · have : some s = some t := hs.symm.trans h
      cases this
      rw [hts] at htt; cases htt
      exact Nat.le_refl _
    · exact absurd hs.1 (by simp)
  | cons a l ih =>
    have hn' : ∀ s, Candidate state l cls s → ¬ Urgent status s := fun s hs => hn s (cand_cons.mpr (Or.inr hs))
    by_cases hc : state a = .inactive ∧ a.sclass = cls
    · have hu := hn a (cand_cons.mpr (Or.inl ⟨rfl, hc⟩))
      obtain ⟨ta, hta, h' | ⟨c, rfl, h', hle⟩⟩ := select_step perSlot state status cls sel a l hc hp hu
      · rw [h'.1] at h
        have hsa : ∀ c, some a = some c → (status c).installedTimestamp ≠ none := by
          intro c hc; cases hc; rw [hta]; simp
        have ha := ih hn' (some a) hsa h a (Or.inl rfl) ta hta
        rcases hs with hs | hs
        · obtain ⟨tc, htc, hlt⟩ := h'.2 s hs
          rw [hts] at htc; cases htc
          omega
        · rcases cand_cons.mp hs with ⟨rfl, -⟩ | hs
          · rw [hts] at hta; cases hta; exact ha
          · exact ih hn' (some a) hsa h s (Or.inr hs) ts hts
      · rw [h'] at h
        rcases hs with hs | hs
        · exact ih hn' _ hsel h s (Or.inl hs) ts hts
        · rcases cand_cons.mp hs with ⟨rfl, -⟩ | hs
          · rw [hts] at hta; cases hta
            cases htc : (status c).installedTimestamp with
            | none => exact absurd htc (hsel c rfl)
            | some tc =>
              have := ih hn' _ hsel h c (Or.inl rfl) tc htc
              have := hle tc htc
              omega
          · exact ih hn' _ hsel h s (Or.inr hs) ts hts
    · rw [select_skip _ _ _ _ _ _ _ hc] at h
      rcases hs with hs | hs
      · exact ih hn' _ hsel h s (Or.inl hs) ts hts
      · rcases cand_cons.mp hs with ⟨-, hs⟩ | hs
        · exact absurd hs hc
        · exact ih hn' _ hsel h s (Or.inr hs) ts hts

end

/-! ## C11 -/

section
variable (state : Slot → State) (status : Slot → SlotStatus) (cls : Str) (slots : List Slot)

/-- A slot is selected whenever an inactive member exists, and the selected slot is one. -/
theorem C11_selected_iff (perSlot : Bool) :
    (∃ t, selectMember perSlot state status cls none slots = some t) ↔ ∃ s, Candidate state slots cls s := by
  constructor
  · rintro ⟨t, h⟩
    rcases select_sound _ _ _ _ _ _ _ h with h | h
    · exact absurd h (by simp)
    · exact ⟨t, h⟩
  · rintro ⟨s, hs⟩; exact select_complete _ _ _ _ _ s hs none

theorem C11_selected_is_candidate (perSlot : Bool) (t : Slot)
    (h : selectMember perSlot state status cls none slots = some t) : Candidate state slots cls t := by
  rcases select_sound _ _ _ _ _ _ _ h with h | h
  · exact absurd h (by simp)
  · exact h

/-- If some inactive member is recorded as failed or was never installed, such a one is selected. -/
theorem C11_urgent_first (s t : Slot) (hs : Candidate state slots cls s) (hu : Urgent status s)
    (h : selectMember false state status cls none slots = some t) : Urgent status t := by
  obtain ⟨t', h1, -, h3⟩ := select_urgent false state status cls rfl slots s hs hu none
  rw [h1] at h; cases h; exact h3

/-- Otherwise the selected slot has the oldest installation time of all inactive members
(all recorded times being valid dates). -/
theorem C11_oldest (hn : ∀ s, Candidate state slots cls s → ¬ Urgent status s)
    (hv : ∀ s, Candidate state slots cls s → ∀ d, (status s).installedTimestamp = some d → d.ok = true ∧ d.usec < 1000000)
    (t : Slot) (h : selectMember false state status cls none slots = some t) :
    ∃ tt, (status t).installedTimestamp = some tt ∧
      ∀ s, Candidate state slots cls s → ∀ ts, (status s).installedTimestamp = some ts → ¬ Earlier ts tt := by
  have hc := C11_selected_is_candidate state status cls slots false t h
  have hu := hn t hc
  simp only [Urgent, not_or] at hu
  cases htt : (status t).installedTimestamp with
  | none => exact absurd htt hu.2
  | some tt =>
    refine ⟨tt, rfl, fun s hs ts hts he => ?_⟩
    have hle := select_oldest false state status cls rfl slots hn none (by intro c hc; exact absurd hc (by simp)) t h s
      (Or.inr hs) ts tt hts htt
    obtain ⟨o1, u1⟩ := hv s hs ts hts
    obtain ⟨o2, u2⟩ := hv t hc tt htt
    rw [← key_lt_iff ts tt o1 o2 u1 u2] at he
    omega

/-- With per-slot status files the first inactive member (in table order) is taken. -/
theorem C11_per_slot :
    selectMember true state status cls none slots =
      slots.find? (fun s => decide (state s = .inactive) && decide (s.sclass = cls)) := by
  induction slots with
  | nil => rfl
  | cons a l ih =>
    by_cases hc : state a = .inactive ∧ a.sclass = cls
    · rw [select_take _ _ _ _ _ _ _ hc (Or.inl rfl), List.find?_cons_of_pos (by simp [hc.1, hc.2])]
    · rw [select_skip _ _ _ _ _ _ _ hc, List.find?_cons_of_neg (by simpa using fun h => fun h' => hc ⟨h, h'⟩), ih]

end

/-! ## Roots -/

theorem rootOf_root {slots : List Slot} {s : Slot} (n : Nat) (h : s.parent = none) : rootOf slots n s = s := by
  cases n with
  | zero => rfl
  | succ n => rw [rootOf, parentOf, h]

/-- slot names are unique -/
def UniqueNames (slots : List Slot) : Prop := ∀ s ∈ slots, ∀ t ∈ slots, s.name = t.name → s = t

/-- with flat parents, the root of a slot is `HasRoot` -/
theorem rootOf_hasRoot {slots : List Slot} (hu : UniqueNames slots) (hf : FlatParents slots) {s : Slot} (hs : s ∈ slots) :
    HasRoot slots s (rootOf slots slots.length s) ∧ (rootOf slots slots.length s).parent = none ∧
      rootOf slots slots.length s ∈ slots := by
  obtain ⟨n, hn⟩ : ∃ n, slots.length = n + 1 := ⟨slots.length - 1, by have := List.length_pos_of_mem hs; omega⟩
  rw [hn]
  cases hp : s.parent with
  | none => rw [rootOf_root _ hp]; exact ⟨Or.inl ⟨hp, rfl⟩, hp, hs⟩
  | some m =>
    obtain ⟨p, hpm, hpn, hpp⟩ := hf s hs m hp
    have hsome : (slots.find? (fun p => p.name == m)).isSome := by
      rw [List.find?_isSome]; exact ⟨p, hpm, by simpa using hpn⟩
    obtain ⟨q, hq⟩ := Option.isSome_iff_exists.mp hsome
    have hqn : q.name = m := by simpa using List.find?_some hq
    have hqm := List.mem_of_find?_eq_some hq
    have hqp : q = p := hu q hqm p hpm (hqn.trans hpn.symm)
    subst hqp
    have hr : rootOf slots (n + 1) s = q := by
      rw [rootOf, parentOf, hp]; simp only [hq]
      exact rootOf_root n hpp
    rw [hr]
    exact ⟨Or.inr ⟨by rw [hp, hqn], hqm⟩, hpp, hqm⟩

/-- the root is unique -/
theorem HasRoot.unique {slots : List Slot} (hu : UniqueNames slots) {s r r' : Slot} (h : HasRoot slots s r)
    (h' : HasRoot slots s r') : r = r' := by
  rcases h with ⟨h1, rfl⟩ | ⟨h1, h2⟩ <;> rcases h' with ⟨h3, rfl⟩ | ⟨h3, h4⟩
  · rfl
  · rw [h1] at h3; exact absurd h3 (by simp)
  · rw [h1] at h3; exact absurd h3 (by simp)
  · rw [h1] at h3; exact hu r h2 r' h4 (by simpa using h3)

theorem mem_selectedRoots {perSlot : Bool} {state : Slot → State} {status : Slot → SlotStatus} {slots : List Slot} {r : Slot}
    (h : r ∈ selectedRoots perSlot state status slots) :
    selectMember perSlot state status r.sclass none slots = some r ∧ Candidate state slots r.sclass r ∧
      ∃ s ∈ slots, s.parent = none ∧ s.sclass = r.sclass := by
  simp only [selectedRoots, List.mem_filterMap] at h
  obtain ⟨c, hc, hr⟩ := h
  have cand := C11_selected_is_candidate state status c slots perSlot r hr
  obtain rfl : r.sclass = c := cand.2.2
  exact ⟨hr, cand, (mem_rootClasses slots _).mp hc⟩

theorem targetGroup_facts {perSlot : Bool} {state : Slot → State} {status : Slot → SlotStatus} {slots : List Slot} {cls : Str}
    {t : Slot} (h : targetGroup perSlot state status slots cls = some t) :
    t ∈ slots ∧ t.sclass = cls ∧ rootOf slots slots.length t ∈ selectedRoots perSlot state status slots := by
  have := List.mem_of_getLast? h
  simp only [List.mem_filter, Bool.and_eq_true, beq_iff_eq, List.contains_iff_mem] at this
  exact ⟨this.1, this.2.1, this.2.2⟩

/-! ## C10 -/

/-- Every target is a configured slot of its class, and its root is the slot which was selected for the
root's class, which is inactive. -/
theorem C10_consistent (perSlot : Bool) (state : Slot → State) (status : Slot → SlotStatus) (slots : List Slot)
    (hu : UniqueNames slots) (hf : FlatParents slots) (cls : Str) (t : Slot)
    (h : targetGroup perSlot state status slots cls = some t) :
    t ∈ slots ∧ t.sclass = cls ∧
      ∃ r, HasRoot slots t r ∧ r.parent = none ∧ state r = .inactive ∧
        selectMember perSlot state status r.sclass none slots = some r := by
  obtain ⟨h1, h2, h3⟩ := targetGroup_facts h
  obtain ⟨r1, r2, -⟩ := rootOf_hasRoot hu hf h1
  obtain ⟨s1, s2, -⟩ := mem_selectedRoots h3
  exact ⟨h1, h2, _, r1, r2, s2.2.1, s1⟩

/-- Two targets with roots of the same class have the same root: a group never mixes redundant sets. -/
theorem C10_one_group (perSlot : Bool) (state : Slot → State) (status : Slot → SlotStatus) (slots : List Slot)
    (hu : UniqueNames slots) (hf : FlatParents slots) (c c' : Str) (t t' r r' : Slot)
    (h : targetGroup perSlot state status slots c = some t) (h' : targetGroup perSlot state status slots c' = some t')
    (hr : HasRoot slots t r) (hr' : HasRoot slots t' r') (he : r.sclass = r'.sclass) : r = r' := by
  obtain ⟨-, -, q, hq, -, -, hs⟩ := C10_consistent perSlot state status slots hu hf c t h
  obtain ⟨-, -, q', hq', -, -, hs'⟩ := C10_consistent perSlot state status slots hu hf c' t' h'
  obtain rfl := hr.unique hu hq
  obtain rfl := hr'.unique hu hq'
  rw [he, hs'] at hs
  exact (Option.some.inj hs).symm

/-- The group is complete: every class with a member below a selected root has a target (a root being selected when
it is a root slot and the choice for its class). -/
theorem C10_complete (perSlot : Bool) (state : Slot → State) (status : Slot → SlotStatus) (slots : List Slot)
    (hu : UniqueNames slots) (hf : FlatParents slots) (s r : Slot) (hs : s ∈ slots) (hr : HasRoot slots s r)
    (hsel : selectMember perSlot state status r.sclass none slots = some r) :
    ∃ t, targetGroup perSlot state status slots s.sclass = some t := by
  obtain ⟨r1, r2, r3⟩ := rootOf_hasRoot hu hf hs
  obtain rfl := hr.unique hu r1
  have hmem : rootOf slots slots.length s ∈ selectedRoots perSlot state status slots := by
    simp only [selectedRoots, List.mem_filterMap]
    exact ⟨_, (mem_rootClasses slots _).mpr ⟨_, r3, r2, rfl⟩, hsel⟩
  unfold targetGroup
  cases hl : (slots.filter (fun x => x.sclass == s.sclass &&
      (selectedRoots perSlot state status slots).contains (rootOf slots slots.length x))).getLast? with
  | some t => exact ⟨t, rfl⟩
  | none =>
    rw [List.getLast?_eq_none_iff, List.filter_eq_nil_iff] at hl
    exact absurd (by simp only [beq_self_eq_true, Bool.true_and, List.contains_iff_mem]; exact hmem) (hl s hs)

/-! ## C09 -/

/-- No target is the booted slot or belongs to its group, provided the booted slot is itself a root slot
(not a child found by its name or device). -/
theorem C09_partial (realpath : Str → Option Str) (bs : Str) (perSlot : Bool) (status : Slot → SlotStatus)
    (slots : List Slot) (hu : UniqueNames slots) (hf : FlatParents slots) (state : Slot → State)
    (hstate : slotStates realpath (some bs) slots = some state)
    (b : Slot) (hb : findBooted realpath bs slots = some b) (hroot : b.parent = none)
    (cls : Str) (t : Slot) (h : targetGroup perSlot state status slots cls = some t) :
    ¬ InBootedGroup slots b t := by
  have hst : state = stateOf b := by
    simp only [slotStates, hb, Option.some.injEq] at hstate
    exact hstate.symm
  subst hst
  obtain ⟨-, -, r, hr, hrp, hin, -⟩ := C10_consistent perSlot _ status slots hu hf cls t h
  have hbr : r ≠ b := by
    rintro rfl
    simp [stateOf] at hin
  rintro (rfl | ⟨r', h1, h2⟩)
  · exact hbr (hr.unique hu (Or.inl ⟨hroot, rfl⟩))
  · have : r' = b := h2.unique hu (Or.inl ⟨hroot, rfl⟩)
    subst this
    exact hbr (hr.unique hu h1)

/-- Whatever is booted, the booted slot is never selected as such and the booted slot is found only if it matches. -/
theorem C09_selected_not_booted (realpath : Str → Option Str) (bs : Str) (perSlot : Bool) (status : Slot → SlotStatus)
    (slots : List Slot) (state : Slot → State) (hstate : slotStates realpath (some bs) slots = some state)
    (b : Slot) (hb : findBooted realpath bs slots = some b) (cls : Str) (t : Slot)
    (h : selectMember perSlot state status cls none slots = some t) : t ≠ b ∧ t.parent ≠ some b.name := by
  have hst : state = stateOf b := by
    simp only [slotStates, hb, Option.some.injEq] at hstate
    exact hstate.symm
  subst hst
  have hc := (C11_selected_is_candidate _ status cls slots perSlot t h).2.1
  unfold stateOf at hc
  split at hc
  · exact absurd hc (by decide)
  · split at hc
    · exact absurd hc (by decide)
    · exact ⟨by assumption, by assumption⟩

/-- Without a booted slot (unknown, and not declared external), nothing can be targeted: determining the states fails. -/
theorem C09_unknown_refused (realpath : Str → Option Str) (bs : Option Str) (slots : List Slot)
    (hb : ∀ b, bs = some b → findBooted realpath b slots = none) (he : bs ≠ some (c!"_external_")) :
    slotStates realpath bs slots = none := by
  cases bs with
  | none => rfl
  | some b =>
    rw [slotStates]
    simp only [hb b rfl]
    rw [if_neg (fun h => he (by rw [h]))]

/-! ## Concrete cases -/

theorem flat_of {slots : List Slot}
    (h : ∀ s ∈ slots, s.parent = none ∨ ∃ p ∈ slots, s.parent = some p.name ∧ p.parent = none) : FlatParents slots := by
  intro s hs n hn
  rcases h s hs with h | ⟨p, hp, h1, h2⟩
  · rw [hn] at h; exact absurd h (by simp)
  · rw [hn] at h1; exact ⟨p, hp, (Option.some.inj h1).symm, h2⟩

namespace Ex
def r0 : Slot := { name := c!"rootfs.0", sclass := c!"rootfs", device := c!"/dev/a", bootname := some (c!"A") }
def r1 : Slot := { name := c!"rootfs.1", sclass := c!"rootfs", device := c!"/dev/b", bootname := some (c!"B") }
def a0 : Slot := { name := c!"appfs.0", sclass := c!"appfs", device := c!"/dev/c", parent := some (c!"rootfs.0") }
def a1 : Slot := { name := c!"appfs.1", sclass := c!"appfs", device := c!"/dev/d", parent := some (c!"rootfs.1") }
def slots : List Slot := [r0, a0, a1, r1]
def noStatus : Slot → SlotStatus := fun _ => {}

example : findBooted some (c!"A") slots = some r0 := by decide
example : targetGroup false (stateOf r0) noStatus slots (c!"appfs") = some a1 := by decide
example : targetGroup false (stateOf r0) noStatus slots (c!"rootfs") = some r1 := by decide
theorem slots_unique : UniqueNames slots := by unfold UniqueNames; decide
theorem slots_flat : FlatParents slots := flat_of (by decide)

/-- two candidates with time stamps: the older one is taken although it comes second -/
def old : DateTime := { year := 2020, month := 1, day := 1, hour := 0, minute := 0, second := 0 }
def new : DateTime := { year := 2021, month := 1, day := 1, hour := 0, minute := 0, second := 0 }
def r2 : Slot := { name := c!"rootfs.2", sclass := c!"rootfs", device := c!"/dev/e", bootname := some (c!"C") }
def stamps : Slot → SlotStatus := fun s =>
  if s.name = c!"rootfs.1" then { installedTimestamp := some new } else { installedTimestamp := some old }
example : selectMember false (stateOf r0) stamps (c!"rootfs") none [r0, r1, r2] = some r2 := by decide
end Ex

/-- The full C09 does not hold: here the booted slot is a child slot (the root file system, found by
its device, with the kernel slot as its parent). The parent of the booted slot counts as inactive, is
selected, and the booted slot itself becomes the target of its class. -/
theorem C09_violated : ∃ (slots : List Slot) (b t : Slot) (state : Slot → State),
    UniqueNames slots ∧ FlatParents slots ∧ findBooted some (c!"/dev/a") slots = some b ∧
    slotStates some (some (c!"/dev/a")) slots = some state ∧
    targetGroup false state (fun _ => {}) slots (c!"rootfs") = some t ∧ t = b ∧ InBootedGroup slots b t := by
  let k0 : Slot := { name := c!"kernel.0", sclass := c!"kernel", device := c!"/dev/k0", bootname := some (c!"A") }
  let k1 : Slot := { name := c!"kernel.1", sclass := c!"kernel", device := c!"/dev/k1", bootname := some (c!"B") }
  let f0 : Slot := { name := c!"rootfs.0", sclass := c!"rootfs", device := c!"/dev/a", parent := some (c!"kernel.0") }
  let f1 : Slot := { name := c!"rootfs.1", sclass := c!"rootfs", device := c!"/dev/b", parent := some (c!"kernel.1") }
  have hb : findBooted some (c!"/dev/a") [k0, k1, f0, f1] = some f0 := by decide
  refine ⟨[k0, k1, f0, f1], f0, f0, stateOf f0, by unfold UniqueNames; decide, flat_of (by decide), hb, ?_, by decide, rfl,
    Or.inl rfl⟩
  simp only [slotStates, hb]

end Rauc.Select
