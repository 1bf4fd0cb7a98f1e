import Verif.Model.Utils
import Mathlib.Tactic.IntervalCases

/-!
# C26 to C28, C51, C52: helpers of src/utils.c and src/shell.c
-/

namespace Rauc.Utils

/-! ## C26 Hexadecimal -/

/-- Specification: lower case of a letter -/
def lower (c : Char) : Char := if 'A' ≤ c ∧ c ≤ 'Z' then Char.ofNat (c.toNat + 32) else c

/-- Specification: the two-digit lower-case hexadecimal notation of a byte string -/
def hexText (b : Bytes) : Str :=
  b.flatMap (fun x => [(c!"0123456789abcdef").getD (x.toNat / 16) ' ', (c!"0123456789abcdef").getD (x.toNat % 16) ' '])

theorem char_range {c : Char} {a b : Char} (h1 : a ≤ c) (h2 : c ≤ b) : a.toNat ≤ c.toNat ∧ c.toNat ≤ b.toNat := ⟨h1, h2⟩

theorem digitChar_getD : ∀ v : Fin 16, digitChar v = (c!"0123456789abcdef").getD v ' ' := by decide

theorem lower_of_not {c : Char} (h : ¬ ('A' ≤ c ∧ c ≤ 'Z')) : lower c = c := by unfold lower; rw [if_neg h]

theorem xdigit_lower {c : Char} {v : Nat} (h : xdigit c = some v) : v < 16 ∧ lower c = digitChar v := by
  unfold xdigit digitVal at h
  have hc := Char.ofNat_toNat c
  by_cases h1 : '0' ≤ c ∧ c ≤ '9'
  · have := char_range h1.1 h1.2
    rw [if_pos h1] at h
    clear h1
    rw [← hc] at h ⊢
    generalize c.toNat = n at *
    clear hc
    simp only [show '0'.toNat = 48 from rfl, show '9'.toNat = 57 from rfl] at this
    obtain ⟨l, u⟩ := this
    interval_cases n <;> (simp only [] at h; cases h; decide)
  · rw [if_neg h1] at h
    clear h1
    by_cases h2 : 'a' ≤ c ∧ c ≤ 'z'
    · have := char_range h2.1 h2.2
      rw [if_pos h2] at h
      clear h2
      rw [← hc] at h ⊢
      generalize c.toNat = n at *
      clear hc
      simp only [show 'a'.toNat = 97 from rfl, show 'z'.toNat = 122 from rfl] at this
      obtain ⟨l, u⟩ := this
      interval_cases n <;> first | (simp only [] at h; cases h; decide) | cases h
    · rw [if_neg h2] at h
      clear h2
      by_cases h3 : 'A' ≤ c ∧ c ≤ 'Z'
      · have := char_range h3.1 h3.2
        rw [if_pos h3] at h
        clear h3
        rw [← hc] at h ⊢
        generalize c.toNat = n at *
        clear hc
        simp only [show 'A'.toNat = 65 from rfl, show 'Z'.toNat = 90 from rfl] at this
        obtain ⟨l, u⟩ := this
        interval_cases n <;> first | (simp only [] at h; cases h; decide) | cases h
      · rw [if_neg h3] at h
        cases h

theorem xdigit_of_lower {c : Char} {v : Nat} (hv : v < 16) (h : lower c = digitChar v) : xdigit c = some v := by
  unfold lower at h
  split at h
  · rename_i h3
    have := char_range h3.1 h3.2
    have hc := Char.ofNat_toNat c
    clear h3
    rw [← hc]
    generalize c.toNat = n at *
    clear hc
    simp only [show 'A'.toNat = 65 from rfl, show 'Z'.toNat = 90 from rfl] at this
    obtain ⟨l, u⟩ := this
    interval_cases v <;> (interval_cases n <;> first | rfl | (revert h; decide))
  · rw [h]
    unfold xdigit
    rw [digitVal_digitChar v hv]
    simp [hv]

theorem byte_split (a b : Nat) (ha : a < 16) (hb : b < 16) :
    (UInt8.ofNat (a * 16 + b)).toNat / 16 = a ∧ (UInt8.ofNat (a * 16 + b)).toNat % 16 = b := by
  have : (UInt8.ofNat (a * 16 + b)).toNat = a * 16 + b := by
    rw [UInt8.toNat_ofNat']
    omega
  rw [this]; omega

theorem byte_join (b : UInt8) : UInt8.ofNat (b.toNat / 16 * 16 + b.toNat % 16) = b := by
  rw [show b.toNat / 16 * 16 + b.toNat % 16 = b.toNat by omega]
  simp

theorem hexEncode_eq (b : Bytes) : hexEncode b = hexText b := by
  unfold hexEncode hexText
  congr 1
  funext x
  have h1 : x.toNat / 16 < 16 := by have := x.toNat_lt; omega
  have h2 : x.toNat % 16 < 16 := by omega
  rw [digitChar_getD ⟨_, h1⟩, digitChar_getD ⟨_, h2⟩]

theorem decodeLoop_iff : ∀ (n : Nat) (h : Str) (b : Bytes), h.length = n * 2 →
    (decodeLoop h = some b ↔ h.map lower = hexEncode b) := by
  intro n
  induction n with
  | zero =>
    intro h b hl
    have : h = [] := List.eq_nil_of_length_eq_zero (by omega)
    subst this
    cases b with
    | nil => simp [decodeLoop, hexEncode]
    | cons x b => simp [decodeLoop, hexEncode]
  | succ n ih =>
    intro h b hl
    match h, hl with
    | [x], hl => simp at hl; omega
    | u :: l :: r, hl =>
      have hl' : r.length = n * 2 := by simp at hl; omega
      constructor
      · intro h
        simp only [decodeLoop] at h
        split at h
        · rename_i a c ha hc
          obtain ⟨a1, a2⟩ := xdigit_lower ha
          obtain ⟨c1, c2⟩ := xdigit_lower hc
          split at h
          · rename_i bs hbs
            cases h
            have := (ih r bs hl').1 hbs
            obtain ⟨e1, e2⟩ := byte_split a c a1 c1
            simp only [List.map_cons, hexEncode, List.flatMap_cons, e1, e2]
            rw [a2, c2, this]
            rfl
          · cases h
        · cases h
      · intro h
        cases b with
        | nil => simp [hexEncode] at h
        | cons x b =>
          simp only [List.map_cons, hexEncode, List.flatMap_cons, List.cons_append, List.nil_append, List.cons.injEq] at h
          obtain ⟨h1, h2, h3⟩ := h
          have b1 : x.toNat / 16 < 16 := by have := x.toNat_lt; omega
          have b2 : x.toNat % 16 < 16 := by omega
          simp only [decodeLoop]
          rw [xdigit_of_lower b1 h1, xdigit_of_lower b2 h2]
          simp only []
          rw [(ih r b hl').2 h3]
          simp only [byte_join]

/-- **C26.** Decoding accepts exactly the strings of twice the expected length that are, up to letter case, the hexadecimal
notation of the result. -/
theorem C26_decode_exact (h : Str) (n : Nat) (b : Bytes) :
    hexDecode h n = some b ↔ h.length = 2 * n ∧ h.map lower = hexText b := by
  unfold hexDecode
  by_cases hl : h.length = n * 2
  · rw [if_neg (by simpa using hl), decodeLoop_iff n h b hl, hexEncode_eq]
    constructor
    · intro e; exact ⟨by omega, e⟩
    · intro e; exact e.2
  · rw [if_pos hl]
    constructor
    · intro e; cases e
    · rintro ⟨e, _⟩; omega

/-- **C26.** Encoding is the standard notation, and decoding it gives the byte string back. -/
theorem C26_round_trip (b : Bytes) : hexEncode b = hexText b ∧ hexDecode (hexEncode b) b.length = some b := by
  refine ⟨hexEncode_eq b, ?_⟩
  rw [C26_decode_exact]
  have hlen : ∀ b : Bytes, (hexEncode b).length = 2 * b.length := by
    intro b
    induction b with
    | nil => rfl
    | cons x b ih =>
      unfold hexEncode at ih ⊢
      rw [List.flatMap_cons, List.length_append, ih]
      simp; omega
  refine ⟨hlen b, ?_⟩
  rw [← hexEncode_eq]
  induction b with
  | nil => rfl
  | cons x b ih =>
    have hlow : ∀ v : Fin 16, lower (digitChar v) = digitChar v := by decide
    have b1 : x.toNat / 16 < 16 := by have := x.toNat_lt; omega
    have b2 : x.toNat % 16 < 16 := by omega
    unfold hexEncode at ih ⊢
    rw [List.flatMap_cons, List.map_append, ih]
    simp only [List.map_cons, List.map_nil, hlow ⟨_, b1⟩, hlow ⟨_, b2⟩]

example : hexDecode (c!"00fFA5") 3 = some [0, 255, 165] := by decide
example : hexDecode (c!"00fFA") 3 = none ∧ hexDecode (c!"0g") 1 = none := by decide

/-! ## C27 Environment keys -/

/-- Specification: characters allowed in the name of an environment variable as RAUC exports it -/
def NameChar (c : Char) : Prop := ('A' ≤ c ∧ c ≤ 'Z') ∨ ('0' ≤ c ∧ c ≤ '9') ∨ c = '_'

/-- Specification: characters allowed in manifest meta keys -/
def KeyChar (c : Char) : Prop := ('a' ≤ c ∧ c ≤ 'z') ∨ ('A' ≤ c ∧ c ≤ 'Z') ∨ ('0' ≤ c ∧ c ≤ '9') ∨ c = '_' ∨ c = '-'

/-- Specification: how a key character is exported -/
def upperName (c : Char) : Char := if 'a' ≤ c ∧ c ≤ 'z' then Char.ofNat (c.toNat - 32) else if c = '-' then '_' else c

theorem toUpper_range {c : Char} (h : 'a' ≤ c ∧ c ≤ 'z') : isUpper (toUpper c) = true ∧ isLower c = true := by
  have := char_range h.1 h.2
  have hc := Char.ofNat_toNat c
  clear h
  rw [← hc]
  generalize c.toNat = n at *
  clear hc
  simp only [show 'a'.toNat = 97 from rfl, show 'z'.toNat = 122 from rfl] at this
  obtain ⟨l, u⟩ := this
  interval_cases n <;> decide

theorem envChar_spec (c u : Char) : envChar c = some u ↔ KeyChar c ∧ u = upperName c := by
  unfold envChar KeyChar upperName
  simp only []
  by_cases h : 'a' ≤ c ∧ c ≤ 'z'
  · obtain ⟨h1, h2⟩ := toUpper_range h
    rw [h1]
    simp only [Bool.true_or, if_true, Option.some.injEq, h, and_self, true_or, true_and]
    unfold toUpper
    rw [h2]
    simp [eq_comm]
  · have hl : isLower c = false := by unfold isLower; simpa using h
    have hu : toUpper c = c := by unfold toUpper; rw [hl]; simp
    rw [hu, hl]
    simp only [h, if_false, false_or, Bool.or_false]
    by_cases h2 : 'A' ≤ c ∧ c ≤ 'Z'
    · have : isUpper c = true := by unfold isUpper; simpa using h2
      have h3 : c ≠ '-' := by rintro rfl; revert h2; decide
      simp [this, h2, h3, eq_comm]
    · have : isUpper c = false := by unfold isUpper; simpa using h2
      simp only [this, Bool.false_or, h2, false_or]
      by_cases h4 : '0' ≤ c ∧ c ≤ '9'
      · have : isDigit c = true := by unfold isDigit; simpa using h4
        have h3 : c ≠ '-' := by rintro rfl; revert h4; decide
        simp [this, h4, h3, eq_comm]
      · have : isDigit c = false := by unfold isDigit; simpa using h4
        simp only [this, Bool.false_eq_true, if_false, h4, false_or]
        by_cases h5 : c = '_'
        · subst h5; simp [eq_comm]
        · by_cases h6 : c = '-'
          · subst h6; simp [eq_comm]
          · simp [h5, h6]

/-- **C27.** A key is accepted exactly if it consists of ASCII letters, digits, `_` and `-`; it is exported in upper case with
`-` replaced by `_`. -/
theorem C27_key_exact (s r : Str) : envKey s = some r ↔ (∀ c ∈ s, KeyChar c) ∧ r = s.map upperName := by
  induction s generalizing r with
  | nil => simp [envKey, eq_comm]
  | cons c cs ih =>
    simp only [envKey]
    cases hc : envChar c with
    | none =>
      constructor
      · intro h; cases h
      · rintro ⟨h, _⟩
        have := (envChar_spec c (upperName c)).2 ⟨h c (by simp), rfl⟩
        rw [hc] at this; cases this
    | some u =>
      obtain ⟨k1, k2⟩ := (envChar_spec c u).1 hc
      cases hk : envKey cs with
      | none =>
        constructor
        · intro h; cases h
        · rintro ⟨h, _⟩
          have := (ih (cs.map upperName)).2 ⟨fun x hx => h x (by simp [hx]), rfl⟩
          rw [hk] at this; cases this
      | some t =>
        obtain ⟨i1, i2⟩ := (ih t).1 hk
        simp only [Option.some.injEq, List.map_cons]
        constructor
        · rintro rfl
          exact ⟨by intro x hx; rcases List.mem_cons.1 hx with rfl | hx; exacts [k1, i1 x hx], by rw [k2, i2]⟩
        · rintro ⟨_, rfl⟩
          rw [k2, i2]

theorem upperName_ok {c : Char} (h : KeyChar c) : NameChar (upperName c) := by
  unfold upperName
  by_cases h1 : 'a' ≤ c ∧ c ≤ 'z'
  · rw [if_pos h1]
    obtain ⟨h2, h3⟩ := toUpper_range h1
    unfold toUpper at h2
    rw [h3] at h2
    simp only [if_true, isUpper, decide_eq_true_eq] at h2
    exact Or.inl h2
  · rw [if_neg h1]
    split
    · exact Or.inr (Or.inr rfl)
    · rename_i h2
      rcases h with h | h | h | h | h
      · exact absurd h h1
      · exact Or.inl h
      · exact Or.inr (Or.inl h)
      · exact Or.inr (Or.inr h)
      · exact absurd h h2

theorem metaVars_mem {grp : Str} {kvs : List (Str × Str)} {e} :
    e ∈ metaVars grp kvs ↔ ∃ k v ek, (k, v) ∈ kvs ∧ envKey k = some ek ∧ e = c!"RAUC_META_" ++ grp ++ '_' :: ek ++ '=' :: v := by
  induction kvs with
  | nil => simp [metaVars]
  | cons p r ih =>
    obtain ⟨k, v⟩ := p
    simp only [metaVars]
    cases hk : envKey k with
    | none =>
      rw [ih]
      constructor
      · rintro ⟨k', v', ek, h1, h2⟩; exact ⟨k', v', ek, by simp [h1], h2⟩
      · rintro ⟨k', v', ek, h1, h2, h3⟩
        rcases List.mem_cons.1 h1 with h1 | h1
        · cases h1; rw [hk] at h2; cases h2
        · exact ⟨k', v', ek, h1, h2, h3⟩
    | some ek0 =>
      rw [List.mem_cons, ih]
      constructor
      · rintro (rfl | ⟨k', v', ek, h1, h2⟩)
        · exact ⟨k, v, ek0, by simp, hk, rfl⟩
        · exact ⟨k', v', ek, by simp [h1], h2⟩
      · rintro ⟨k', v', ek, h1, h2, h3⟩
        rcases List.mem_cons.1 h1 with h1 | h1
        · cases h1; rw [hk] at h2; cases h2; exact Or.inl h3
        · exact Or.inr ⟨k', v', ek, h1, h2, h3⟩

/-- **C27.** The exported variables are exactly the meta entries whose group and key consist of allowed characters. -/
theorem C27_exported_exact (metas : List (Str × List (Str × Str))) (e : Str) :
    e ∈ shellFromMeta metas ↔ ∃ g kvs k v, (g, kvs) ∈ metas ∧ (k, v) ∈ kvs ∧ (∀ c ∈ g, KeyChar c) ∧ (∀ c ∈ k, KeyChar c) ∧
      e = c!"RAUC_META_" ++ g.map upperName ++ '_' :: k.map upperName ++ '=' :: v := by
  induction metas with
  | nil => simp [shellFromMeta]
  | cons p r ih =>
    obtain ⟨g, kvs⟩ := p
    simp only [shellFromMeta]
    cases hg : envKey g with
    | none =>
      rw [ih]
      constructor
      · rintro ⟨g', kvs', k, v, h1, h2⟩; exact ⟨g', kvs', k, v, by simp [h1], h2⟩
      · rintro ⟨g', kvs', k, v, h1, h2, h3, h4⟩
        rcases List.mem_cons.1 h1 with h1 | h1
        · cases h1
          have := (C27_key_exact g _).2 ⟨h3, rfl⟩
          rw [hg] at this; cases this
        · exact ⟨g', kvs', k, v, h1, h2, h3, h4⟩
    | some eg =>
      obtain ⟨a1, a2⟩ := (C27_key_exact g eg).1 hg
      rw [List.mem_append, ih, metaVars_mem]
      constructor
      · rintro (⟨k, v, ek, h1, h2, h3⟩ | ⟨g', kvs', k, v, h1, h2⟩)
        · obtain ⟨b1, b2⟩ := (C27_key_exact k ek).1 h2
          exact ⟨g, kvs, k, v, by simp, h1, a1, b1, by rw [h3, a2, b2]⟩
        · exact ⟨g', kvs', k, v, by simp [h1], h2⟩
      · rintro ⟨g', kvs', k, v, h1, h2, h3, h4, h5⟩
        rcases List.mem_cons.1 h1 with h1 | h1
        · cases h1
          exact Or.inl ⟨k, v, k.map upperName, h2, (C27_key_exact k _).2 ⟨h4, rfl⟩, by rw [h5, a2]⟩
        · exact Or.inr ⟨g', kvs', k, v, h1, h2, h3, h4, h5⟩

/-- **C27.** Every exported variable is `NAME=value` where NAME starts with `RAUC_META_` and has only upper-case letters, digits
and underscores. -/
theorem C27_well_formed (metas : List (Str × List (Str × Str))) (e : Str) (h : e ∈ shellFromMeta metas) :
    ∃ name value, e = c!"RAUC_META_" ++ name ++ '=' :: value ∧ ∀ c ∈ c!"RAUC_META_" ++ name, NameChar c := by
  obtain ⟨g, kvs, k, v, _, _, h3, h4, h5⟩ := (C27_exported_exact metas e).1 h
  refine ⟨g.map upperName ++ '_' :: k.map upperName, v, by rw [h5]; simp, ?_⟩
  intro c hc
  simp only [List.mem_append, List.mem_cons, List.mem_map] at hc
  rcases hc with hc | ⟨x, hx, rfl⟩ | rfl | ⟨x, hx, rfl⟩
  · revert hc
    simp only [List.not_mem_nil, or_false]
    rintro (rfl | rfl | rfl | rfl | rfl | rfl | rfl | rfl | rfl | rfl) <;> simp [NameChar] <;> decide
  · exact upperName_ok (h3 x hx)
  · exact Or.inr (Or.inr rfl)
  · exact upperName_ok (h4 x hx)

example : shellFromMeta [(c!"foo-bar", [(c!"a_1", c!"x=y")]), (c!"b d", [(c!"k", c!"v")])] = [c!"RAUC_META_FOO_BAR_A_1=x=y"] := by decide

/-- Finding: different meta entries can be exported under the same name (one of them is then lost). -/
theorem C27_collision : ∃ a b : Str, a ≠ b ∧ envKey a = envKey b ∧ envKey a ≠ none :=
  ⟨c!"a-b", c!"A_B", by decide, by decide, by decide⟩

/-! ## C28 Exact input and output -/

theorem preadLoop_spec (file : Bytes) (off size : Nat) : ∀ (sched : List Ret) (acc r : Bytes),
    acc.length ≤ size → acc = (file.drop off).take acc.length → preadLoop file off size acc sched = .ok r →
    r = (file.drop off).take size ∧ r.length = size := by
  intro sched
  induction sched with
  | nil =>
    intro acc r h1 h2 h
    simp only [preadLoop] at h
    split at h
    · cases h
    · cases h
      have : acc.length = size := by omega
      exact ⟨by rw [← this]; exact h2, this⟩
  | cons x xs ih =>
    intro acc r h1 h2 h
    simp only [preadLoop] at h
    split at h
    · rename_i hlt
      cases x with
      | eintr => exact ih acc r h1 h2 h
      | fail => cases h
      | got n =>
        simp only [] at h
        split at h
        · cases h
        · rename_i b bs hb
          have hlen : (b :: bs).length ≤ size - acc.length := by
            rw [← hb, List.length_take]; omega
          refine ih _ r ?_ ?_ h
          · rw [List.length_append]; omega
          · rw [List.length_append, List.take_add, ← h2]
            congr 1
            rw [← hb, List.drop_drop, List.length_take]
            rw [List.take_eq_take_iff]
            omega
    · cases h
      have : acc.length = size := by omega
      exact ⟨by rw [← this]; exact h2, this⟩

/-- **C28.** For every schedule of interruptions, errors and short reads: if the exact read reports success, it returned exactly
the requested bytes of the file. -/
theorem C28_read_exact (file : Bytes) (off size : Nat) (sched : List Ret) (r : Bytes)
    (h : preadExact file off size sched = .ok r) : r = (file.drop off).take size ∧ r.length = size :=
  preadLoop_spec file off size sched [] r (by simp) (by simp) h

/-- no error and no empty transfer -/
def Fine (sched : List Ret) : Prop := ∀ r ∈ sched, r = .eintr ∨ ∃ n, 0 < n ∧ r = .got n

theorem preadLoop_complete (file : Bytes) (off size : Nat) (hf : off + size ≤ file.length) : ∀ (sched : List Ret) (acc : Bytes),
    Fine sched → acc.length ≤ size → size - acc.length ≤ (sched.filter (fun r => r ≠ .eintr)).length →
    ∃ r, preadLoop file off size acc sched = .ok r := by
  intro sched
  induction sched with
  | nil =>
    intro acc _ h1 h2
    simp only [preadLoop]
    rw [if_neg (by simp at h2; omega)]
    exact ⟨_, rfl⟩
  | cons x xs ih =>
    intro acc hfi h1 h2
    have hfi' : Fine xs := fun r hr => hfi r (by simp [hr])
    simp only [preadLoop]
    split
    · rename_i hlt
      rcases hfi x (by simp) with rfl | ⟨n, hn, rfl⟩
      · exact ih acc hfi' h1 (by simpa using h2)
      · simp only []
        have hlen : ((file.drop (off + acc.length)).take (min n (size - acc.length))).length = min n (size - acc.length) := by
          rw [List.length_take, List.length_drop]; omega
        split
        · rename_i e
          rw [e] at hlen
          simp at hlen; omega
        · rename_i b bs e
          rw [e] at hlen
          refine ih _ hfi' ?_ ?_
          · rw [List.length_append]; omega
          · rw [List.filter_cons_of_pos (by simp)] at h2
            rw [List.length_append]
            simp only [List.length_cons] at h2 hlen ⊢
            omega
    · exact ⟨_, rfl⟩

/-- **C28.** If the file has the bytes, and the system calls are only interrupted or short (but not empty), the read succeeds
after at most `size` transferring calls. -/
theorem C28_read_complete (file : Bytes) (off size : Nat) (hf : off + size ≤ file.length) (sched : List Ret) (hs : Fine sched)
    (hn : size ≤ (sched.filter (fun r => r ≠ .eintr)).length) :
    preadExact file off size sched = .ok ((file.drop off).take size) := by
  obtain ⟨r, hr⟩ := preadLoop_complete file off size hf sched [] hs (by simp) (by simpa using hn)
  have := (C28_read_exact file off size sched r hr).1
  unfold preadExact
  rw [hr, this]

theorem pwriteLoop_spec (data : Bytes) (off : Nat) (d0 : Disk) : ∀ (sched : List Ret) (pos : Nat), pos ≤ data.length →
    ∃ n, n ≤ data.length ∧ (pwriteLoop data off (d0.write off (data.take pos)) pos sched).1 = d0.write off (data.take n) ∧
      ((pwriteLoop data off (d0.write off (data.take pos)) pos sched).2 = .ok () → n = data.length) := by
  intro sched
  induction sched with
  | nil =>
    intro pos hp
    simp only [pwriteLoop]
    refine ⟨pos, hp, rfl, ?_⟩
    split
    · intro h; cases h
    · intro _; omega
  | cons x xs ih =>
    intro pos hp
    simp only [pwriteLoop]
    split
    · rename_i hlt
      cases x with
      | eintr => exact ih pos hp
      | fail => exact ⟨pos, hp, rfl, by intro h; cases h⟩
      | got n =>
        simp only []
        have e : (d0.write off (data.take pos)).write (off + pos) ((data.drop pos).take (min n (data.length - pos))) =
            d0.write off (data.take (pos + min n (data.length - pos))) := by
          have := Disk.write_append d0 off (data.take pos) ((data.drop pos).take (min n (data.length - pos)))
          rw [List.length_take, Nat.min_eq_left hp] at this
          rw [this, List.take_add]
        rw [e]
        exact ih _ (by omega)
    · exact ⟨pos, hp, rfl, by intro _; omega⟩

/-- **C28.** Whatever the schedule, and wherever it is cut off, the device holds its old contents with some prefix of the data
written at the offset; if success is reported it is all of the data. -/
theorem C28_write_exact (d : Disk) (data : Bytes) (off : Nat) (sched : List Ret) :
    ∃ n, n ≤ data.length ∧ (pwriteExact d data off sched).1 = d.write off (data.take n) ∧
      ((pwriteExact d data off sched).2 = .ok () → (pwriteExact d data off sched).1 = d.write off data) := by
  obtain ⟨n, h1, h2, h3⟩ := pwriteLoop_spec data off d sched 0 (by omega)
  rw [List.take_zero, Disk.write_nil] at h2 h3
  refine ⟨n, h1, h2, ?_⟩
  intro h
  unfold pwriteExact
  rw [h2, h3 h, List.take_length]

theorem pwriteLoop_complete (data : Bytes) (off : Nat) : ∀ (sched : List Ret) (d : Disk) (pos : Nat),
    Fine sched → pos ≤ data.length → data.length - pos ≤ (sched.filter (fun r => r ≠ .eintr)).length →
    (pwriteLoop data off d pos sched).2 = .ok () := by
  intro sched
  induction sched with
  | nil =>
    intro d pos _ h1 h2
    simp only [pwriteLoop]
    rw [if_neg (by simp at h2; omega)]
  | cons x xs ih =>
    intro d pos hfi h1 h2
    have hfi' : Fine xs := fun r hr => hfi r (by simp [hr])
    simp only [pwriteLoop]
    split
    · rcases hfi x (by simp) with rfl | ⟨n, hn, rfl⟩
      · exact ih d pos hfi' h1 (by simpa using h2)
      · simp only []
        rw [List.filter_cons_of_pos (by simp), List.length_cons] at h2
        exact ih _ _ hfi' (by omega) (by omega)
    · rfl

/-- **C28.** Writing succeeds if system calls are only interrupted or short. -/
theorem C28_write_complete (d : Disk) (data : Bytes) (off : Nat) (sched : List Ret) (hs : Fine sched)
    (hn : data.length ≤ (sched.filter (fun r => r ≠ .eintr)).length) : (pwriteExact d data off sched).2 = .ok () :=
  pwriteLoop_complete data off sched d 0 hs (by omega) (by simpa using hn)

/-- **C28.** The write that first compares has the same effect on success, and starts no write if the contents are already there. -/
theorem C28_lazy (d : Disk) (size : Nat) (data : Bytes) (off : Nat) (sr sw : List Ret) :
    ((pwriteLazy d size data off sr sw).2.1 = .ok () → (pwriteLazy d size data off sr sw).1 = d.write off data) ∧
    (∃ n, n ≤ data.length ∧ (pwriteLazy d size data off sr sw).1 = d.write off (data.take n)) ∧
    ((pwriteLazy d size data off sr sw).2.2 = true → off + data.length ≤ size ∧ d.read off data.length ≠ data) := by
  have hz : ∃ n, n ≤ data.length ∧ d = d.write off (data.take n) := ⟨0, by omega, by rw [List.take_zero, Disk.write_nil]⟩
  unfold pwriteLazy
  cases hp : preadExact (d.read 0 size) off data.length sr with
  | running => exact ⟨(by intro h; cases h), hz, (by intro h; cases h)⟩
  | error => exact ⟨(by intro h; cases h), hz, (by intro h; cases h)⟩
  | ok old =>
    obtain ⟨h1, h2⟩ := C28_read_exact _ _ _ _ _ hp
    have h0 : data.length = 0 ∨ off + data.length ≤ size := by
      rw [h1, List.length_take, List.length_drop, Disk.read_length] at h2
      omega
    have h3 : old = d.read off data.length := by
      rcases h0 with h0 | h0
      · rw [h1, h0]; rfl
      · have e : d.read 0 size = d.read 0 off ++ (d.read off data.length ++ d.read (off + data.length) (size - off - data.length)) := by
          have e1 := Disk.read_append d off data.length (size - off - data.length)
          have e2 := Disk.read_append d 0 off (data.length + (size - off - data.length))
          rw [Nat.zero_add] at e2
          rw [← e1, ← e2]
          congr 1; omega
        rw [h1, e]
        rw [List.drop_left' (Disk.read_length _ _ _), List.take_left' (Disk.read_length _ _ _)]
    simp only []
    by_cases he : old = data
    · rw [if_pos he]
      refine ⟨fun _ => ?_, hz, by intro h; cases h⟩
      show d = d.write off data
      have := Disk.write_read_same d off data.length
      rw [← h3, he] at this
      exact this.symm
    · rw [if_neg he]
      obtain ⟨n, n1, n2, n3⟩ := C28_write_exact d data off sw
      refine ⟨n3, ⟨n, n1, n2⟩, fun _ => ⟨?_, by rw [← h3]; exact he⟩⟩
      rcases h0 with h0 | h0
      · exfalso
        apply he
        rw [h3, h0, List.eq_nil_of_length_eq_zero h0]; rfl
      · exact h0

/-- a schedule with interruptions and short transfers -/
example : preadExact [1, 2, 3, 4, 5] 1 3 [.eintr, .got 1, .got 1, .eintr, .got 9] = .ok [2, 3, 4] := by decide
example : preadExact [1, 2, 3] 1 3 [.got 9, .got 9] = .error := by decide
example : Fine [.eintr, .got 1, .got 1, .eintr, .got 9] ∧ ([Ret.eintr, .got 1, .got 1, .eintr, .got 9].filter (fun r => r ≠ .eintr)).length = 3 := by
  refine ⟨?_, by decide⟩
  intro r hr
  simp only [List.mem_cons, List.not_mem_nil, or_false] at hr
  rcases hr with rfl | rfl | rfl | rfl | rfl
  · exact Or.inl rfl
  · exact Or.inr ⟨1, by omega, rfl⟩
  · exact Or.inr ⟨1, by omega, rfl⟩
  · exact Or.inl rfl
  · exact Or.inr ⟨9, by omega, rfl⟩

/-- Finding: a writing call that keeps returning zero keeps the helper in its loop for ever. -/
theorem C28_zero_writes_spin (d : Disk) (b : UInt8) (off n : Nat) :
    pwriteExact d [b] off (List.replicate n (.got 0)) = (d, .running) := by
  unfold pwriteExact
  induction n with
  | zero => rfl
  | succ n ih =>
    rw [List.replicate_succ]
    simp only [pwriteLoop]
    rw [if_pos (by simp)]
    simp only [Nat.zero_min, List.take_zero, Disk.write_nil, Nat.add_zero]
    exact ih

end Rauc.Utils
