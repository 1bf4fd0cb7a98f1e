import Verif.Props.ConfigFile

/-!
# C59: numbers in the configuration

What `g_key_file_get_integer` and `g_key_file_get_uint64` accept, as modelled by `kfInt` and `kfUint`, stated without them. The key file
parser removes white space in front of a value, hence the hypothesis `Trimmed`.
-/

namespace Rauc.ConfigFile

/-- no white space in front -/
def Trimmed (s : Str) : Prop := ∀ c, s.head? = some c → isSpace c = false

/-- a decimal digit -/
def IsDec (c : Char) : Prop := c ∈ c!"0123456789"

instance (c : Char) : Decidable (IsDec c) := by unfold IsDec; infer_instance

/-- the number a sequence of decimal digits denotes -/
def decVal (ds : Str) : Nat := ds.foldl (fun a c => a * 10 + (c.toNat - 48)) 0

theorem digitVal_dec (c : Char) : (IsDec c → digitVal c = some (c.toNat - 48) ∧ c.toNat - 48 < 10) ∧
    (¬ IsDec c → ∀ v, digitVal c = some v → 10 ≤ v) := by
  constructor
  · intro h
    have : ∀ c ∈ c!"0123456789", digitVal c = some (c.toNat - 48) ∧ c.toNat - 48 < 10 := by decide
    exact this c h
  · intro h v hv
    unfold digitVal at hv
    split at hv
    · rename_i hc
      exfalso
      apply h
      have h1 : 48 ≤ c.toNat := hc.1
      have h2 : c.toNat ≤ 57 := hc.2
      have : c = Char.ofNat c.toNat := (Char.ofNat_toNat c).symm
      rw [this]
      generalize c.toNat = n at h1 h2
      have : n = 48 ∨ n = 49 ∨ n = 50 ∨ n = 51 ∨ n = 52 ∨ n = 53 ∨ n = 54 ∨ n = 55 ∨ n = 56 ∨ n = 57 := by omega
      rcases this with rfl | rfl | rfl | rfl | rfl | rfl | rfl | rfl | rfl | rfl <;> decide
    · split at hv
      · simp only [Option.some.injEq] at hv; omega
      · split at hv
        · simp only [Option.some.injEq] at hv; omega
        · cases hv

theorem digitsAux_eq (s : Str) (acc n : Nat) :
    digitsAux 10 acc n s = ((s.takeWhile (fun c => decide (IsDec c))).foldl (fun a c => a * 10 + (c.toNat - 48)) acc,
      n + (s.takeWhile (fun c => decide (IsDec c))).length) := by
  induction s generalizing acc n with
  | nil => rfl
  | cons c s ih =>
    unfold digitsAux
    rw [List.takeWhile_cons]
    by_cases h : IsDec c
    · obtain ⟨h1, h2⟩ := (digitVal_dec c).1 h
      simp only [h1, h2, if_true, h, decide_true, List.foldl_cons, List.length_cons]
      rw [ih]
      congr 1
      omega
    · cases hv : digitVal c with
      | none => simp [h]
      | some v =>
        have := (digitVal_dec c).2 h v hv
        have hn : ¬ v < 10 := by omega
        simp [h, hn]

/-- the parts of the text of a number -/
structure NumText (s sign ds rest : Str) : Prop where
  eq : s = sign ++ ds ++ rest
  sign : sign = [] ∨ sign = c!"+" ∨ sign = c!"-"
  digits : ds ≠ []
  dec : ∀ c ∈ ds, IsDec c
  rest : ∀ c, rest.head? = some c → ¬ IsDec c

theorem takeWhile_dec {ds rest : Str} (hd : ∀ c ∈ ds, IsDec c) (hr : ∀ c, rest.head? = some c → ¬ IsDec c) :
    (ds ++ rest).takeWhile (fun c => decide (IsDec c)) = ds := by
  rw [List.takeWhile_append_of_pos (by simpa using hd)]
  cases rest with
  | nil => simp
  | cons c r => simp [hr c rfl]

theorem chug_trimmed {s : Str} (h : Trimmed s) : chug s = s := by
  cases s with
  | nil => rfl
  | cons c r => unfold chug; rw [if_neg (by simp [h c rfl])]

theorem dec_not_sign {c : Char} (h : IsDec c) : c ≠ '-' ∧ c ≠ '+' ∧ isSpace c = false := by
  have : ∀ c ∈ c!"0123456789", c ≠ '-' ∧ c ≠ '+' ∧ isSpace c = false := by decide
  exact this c h

/-- what a text that is a number looks like to the readers -/
theorem numText_read {s sign ds rest : Str} (h : NumText s sign ds rest) :
    chug s = s ∧ Config.strtoullRest s = rest ∧
    strtolVal s = (if sign = c!"-" then -(decVal ds : Int) else (decVal ds : Int)) ∧
    strtoull 10 s = (if sign = c!"-" then (if u64max < decVal ds then u64max else (u64max + 1 - decVal ds) % (u64max + 1)) else min (decVal ds) u64max) := by
  obtain ⟨rfl, hs, hne, hd, hr⟩ := h
  obtain ⟨d, dr, rfl⟩ := List.exists_cons_of_ne_nil hne
  obtain ⟨n1, n2, n3⟩ := dec_not_sign (hd d List.mem_cons_self)
  have htw := takeWhile_dec hd hr
  have hdig : digitsAux 10 0 0 (d :: dr ++ rest) = (decVal (d :: dr), (d :: dr).length) := by
    rw [digitsAux_eq, htw, Nat.zero_add]; rfl
  have hbody : strtoullBody 10 (d :: dr ++ rest) = decVal (d :: dr) := by
    unfold strtoullBody
    simp only [Nat.reduceBEq, Bool.or_self, Bool.and_false, Bool.false_eq_true, if_false, Nat.reduceEqDiff, hdig]
  have hskip : ∀ sg, sg = [] ∨ sg = c!"+" ∨ sg = c!"-" → Config.skipSign (sg ++ (d :: dr) ++ rest) = d :: dr ++ rest := by
    rintro sg (rfl | rfl | rfl)
    · show Config.skipSign (d :: (dr ++ rest)) = _
      unfold Config.skipSign
      split
      · rename_i e; cases e; exact absurd rfl n1
      · rename_i e; cases e; exact absurd rfl n2
      · rfl
    · rfl
    · rfl
  have htrim : Trimmed (sign ++ (d :: dr) ++ rest) := by
    intro c hc
    rcases hs with rfl | rfl | rfl
    · cases hc; exact n3
    · cases hc; decide
    · cases hc; decide
  have hch := chug_trimmed htrim
  refine ⟨hch, ?_, ?_, ?_⟩
  · unfold Config.strtoullRest
    simp only [hch, hskip sign hs, hdig]
    rw [if_neg (by simp)]
    exact List.drop_left' rfl
  · unfold strtolVal
    rw [hch]
    rcases hs with rfl | rfl | rfl
    · rw [if_neg (by decide)]
      simp only [List.nil_append, List.cons_append]
      split
      · rename_i e; cases e; exact absurd rfl n1
      · rename_i e; cases e; exact absurd rfl n2
      · rw [← List.cons_append, hdig]
    · rw [if_neg (by decide)]
      show ((digitsAux 10 0 0 (d :: dr ++ rest)).1 : Int) = _
      rw [hdig]
    · rw [if_pos rfl]
      show -((digitsAux 10 0 0 (d :: dr ++ rest)).1 : Int) = _
      rw [hdig]
  · unfold strtoull
    rw [hch]
    rcases hs with rfl | rfl | rfl
    · rw [if_neg (by decide)]
      simp only [List.nil_append, List.cons_append]
      split
      · rename_i e; cases e; exact absurd rfl n1
      · rename_i e; cases e; exact absurd rfl n2
      · rw [← List.cons_append, hbody]
    · rw [if_neg (by decide)]
      show min (strtoullBody 10 (d :: dr ++ rest)) u64max = _
      rw [hbody]
    · rw [if_pos rfl]
      show (if strtoullBody 10 (d :: dr ++ rest) > u64max then u64max else (u64max + 1 - strtoullBody 10 (d :: dr ++ rest)) % (u64max + 1)) = _
      rw [hbody]

/-- a text either is a number with something behind it, or has no digit at the place where one is needed -/
theorem numText_or (s : Str) (h : Trimmed s) : (∃ sign ds rest, NumText s sign ds rest) ∨ Config.strtoullRest s = s := by
  have hch := chug_trimmed h
  have hsk : ∃ sign, (sign = [] ∨ sign = c!"+" ∨ sign = c!"-") ∧ s = sign ++ Config.skipSign s := by
    unfold Config.skipSign
    split
    · exact ⟨c!"-", by simp, rfl⟩
    · exact ⟨c!"+", by simp, rfl⟩
    · exact ⟨[], by simp, rfl⟩
  obtain ⟨sign, hsg, heq⟩ := hsk
  generalize hb : Config.skipSign s = body at heq
  by_cases hn : body.takeWhile (fun c => decide (IsDec c)) = []
  · right
    unfold Config.strtoullRest
    simp only [hch, hb, digitsAux_eq, hn, List.length_nil, Nat.add_zero, if_true]
  · left
    refine ⟨sign, body.takeWhile (fun c => decide (IsDec c)), body.dropWhile (fun c => decide (IsDec c)), ?_, hsg, hn, ?_, ?_⟩
    · rw [List.append_assoc, List.takeWhile_append_dropWhile]; exact heq
    · intro c hc
      have := List.all_eq_true.1 (List.all_takeWhile (p := fun c => decide (IsDec c)) (l := body)) c hc
      simpa using this
    · intro c hc
      have h0 : body.dropWhile (fun c => decide (IsDec c)) ≠ [] := by intro e; rw [e] at hc; cases hc
      have := List.head_dropWhile_not (p := fun c => decide (IsDec c)) h0
      rw [List.head?_eq_some_head h0] at hc
      cases hc
      simpa using this

/-- **C59** An integer option (`boot-attempts`, `max-files`, polling intervals) is accepted exactly if its value is an optionally signed decimal number within
the range of an `int`, followed by nothing or by white space; its value is that number. -/
theorem C59_integer (s : Str) (ht : Trimmed s) (n : Int) : kfInt s = some n ↔
    ∃ sign ds rest, NumText s sign ds rest ∧ (∀ c, rest.head? = some c → isSpace c = true) ∧
      n = (if sign = c!"-" then -(decVal ds : Int) else (decVal ds : Int)) ∧ -2 ^ 31 ≤ n ∧ n < 2 ^ 31 := by
  unfold kfInt
  simp only []
  constructor
  · intro h
    split at h
    · cases h
    · rename_i hc
      rw [Option.ite_none_right_eq_some] at h
      obtain ⟨hr, hv⟩ := h
      simp only [not_or] at hc
      rcases numText_or s ht with ⟨sign, ds, rest, hn⟩ | he
      · obtain ⟨-, h2, h3, -⟩ := numText_read hn
        refine ⟨sign, ds, rest, hn, ?_, ?_, ?_⟩
        · intro c hcc
          rw [h2, hcc] at hc
          simpa using hc.2
        · rw [← h3]; exact (Option.some.inj hv).symm
        · rw [← Option.some.inj hv]; omega
      · rw [he] at hc
        obtain ⟨c, r, rfl⟩ := List.exists_cons_of_ne_nil hc.1
        have := ht c rfl
        simp [this] at hc
  · rintro ⟨sign, ds, rest, hn, hsp, rfl, h1, h2⟩
    obtain ⟨-, e2, e3, -⟩ := numText_read hn
    have hne : s ≠ [] := by
      rw [hn.eq]
      intro e
      simp only [List.append_eq_nil_iff] at e
      exact hn.digits e.1.2
    rw [e2, if_neg, e3, if_pos (by omega)]
    simp only [not_or]
    refine ⟨hne, ?_⟩
    cases rest with
    | nil => simp
    | cons c r => simp [hsp c rfl]

/-- **C59** A size limit (`max-bundle-download-size`, `max-bundle-signature-size`) is accepted exactly if its value is an optionally signed decimal number with
nothing behind it. Without a minus sign the limit is that number, or 2^64-1 if it is larger. -/
theorem C59_unsigned (s : Str) (ht : Trimmed s) (n : Nat) : kfUint s = some n ↔
    ∃ sign ds, NumText s sign ds [] ∧
      n = (if sign = c!"-" then (if 2 ^ 64 - 1 < decVal ds then 2 ^ 64 - 1 else (2 ^ 64 - decVal ds) % 2 ^ 64) else min (decVal ds) (2 ^ 64 - 1)) := by
  unfold kfUint
  constructor
  · intro h
    split at h
    · cases h
    · rename_i hc
      simp only [not_or, Decidable.not_not] at hc
      rcases numText_or s ht with ⟨sign, ds, rest, hn⟩ | he
      · obtain ⟨-, h2, -, h4⟩ := numText_read hn
        have : rest = [] := by rw [← h2]; exact hc.2
        subst this
        refine ⟨sign, ds, hn, ?_⟩
        rw [h4] at h
        exact (Option.some.inj h).symm
      · rw [he] at hc
        exact absurd hc.2 hc.1
  · rintro ⟨sign, ds, hn, rfl⟩
    obtain ⟨-, e2, -, e4⟩ := numText_read hn
    have hne : s ≠ [] := by
      rw [hn.eq]
      intro e
      simp only [List.append_eq_nil_iff] at e
      exact hn.digits e.1.2
    rw [e2, e4, if_neg (by simp [hne])]
    rfl

example : Trimmed c!"-12 x" ∧ kfInt c!"-12 x" = some (-12) ∧ kfInt c!"12x" = none ∧ kfUint c!"12 " = none ∧ kfUint c!"65536" = some 65536 ∧
    kfInt c!"2147483648" = none := by
  refine ⟨?_, by decide, by decide, by decide, by decide, by decide⟩
  intro c h
  cases h
  decide

end Rauc.ConfigFile
