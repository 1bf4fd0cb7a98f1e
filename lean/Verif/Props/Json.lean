import Verif.Model.Json
import Verif.Props.Config

/-!
# Reading JSON

The reader is written from RFC 8259 (restricted to integers; raw control characters in strings are tolerated, as most readers do). Whatever the generator
writes is read back.
-/

namespace Rauc.Json

/-! ## The reader -/

def isWs (c : Char) : Bool := c == ' ' || c == '\n' || c == '\r' || c == '\t'

def skip (s : Str) : Str := s.dropWhile isWs

def hexVal (c : Char) : Option Nat :=
  match digitVal c with
  | some v => if v < 16 then some v else none
  | none => none

/-- the character of `\uXXXX` (no surrogates) -/
def hex4 (a b c d : Char) : Option Char :=
  match hexVal a, hexVal b, hexVal c, hexVal d with
  | some a, some b, some c, some d =>
    let n := ((a * 16 + b) * 16 + c) * 16 + d
    if 0xd800 ≤ n ∧ n < 0xe000 then none else some (Char.ofNat n)
  | _, _, _, _ => none

def unescape (c : Char) : Option Char :=
  if c = '"' ∨ c = '\\' ∨ c = '/' then some c
  else if c = 'b' then some (Char.ofNat 8)
  else if c = 'f' then some (Char.ofNat 12)
  else if c = 'n' then some '\n'
  else if c = 'r' then some '\r'
  else if c = 't' then some '\t'
  else none

/-- a string after its opening quote, and what follows its closing quote -/
def readStr : Str → Option (Str × Str)
  | [] => none
  | '"' :: r => some ([], r)
  | '\\' :: 'u' :: a :: b :: c :: d :: r =>
    match hex4 a b c d, readStr r with
    | some x, some (s, r') => some (x :: s, r')
    | _, _ => none
  | '\\' :: e :: r =>
    match unescape e, readStr r with
    | some x, some (s, r') => some (x :: s, r')
    | _, _ => none
  | '\\' :: [] => none
  | c :: r =>
    match readStr r with
    | some (s, r') => some (c :: s, r')
    | none => none

def readNat (s : Str) : Option (Nat × Str) :=
  let r := digitsAux 10 0 0 s
  if r.2 = 0 then none else some (r.1, s.drop r.2)

mutual
/-- a value (with white space before it) and what follows it; the number bounds the depth of the recursion -/
def readVal : Nat → Str → Option (Json × Str)
  | 0, _ => none
  | f + 1, s =>
    match skip s with
    | 'n' :: 'u' :: 'l' :: 'l' :: r => some (.null, r)
    | 't' :: 'r' :: 'u' :: 'e' :: r => some (.bool true, r)
    | 'f' :: 'a' :: 'l' :: 's' :: 'e' :: r => some (.bool false, r)
    | '"' :: r => match readStr r with | some (x, r') => some (.str x, r') | none => none
    | '[' :: r =>
      match skip r with
      | ']' :: r' => some (.arr [], r')
      | _ => match readElems f r with | some (l, r') => some (.arr l, r') | none => none
    | '{' :: r =>
      match skip r with
      | '}' :: r' => some (.obj [], r')
      | _ => match readMembers f r with | some (l, r') => some (.obj l, r') | none => none
    | '-' :: r => match readNat r with | some (n, r') => some (.num (-(n : Int)), r') | none => none
    | r => match readNat r with | some (n, r') => some (.num n, r') | none => none
/-- one or more elements and the closing bracket -/
def readElems : Nat → Str → Option (List Json × Str)
  | 0, _ => none
  | f + 1, s =>
    match readVal f s with
    | none => none
    | some (v, r) =>
      match skip r with
      | ']' :: r' => some ([v], r')
      | ',' :: r' => match readElems f r' with | some (l, r'') => some (v :: l, r'') | none => none
      | _ => none
/-- one or more members and the closing brace -/
def readMembers : Nat → Str → Option (List (Str × Json) × Str)
  | 0, _ => none
  | f + 1, s =>
    match skip s with
    | '"' :: r =>
      match readStr r with
      | none => none
      | some (k, r) =>
        match skip r with
        | ':' :: r =>
          match readVal f r with
          | none => none
          | some (v, r) =>
            match skip r with
            | '}' :: r' => some ([(k, v)], r')
            | ',' :: r' => match readMembers f r' with | some (l, r'') => some ((k, v) :: l, r'') | none => none
            | _ => none
        | _ => none
    | _ => none
end

/-- a whole document -/
def Reads (s : Str) (j : Json) : Prop := ∃ f r, readVal f s = some (j, r) ∧ skip r = []

/-! ## Strings -/

theorem readStr_esc (c : Char) (r s r' : Str) (h : readStr r = some (s, r')) : readStr (escChar c ++ r) = some (c :: s, r') := by
  unfold escChar
  split
  · rename_i hc
    rcases hc with rfl | rfl <;> simp [readStr, unescape, h]
  split
  · rename_i hc; subst hc; simp [readStr, unescape, h]
  split
  · rename_i hc; subst hc; simp [readStr, unescape, h]
  split
  · rename_i hc; subst hc; simp [readStr, unescape, h]
  split
  · rename_i hc; subst hc; simp [readStr, unescape, h]
  split
  · rename_i hc; subst hc; simp [readStr, unescape, h]
  split
  · rename_i hc
    have key : ∀ n : Fin 128, hex4 '0' '0' (hexDigit (n.val / 16)) (hexDigit (n.val % 16)) = some (Char.ofNat n.val) := by decide
    have hk := key ⟨c.toNat, by omega⟩
    simp only [Char.ofNat_toNat] at hk
    simp [readStr, hk, h]
  · rename_i h1 _ _ _ _ _ _
    rw [not_or] at h1
    rw [List.cons_append, List.nil_append, readStr.eq_def]
    split
    · contradiction
    · rename_i heq; cases heq; exact absurd rfl h1.2
    · rename_i heq; cases heq; exact absurd rfl h1.1
    · rename_i heq; cases heq; exact absurd rfl h1.1
    · rename_i heq; cases heq; exact absurd rfl h1.1
    · rename_i heq; cases heq; rw [h]

theorem readStr_quote (s r : Str) : readStr (s.flatMap escChar ++ '"' :: r) = some (s, r) := by
  induction s with
  | nil => simp [readStr]
  | cons c s ih =>
    rw [List.flatMap_cons, List.append_assoc]
    exact readStr_esc _ _ _ _ ih

/-! ## Tokens -/

/-- white space only -/
def Blank (s : Str) : Prop := ∀ c ∈ s, isWs c = true

def Layout.Ok (L : Layout) : Prop := (∀ n, Blank (L.nl n)) ∧ (∀ n, Blank (L.empty n)) ∧ Blank L.colon.1 ∧ Blank L.colon.2

theorem compact_ok : compact.Ok := by
  refine ⟨fun n c hc => ?_, fun n c hc => ?_, fun c hc => ?_, fun c hc => ?_⟩ <;> cases hc

theorem pretty_ok : pretty.Ok := by
  refine ⟨fun n c hc => ?_, fun n c hc => ?_, fun c hc => ?_, fun c hc => ?_⟩
  · simp only [pretty, List.mem_cons, List.mem_replicate] at hc
    rcases hc with rfl | ⟨-, rfl⟩ <;> rfl
  · cases hc
  · simp only [pretty, List.mem_singleton] at hc; subst hc; rfl
  · simp only [pretty, List.mem_singleton] at hc; subst hc; rfl

theorem skip_blank {w : Str} (h : Blank w) (s : Str) : skip (w ++ s) = skip s := by
  induction w with
  | nil => rfl
  | cons c w ih =>
    unfold skip at ih ⊢
    rw [List.cons_append, List.dropWhile_cons_of_pos (h c (by simp))]
    exact ih (fun x hx => h x (by simp [hx]))

theorem skip_cons {c : Char} (h : isWs c = false) (s : Str) : skip (c :: s) = c :: s := by
  unfold skip
  rw [List.dropWhile_cons_of_neg (by simp [h])]

theorem readNat_dec (n : Nat) (rest : Str) (hr : ∀ c r, rest = c :: r → digitVal c = none) : readNat (toDec n ++ rest) = some (n, rest) := by
  have hd := Config.toDec_digits n
  have hval : (digitsAux 10 0 0 (toDec n)).1 = n := digitsAux_toBase 10 (by omega) (by omega) n
  have hlen : (digitsAux 10 0 0 (toDec n)).2 = (toDec n).length := by
    have := digitsAux_full 10 (toDec n) 0 0 hd
    simpa using this
  have hst := Config.digitsAux_append_stop 10 (toDec n) rest 0 0 hd (fun c r e v hv => by rw [hr c r e] at hv; cases hv)
  have hne : toDec n ≠ [] := toBase_ne_nil 10 n
  unfold readNat
  simp only [hst, hval, hlen]
  rw [if_neg (by simpa using hne), List.drop_left]

/-- a digit begins every number -/
theorem toDec_head (n : Nat) : ∃ c r, toDec n = c :: r ∧ '0' ≤ c ∧ c ≤ '9' := by
  cases h : toDec n with
  | nil => exact absurd h (toBase_ne_nil 10 n)
  | cons c r =>
    refine ⟨c, r, rfl, ?_⟩
    obtain ⟨d, hd, rfl⟩ := toBase_chars 10 (by omega) n c (by show c ∈ toDec n; rw [h]; simp)
    have : ∀ d : Fin 10, '0' ≤ digitChar d.val ∧ digitChar d.val ≤ '9' := by decide
    exact this ⟨d, hd⟩

/-! ## Documents -/

mutual
/-- an upper bound for the depth of the recursion -/
def size : Json → Nat
  | .null => 1
  | .bool _ => 1
  | .num _ => 1
  | .str _ => 1
  | .arr l => 1 + sizeL l
  | .obj l => 1 + sizeM l
def sizeL : List Json → Nat
  | [] => 1
  | x :: l => 1 + size x + sizeL l
def sizeM : List (Str × Json) → Nat
  | [] => 1
  | (_, v) :: l => 1 + size v + sizeM l
end

/-- what may follow a value: no digit -/
def Stop (r : Str) : Prop := ∀ c t, r = c :: t → digitVal c = none

theorem stop_blank {w r : Str} (hw : Blank w) (h : Stop r) : Stop (w ++ r) := by
  cases w with
  | nil => exact h
  | cons c w =>
    intro x t e
    cases e
    have := hw c (by simp)
    simp only [isWs, Bool.or_eq_true, beq_iff_eq] at this
    rcases this with ((rfl | rfl) | rfl) | rfl <;> rfl

theorem stop_cons {c : Char} (h : digitVal c = none) (r : Str) : Stop (c :: r) := by
  intro x t e; cases e; exact h

theorem readVal_blank {w : Str} (h : Blank w) (f : Nat) (s : Str) : readVal f (w ++ s) = readVal f s := by
  cases f with
  | zero => rw [readVal, readVal]
  | succ f => rw [readVal, readVal, skip_blank h]

theorem readMembers_blank {w : Str} (h : Blank w) (f : Nat) (s : Str) : readMembers f (w ++ s) = readMembers f s := by
  cases f with
  | zero => rw [readMembers, readMembers]
  | succ f => rw [readMembers, readMembers, skip_blank h]

/-- how a value begins -/
theorem gen_head (L : Layout) (n : Nat) (j : Json) : ∃ c t, gen L n j = c :: t ∧ isWs c = false ∧ c ≠ ']' ∧ c ≠ '}' := by
  have hdec : ∀ m, ∃ c t, toDec m = c :: t ∧ isWs c = false ∧ c ≠ ']' ∧ c ≠ '}' := by
    intro m
    obtain ⟨c, r, h1, h2, h3⟩ := toDec_head m
    have h2' : 48 ≤ c.toNat := h2
    have h3' : c.toNat ≤ 57 := h3
    refine ⟨c, r, h1, ?_, ?_, ?_⟩
    · simp only [isWs, Bool.or_eq_false_iff, beq_eq_false_iff_ne]
      refine ⟨⟨⟨?_, ?_⟩, ?_⟩, ?_⟩ <;> · rintro rfl; revert h2'; decide
    · rintro rfl; revert h3'; decide
    · rintro rfl; revert h3'; decide
  cases j with
  | null => exact ⟨_, _, by rw [gen], by decide, by decide, by decide⟩
  | bool b => cases b <;> exact ⟨_, _, by rw [gen], by decide, by decide, by decide⟩
  | num i =>
    cases i with
    | ofNat m => obtain ⟨c, t, h⟩ := hdec m; exact ⟨c, t, by rw [gen, intStr, h.1], h.2⟩
    | negSucc m => exact ⟨_, _, by rw [gen, intStr], by decide, by decide, by decide⟩
  | str s => exact ⟨_, _, by rw [gen, quote], by decide, by decide, by decide⟩
  | arr l => cases l <;> exact ⟨_, _, by rw [gen], by decide, by decide, by decide⟩
  | obj l =>
    cases l with
    | nil => exact ⟨_, _, by rw [gen], by decide, by decide, by decide⟩
    | cons p l => obtain ⟨k, v⟩ := p; exact ⟨_, _, by rw [gen], by decide, by decide, by decide⟩

theorem readVal_num (f : Nat) (i : Int) (r : Str) (hr : Stop r) : readVal (f + 1) (intStr i ++ r) = some (.num i, r) := by
  cases i with
  | ofNat m =>
    obtain ⟨c, t, h1, h2, h3⟩ := toDec_head m
    have h := readNat_dec m r hr
    have h2' : 48 ≤ c.toNat := h2
    have h3' : c.toNat ≤ 57 := h3
    have hws : isWs c = false := by
      simp only [isWs, Bool.or_eq_false_iff, beq_eq_false_iff_ne]
      refine ⟨⟨⟨?_, ?_⟩, ?_⟩, ?_⟩ <;> · rintro rfl; revert h2'; decide
    rw [readVal, intStr]
    rw [h1, List.cons_append] at h ⊢
    rw [skip_cons hws]
    split
    · rename_i heq; obtain rfl : c = _ := (List.cons.inj heq).1; exact absurd h3' (by decide)
    · rename_i heq; obtain rfl : c = _ := (List.cons.inj heq).1; exact absurd h3' (by decide)
    · rename_i heq; obtain rfl : c = _ := (List.cons.inj heq).1; exact absurd h3' (by decide)
    · rename_i heq; obtain rfl : c = _ := (List.cons.inj heq).1; exact absurd h2' (by decide)
    · rename_i heq; obtain rfl : c = _ := (List.cons.inj heq).1; exact absurd h3' (by decide)
    · rename_i heq; obtain rfl : c = _ := (List.cons.inj heq).1; exact absurd h3' (by decide)
    · rename_i heq; obtain rfl : c = _ := (List.cons.inj heq).1; exact absurd h2' (by decide)
    · simp [h]
  | negSucc m =>
    have h := readNat_dec (m + 1) r hr
    rw [readVal, intStr, List.cons_append, skip_cons (by decide)]
    simp only [h]
    rfl

mutual
theorem readVal_gen {L : Layout} (hL : L.Ok) : ∀ (j : Json) (n f : Nat) (r : Str), Stop r → size j ≤ f → readVal f (gen L n j ++ r) = some (j, r)
  | .null, n, f, r, _, hf => by
    obtain ⟨f, rfl⟩ : ∃ g, f = g + 1 := ⟨f - 1, by simp only [size] at hf; omega⟩
    rw [readVal, gen]; rfl
  | .bool b, n, f, r, _, hf => by
    obtain ⟨f, rfl⟩ : ∃ g, f = g + 1 := ⟨f - 1, by simp only [size] at hf; omega⟩
    cases b <;> (rw [readVal, gen]; rfl)
  | .num i, n, f, r, hr, hf => by
    obtain ⟨f, rfl⟩ : ∃ g, f = g + 1 := ⟨f - 1, by simp only [size] at hf; omega⟩
    rw [gen]; exact readVal_num f i r hr
  | .str s, n, f, r, _, hf => by
    obtain ⟨f, rfl⟩ : ∃ g, f = g + 1 := ⟨f - 1, by simp only [size] at hf; omega⟩
    rw [readVal, gen, quote, List.cons_append, skip_cons (by decide), List.append_assoc, List.singleton_append]
    simp only [readStr_quote]
  | .arr [], n, f, r, _, hf => by
    obtain ⟨f, rfl⟩ : ∃ g, f = g + 1 := ⟨f - 1, by simp only [size] at hf; omega⟩
    rw [readVal, gen, List.cons_append, skip_cons (by decide)]
    simp only [List.append_assoc, List.singleton_append]
    rw [skip_blank (hL.2.1 n), skip_cons (by decide)]
    rfl
  | .arr (x :: l), n, f, r, _, hf => by
    obtain ⟨f, rfl⟩ : ∃ g, f = g + 1 := ⟨f - 1, by simp only [size] at hf; omega⟩
    simp only [size, sizeL] at hf
    have h := readElems_gen hL l n f r x (fun f r hr hf => readVal_gen hL x (n + 1) f r hr hf) (by omega) (L.nl (n + 1)) (hL.1 (n + 1))
    rw [readVal, gen, List.cons_append, skip_cons (by decide)]
    simp only [List.append_assoc, List.singleton_append] at h ⊢
    obtain ⟨c, t, hg, h1, h2, -⟩ := gen_head L (n + 1) x
    have hskip : skip (L.nl (n + 1) ++ (gen L (n + 1) x ++ (genElems L n l ++ (L.nl n ++ ']' :: r)))) =
        c :: (t ++ (genElems L n l ++ (L.nl n ++ ']' :: r))) := by
      rw [skip_blank (hL.1 _), hg, List.cons_append, skip_cons h1]
    rw [hskip]
    split
    · rename_i heq; injection heq with e1 e2; exact absurd e1 h2
    · rw [h]
  | .obj [], n, f, r, _, hf => by
    obtain ⟨f, rfl⟩ : ∃ g, f = g + 1 := ⟨f - 1, by simp only [size] at hf; omega⟩
    rw [readVal, gen, List.cons_append, skip_cons (by decide)]
    simp only [List.append_assoc, List.singleton_append]
    rw [skip_blank (hL.2.1 n), skip_cons (by decide)]
    rfl
  | .obj ((k, v) :: l), n, f, r, _, hf => by
    obtain ⟨f, rfl⟩ : ∃ g, f = g + 1 := ⟨f - 1, by simp only [size] at hf; omega⟩
    simp only [size, sizeM] at hf
    have h := readMembers_gen hL l n f r k v (fun f r hr hf => readVal_gen hL v (n + 1) f r hr hf) (by omega) (L.nl (n + 1)) (hL.1 (n + 1))
    rw [readVal, gen, List.cons_append, skip_cons (by decide)]
    simp only [List.append_assoc, List.singleton_append] at h ⊢
    have hskip : ∀ z, skip (L.nl (n + 1) ++ (quote k ++ z)) = '"' :: (k.flatMap escChar ++ '"' :: z) := by
      intro z
      rw [skip_blank (hL.1 _), quote, List.cons_append, skip_cons (by decide), List.append_assoc, List.singleton_append]
    rw [hskip]
    split
    · rename_i heq; cases heq
    · rw [h]
theorem readElems_gen {L : Layout} (hL : L.Ok) : ∀ (l : List Json) (n f : Nat) (r : Str) (x : Json),
    (∀ f r, Stop r → size x ≤ f → readVal f (gen L (n + 1) x ++ r) = some (x, r)) → 1 + size x + sizeL l ≤ f → ∀ w, Blank w →
    readElems f (w ++ gen L (n + 1) x ++ genElems L n l ++ L.nl n ++ ']' :: r) = some (x :: l, r)
  | [], n, f, r, x, hx, hf, w, hw => by
    obtain ⟨f, rfl⟩ : ∃ g, f = g + 1 := ⟨f - 1, by omega⟩
    rw [readElems, genElems, List.append_nil, List.append_assoc, List.append_assoc, readVal_blank hw,
      hx f _ (stop_blank (hL.1 n) (stop_cons (by decide) r)) (by simp only [sizeL] at hf; omega)]
    simp only
    rw [skip_blank (hL.1 n), skip_cons (by decide)]
    rfl
  | y :: l, n, f, r, x, hx, hf, w, hw => by
    obtain ⟨f, rfl⟩ : ∃ g, f = g + 1 := ⟨f - 1, by omega⟩
    simp only [sizeL] at hf
    have h := readElems_gen hL l n f r y (fun f r hr hf => readVal_gen hL y (n + 1) f r hr hf) (by omega) (L.nl (n + 1)) (hL.1 (n + 1))
    rw [readElems, genElems]
    simp only [List.append_assoc, List.cons_append] at h ⊢
    rw [readVal_blank hw, hx f _ (stop_cons (by decide) _) (by omega)]
    simp only
    rw [skip_cons (by decide)]
    simp only [h]
theorem readMembers_gen {L : Layout} (hL : L.Ok) : ∀ (l : List (Str × Json)) (n f : Nat) (r : Str) (k : Str) (v : Json),
    (∀ f r, Stop r → size v ≤ f → readVal f (gen L (n + 1) v ++ r) = some (v, r)) → 1 + size v + sizeM l ≤ f → ∀ w, Blank w →
    readMembers f (w ++ quote k ++ L.colon.1 ++ ':' :: (L.colon.2 ++ gen L (n + 1) v) ++ genMembers L n l ++ L.nl n ++ '}' :: r) = some ((k, v) :: l, r)
  | [], n, f, r, k, v, hx, hf, w, hw => by
    obtain ⟨f, rfl⟩ : ∃ g, f = g + 1 := ⟨f - 1, by omega⟩
    simp only [List.append_assoc, List.cons_append, genMembers, List.nil_append]
    rw [readMembers_blank hw, readMembers, quote, List.cons_append, skip_cons (by decide), List.append_assoc, List.singleton_append]
    simp only [readStr_quote]
    rw [skip_blank hL.2.2.1, skip_cons (by decide)]
    simp only
    rw [readVal_blank hL.2.2.2, hx f _ (stop_blank (hL.1 n) (stop_cons (by decide) r)) (by simp only [sizeM] at hf; omega)]
    simp only
    rw [skip_blank (hL.1 n), skip_cons (by decide)]
    rfl
  | (k', v') :: l, n, f, r, k, v, hx, hf, w, hw => by
    obtain ⟨f, rfl⟩ : ∃ g, f = g + 1 := ⟨f - 1, by omega⟩
    simp only [sizeM] at hf
    have h := readMembers_gen hL l n f r k' v' (fun f r hr hf => readVal_gen hL v' (n + 1) f r hr hf) (by omega) (L.nl (n + 1)) (hL.1 (n + 1))
    rw [genMembers]
    simp only [List.append_assoc, List.cons_append] at h ⊢
    rw [readMembers_blank hw, readMembers, quote, List.cons_append, skip_cons (by decide), List.append_assoc, List.singleton_append]
    simp only [readStr_quote]
    rw [skip_blank hL.2.2.1, skip_cons (by decide)]
    simp only
    rw [readVal_blank hL.2.2.2, hx f _ (stop_cons (by decide) _) (by omega)]
    simp only
    rw [skip_cons (by decide)]
    simp only [h]
end

/-- a document is read back, in both layouts -/
theorem reads_gen {L : Layout} (hL : L.Ok) (j : Json) : Reads (gen L 0 j) j := by
  refine ⟨size j, [], ?_, rfl⟩
  have := readVal_gen hL j 0 (size j) [] (fun c t e => by cases e) le_rfl
  rwa [List.append_nil] at this

/-! ## A document has one reading -/

mutual
theorem readVal_mono : ∀ (f g : Nat) (s : Str) (x : Json × Str), f ≤ g → readVal f s = some x → readVal g s = some x
  | 0, _, _, _, _, h => by rw [readVal] at h; cases h
  | f + 1, 0, _, _, hg, _ => by omega
  | f + 1, g + 1, s, x, hg, h => by
    rw [readVal] at h ⊢
    split at h
    · exact h
    · exact h
    · exact h
    · exact h
    · split at h
      · exact h
      · split at h
        · rename_i l r' he; rw [readElems_mono f g _ _ (by omega) he]; exact h
        · cases h
    · split at h
      · exact h
      · split at h
        · rename_i l r' he; rw [readMembers_mono f g _ _ (by omega) he]; exact h
        · cases h
    · exact h
    · exact h
theorem readElems_mono : ∀ (f g : Nat) (s : Str) (x : List Json × Str), f ≤ g → readElems f s = some x → readElems g s = some x
  | 0, _, _, _, _, h => by rw [readElems] at h; cases h
  | f + 1, 0, _, _, hg, _ => by omega
  | f + 1, g + 1, s, x, hg, h => by
    rw [readElems] at h ⊢
    split at h
    · cases h
    · rename_i v r he
      rw [readVal_mono f g _ _ (by omega) he]
      simp only
      split at h
      · exact h
      · split at h
        · rename_i l r' he'; rw [readElems_mono f g _ _ (by omega) he']; exact h
        · cases h
      · cases h
theorem readMembers_mono : ∀ (f g : Nat) (s : Str) (x : List (Str × Json) × Str), f ≤ g → readMembers f s = some x → readMembers g s = some x
  | 0, _, _, _, _, h => by rw [readMembers] at h; cases h
  | f + 1, 0, _, _, hg, _ => by omega
  | f + 1, g + 1, s, x, hg, h => by
    rw [readMembers] at h ⊢
    split at h
    · split at h
      · cases h
      · split at h
        · split at h
          · cases h
          · rename_i v r he
            rw [readVal_mono f g _ _ (by omega) he]
            simp only
            split at h
            · exact h
            · split at h
              · rename_i l r' he'; rw [readMembers_mono f g _ _ (by omega) he']; exact h
              · cases h
            · cases h
        · cases h
    · cases h
end

theorem Reads.unique {s : Str} {a b : Json} (ha : Reads s a) (hb : Reads s b) : a = b := by
  obtain ⟨f, r, h1, -⟩ := ha
  obtain ⟨g, r', h2, -⟩ := hb
  rcases Nat.le_total f g with h | h
  · rw [readVal_mono f g _ _ h h1] at h2; cases h2; rfl
  · rw [readVal_mono g f _ _ h h2] at h1; cases h1; rfl

/-! ## No line breaks in compact documents -/

theorem escChar_nonl (c : Char) : '\n' ∉ escChar c := by
  unfold escChar
  split
  · rename_i h; rcases h with rfl | rfl <;> decide
  split
  · decide
  split
  · decide
  split
  · decide
  split
  · decide
  split
  · decide
  split
  · rename_i h
    have key : ∀ n : Fin 128, '\n' ∉ c!"\\u00" ++ [hexDigit (n.val / 16), hexDigit (n.val % 16)] := by decide
    exact key ⟨c.toNat, by omega⟩
  · rename_i h _ _ _
    simp only [List.mem_singleton]
    exact fun e => h e.symm

theorem quote_nonl (s : Str) : '\n' ∉ quote s := by
  unfold quote
  simp only [List.mem_cons, List.mem_append, List.mem_flatMap, List.not_mem_nil, or_false, not_or, not_exists, not_and]
  exact ⟨by decide, fun c _ => escChar_nonl c, by decide⟩

theorem toDec_nonl (n : Nat) : '\n' ∉ toDec n := by
  intro h
  obtain ⟨v, h1, -⟩ := Config.toDec_digits n _ h
  rw [show digitVal '\n' = none by decide] at h1
  cases h1

mutual
theorem compact_nonl : ∀ (j : Json) (n : Nat), '\n' ∉ gen compact n j
  | .null, n => by rw [gen]; decide
  | .bool true, n => by rw [gen]; decide
  | .bool false, n => by rw [gen]; decide
  | .num (.ofNat m), n => by rw [gen, intStr]; exact toDec_nonl m
  | .num (.negSucc m), n => by
    rw [gen, intStr]
    simp only [List.mem_cons, not_or]
    exact ⟨by decide, toDec_nonl _⟩
  | .str s, n => by rw [gen]; exact quote_nonl s
  | .arr [], n => by rw [gen, show compact.empty n = [] from rfl]; decide
  | .arr (x :: l), n => by
    rw [gen]
    simp only [compact, List.mem_cons, List.mem_append, List.not_mem_nil, or_false, not_or, List.nil_append]
    exact ⟨by decide, ⟨compact_nonl x (n + 1), compactL_nonl l n⟩, by decide⟩
  | .obj [], n => by rw [gen, show compact.empty n = [] from rfl]; decide
  | .obj ((k, v) :: l), n => by
    rw [gen]
    simp only [compact, List.mem_cons, List.mem_append, List.not_mem_nil, or_false, not_or, List.nil_append, List.append_nil]
    exact ⟨by decide, ⟨⟨quote_nonl k, by decide, compact_nonl v (n + 1)⟩, compactM_nonl l n⟩, by decide⟩
theorem compactL_nonl : ∀ (l : List Json) (n : Nat), '\n' ∉ genElems compact n l
  | [], n => by rw [genElems]; decide
  | x :: l, n => by
    rw [genElems]
    simp only [List.mem_append, List.mem_cons, not_or, show compact.nl (n + 1) = [] from rfl, List.nil_append]
    exact ⟨⟨by decide, compact_nonl x (n + 1)⟩, compactL_nonl l n⟩
theorem compactM_nonl : ∀ (l : List (Str × Json)) (n : Nat), '\n' ∉ genMembers compact n l
  | [], n => by rw [genMembers]; decide
  | (k, v) :: l, n => by
    rw [genMembers]
    simp only [List.mem_append, List.mem_cons, not_or, compact, List.nil_append, List.append_nil]
    exact ⟨⟨by decide, quote_nonl k, by decide, compact_nonl v (n + 1)⟩, compactM_nonl l n⟩
end

end Rauc.Json
