/-!
# Strings as character lists

C strings are modelled as `List Char` (no embedded NUL). This file contains the small part of
libc/GLib string handling that the modelled code uses.
-/

namespace Rauc

/-- A C string (NUL-terminated, so without NUL); GLib `NULL` is `Option.none` where it matters. -/
abbrev Str := List Char

/-- `c!"abc"` is the explicit character list `['a','b','c']` (so that `decide` can compute with it). -/
syntax:max "c!" str : term
macro_rules
  | `(c! $s:str) => do
    let cs := s.getString.toList.map fun c => Lean.Syntax.mkCharLit c
    `(([$(cs.toArray),*] : List Char))

/-- GLib `g_ascii_isspace` (the vertical tab is not white space for GLib). -/
def isSpace (c : Char) : Bool :=
  c == ' ' || c == '\t' || c == '\n' || c == '\r' || c == Char.ofNat 12

/-- GLib `g_strchomp`: drop trailing white space. -/
def chomp : Str → Str
  | [] => []
  | c :: cs =>
    match chomp cs with
    | [] => if isSpace c then [] else [c]
    | r => c :: r

/-- GLib `g_strchug`: drop leading white space. -/
def chug : Str → Str
  | [] => []
  | c :: cs => if isSpace c then chug cs else c :: cs

/-- Split at every occurrence of `d`, keeping empty fields; never empty. -/
def splitAux (d : Char) : Str → Str → List Str
  | acc, [] => [acc]
  | acc, c :: cs => if c == d then acc :: splitAux d [] cs else splitAux d (acc ++ [c]) cs

/-- GLib `g_strsplit (s, d, -1)` for a one-character delimiter: the empty string gives the empty vector. -/
def split (d : Char) (s : Str) : List Str :=
  match s with
  | [] => []
  | s => splitAux d [] s

/-- GLib `g_strjoinv`. -/
def join (d : Char) : List Str → Str
  | [] => []
  | [t] => t
  | t :: ts => t ++ d :: join d ts

theorem splitAux_append_nodelim (d : Char) (t acc r : Str) (h : d ∉ t) :
    splitAux d acc (t ++ r) = splitAux d (acc ++ t) r := by
  induction t generalizing acc with
  | nil => simp
  | cons c cs ih =>
    have hc : c ≠ d := fun e => h (by simp [e])
    simp only [List.cons_append, splitAux, beq_iff_eq, hc, if_false]
    rw [ih _ (fun hm => h (List.mem_cons_of_mem _ hm))]
    simp

theorem splitAux_nodelim (d : Char) (t acc : Str) (h : d ∉ t) :
    splitAux d acc t = [acc ++ t] := by
  have := splitAux_append_nodelim d t acc [] h
  simpa [splitAux] using this

theorem splitAux_delim (d : Char) (t acc r : Str) (h : d ∉ t) :
    splitAux d acc (t ++ d :: r) = (acc ++ t) :: splitAux d [] r := by
  rw [splitAux_append_nodelim d t acc _ h]; simp [splitAux]

theorem splitAux_join (d : Char) (ts : List Str) (hne : ts ≠ []) (h : ∀ t ∈ ts, d ∉ t) :
    splitAux d [] (join d ts) = ts := by
  induction ts with
  | nil => exact absurd rfl hne
  | cons t ts ih =>
    cases ts with
    | nil => simp [join, splitAux_nodelim d t [] (h t (by simp))]
    | cons u us =>
      simp only [join]
      rw [splitAux_delim d t [] _ (h t (by simp))]
      rw [ih (by simp) (fun x hx => h x (List.mem_cons_of_mem _ hx))]
      simp

/-- Splitting a joined list of delimiter-free fields gives the fields back, unless the list is
`[""]` (which joins to the empty string, split into nothing). -/
theorem split_join (d : Char) (ts : List Str) (h : ∀ t ∈ ts, d ∉ t) (h1 : ts ≠ [[]]) :
    split d (join d ts) = ts := by
  cases ts with
  | nil => rfl
  | cons t us =>
    have hj : join d (t :: us) ≠ [] := by
      cases us with
      | nil => intro hh; apply h1; simp [join] at hh; simp [hh]
      | cons => simp [join]
    unfold split
    split
    · contradiction
    · exact splitAux_join d _ (by simp) h

theorem join_splitAux (d : Char) (s acc : Str) : join d (splitAux d acc s) = acc ++ s := by
  induction s generalizing acc with
  | nil => simp [splitAux, join]
  | cons c cs ih =>
    simp only [splitAux]
    split
    · rename_i hc
      have := ih []
      cases hsp : splitAux d [] cs with
      | nil =>
        exfalso
        cases cs with
        | nil => simp [splitAux] at hsp
        | cons x xs =>
          have : ∀ (s a : Str), splitAux d a s ≠ [] := by
            intro s; induction s with
            | nil => intro a; simp [splitAux]
            | cons y ys ih2 => intro a; simp only [splitAux]; split <;> simp [ih2]
          exact this _ _ hsp
      | cons t ts =>
        rw [hsp] at this
        simp only [join, this, List.nil_append]
        simp at hc; simp [hc]
    · rw [ih]; simp

theorem join_split (d : Char) (s : Str) : join d (split d s) = s := by
  unfold split
  split
  · simp [join]
  · simpa using join_splitAux d s []

theorem split_eq (d : Char) (s : Str) (h : s ≠ []) : split d s = splitAux d [] s := by
  cases s with
  | nil => exact absurd rfl h
  | cons => rfl

theorem splitAux_fields (d : Char) (s acc : Str) (ha : d ∉ acc) :
    ∀ t ∈ splitAux d acc s, d ∉ t := by
  induction s generalizing acc with
  | nil => simpa [splitAux] using ha
  | cons c cs ih =>
    simp only [splitAux]
    split
    · intro t ht
      rcases List.mem_cons.1 ht with rfl | ht
      · exact ha
      · exact ih [] (by simp) t ht
    · rename_i hc
      apply ih
      simp at hc
      simp [ha, Ne.symm hc]

theorem split_fields (d : Char) (s : Str) : ∀ t ∈ split d s, d ∉ t := by
  unfold split
  split
  · simp
  · exact splitAux_fields d s [] (by simp)

/-! ### chomp -/

theorem chomp_append_nonspace (t : Str) (r : Str) (hr : chomp r ≠ []) :
    chomp (t ++ r) = t ++ chomp r := by
  induction t with
  | nil => simp
  | cons c cs ih =>
    simp only [List.cons_append, chomp, ih]
    split
    · rename_i h; simp at h; exact absurd h.2 hr
    · rfl

/-- A string without white space is unchanged by `chomp`. -/
theorem chomp_nospace (t : Str) (h : ∀ c ∈ t, isSpace c = false) : chomp t = t := by
  induction t with
  | nil => rfl
  | cons c cs ih =>
    simp only [chomp]
    rw [ih (fun x hx => h x (List.mem_cons_of_mem _ hx))]
    cases cs with
    | nil => simp [h c (by simp)]
    | cons => rfl

theorem chomp_append_of_nil (t r : Str) (hr : chomp r = []) : chomp (t ++ r) = chomp t := by
  induction t with
  | nil => simpa [chomp] using hr
  | cons c cs ih => simp only [List.cons_append, chomp, ih]

theorem chomp_idem (s : Str) : chomp (chomp s) = chomp s := by
  induction s with
  | nil => rfl
  | cons c cs ih =>
    simp only [chomp]
    cases h : chomp cs with
    | nil => 
      simp only []
      split
      · rfl
      · rename_i hs; simp [chomp, hs]
    | cons x xs =>
      rw [h] at ih
      simp only [chomp] at ih ⊢
      rw [ih]

/-! ### number parsing -/

/-- `2^64 - 1`. -/
def u64max : Nat := 18446744073709551615

/-- value of a digit character in bases up to 16 (`none` when it is no digit of any such base) -/
def digitVal (c : Char) : Option Nat :=
  if '0' ≤ c ∧ c ≤ '9' then some (c.toNat - '0'.toNat)
  else if 'a' ≤ c ∧ c ≤ 'z' then some (c.toNat - 'a'.toNat + 10)
  else if 'A' ≤ c ∧ c ≤ 'Z' then some (c.toNat - 'A'.toNat + 10)
  else none

/-- Longest prefix of digits in base `b`: accumulated value, number of digits consumed. -/
def digitsAux (b : Nat) : Nat → Nat → Str → Nat × Nat
  | acc, n, [] => (acc, n)
  | acc, n, c :: cs =>
    match digitVal c with
    | some v => if v < b then digitsAux b (acc * b + v) (n + 1) cs else (acc, n)
    | none => (acc, n)

/-- digit value → lower-case character -/
def digitChar (n : Nat) : Char :=
  if n < 10 then Char.ofNat (n + 48) else Char.ofNat (n - 10 + 97)

/-- `printf("%x")`/`printf("%u")` for base 16/10, by fuel. -/
def toBaseAux (b : Nat) : Nat → Nat → Str → Str
  | 0, _, acc => acc
  | f + 1, n, acc =>
    if n < b then digitChar n :: acc else toBaseAux b f (n / b) (digitChar (n % b) :: acc)

def toBase (b n : Nat) : Str := toBaseAux b (n + 1) n []

def toDec (n : Nat) : Str := toBase 10 n
def toHex (n : Nat) : Str := toBase 16 n

/-- does the string start with `0x` and a hex digit? -/
def hexPfx : Str → Bool
  | '0' :: x :: c :: _ =>
      (x == 'x' || x == 'X') && (match digitVal c with | some v => decide (v < 16) | none => false)
  | _ => false

/-- digits after sign and white space of `strtoull`, base 10, 16 or 0 -/
def strtoullBody (base : Nat) (s : Str) : Nat :=
  if hexPfx s && (base == 16 || base == 0) then (digitsAux 16 0 0 (s.drop 2)).1
  else if base = 0 then
    (match s with | '0' :: _ => (digitsAux 8 0 0 s).1 | _ => (digitsAux 10 0 0 s).1)
  else (digitsAux base 0 0 s).1

/-- C `strtoull`/`g_ascii_strtoull` with `endptr = NULL`, base 10, 16 or 0, including leading white
space, sign (negation modulo 2^64), `0x` prefix, saturation on overflow; no digits give 0. -/
def strtoull (base : Nat) (s : Str) : Nat :=
  match chug s with
  | '-' :: r => let v := strtoullBody base r; if v > u64max then u64max else (u64max + 1 - v) % (u64max + 1)
  | '+' :: r => min (strtoullBody base r) u64max
  | r => min (strtoullBody base r) u64max

example : strtoull 16 (c!" 0x1F z") = 31 := by decide
example : strtoull 0 (c!"010") = 8 := by decide
example : strtoull 10 (c!"-1") = u64max := by decide
example : toHex 255 = c!"ff" := by decide
example : split ' ' (c!"A  B") = [c!"A", [], c!"B"] := by decide

theorem digitVal_digitChar (n : Nat) (h : n < 16) : digitVal (digitChar n) = some n := by
  have : ∀ n : Fin 16, digitVal (digitChar n) = some n.1 := by decide
  exact this ⟨n, h⟩

theorem digitsAux_toBaseAux (b : Nat) (hb : 2 ≤ b) (hb16 : b ≤ 16) (f n : Nat) (acc : Str) (hf : n < f) (a k : Nat) :
    ∃ j, j ≥ 1 ∧ digitsAux b a k (toBaseAux b f n acc) =
      digitsAux b (a * b ^ j + n) (k + j) acc := by
  induction f generalizing n acc with
  | zero => omega
  | succ f ih =>
    simp only [toBaseAux]
    split
    · rename_i hn
      refine ⟨1, by omega, ?_⟩
      rw [digitsAux, digitVal_digitChar n (by omega)]
      simp [hn]
    · rename_i hn
      have hb0 : 0 < b := by omega
      have hlt : n / b < f := by
        have : n / b < n := Nat.div_lt_self (by omega) (by omega)
        omega
      obtain ⟨j, hj, e⟩ := ih (n / b) (digitChar (n % b) :: acc) hlt
      refine ⟨j + 1, by omega, ?_⟩
      rw [e, digitsAux, digitVal_digitChar _ (by have := Nat.mod_lt n hb0; omega)]
      have hm : n % b < b := Nat.mod_lt n hb0
      simp only [hm, if_true]
      congr 1
      rw [Nat.add_mul, Nat.mul_assoc, ← Nat.pow_succ, Nat.succ_eq_add_one]
      have := Nat.div_add_mod n b
      rw [Nat.mul_comm] at this
      omega

theorem toBaseAux_chars (b : Nat) (hb : 2 ≤ b) (f n : Nat) (acc : Str) :
    ∀ c ∈ toBaseAux b f n acc, c ∈ acc ∨ ∃ d, d < b ∧ c = digitChar d := by
  induction f generalizing n acc with
  | zero => intro c hc; exact Or.inl hc
  | succ f ih =>
    intro c hc
    simp only [toBaseAux] at hc
    split at hc
    · rcases List.mem_cons.1 hc with rfl | h
      · exact Or.inr ⟨n, by assumption, rfl⟩
      · exact Or.inl h
    · rcases ih _ _ c hc with h | h
      · rcases List.mem_cons.1 h with rfl | h
        · exact Or.inr ⟨n % b, Nat.mod_lt _ (by omega), rfl⟩
        · exact Or.inl h
      · exact Or.inr h

theorem toBase_chars (b : Nat) (hb : 2 ≤ b) (n : Nat) :
    ∀ c ∈ toBase b n, ∃ d, d < b ∧ c = digitChar d := by
  intro c hc
  rcases toBaseAux_chars b hb _ _ _ c hc with h | h
  · simp at h
  · exact h

theorem toBase_ne_nil (b n : Nat) : toBase b n ≠ [] := by
  unfold toBase
  have : ∀ f n acc, toBaseAux b (f + 1) n acc ≠ [] ∧ (acc ≠ [] → toBaseAux b f n acc ≠ []) := by
    intro f
    induction f with
    | zero => intro n acc; constructor
              · simp only [toBaseAux]; split <;> simp
              · simp [toBaseAux]
    | succ f ih =>
      intro n acc
      constructor
      · rw [toBaseAux]; split
        · simp
        · exact (ih _ _).1
      · intro _; exact (ih _ _).1
  exact (this n n []).1

theorem digitsAux_toBase (b : Nat) (hb : 2 ≤ b) (hb16 : b ≤ 16) (n : Nat) :
    (digitsAux b 0 0 (toBase b n)).1 = n := by
  obtain ⟨j, _, e⟩ := digitsAux_toBaseAux b hb hb16 (n + 1) n [] (by omega) 0 0
  unfold toBase
  rw [e]; simp [digitsAux]

theorem digitChar_facts : ∀ d : Fin 16, digitChar d ≠ 'x' ∧ digitChar d ≠ 'X' ∧ digitChar d ≠ '-' ∧
    digitChar d ≠ '+' ∧ isSpace (digitChar d) = false ∧ digitChar d ≠ ',' ∧ digitChar d ≠ '=' ∧ digitChar d ≠ '.' := by
  decide

theorem toBase_nospace (b : Nat) (hb : 2 ≤ b) (hb16 : b ≤ 16) (n : Nat) :
    ∀ c ∈ toBase b n, isSpace c = false := by
  intro c hc
  obtain ⟨d, hd, rfl⟩ := toBase_chars b hb n c hc
  exact (digitChar_facts ⟨d, by omega⟩).2.2.2.2.1

/-- Reading back a printed number (`%x` read with base 16, `%i` read with base 10). -/
theorem strtoull_toBase (b : Nat) (hb : b = 10 ∨ b = 16) (n : Nat) (hn : n ≤ u64max) :
    strtoull b (toBase b n) = n := by
  have hb2 : 2 ≤ b := by omega
  have hch := toBase_chars b hb2 n
  have hd := digitsAux_toBase b hb2 (by omega) n
  have hne := toBase_ne_nil b n
  have hsp := toBase_nospace b hb2 (by omega) n
  generalize toBase b n = s at *
  have hchug : chug s = s := by
    cases s with
    | nil => rfl
    | cons c cs => simp [chug, hsp c (by simp)]
  have key : ∀ c ∈ s, c ≠ 'x' ∧ c ≠ 'X' ∧ c ≠ '-' ∧ c ≠ '+' := by
    intro c hc
    obtain ⟨d, hd, rfl⟩ := hch c hc
    have := digitChar_facts ⟨d, by omega⟩
    exact ⟨this.1, this.2.1, this.2.2.1, this.2.2.2.1⟩
  have hx : hexPfx s = false := by
    unfold hexPfx
    split
    · rename_i x c r
      have := key x (by simp)
      simp [this.1, this.2.1]
    · rfl
  have hbody : strtoullBody b s = n := by
    unfold strtoullBody
    have hb0 : b ≠ 0 := by omega
    simp [hx, hb0, hd]
  unfold strtoull
  rw [hchug]
  split
  · exact absurd rfl (key '-' (by simp)).2.2.1
  · exact absurd rfl (key '+' (by simp)).2.2.2
  · rw [hbody]; omega

end Rauc
