import Verif.Props.Utils

/-!
# C51 (shell output) and C52 (replacing symbolic links)
-/

namespace Rauc.Utils

/-! ## C51 -/

/-- characters without special meaning for a shell -/
def Safe (c : Char) : Bool := ('a' ≤ c ∧ c ≤ 'z') ∨ ('A' ≤ c ∧ c ≤ 'Z') ∨ ('0' ≤ c ∧ c ≤ '9') ∨ c = '_' ∨ c = '.' ∨ c = '/' ∨ c = '-'

/-- where the shell is within a word -/
inductive Mode where
  | plain | quoted | escaped

/-- Specification: how a POSIX shell reads one word up to the end of the line. The result is
the value of the word and the text after the line; `none` for anything that is not a plain word. -/
def shWord : Mode → Str → Str → Option (Str × Str)
  | .plain, [], acc => some (acc, [])
  | .quoted, [], _ => none
  | .escaped, [], _ => none
  | .quoted, c :: r, acc => if c = '\'' then shWord .plain r acc else shWord .quoted r (acc ++ [c])
  | .escaped, c :: r, acc => if c = '\n' then shWord .plain r acc else shWord .plain r (acc ++ [c])
  | .plain, c :: r, acc =>
    if c = '\n' then some (acc, r)
    else if c = '\'' then shWord .quoted r acc
    else if c = '\\' then shWord .escaped r acc
    else if Safe c then shWord .plain r (acc ++ [c])
    else none

/-- Specification: a script that only assigns the given variables, in order. -/
inductive Script : Str → List (Str × Str) → Prop
  | nil : Script [] []
  | assign {k t v rest l} : k ≠ [] → (∀ c ∈ k, NameChar c) → shWord .plain t [] = some (v, rest) → Script rest l →
      Script (k ++ '=' :: t) ((k, v) :: l)

theorem shWord_body (v : Str) : ∀ (acc tail : Str), shWord .quoted (quoteBody v ++ '\'' :: tail) acc = shWord .plain tail (acc ++ v) := by
  induction v with
  | nil => intro acc tail; simp [quoteBody, shWord]
  | cons c cs ih =>
    intro acc tail
    by_cases h : c = '\''
    · subst h
      have := ih (acc ++ ['\'']) tail
      simp [quoteBody, shWord, this]
    · have := ih (acc ++ [c]) tail
      simp [quoteBody, shWord, h, this]

theorem shWord_quote (v tail : Str) : shWord .plain (shellQuote v ++ tail) [] = shWord .plain tail v := by
  have := shWord_body v [] tail
  simp [shellQuote, shWord, this]

theorem splitEq_key (k v : Str) (h : '=' ∉ k) : splitEq (k ++ '=' :: v) = some (k, v) := by
  induction k with
  | nil => simp [splitEq]
  | cons c cs ih =>
    have hc : c ≠ '=' := fun e => h (by simp [e])
    simp only [List.cons_append, splitEq, hc, if_false]
    rw [ih (fun hm => h (by simp [hm]))]
    rfl

/-- **C51.** The shell output for any list of variables with well-formed names and arbitrary values is a script that assigns
exactly these values: no value, whatever characters it contains, can be interpreted by the shell. -/
theorem C51_shell_output (vars : List (Str × Str)) (h : ∀ p ∈ vars, p.1 ≠ [] ∧ ∀ c ∈ p.1, NameChar c) :
    ∃ t, envToShell (vars.map (fun p => p.1 ++ '=' :: p.2)) = some t ∧ Script t vars := by
  induction vars with
  | nil => exact ⟨[], rfl, .nil⟩
  | cons p r ih =>
    obtain ⟨k, v⟩ := p
    obtain ⟨h1, h2⟩ := h (k, v) (by simp)
    have hk : '=' ∉ k := by
      intro hm
      rcases h2 _ hm with h | h | h
      · revert h; decide
      · revert h; decide
      · revert h; decide
    obtain ⟨t, ht, hs⟩ := ih (fun p hp => h p (by simp [hp]))
    simp only [List.map_cons, envToShell, splitEq_key k v hk]
    cases r with
    | nil =>
      refine ⟨_, rfl, ?_⟩
      have := shWord_quote v []
      rw [List.append_nil] at this
      exact .assign h1 h2 (by rw [this]; simp [shWord]) .nil
    | cons q r =>
      simp only [List.map_cons] at ht ⊢
      rw [ht]
      refine ⟨_, rfl, ?_⟩
      rw [List.append_assoc, List.cons_append]
      exact .assign h1 h2 (by rw [shWord_quote]; simp [shWord]) hs

/-- a value with quotes, newlines and a command substitution -/
example : envToShell [c!"RAUC_MF_VERSION=it's $(x)\n", c!"A="] = some (c!"RAUC_MF_VERSION='it'\\''s $(x)\n'\nA=''") := by decide

/-! ## C52 -/

/-- **C52.** Replacing a symbolic link is atomic for its readers: in every intermediate state (hence after a crash at any point, and
whatever system call fails) the name has its old contents or is a link to the new target, and no entry other than the name and its temporary
companion changes. -/
theorem C52_atomic (E : LinkEnv) (d : Dir) (target name : Str) :
    ∀ x ∈ (updateSymlink E d target name).1, (x name = d name ∨ x name = some (.link target)) ∧
      ∀ m, m ≠ name → m ≠ tmpName name → x m = d m := by
  have hne : name ≠ tmpName name := by
    intro e
    have := congrArg List.length e
    simp [tmpName] at this
  have key : ∀ x ∈ (updateSymlink.replaceLink E d target name).1, (x name = d name ∨ x name = some (.link target)) ∧
      ∀ m, m ≠ name → m ≠ tmpName name → x m = d m := by
    unfold updateSymlink.replaceLink
    split
    · intro x hx; simp at hx; subst hx; exact ⟨Or.inl rfl, fun _ _ _ => rfl⟩
    · simp only []
      split
      · intro x hx
        simp only [List.mem_cons, List.not_mem_nil, or_false] at hx
        rcases hx with rfl | rfl | rfl
        · exact ⟨Or.inl rfl, fun _ _ _ => rfl⟩
        · exact ⟨Or.inl (by simp [Dir.set, hne]), fun m h1 h2 => by simp [Dir.set, h2]⟩
        · exact ⟨Or.inr (by simp [Dir.set, hne]), fun m h1 h2 => by simp [Dir.set, h1, h2]⟩
      · split
        · intro x hx
          simp only [List.mem_cons, List.not_mem_nil, or_false] at hx
          rcases hx with rfl | rfl | rfl
          · exact ⟨Or.inl rfl, fun _ _ _ => rfl⟩
          · exact ⟨Or.inl (by simp [Dir.set, hne]), fun m h1 h2 => by simp [Dir.set, h2]⟩
          · exact ⟨Or.inl (by simp [Dir.set, hne]), fun m h1 h2 => by simp [Dir.set, h2]⟩
        · intro x hx
          simp only [List.mem_cons, List.not_mem_nil, or_false] at hx
          rcases hx with rfl | rfl
          · exact ⟨Or.inl rfl, fun _ _ _ => rfl⟩
          · exact ⟨Or.inl (by simp [Dir.set, hne]), fun m h1 h2 => by simp [Dir.set, h2]⟩
  unfold updateSymlink
  split
  · intro x hx; simp at hx; subst hx; exact ⟨Or.inl rfl, fun _ _ _ => rfl⟩
  · split
    · intro x hx; simp at hx; subst hx; exact ⟨Or.inl rfl, fun _ _ _ => rfl⟩
    · intro x hx; simp at hx; subst hx; exact ⟨Or.inl rfl, fun _ _ _ => rfl⟩
    · split
      · intro x hx; simp at hx; subst hx; exact ⟨Or.inl rfl, fun _ _ _ => rfl⟩
      · exact key
    · exact key

/-- **C52.** Success means that the name is a link to the target, and nothing else (in particular the temporary name) changed. -/
theorem C52_success (E : LinkEnv) (d : Dir) (target name : Str) (h : (updateSymlink E d target name).2 = true) :
    ∃ x, (updateSymlink E d target name).1.getLast? = some x ∧ x name = some (.link target) ∧ ∀ m, m ≠ name → x m = d m := by
  have hne : name ≠ tmpName name := by
    intro e
    have := congrArg List.length e
    simp [tmpName] at this
  have key : (updateSymlink.replaceLink E d target name).2 = true →
      ∃ x, (updateSymlink.replaceLink E d target name).1.getLast? = some x ∧ x name = some (.link target) ∧ ∀ m, m ≠ name → x m = d m := by
    unfold updateSymlink.replaceLink
    split
    · intro h; cases h
    · rename_i hg
      split
      · intro _
        refine ⟨((d.set (tmpName name) (some (.link target))).set name (some (.link target))).set (tmpName name) none, rfl,
          by simp [Dir.set, hne], ?_⟩
        intro m hm
        simp only [Dir.set, hm, if_false]
        split
        · rename_i e
          subst e
          simp only [Bool.or_eq_true, not_or] at hg
          have := hg.2
          cases hd : d (tmpName name) with
          | none => rfl
          | some y => rw [hd] at this; exact absurd rfl this
        · rfl
      · split <;> (intro h; cases h)
  unfold updateSymlink at h ⊢
  split
  · rename_i h0; rw [if_pos h0] at h; cases h
  · rename_i h0
    rw [if_neg h0] at h
    split
    · rename_i hd; rw [hd] at h; cases h
    · rename_i hd; rw [hd] at h; cases h
    · rename_i t hd
      rw [hd] at h
      simp only [] at h
      split
      · rename_i e
        exact ⟨d, rfl, by rw [hd, e], fun _ _ => rfl⟩
      · rename_i e
        rw [if_neg e] at h
        exact key h
    · rename_i hd
      rw [hd] at h
      exact key h

/-- **C52.** Without errors and without a stale temporary link the replacement succeeds. -/
theorem C52_succeeds (d : Dir) (target name : Str) (h1 : d name = none ∨ ∃ t, d name = some (.link t)) (h2 : d (tmpName name) = none) :
    (updateSymlink {} d target name).2 = true := by
  unfold updateSymlink
  rw [if_neg (by decide)]
  have key : (updateSymlink.replaceLink {} d target name).2 = true := by
    unfold updateSymlink.replaceLink
    rw [h2]
    rfl
  split
  · rename_i h; rw [h] at h1; simp at h1
  · rename_i h; rw [h] at h1; simp at h1
  · split
    · rfl
    · exact key
  · exact key

/-- Finding: after a crash between creating the temporary link and renaming it, every later attempt to change the link fails, even when
all system calls would work: nothing ever removes the temporary link. -/
theorem C52_stale_temporary (E : LinkEnv) (d x : Dir) (target name : Str)
    (hcrash : ∃ d', (updateSymlink {} d target name).1 = [d, x, d']) :
    ∀ target', d name ≠ some (.link target') → updateSymlink E x target' name = ([x], false) := by
  obtain ⟨d', hc⟩ := hcrash
  have hne : name ≠ tmpName name := by
    intro e
    have := congrArg List.length e
    simp [tmpName] at this
  have hx : x = d.set (tmpName name) (some (.link target)) := by
    unfold updateSymlink at hc
    rw [if_neg (by decide)] at hc
    have key : (updateSymlink.replaceLink {} d target name).1 = [d, x, d'] → x = d.set (tmpName name) (some (.link target)) := by
      unfold updateSymlink.replaceLink
      split
      · intro h; cases h
      · simp only [if_true]
        intro h
        simp only [List.cons.injEq] at h
        exact h.2.1.symm
    split at hc
    · cases hc
    · cases hc
    · split at hc
      · cases hc
      · exact key hc
    · exact key hc
  intro t' ht
  have hn : x name = d name := by rw [hx]; simp [Dir.set, hne]
  have htmp : (x (tmpName name)).isSome = true := by rw [hx]; simp [Dir.set]
  have key : updateSymlink.replaceLink E x t' name = ([x], false) := by
    unfold updateSymlink.replaceLink
    rw [htmp, Bool.or_true, if_pos rfl]
  unfold updateSymlink
  split
  · rfl
  · split
    · rfl
    · rfl
    · rename_i t hd
      split
      · rename_i e
        rw [hn] at hd
        subst e
        exact absurd hd ht
      · exact key
    · exact key

/-- such a crash point exists for a link that is replaced -/
example : ∃ x d', (updateSymlink {} (fun n => if n = c!"a" then some (.link (c!"v1")) else none) (c!"v2") (c!"a")).1 =
    [(fun n => if n = c!"a" then some (.link (c!"v1")) else none), x, d'] := ⟨_, _, rfl⟩

end Rauc.Utils
