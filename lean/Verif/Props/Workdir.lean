import Verif.Model.Create

/-!
# C61: the work directory is a copy of the content directory
-/

namespace Rauc.Create

/-! ## Specification -/

/-- Specification: what is found under a path (names below the directory), following at most `k - 1` links for each name -/
def lookAt (k : Nat) : Dir → List Str → Target
  | d, [] => .dir d
  | d, n :: p =>
    match target k d n with
    | .dir e => lookAt k e p
    | x => if p = [] then x else .missing

/-! ## Resolving names -/

theorem target_succ (k : Nat) (d : Dir) (n : Str) : target (k + 1) d n =
    if n = c!"." ∨ n = c!".." ∨ n = workName then .up
    else match lookup d n with
      | none => .missing
      | some (.file b) => .file b
      | some (.dir e) => .dir e
      | some .special => .special
      | some (.link t) => target k d t := by
  rw [target]; rfl

/-- following more links changes nothing if something was found -/
theorem target_mono {d : Dir} : ∀ {k j : Nat} {n : Str} {x : Target}, target k d n = x → x ≠ .missing → k ≤ j → target j d n = x := by
  intro k
  induction k with
  | zero => intro j n x h hx _; rw [target] at h; exact absurd h.symm hx
  | succ k ih =>
    intro j n x h hx hj
    obtain ⟨j, rfl⟩ : ∃ i, j = i + 1 := ⟨j - 1, by omega⟩
    rw [target_succ] at h ⊢
    split
    · rename_i hn; rw [if_pos hn] at h; exact h
    · rename_i hn
      rw [if_neg hn] at h
      cases hl : lookup d n with
      | none => rw [hl] at h; exact absurd h.symm hx
      | some y =>
        rw [hl] at h
        cases y with
        | file b => exact h
        | dir e => exact h
        | special => exact h
        | link t => exact ih h hx (by omega)

/-! ## The copy -/

theorem linkAll_lookup {sub : Dir → Option Dir} {top : Bool} {d : Dir} : ∀ {l r : Dir}, linkAll sub top d l = some r → ∀ n, n ≠ workName →
    match lookup l n with
    | none => lookup r n = none
    | some x => entryOk top n x = true ∧ target maxLinks d n ≠ .up ∧
      match target maxLinks d n with
      | .dir e => ∃ e', sub e = some e' ∧ lookup r n = some (.dir e')
      | _ => lookup r n = some x := by
  intro l
  induction l with
  | nil => intro r h n _; simp only [linkAll, Option.some.injEq] at h; subst h; simp [lookup]
  | cons a l ih =>
    obtain ⟨m, x⟩ := a
    intro r h n hn
    rw [linkAll] at h
    split at h
    · rename_i hm
      have hne : m ≠ n := fun e => hn (e ▸ hm)
      rw [lookup, if_neg hne]
      exact ih h n hn
    · rename_i hm
      split at h
      · cases h
      · rename_i hok
        have hok' : entryOk top m x = true := by simpa using hok
        by_cases hmn : m = n
        · subst hmn
          rw [lookup, if_pos rfl]
          simp only
          refine ⟨hok', ?_⟩
          cases ht : target maxLinks d m with
          | up => rw [ht] at h; cases h
          | dir e =>
            rw [ht] at h
            simp only at h
            cases hs : sub e with
            | none => rw [hs] at h; cases h
            | some e' =>
              rw [hs] at h
              simp only at h
              cases hr : linkAll sub top d l with
              | none => rw [hr] at h; cases h
              | some r' => rw [hr] at h; cases h; exact ⟨by simp, e', hs, by simp [lookup]⟩
          | file b =>
            rw [ht] at h; simp only at h
            cases hr : linkAll sub top d l with
            | none => rw [hr] at h; cases h
            | some r' => rw [hr] at h; cases h; exact ⟨by simp, by simp [lookup]⟩
          | special =>
            rw [ht] at h; simp only at h
            cases hr : linkAll sub top d l with
            | none => rw [hr] at h; cases h
            | some r' => rw [hr] at h; cases h; exact ⟨by simp, by simp [lookup]⟩
          | missing =>
            rw [ht] at h; simp only at h
            cases hr : linkAll sub top d l with
            | none => rw [hr] at h; cases h
            | some r' => rw [hr] at h; cases h; exact ⟨by simp, by simp [lookup]⟩
        · rw [lookup, if_neg hmn]
          have key : ∃ y r', linkAll sub top d l = some r' ∧ r = (m, y) :: r' := by
            cases hr : linkAll sub top d l with
            | none =>
              rw [hr] at h
              split at h
              · cases h
              · split at h <;> cases h
              · cases h
            | some r' =>
              rw [hr] at h
              split at h
              · cases h
              · split at h
                · cases h
                · cases h; exact ⟨_, _, rfl, rfl⟩
              · cases h; exact ⟨_, _, rfl, rfl⟩
          obtain ⟨y, r', hr, rfl⟩ := key
          rw [show lookup ((m, y) :: r') n = lookup r' n by rw [lookup, if_neg hmn]]
          exact ih hr n hn

theorem linkAll_names {sub : Dir → Option Dir} {top : Bool} {d : Dir} : ∀ {l r : Dir}, linkAll sub top d l = some r →
    r.map Prod.fst = (l.map Prod.fst).filter (fun n => decide (n ≠ workName)) := by
  intro l
  induction l with
  | nil => intro r h; simp only [linkAll, Option.some.injEq] at h; subst h; rfl
  | cons a l ih =>
    obtain ⟨m, x⟩ := a
    intro r h
    rw [linkAll] at h
    split at h
    · rename_i hm
      rw [ih h]; simp [hm]
    · rename_i hm
      split at h
      · cases h
      · cases hr : linkAll sub top d l with
        | none =>
          rw [hr] at h
          split at h
          · cases h
          · split at h <;> cases h
          · cases h
        | some r' =>
          rw [hr] at h
          split at h
          · cases h
          · split at h
            · cases h
            · cases h; simp [ih hr, hm]
          · cases h; simp [ih hr, hm]

/-- the entry of the copy for each name -/
structure Copied (sub : Dir → Option Dir) (top : Bool) (d w : Dir) : Prop where
  none : ∀ n, n ≠ workName → lookup d n = none → lookup w n = none
  ok : ∀ n x, n ≠ workName → lookup d n = some x → entryOk top n x = true ∧ target maxLinks d n ≠ .up
  dir : ∀ n e, n ≠ workName → target maxLinks d n = .dir e → ∃ e', sub e = some e' ∧ lookup w n = some (.dir e')
  other : ∀ n x, n ≠ workName → lookup d n = some x → (∀ e, target maxLinks d n ≠ .dir e) → lookup w n = some x
  names : w.map Prod.fst = (d.map Prod.fst).filter (fun n => decide (n ≠ workName))

theorem copied {sub : Dir → Option Dir} {top : Bool} {d w : Dir} (h : linkAll sub top d d = some w) : Copied sub top d w := by
  have key := linkAll_lookup h
  refine ⟨?_, ?_, ?_, ?_, linkAll_names h⟩
  · intro n hn hl; have := key n hn; rwa [hl] at this
  · intro n x hn hl; have := key n hn; rw [hl] at this; exact ⟨this.1, this.2.1⟩
  · intro n e hn ht
    have := key n hn
    cases hl : lookup d n with
    | none =>
      rw [show maxLinks = 40 + 1 from rfl, target_succ, hl] at ht
      split at ht <;> cases ht
    | some x =>
      rw [hl] at this
      simp only [ht] at this
      exact this.2.2
  · intro n x hn hl ht
    have := key n hn
    rw [hl] at this
    simp only at this
    cases hx : target maxLinks d n with
    | dir e => exact absurd hx (ht e)
    | _ => rw [hx] at this; exact this.2.2

section
variable {sub : Dir → Option Dir} {top : Bool} {d w : Dir}

theorem Copied.file (c : Copied sub top d w) {b : Bytes} : ∀ {k : Nat} {n : Str}, k ≤ maxLinks → target k d n = .file b → target k w n = .file b := by
  intro k
  induction k with
  | zero => intro n _ h; rw [target] at h; cases h
  | succ k ih =>
    intro n hk h
    have hm := target_mono h (by simp) hk
    rw [target_succ] at h ⊢
    split at h
    · cases h
    · rename_i hn
      rw [if_neg hn]
      have hw : n ≠ workName := fun e => hn (Or.inr (Or.inr e))
      cases hl : lookup d n with
      | none => rw [hl] at h; cases h
      | some x =>
        rw [hl] at h
        rw [c.other n x hw hl (fun e he => by rw [he] at hm; cases hm)]
        cases x with
        | file b' => exact h
        | dir e => exact h
        | special => exact h
        | link t => exact ih (by omega) h

theorem Copied.directory (c : Copied sub top d w) {e : Dir} {k : Nat} {n : Str} (hk : k ≤ maxLinks) (h : target k d n = .dir e) :
    ∃ e', sub e = some e' ∧ target k w n = .dir e' := by
  obtain ⟨k, rfl⟩ : ∃ i, k = i + 1 := by
    cases k with
    | zero => rw [target] at h; cases h
    | succ k => exact ⟨k, rfl⟩
  have hm := target_mono h (by simp) hk
  rw [target_succ] at h
  split at h
  · cases h
  · rename_i hn
    have hw : n ≠ workName := fun e => hn (Or.inr (Or.inr e))
    obtain ⟨e', hs, hl⟩ := c.dir n e hw hm
    refine ⟨e', hs, ?_⟩
    rw [target_succ, if_neg hn, hl]

/-- what is found in the copy is found in the original, if enough links are followed -/
theorem Copied.back (c : Copied sub top d w) : ∀ {k : Nat} {n : Str},
    (∀ b, target k w n = .file b → ∃ j, ∀ j', j ≤ j' → target j' d n = .file b) ∧
    (∀ e', target k w n = .dir e' → ∃ e, sub e = some e' ∧ ∃ j, ∀ j', j ≤ j' → target j' d n = .dir e) ∧
    target k w n ≠ .special := by
  intro k
  induction k with
  | zero => intro n; refine ⟨?_, ?_, ?_⟩ <;> simp [target]
  | succ k ih =>
    intro n
    rw [target_succ]
    by_cases hn : n = c!"." ∨ n = c!".." ∨ n = workName
    · rw [if_pos hn]; simp
    · rw [if_neg hn]
      have hw : n ≠ workName := fun e => hn (Or.inr (Or.inr e))
      have up : ∀ {x : Target} {j : Nat}, x ≠ .missing → target j d n = x → ∃ j, ∀ j', j ≤ j' → target j' d n = x :=
        fun hx h => ⟨_, fun j' hj => target_mono h hx hj⟩
      cases hl : lookup d n with
      | none => rw [c.none n hw hl]; simp
      | some x =>
        by_cases hd : ∃ e, target maxLinks d n = .dir e
        · obtain ⟨e, he⟩ := hd
          obtain ⟨e', hs, hl'⟩ := c.dir n e hw he
          rw [hl']
          refine ⟨by simp, ?_, by simp⟩
          intro e'' h
          cases h
          exact ⟨e, hs, up (by simp) he⟩
        · rw [c.other n x hw hl (fun e he => hd ⟨e, he⟩)]
          cases x with
          | file b =>
            refine ⟨?_, by simp, by simp⟩
            intro b' h
            cases h
            refine up (j := 1) (by simp) ?_
            rw [target_succ, if_neg hn, hl]
          | dir e =>
            exact absurd ⟨e, by rw [show maxLinks = 40 + 1 from rfl, target_succ, if_neg hn, hl]⟩ hd
          | special => have := (c.ok n _ hw hl).1; simp [entryOk] at this
          | link t =>
            simp only
            have step : ∀ {x : Target}, (∃ j, ∀ j', j ≤ j' → target j' d t = x) → ∃ j, ∀ j', j ≤ j' → target j' d n = x := by
              rintro x ⟨j, hj⟩
              refine ⟨j + 1, fun j' h => ?_⟩
              obtain ⟨j', rfl⟩ : ∃ i, j' = i + 1 := ⟨j' - 1, by omega⟩
              rw [target_succ, if_neg hn, hl]
              exact hj j' (by omega)
            obtain ⟨a1, a2, a3⟩ := @ih t
            refine ⟨fun b h => step (a1 b h), ?_, a3⟩
            intro e' h
            obtain ⟨e, hs, he⟩ := a2 e' h
            exact ⟨e, hs, step he⟩

end

theorem linkDir_copied {k : Nat} {top : Bool} {d w : Dir} (h : linkDir k top d = some w) : ∃ j, k = j + 1 ∧ Copied (linkDir j false) top d w := by
  cases k with
  | zero => cases h
  | succ k => exact ⟨k, rfl, copied h⟩

/-- **C61.** Everything in the content directory is in the work directory: each path leads to the same file, or to a directory with the same names (except for work directories). -/
theorem C61_copy_complete (depth : Nat) (top : Bool) (d w : Dir) (h : linkDir depth top d = some w) (p : List Str) :
    (∀ b, lookAt maxLinks d p = .file b → lookAt maxLinks w p = .file b) ∧
    (∀ e, lookAt maxLinks d p = .dir e → ∃ e', lookAt maxLinks w p = .dir e' ∧ e'.map Prod.fst = (e.map Prod.fst).filter (fun n => decide (n ≠ workName))) := by
  induction p generalizing depth top d w with
  | nil =>
    obtain ⟨j, -, c⟩ := linkDir_copied h
    refine ⟨(by intro b h; cases h), ?_⟩
    intro e he
    simp only [lookAt, Target.dir.injEq] at he
    subst he
    exact ⟨w, rfl, c.names⟩
  | cons n p ih =>
    obtain ⟨j, rfl, c⟩ := linkDir_copied h
    simp only [lookAt]
    cases ht : target maxLinks d n with
    | dir e =>
      obtain ⟨e', hs, hw⟩ := c.directory (Nat.le_refl _) ht
      simp only [hw]
      exact ih _ _ _ _ hs
    | file b =>
      have hw := c.file (Nat.le_refl _) ht
      simp only [hw]
      split <;> simp
    | missing => simp
    | special => simp only; split <;> simp
    | up => simp only; split <;> simp

/-- **C61.** Nothing else is in the work directory: only regular files and directories (and links to them), each file with the bytes that the same path has in the content directory. -/
theorem C61_copy_sound (depth : Nat) (top : Bool) (d w : Dir) (h : linkDir depth top d = some w) (k : Nat) (p : List Str) :
    (∀ b, lookAt k w p = .file b → ∃ j, lookAt j d p = .file b) ∧ lookAt k w p ≠ .special := by
  suffices H : (∀ b, lookAt k w p = .file b → ∃ j, ∀ j', j ≤ j' → lookAt j' d p = .file b) ∧ lookAt k w p ≠ .special from
    ⟨fun b hb => (H.1 b hb).imp fun j hj => hj j (Nat.le_refl _), H.2⟩
  induction p generalizing depth top d w with
  | nil => simp [lookAt]
  | cons n p ih =>
    obtain ⟨j, rfl, c⟩ := linkDir_copied h
    obtain ⟨a1, a2, a3⟩ := c.back (k := k) (n := n)
    simp only [lookAt]
    cases ht : target k w n with
    | dir e' =>
      obtain ⟨e, hs, jj, hj⟩ := a2 e' ht
      obtain ⟨b1, b2⟩ := ih _ _ _ _ hs
      refine ⟨?_, b2⟩
      intro b hb
      obtain ⟨i, hi⟩ := b1 b hb
      refine ⟨max jj i, fun j' h' => ?_⟩
      rw [hj j' (by omega)]
      exact hi j' (by omega)
    | file b =>
      obtain ⟨jj, hj⟩ := a1 b ht
      simp only
      refine ⟨?_, by split <;> simp⟩
      intro b' hb
      split at hb
      · rename_i hp
        cases hb
        refine ⟨jj, fun j' h' => ?_⟩
        rw [hj j' h']
        simp only [hp, if_true]
      · cases hb
    | special => exact absurd ht a3
    | missing => simp
    | up => simp only; split <;> simp

/-- **C61.** Links that lead out of their directory, hidden directories on the top level, and special files are refused. -/
theorem C61_copy_refuses (depth : Nat) (d w : Dir) (h : linkDir depth true d = some w) (n : Str) (x : Node) (hn : n ≠ workName) (hl : lookup d n = some x) :
    x ≠ .special ∧ (∀ t, x = .link t → '/' ∉ t) ∧ (∀ e, x = .dir e → n.head? ≠ some '.') := by
  obtain ⟨j, -, c⟩ := linkDir_copied h
  have := (c.ok n x hn hl).1
  refine ⟨?_, ?_, ?_⟩
  · rintro rfl; simp [entryOk] at this
  · rintro t rfl; simpa [entryOk] using this
  · rintro e rfl; simpa [entryOk] using this

/-! ## Example: a directory with a link to a file and one to a directory -/

def sampleDir : Dir :=
  [(c!"a", .file [1]), (c!"b", .link c!"a"), (c!"d", .dir [(c!"x", .file [2]), (c!"y", .link c!"x")]), (c!"e", .link c!"d"), (workName, .dir [])]

def isFile (b : Bytes) : Target → Bool
  | .file c => decide (b = c)
  | _ => false

example : ∃ w, linkDir 5 true sampleDir = some w ∧ isFile [1] (lookAt maxLinks w [c!"b"]) = true ∧ isFile [2] (lookAt maxLinks w [c!"e", c!"y"]) = true := by
  refine ⟨[(c!"a", .file [1]), (c!"b", .link c!"a"), (c!"d", .dir [(c!"x", .file [2]), (c!"y", .link c!"x")]),
    (c!"e", .dir [(c!"x", .file [2]), (c!"y", .link c!"x")])], by rfl, by decide, by decide⟩

/-- a link to the parent directory is refused -/
example : linkDir 5 true [(c!"d", .dir [(c!"x", .link c!"..")])] = none := by rfl

/-- Finding: a directory called `.rauc-workdir` is dropped silently, on every level. -/
theorem C61_finding_dropped (depth : Nat) (hd : 2 ≤ depth) :
    linkDir depth true [(c!"sub", .dir [(workName, .dir [(c!"x", .file [1])])])] = some [(c!"sub", .dir [])] := by
  obtain ⟨k, rfl⟩ : ∃ k, depth = k + 2 := ⟨depth - 2, by omega⟩
  rfl

end Rauc.Create
