import Verif.Model.Artifacts
import Verif.Props.Shell

/-!
# C36, C37: artifact repositories
-/

namespace Rauc.Artifacts

open Utils (Node Dir tmpName updateSymlink)

/-! ## Specification -/

/-- names of artifacts in manifests: the group name is split at `.`; names with separators cannot be installed -/
def ValidName (n : Str) : Prop := n ≠ [] ∧ '.' ∉ n ∧ '/' ∉ n

/-- a digest in lower case -/
def HexD (d : Str) : Prop := d ≠ [] ∧ ∀ c ∈ d, c ∈ c!"0123456789abcdef"

/-- the artifact that the name stands for -/
def Active (fs : Fs) (n d : Str) : Prop := fs [] n = some (.link (entryName n d))

/-- the data of an artifact is there -/
def Stored (fs : Fs) (n d : Str) (c : Bytes) : Prop := fs [] (entryName n d) = some (.file c)

/-! ## Names -/

theorem span_no {s r : Str} (h : '-' ∉ s) :
    (s ++ '-' :: r).takeWhile (· ≠ '-') = s ∧ (s ++ '-' :: r).dropWhile (· ≠ '-') = '-' :: r := by
  induction s with
  | nil => simp
  | cons c s ih =>
    simp only [List.mem_cons, not_or] at h
    have := ih h.2
    have hc : (decide (c ≠ '-')) = true := by simpa using fun e => h.1 e.symm
    simp only [List.cons_append, List.takeWhile_cons, List.dropWhile_cons, hc, if_true]
    exact ⟨by rw [this.1], this.2⟩

theorem splitLast_append (n d : Str) (h : '-' ∉ d) : splitLast (n ++ '-' :: d) = some (n, d) := by
  unfold splitLast
  have e : (n ++ '-' :: d).reverse = d.reverse ++ '-' :: n.reverse := by simp
  obtain ⟨h1, h2⟩ := span_no (s := d.reverse) (r := n.reverse) (by simpa using h)
  rw [e, h1, h2]
  simp

theorem splitLast_some {s n d : Str} (h : splitLast s = some (n, d)) : s = n ++ '-' :: d := by
  unfold splitLast at h
  have e := List.takeWhile_append_dropWhile (p := fun c => decide (c ≠ '-')) (l := s.reverse)
  split at h
  · cases h
  · rename_i c b hab
    cases h
    have hc : c = '-' := by
      have := List.head?_dropWhile_not (fun c => decide (c ≠ '-')) s.reverse
      rw [hab] at this
      simpa using this
    rw [hab] at e
    have := congrArg List.reverse e
    rw [List.reverse_reverse] at this
    refine this.symm.trans ?_
    rw [hc]
    simp

theorem lowerHex_iff {c : Char} : lowerHex c = true ↔ c ∈ c!"0123456789abcdef" := by simp [lowerHex]

theorem HexD.noDash {d : Str} (h : HexD d) : '-' ∉ d := by
  intro hd
  have := h.2 _ hd
  revert this; decide

theorem HexD.noDot {d : Str} (h : HexD d) : '.' ∉ d := by
  intro hd
  have := h.2 _ hd
  revert this; decide

theorem parseEntry_iff (s n d : Str) : parseEntry s = some (n, d) ↔ s = entryName n d ∧ HexD d := by
  unfold parseEntry
  constructor
  · intro h
    split at h
    · rename_i hp
      split at h
      · cases h
      · rename_i n' d' hs
        split at h
        · rename_i hd
          cases h
          have := splitLast_some hs
          obtain ⟨r, hr⟩ := List.isPrefixOf_iff_prefix.1 hp
          rw [← hr] at this ⊢
          simp only [List.drop_left] at this
          refine ⟨?_, hd.1, ?_⟩
          · unfold entryName; rw [this, List.append_assoc]
          · intro c hc; exact lowerHex_iff.1 (List.all_eq_true.1 hd.2 c hc)
        · cases h
    · cases h
  · rintro ⟨rfl, hd⟩
    have hp : prefixA.isPrefixOf (entryName n d) = true := by
      rw [List.isPrefixOf_iff_prefix]; exact ⟨n ++ '-' :: d, by simp [entryName]⟩
    rw [if_pos hp]
    have hdr : (entryName n d).drop prefixA.length = n ++ '-' :: d := by
      unfold entryName; rw [List.append_assoc, List.drop_left]
    rw [hdr, splitLast_append _ _ hd.noDash]
    simp only
    rw [if_pos ⟨hd.1, List.all_eq_true.2 (fun c hc => lowerHex_iff.2 (hd.2 c hc))⟩]

theorem entryName_inj {n d n' d' : Str} (hd : HexD d) (hd' : HexD d') (h : entryName n d = entryName n' d') : n = n' ∧ d = d' := by
  have h1 := (parseEntry_iff _ n d).2 ⟨rfl, hd⟩
  have h2 := (parseEntry_iff _ n' d').2 ⟨rfl, hd'⟩
  rw [h, h2] at h1
  cases h1; exact ⟨rfl, rfl⟩

theorem entryName_head (n d : Str) : (entryName n d).head? = some '.' := rfl

theorem entryName_dot (n d : Str) : '.' ∈ entryName n d := by simp [entryName, prefixA]

theorem ValidName.head {n : Str} (h : ValidName n) : n.head? ≠ some '.' := by
  obtain ⟨h1, h2, _⟩ := h
  cases n with
  | nil => exact absurd rfl h1
  | cons c n => simp at h2 ⊢; exact fun e => h2.1 e.symm

theorem ValidName.ne_entry {n : Str} (h : ValidName n) (m d : Str) : n ≠ entryName m d := by
  intro e; exact h.2.1 (e ▸ entryName_dot m d)

theorem tmpName_head {n : Str} (h : n ≠ []) : (tmpName n).head? = n.head? := by
  cases n with
  | nil => exact absurd rfl h
  | cons c n => rfl

theorem tmpName_inj {n m : Str} (h : tmpName n = tmpName m) : n = m := by
  unfold tmpName at h
  exact List.append_cancel_right h

theorem tmpName_dot (n : Str) : '.' ∈ tmpName n := by simp [tmpName]

theorem tmpName_ne (n : Str) : n ≠ tmpName n := by
  intro e
  have := congrArg List.length e
  simp [tmpName] at this

theorem tmpName_tmpName_ne (n : Str) : n ≠ tmpName (tmpName n) := by
  intro e
  have := congrArg List.length e
  simp [tmpName] at this

theorem ValidName.ne_tmp {n : Str} (h : ValidName n) (m : Str) : n ≠ tmpName m := by
  intro e; exact h.2.1 (e ▸ tmpName_dot m)

theorem ValidName.tmp_ne_entry {n : Str} (h : ValidName n) (m d : Str) : tmpName n ≠ entryName m d := by
  intro e
  have := congrArg List.head? e
  rw [tmpName_head h.1, entryName_head] at this
  exact h.head this

theorem parseEntry_tmp (n d : Str) (hd : HexD d) : parseEntry (tmpEntry n d) = none := by
  cases h : parseEntry (tmpEntry n d) with
  | none => rfl
  | some x =>
    obtain ⟨n', d'⟩ := x
    obtain ⟨h1, h2⟩ := (parseEntry_iff _ _ _).1 h
    exfalso
    have e : tmpEntry n d = prefixA ++ (n ++ '-' :: (d ++ c!".tmp")) := by simp [tmpEntry, entryName]
    have e' : entryName n' d' = prefixA ++ (n' ++ '-' :: d') := by simp [entryName]
    rw [e, e'] at h1
    have h3 := List.append_cancel_left h1
    have hno : '-' ∉ d ++ c!".tmp" := by
      simp only [List.mem_append, not_or]; exact ⟨hd.noDash, by decide⟩
    have s1 := splitLast_append n _ hno
    have s2 := splitLast_append n' _ h2.noDash
    rw [h3, s2] at s1
    simp only [Option.some.injEq, Prod.mk.injEq] at s1
    have := h2.noDot
    rw [s1.2] at this
    simp at this

theorem parseEntry_valid {n : Str} (h : ValidName n) : parseEntry n = none := by
  cases hp : parseEntry n with
  | none => rfl
  | some x => exact absurd ((parseEntry_iff _ x.1 x.2).1 hp).1 (h.ne_entry _ _)

theorem parseEntry_tmpName {n : Str} (h : ValidName n) : parseEntry (tmpName n) = none := by
  cases hp : parseEntry (tmpName n) with
  | none => rfl
  | some x => exact absurd ((parseEntry_iff _ x.1 x.2).1 hp).1 (h.tmp_ne_entry _ _)

theorem parseTarget_root (t : Str) : parseTarget [] t = parseEntry t := by
  simp [parseTarget, up]

theorem targetOf_root (n d : Str) : targetOf [] n d = entryName n d := by simp [targetOf, up]

/-! ## The invariant of the directory -/

/-- What holds for the directory at any time. `Good` says that the content is the complete data of an artifact. -/
structure Inv (Good : Str → Str → Bytes → Prop) (D : Dir) : Prop where
  /-- links have the name of their artifact, or are temporary ones -/
  named : ∀ x t m d, x.head? ≠ some '.' → D x = some (.link t) → parseEntry t = some (m, d) → x = m ∨ x = tmpName m
  /-- a temporary link left over has not become the link yet -/
  stale : ∀ x t, D (tmpName x) = some (.link t) → D x ≠ some (.link t)
  resolves : ∀ m d, ValidName m → HexD d → D m = some (.link (entryName m d)) → ∃ c, D (entryName m d) = some (.file c) ∧ Good m d c
  entries : ∀ x m d, parseEntry x = some (m, d) → D x ≠ none → ValidName m ∧ ∃ c, D x = some (.file c)

variable {Good : Str → Str → Bytes → Prop}

theorem set_same (D : Dir) (e : Str) (y : Option Node) : D.set e y e = y := by simp [Dir.set]
theorem set_other {D : Dir} {e x : Str} {y : Option Node} (h : x ≠ e) : D.set e y x = D x := by simp [Dir.set, h]

theorem Inv.set_nonlink {D : Dir} (I : Inv Good D) (e : Str) (y : Option Node) (hy : ∀ t, y ≠ some (.link t))
    (hc : ∀ m d, ValidName m → HexD d → e = entryName m d → D m = some (.link e) → ∃ c, y = some (.file c) ∧ Good m d c)
    (hd : ∀ m d, parseEntry e = some (m, d) → y ≠ none → ValidName m ∧ ∃ c, y = some (.file c)) : Inv Good (D.set e y) := by
  have back : ∀ x t, D.set e y x = some (.link t) → x ≠ e ∧ D x = some (.link t) := by
    intro x t h
    by_cases hx : x = e
    · subst hx; rw [set_same] at h; exact absurd h (hy t)
    · exact ⟨hx, by rwa [set_other hx] at h⟩
  refine ⟨?_, ?_, ?_, ?_⟩
  · intro x t m d h1 h2 h3
    exact I.named x t m d h1 (back x t h2).2 h3
  · intro x t h h'
    exact I.stale x t (back _ t h).2 (back _ t h').2
  · intro m d hm hh h
    obtain ⟨hne, h'⟩ := back _ _ h
    by_cases he : entryName m d = e
    · rw [he, set_same]
      exact hc m d hm hh he.symm (he ▸ h')
    · rw [set_other he]
      exact I.resolves m d hm hh h'
  · intro x m d h1 h2
    by_cases hx : x = e
    · subst hx
      rw [set_same] at h2 ⊢
      exact hd m d h1 h2
    · rw [set_other hx] at h2 ⊢
      exact I.entries x m d h1 h2

/-- the states `r_update_symlink` passes through -/
theorem updateSymlink_states (E : Utils.LinkEnv) (D : Dir) (T n : Str) :
    (∀ x ∈ (updateSymlink E D T n).1, x = D ∨
      (D (tmpName n) = none ∧ D n ≠ some (.link T) ∧ (x = D.set (tmpName n) (some (.link T)) ∨ x = D.set n (some (.link T))))) ∧
    (∃ l, (updateSymlink E D T n).1.getLast? = some l ∧
      ((updateSymlink E D T n).2 = true → (D n = some (.link T) ∧ l = D) ∨ (D (tmpName n) = none ∧ D n ≠ some (.link T) ∧ l = D.set n (some (.link T))))) := by
  have hset : ∀ D' : Dir, D (tmpName n) = none → D' = (D.set (tmpName n) (some (.link T))).set (tmpName n) none → D' = D := by
    intro D' h e
    subst e
    funext m
    by_cases hm : m = tmpName n
    · subst hm; rw [set_same, h]
    · rw [set_other hm, set_other hm]
  have hset2 : D (tmpName n) = none →
      ((D.set (tmpName n) (some (.link T))).set n (some (.link T))).set (tmpName n) none = D.set n (some (.link T)) := by
    intro h
    funext m
    by_cases hm : m = tmpName n
    · subst hm; rw [set_same, set_other (tmpName_ne n).symm, h]
    · rw [set_other hm]
      by_cases hn : m = n
      · subst hn; rw [set_same, set_same]
      · rw [set_other hn, set_other hn, set_other hm]
  have key : D n ≠ some (.link T) → 
      (∀ x ∈ (updateSymlink.replaceLink E D T n).1, x = D ∨
        (D (tmpName n) = none ∧ D n ≠ some (.link T) ∧ (x = D.set (tmpName n) (some (.link T)) ∨ x = D.set n (some (.link T))))) ∧
      (∃ l, (updateSymlink.replaceLink E D T n).1.getLast? = some l ∧
        ((updateSymlink.replaceLink E D T n).2 = true → (D n = some (.link T) ∧ l = D) ∨
          (D (tmpName n) = none ∧ D n ≠ some (.link T) ∧ l = D.set n (some (.link T))))) := by
    intro hne
    unfold updateSymlink.replaceLink
    split
    · refine ⟨fun x hx => Or.inl (by simpa using hx), D, rfl, by simp⟩
    · rename_i hg
      have ht : D (tmpName n) = none := by
        cases h : D (tmpName n) with
        | none => rfl
        | some y => rw [h] at hg; simp at hg
      simp only
      split
      · refine ⟨?_, _, rfl, fun _ => Or.inr ⟨ht, hne, hset2 ht⟩⟩
        intro x hx
        simp only [List.mem_cons, List.not_mem_nil, or_false] at hx
        rcases hx with rfl | rfl | rfl
        · exact Or.inl rfl
        · exact Or.inr ⟨ht, hne, Or.inl rfl⟩
        · exact Or.inr ⟨ht, hne, Or.inr (hset2 ht)⟩
      · split
        · refine ⟨?_, _, rfl, by simp⟩
          intro x hx
          simp only [List.mem_cons, List.not_mem_nil, or_false] at hx
          rcases hx with rfl | rfl | rfl
          · exact Or.inl rfl
          · exact Or.inr ⟨ht, hne, Or.inl rfl⟩
          · exact Or.inl (hset _ ht rfl)
        · refine ⟨?_, _, rfl, by simp⟩
          intro x hx
          simp only [List.mem_cons, List.not_mem_nil, or_false] at hx
          rcases hx with rfl | rfl
          · exact Or.inl rfl
          · exact Or.inr ⟨ht, hne, Or.inl rfl⟩
  unfold updateSymlink
  split
  · exact ⟨fun x hx => Or.inl (by simpa using hx), D, rfl, by simp⟩
  · split
    · exact ⟨fun x hx => Or.inl (by simpa using hx), D, rfl, by simp⟩
    · exact ⟨fun x hx => Or.inl (by simpa using hx), D, rfl, by simp⟩
    · rename_i t hd
      split
      · rename_i e
        subst e
        exact ⟨fun x hx => Or.inl (by simpa using hx), D, rfl, fun _ => Or.inl ⟨hd, rfl⟩⟩
      · rename_i e
        exact key (by rw [hd]; simpa using e)
    · rename_i hd
      exact key (by rw [hd]; simp)

/-- creating the temporary link, and the link itself -/
theorem Inv.set_tmp {D : Dir} (I : Inv Good D) (n dg : Str) (hn : ValidName n) (hd : HexD dg) (hne : D n ≠ some (.link (entryName n dg))) :
    Inv Good (D.set (tmpName n) (some (.link (entryName n dg)))) := by
  have hp : parseEntry (entryName n dg) = some (n, dg) := (parseEntry_iff _ _ _).2 ⟨rfl, hd⟩
  have hh : (tmpName n).head? ≠ some '.' := by rw [tmpName_head hn.1]; exact hn.head
  refine ⟨?_, ?_, ?_, ?_⟩
  · intro x t m d h1 h2 h3
    by_cases hx : x = tmpName n
    · subst hx
      rw [set_same] at h2
      cases h2
      rw [hp] at h3
      cases h3
      exact Or.inr rfl
    · rw [set_other hx] at h2; exact I.named x t m d h1 h2 h3
  · intro x t h h'
    by_cases hx : x = n
    · subst hx
      rw [set_same] at h
      rw [set_other (tmpName_ne x)] at h'
      cases h
      exact hne h'
    · have hx' : tmpName x ≠ tmpName n := fun e => hx (tmpName_inj e)
      rw [set_other hx'] at h
      by_cases hxt : x = tmpName n
      · subst hxt
        rw [set_same] at h'
        cases h'
        rcases I.named _ _ n dg (by rw [tmpName_head (by simp [tmpName])]; exact hh) h hp with e | e
        · exact tmpName_tmpName_ne n e.symm
        · exact tmpName_ne (tmpName n) e.symm
      · rw [set_other hxt] at h'
        exact I.stale x t h h'
  · intro m d hm hdd h
    rw [set_other (hm.ne_tmp n)] at h
    rw [set_other (fun e => hn.tmp_ne_entry m d e.symm)]
    exact I.resolves m d hm hdd h
  · intro x m d h1 h2
    have hx : x ≠ tmpName n := by
      intro e; subst e; rw [parseEntry_tmpName hn] at h1; cases h1
    rw [set_other hx] at h2 ⊢
    exact I.entries x m d h1 h2

theorem Inv.set_link {D : Dir} (I : Inv Good D) (n dg : Str) (hn : ValidName n) (hd : HexD dg) (ht : D (tmpName n) = none)
    (hdata : ∃ c, D (entryName n dg) = some (.file c) ∧ Good n dg c) :
    Inv Good (D.set n (some (.link (entryName n dg)))) := by
  have hp : parseEntry (entryName n dg) = some (n, dg) := (parseEntry_iff _ _ _).2 ⟨rfl, hd⟩
  refine ⟨?_, ?_, ?_, ?_⟩
  · intro x t m d h1 h2 h3
    by_cases hx : x = n
    · subst hx
      rw [set_same] at h2
      cases h2
      rw [hp] at h3
      cases h3
      exact Or.inl rfl
    · rw [set_other hx] at h2; exact I.named x t m d h1 h2 h3
  · intro x t h h'
    have hx' : tmpName x ≠ n := fun e => hn.ne_tmp x e.symm
    rw [set_other hx'] at h
    by_cases hx : x = n
    · subst hx; rw [ht] at h; cases h
    · rw [set_other hx] at h'
      exact I.stale x t h h'
  · intro m d hm hdd h
    rw [set_other (fun e => hn.ne_entry m d e.symm)]
    by_cases hx : m = n
    · subst hx
      rw [set_same] at h
      simp only [Option.some.injEq, Node.link.injEq] at h
      obtain ⟨_, rfl⟩ := entryName_inj hd hdd h
      exact hdata
    · rw [set_other hx] at h
      exact I.resolves m d hm hdd h
  · intro x m d h1 h2
    have hx : x ≠ n := by
      intro e; subst e; rw [parseEntry_valid hn] at h1; cases h1
    rw [set_other hx] at h2 ⊢
    exact I.entries x m d h1 h2

/-! ## Runs -/

theorem mem_bind {r : Run} {k : Fs → Run} {s : Fs} (h : s ∈ (r.bind k).states) : s ∈ r.states ∨ (r.ok = true ∧ s ∈ (k r.final).states) := by
  unfold Run.bind at h
  split at h
  · rename_i hk
    simp only [List.mem_append] at h
    rcases h with h | h
    · exact Or.inl h
    · exact Or.inr ⟨hk, h⟩
  · exact Or.inl h

theorem bind_ok {r : Run} {k : Fs → Run} (h : (r.bind k).ok = true) :
    r.ok = true ∧ (k r.final).ok = true ∧ (r.bind k).final = (k r.final).final := by
  unfold Run.bind at h ⊢
  split at h
  · rename_i hk; rw [if_pos hk]; exact ⟨hk, h, rfl⟩
  · rename_i hk; exact absurd h hk

theorem upd_same (fs : Fs) (p : Str) (d : Dir) : fs.upd p d p = d := by simp [Fs.upd]
theorem fset_same (fs : Fs) (p n : Str) (x : Option Node) : fs.set p n x p = (fs p).set n x := by simp [Fs.set, upd_same]

/-! ## The table in memory -/

structure Mem (Good : Str → Str → Bytes → Prop) (repo : Repo) (D : Dir) : Prop where
  keys : ∀ a ∈ repo, ∀ b ∈ repo, a.name = b.name → a.digest = b.digest → a = b
  valid : ∀ a ∈ repo, ValidName a.name ∧ HexD a.digest
  data : ∀ a ∈ repo, ∃ c, D (entryName a.name a.digest) = some (.file c) ∧
    (Good a.name a.digest c ∨ D (tmpName a.name) = some (.link (entryName a.name a.digest)))
  refs : ∀ a ∈ repo, a.refs = [] ∨ a.refs = [[]]
  all : ∀ n d, HexD d → D (entryName n d) ≠ none → ∃ a ∈ repo, a.name = n ∧ a.digest = d

def Proper (D : Dir) (a : Artifact) : Prop := D a.name = some (.link (entryName a.name a.digest))
def Temp (D : Dir) (a : Artifact) : Prop := D (tmpName a.name) = some (.link (entryName a.name a.digest))

/-- references in the table are links in the directory -/
def Linked (repo : Repo) (D : Dir) : Prop := ∀ a ∈ repo, a.refs ≠ [] → Proper D a ∨ Temp D a
/-- and the other way round -/
def Reflected (repo : Repo) (D : Dir) : Prop := ∀ a ∈ repo, Proper D a → a.refs ≠ []

theorem chosen_some {repo : Repo} {p n : Str} {a : Artifact} (h : chosen repo p n = some a) : a ∈ repo ∧ a.name = n ∧ p ∈ a.refs := by
  unfold chosen at h
  have h1 := List.find?_some h
  simp only [decide_eq_true_eq] at h1
  exact ⟨List.mem_of_find?_eq_some h, h1.1, h1.2⟩

theorem chosen_none {repo : Repo} {p n : Str} (h : chosen repo p n = none) : ∀ a ∈ repo, a.name = n → p ∉ a.refs := by
  intro a ha hn hp
  unfold chosen at h
  have := List.find?_eq_none.1 h a ha
  simp only [decide_eq_true_eq, not_and] at this
  exact this hn hp

theorem mem_names {repo : Repo} {n : Str} : n ∈ names repo ↔ ∃ a ∈ repo, a.name = n := by
  unfold names
  rw [List.mem_eraseDups]
  simp

/-! ## Committing -/

/-- what the link for a name will be -/
def wanted (repo : Repo) (n : Str) : Option Node := (chosen repo [] n).map (fun a => .link (entryName a.name a.digest))

theorem commitOne_spec (E : CommitEnv) (repo : Repo) (n : Str) (fs : Fs) (hI : Inv Good (fs [])) (hn : ValidName n)
    (hv : ∀ a ∈ repo, ValidName a.name ∧ HexD a.digest)
    (hdata : ∀ a ∈ repo, ∃ c, fs [] (entryName a.name a.digest) = some (.file c) ∧ (Good a.name a.digest c ∨ Temp (fs []) a)) :
    (∀ s ∈ (commitOne E repo [] n fs).states, Inv Good (s [])) ∧
    ((commitOne E repo [] n fs).ok = true →
      Inv Good ((commitOne E repo [] n fs).final []) ∧
      (∀ x, x ≠ n → (commitOne E repo [] n fs).final [] x = fs [] x) ∧
      (commitOne E repo [] n fs).final [] n = wanted repo n ∧
      (∀ a, chosen repo [] n = some a → Proper (fs []) a ∨ fs [] (tmpName n) = none)) := by
  unfold commitOne wanted
  cases hc : chosen repo [] n with
  | some a =>
    obtain ⟨ha, han, _⟩ := chosen_some hc
    subst han
    have hd := (hv a ha).2
    obtain ⟨hs, l, hl, hok⟩ := updateSymlink_states (E.link [] a.name) (fs []) (targetOf [] a.name a.digest) a.name
    rw [targetOf_root] at hs hok hl
    simp only [targetOf_root, Option.map_some]
    have hgood : fs [] (tmpName a.name) = none → ∃ c, fs [] (entryName a.name a.digest) = some (.file c) ∧ Good a.name a.digest c := by
      intro ht
      obtain ⟨c, h1, h2⟩ := hdata a ha
      rcases h2 with h2 | h2
      · exact ⟨c, h1, h2⟩
      · unfold Temp at h2; rw [ht] at h2; cases h2
    refine ⟨?_, ?_⟩
    · intro s hss
      simp only [List.mem_map] at hss
      obtain ⟨x, hx, rfl⟩ := hss
      rw [upd_same]
      rcases hs x hx with rfl | ⟨ht, hne, rfl | rfl⟩
      · exact hI
      · exact hI.set_tmp _ _ hn hd hne
      · exact hI.set_link _ _ hn hd ht (hgood ht)
    · intro hk
      rw [upd_same, hl]
      simp only [Option.getD_some]
      rcases hok hk with ⟨h1, rfl⟩ | ⟨ht, hne, rfl⟩
      · exact ⟨hI, fun _ _ => rfl, h1, fun b hb => by cases hb; exact Or.inl h1⟩
      · refine ⟨hI.set_link _ _ hn hd ht (hgood ht), fun x hx => set_other hx, set_same _ _ _, fun b hb => ?_⟩
        exact Or.inr ht
  | none =>
    simp only [Option.map_none]
    have hset : Inv Good ((fs.set [] n none) []) := by
      rw [fset_same]
      refine hI.set_nonlink n none (by simp) ?_ ?_
      · intro m d _ _ e; exact absurd e (hn.ne_entry m d)
      · intro m d h; rw [parseEntry_valid hn] at h; cases h
    cases hx : fs [] n with
    | none =>
      simp only [Run.pure]
      exact ⟨fun s hs => by simp at hs; subst hs; exact hI, fun _ => ⟨hI, by simp, hx, by simp⟩⟩
    | some y =>
      have hunl : (∀ s ∈ (if E.unlinkOk [] n = true then (⟨[fs, fs.set [] n none], fs.set [] n none, true⟩ : Run) else Run.pure fs false).states, Inv Good (s [])) ∧
          ((if E.unlinkOk [] n = true then (⟨[fs, fs.set [] n none], fs.set [] n none, true⟩ : Run) else Run.pure fs false).ok = true →
            Inv Good ((if E.unlinkOk [] n = true then (⟨[fs, fs.set [] n none], fs.set [] n none, true⟩ : Run) else Run.pure fs false).final []) ∧
            (∀ x, x ≠ n → (if E.unlinkOk [] n = true then (⟨[fs, fs.set [] n none], fs.set [] n none, true⟩ : Run) else Run.pure fs false).final [] x = fs [] x) ∧
            (if E.unlinkOk [] n = true then (⟨[fs, fs.set [] n none], fs.set [] n none, true⟩ : Run) else Run.pure fs false).final [] n = none ∧
            (∀ a : Artifact, none = some a → Proper (fs []) a ∨ fs [] (tmpName n) = none)) := by
        split
        · refine ⟨?_, fun _ => ⟨hset, ?_, ?_, by simp⟩⟩
          · intro s hs
            simp only [List.mem_cons, List.not_mem_nil, or_false] at hs
            rcases hs with rfl | rfl
            · exact hI
            · exact hset
          · intro x hx; show (fs.set [] n none) [] x = _; rw [fset_same, set_other hx]
          · show (fs.set [] n none) [] n = _; rw [fset_same, set_same]
        · refine ⟨?_, by simp [Run.pure]⟩
          intro s hs
          simp [Run.pure] at hs; subst hs; exact hI
      cases y with
      | dir =>
        simp only [Run.pure]
        exact ⟨fun s hs => by simp at hs; subst hs; exact hI, by simp⟩
      | link t => exact hunl
      | file c => exact hunl

theorem commitNames_spec (E : CommitEnv) (repo : Repo) (l : List Str) : ∀ (fs : Fs) (_ : Inv Good (fs [])) (_ : ∀ n ∈ l, ValidName n)
    (_ : ∀ a ∈ repo, ValidName a.name ∧ HexD a.digest)
    (_ : ∀ a ∈ repo, ∃ c, fs [] (entryName a.name a.digest) = some (.file c) ∧ (Good a.name a.digest c ∨ Temp (fs []) a)),
    (∀ s ∈ (commitNames E repo [] l fs).states, Inv Good (s [])) ∧
    ((commitNames E repo [] l fs).ok = true →
      Inv Good ((commitNames E repo [] l fs).final []) ∧
      (∀ x, x ∉ l → (commitNames E repo [] l fs).final [] x = fs [] x) ∧
      (∀ n ∈ l, (commitNames E repo [] l fs).final [] n = wanted repo n ∧
        ∀ a, chosen repo [] n = some a → Proper (fs []) a ∨ fs [] (tmpName n) = none)) := by
  induction l with
  | nil =>
    intro fs hI _ _ _
    simp only [commitNames, Run.pure]
    exact ⟨fun s hs => by simp at hs; subst hs; exact hI, fun _ => ⟨hI, by simp, by simp⟩⟩
  | cons n l ih =>
    intro fs hI hl hv hdata
    have hn := hl n (by simp)
    obtain ⟨h1, h2⟩ := commitOne_spec E repo n fs hI hn hv hdata
    have next : (commitOne E repo [] n fs).ok = true → _ := fun hk =>
      ih (commitOne E repo [] n fs).final (h2 hk).1 (fun m hm => hl m (List.mem_cons_of_mem _ hm)) hv (by
        intro a ha
        obtain ⟨c, e1, e2⟩ := hdata a ha
        refine ⟨c, ?_, ?_⟩
        · rw [(h2 hk).2.1 _ (fun e => hn.ne_entry _ _ e.symm)]; exact e1
        · rcases e2 with e2 | e2
          · exact Or.inl e2
          · right; unfold Temp; rw [(h2 hk).2.1 _ (fun e => hn.ne_tmp _ e.symm)]; exact e2)
    unfold commitNames
    refine ⟨?_, ?_⟩
    · intro s hs
      rcases mem_bind hs with hs | ⟨hk, hs⟩
      · exact h1 s hs
      · exact (next hk).1 s hs
    · intro hok
      obtain ⟨hk, hk2, hf⟩ := bind_ok hok
      rw [hf]
      obtain ⟨i1, i2, i3⟩ := (next hk).2 hk2
      obtain ⟨j1, j2, j3, j4⟩ := h2 hk
      refine ⟨i1, ?_, ?_⟩
      · intro x hx
        simp only [List.mem_cons, not_or] at hx
        rw [i2 x hx.2, j2 x hx.1]
      · intro m hm
        by_cases hmn : m = n
        · subst hmn
          refine ⟨?_, j4⟩
          by_cases hml : m ∈ l
          · exact (i3 m hml).1
          · rw [i2 m hml, j3]
        · have hml : m ∈ l := by simpa [hmn] using hm
          refine ⟨(i3 m hml).1, ?_⟩
          intro a ha
          have han := (chosen_some ha).2.1
          rcases (i3 m hml).2 a ha with e | e
          · left; unfold Proper at e ⊢; rw [← j2 _ (by rw [han]; exact hmn)]; exact e
          · right; rw [← j2 _ (fun e => hn.ne_tmp _ e.symm)]; exact e

theorem commit_root (E : CommitEnv) (repo : Repo) (fs : Fs) :
    commit E [[]] repo fs = (commitNames E repo [] (names repo) fs).bind (fun f => Run.pure f E.sync) := rfl

/-- every referenced artifact is linked already, or is the only one with its name -/
def Pre (repo : Repo) (D : Dir) : Prop :=
  ∀ a ∈ repo, a.refs ≠ [] → Proper D a ∨ Temp D a ∨ ∀ b ∈ repo, b.name = a.name → b.refs ≠ [] → b = a

theorem commit_spec (E : CommitEnv) (repo : Repo) (fs : Fs) (hI : Inv Good (fs [])) (hM : Mem Good repo (fs [])) :
    (∀ s ∈ (commit E [[]] repo fs).states, Inv Good (s [])) ∧
    ((commit E [[]] repo fs).ok = true →
      Inv Good ((commit E [[]] repo fs).final []) ∧
      (∀ x, x ∉ names repo → (commit E [[]] repo fs).final [] x = fs [] x) ∧
      (∀ n ∈ names repo, (commit E [[]] repo fs).final [] n = wanted repo n ∧
        ∀ a, chosen repo [] n = some a → Proper (fs []) a ∨ fs [] (tmpName n) = none)) := by
  rw [commit_root]
  obtain ⟨h1, h2⟩ := commitNames_spec E repo (names repo) fs hI (by
    intro n hn
    obtain ⟨a, ha, rfl⟩ := mem_names.1 hn
    exact (hM.valid a ha).1) hM.valid hM.data
  refine ⟨?_, ?_⟩
  · intro s hs
    rcases mem_bind hs with hs | ⟨hk, hs⟩
    · exact h1 s hs
    · simp [Run.pure] at hs; subst hs; exact (h2 hk).1
  · intro hok
    obtain ⟨hk, _, hf⟩ := bind_ok hok
    rw [hf]
    exact h2 hk

/-- what a commit does to table and directory together -/
theorem commit_mem (E : CommitEnv) (repo : Repo) (fs : Fs) (hI : Inv Good (fs [])) (hM : Mem Good repo (fs [])) (hP : Pre repo (fs []))
    (hok : (commit E [[]] repo fs).ok = true) :
    Mem Good repo ((commit E [[]] repo fs).final []) ∧ Linked repo ((commit E [[]] repo fs).final []) ∧
      Reflected repo ((commit E [[]] repo fs).final []) ∧
      (∀ x, x ∉ names repo → (commit E [[]] repo fs).final [] x = fs [] x) ∧
      (∀ a ∈ repo, a.refs ≠ [] → (∀ b ∈ repo, b.name = a.name → b.refs ≠ [] → b = a) → Proper ((commit E [[]] repo fs).final []) a) ∧
      (∀ a ∈ repo, a.refs ≠ [] → Proper (fs []) a → (∀ b ∈ repo, b.name = a.name → b.refs ≠ [] → Proper (fs []) b ∨ Temp (fs []) b) →
        Proper ((commit E [[]] repo fs).final []) a) ∧
      (∀ a ∈ repo, Proper ((commit E [[]] repo fs).final []) a → Proper (fs []) a ∨ Temp (fs []) a → Proper (fs []) a) := by
  obtain ⟨_, h2⟩ := commit_spec E repo fs hI hM
  obtain ⟨_, hx, hn⟩ := h2 hok
  generalize (commit E [[]] repo fs).final = fs' at hx hn ⊢
  have hin : ∀ a ∈ repo, a.name ∈ names repo := fun a ha => mem_names.2 ⟨a, ha, rfl⟩
  have hrefs : ∀ a ∈ repo, a.refs ≠ [] → [] ∈ a.refs := by
    intro a ha hr
    rcases hM.refs a ha with h | h
    · exact absurd h hr
    · rw [h]; simp
  have hent : ∀ n d, fs' [] (entryName n d) = fs [] (entryName n d) := by
    intro n d
    apply hx
    intro h
    obtain ⟨a, ha, hn⟩ := mem_names.1 h
    exact (hM.valid a ha).1.ne_entry n d hn
  have htmp : ∀ n, fs' [] (tmpName n) = fs [] (tmpName n) := by
    intro n
    apply hx
    intro h
    obtain ⟨a, ha, hn⟩ := mem_names.1 h
    exact (hM.valid a ha).1.ne_tmp n hn
  -- the chosen artifact of a name
  have hch : ∀ a ∈ repo, a.refs ≠ [] → ∃ b, b ∈ repo ∧ b.name = a.name ∧ b.refs ≠ [] ∧ Proper (fs' []) b ∧
      (Proper (fs []) b ∨ fs [] (tmpName a.name) = none) := by
    intro a ha hr
    cases hc : chosen repo [] a.name with
    | none => exact absurd (hrefs a ha hr) (chosen_none hc a ha rfl)
    | some b =>
      obtain ⟨hb, hbn, hbr⟩ := chosen_some hc
      have := hn _ (hin a ha)
      refine ⟨b, hb, hbn, ?_, ?_, this.2 b hc⟩
      · intro e; rw [e] at hbr; simp at hbr
      · unfold Proper
        rw [hbn, this.1]
        unfold wanted
        rw [hc]
        simp only [Option.map_some]
        rw [hbn]
  have huniq : ∀ (D : Dir), ∀ a ∈ repo, ∀ b ∈ repo, a.name = b.name → Proper D a → Proper D b → a = b := by
    intro D a ha b hb hab h1 h2
    unfold Proper at h1 h2
    rw [hab, h2] at h1
    simp only [Option.some.injEq, Node.link.injEq] at h1
    exact hM.keys a ha b hb hab (entryName_inj (hM.valid b hb).2 (hM.valid a ha).2 h1).2.symm
  refine ⟨⟨hM.keys, hM.valid, ?_, hM.refs, ?_⟩, ?_, ?_, hx, ?_, ?_, ?_⟩
  · intro a ha
    obtain ⟨c, h1, h2⟩ := hM.data a ha
    exact ⟨c, by rw [hent]; exact h1, by rw [htmp]; exact h2⟩
  · intro n d hd h
    rw [hent] at h
    exact hM.all n d hd h
  · intro a ha hr
    obtain ⟨b, hb, hbn, hbr, hbp, hbo⟩ := hch a ha hr
    by_cases hab : b = a
    · exact Or.inl (hab ▸ hbp)
    · rcases hP a ha hr with h | h | h
      · exfalso
        rcases hbo with h' | h'
        · exact hab (huniq _ b hb a ha hbn h' h)
        · rcases hP b hb hbr with h3 | h3 | h3
          · exact hab (huniq _ b hb a ha hbn h3 h)
          · unfold Temp at h3; rw [hbn, h'] at h3; cases h3
          · exact hab (h3 a ha hbn.symm hr).symm
      · right; unfold Temp at h ⊢; rw [htmp]; exact h
      · exact absurd (h b hb hbn hbr) hab
  · intro a ha hp
    have h1 := (hn _ (hin a ha)).1
    unfold Proper at hp
    rw [h1] at hp
    unfold wanted at hp
    cases hc : chosen repo [] a.name with
    | none => rw [hc] at hp; cases hp
    | some b =>
      rw [hc] at hp
      simp only [Option.map_some, Option.some.injEq, Node.link.injEq] at hp
      obtain ⟨hb, hbn, hbr⟩ := chosen_some hc
      have hab := hM.keys b hb a ha hbn (entryName_inj (hM.valid b hb).2 (hM.valid a ha).2 hp).2
      subst hab
      intro e; rw [e] at hbr; simp at hbr
  · intro a ha hr hu
    obtain ⟨b, hb, hbn, hbr, hbp, _⟩ := hch a ha hr
    rw [← hu b hb hbn hbr]; exact hbp
  · intro a ha hr hp hall
    obtain ⟨b, hb, hbn, hbr, hbp, hbo⟩ := hch a ha hr
    have : b = a := by
      rcases hbo with h' | h'
      · exact huniq _ b hb a ha hbn h' hp
      · rcases hall b hb hbn hbr with h3 | h3
        · exact huniq _ b hb a ha hbn h3 hp
        · unfold Temp at h3; rw [hbn, h'] at h3; cases h3
    exact this ▸ hbp
  · intro a ha hp' hpt
    rcases hpt with h | h
    · exact h
    · have h1 := (hn _ (hin a ha))
      unfold Proper at hp'
      rw [h1.1] at hp'
      unfold wanted at hp'
      cases hc : chosen repo [] a.name with
      | none => rw [hc] at hp'; cases hp'
      | some b =>
        rw [hc] at hp'
        simp only [Option.map_some, Option.some.injEq, Node.link.injEq] at hp'
        obtain ⟨hb, hbn, hbr⟩ := chosen_some hc
        have hab := hM.keys b hb a ha hbn (entryName_inj (hM.valid b hb).2 (hM.valid a ha).2 hp').2
        subst hab
        rcases h1.2 b hc with h3 | h3
        · exact h3
        · unfold Temp at h; rw [h3] at h; cases h

/-! ## Preparing -/

/-- the listing of the repository's directory is complete and without repetitions -/
def Lists (l : List Str) (D : Dir) : Prop := l.Nodup ∧ ∀ x, x ∈ l ↔ D x ≠ none

/-- is the entry a reference to the artifact? -/
def refersTo (D : Dir) (n d x : Str) : Bool :=
  x.head? ≠ some '.' && decide (D x = some (.link (entryName n d)))

theorem HexD.of_parse {t n d : Str} (h : parseEntry t = some (n, d)) : HexD d := ((parseEntry_iff _ _ _).1 h).2

theorem readLink_map (fs : Fs) (repo : Repo) (x : Str) (hv : ∀ a ∈ repo, HexD a.digest) :
    readLink fs [] repo x = repo.map (fun a => { a with refs := a.refs ++ (if refersTo (fs []) a.name a.digest x then [[]] else []) }) := by
  have hid : ∀ (f : Artifact → Artifact), (∀ a ∈ repo, f a = a) → repo = repo.map f := by
    intro f h
    conv_lhs => rw [← List.map_id repo]
    exact List.map_congr_left (fun a ha => (h a ha).symm)
  unfold readLink
  split
  · rename_i hh
    apply hid
    intro a _
    simp [refersTo, hh]
  · rename_i hh
    split
    · rename_i t ht
      rw [parseTarget_root]
      split
      · rename_i hp
        apply hid
        intro a ha
        have : refersTo (fs []) a.name a.digest x = false := by
          unfold refersTo
          rw [ht]
          simp only [Bool.and_eq_false_iff, decide_eq_false_iff_not]
          right
          intro e
          cases e
          rw [(parseEntry_iff _ _ _).2 ⟨rfl, hv a ha⟩] at hp
          cases hp
        rw [this]; simp
      · rename_i n d hp
        unfold addRef
        apply List.map_congr_left
        intro a ha
        have hte := ((parseEntry_iff _ _ _).1 hp)
        by_cases hnd : a.name = n ∧ a.digest = d
        · rw [if_pos hnd]
          have : refersTo (fs []) a.name a.digest x = true := by
            unfold refersTo
            rw [ht, hnd.1, hnd.2, hte.1]
            simp [hh]
          rw [this]; simp
        · rw [if_neg hnd]
          have : refersTo (fs []) a.name a.digest x = false := by
            unfold refersTo
            rw [ht]
            simp only [Bool.and_eq_false_iff, decide_eq_false_iff_not]
            right
            intro e
            simp only [Option.some.injEq, Node.link.injEq] at e
            rw [hte.1] at e
            have := entryName_inj hte.2 (hv a ha) e
            exact hnd ⟨this.1.symm, this.2.symm⟩
          rw [this]; simp
    · rename_i hno
      apply hid
      intro a _
      have : refersTo (fs []) a.name a.digest x = false := by
        unfold refersTo
        simp only [Bool.and_eq_false_iff, decide_eq_false_iff_not]
        right
        intro e
        exact hno _ e
      rw [this]; simp

theorem readLinks_map (fs : Fs) (l : List Str) : ∀ (repo : Repo), (∀ a ∈ repo, HexD a.digest) →
    l.foldl (readLink fs []) repo =
      repo.map (fun a => { a with refs := a.refs ++ (l.filter (refersTo (fs []) a.name a.digest)).map (fun _ => []) }) := by
  induction l with
  | nil => intro repo _; simp
  | cons x l ih =>
    intro repo hv
    rw [List.foldl_cons, readLink_map fs repo x hv, ih _ (by
      intro a ha
      obtain ⟨b, hb, rfl⟩ := List.mem_map.1 ha
      exact hv b hb), List.map_map]
    apply List.map_congr_left
    intro a _
    simp only [Function.comp]
    cases h : refersTo (fs []) a.name a.digest x <;> simp [h]

theorem nodup_eq_of_subset_one {l : List Str} (h : l.Nodup) (hs : ∀ x ∈ l, ∀ y ∈ l, x = y) : l = [] ∨ ∃ x, l = [x] := by
  match l, h, hs with
  | [], _, _ => exact Or.inl rfl
  | [x], _, _ => exact Or.inr ⟨x, rfl⟩
  | x :: y :: r, h, hs =>
    exfalso
    have := hs x (by simp) y (by simp)
    subst this
    simp at h

theorem prepare_spec (ls : Str → List Str) (fs : Fs) (repo : Repo) (hI : Inv Good (fs [])) (hL : Lists (ls []) (fs []))
    (h : prepare ls [[]] fs = some repo) :
    (∀ a ∈ repo, ∀ b ∈ repo, a.name = b.name → a.digest = b.digest → a = b) ∧
    (∀ a ∈ repo, ValidName a.name ∧ HexD a.digest) ∧
    (∀ a ∈ repo, ∃ c, fs [] (entryName a.name a.digest) = some (.file c)) ∧
    (∀ a ∈ repo, a.refs = [] ∨ a.refs = [[]]) ∧
    (∀ n d, HexD d → fs [] (entryName n d) ≠ none → ∃ a ∈ repo, a.name = n ∧ a.digest = d) ∧
    Linked repo (fs []) ∧ Reflected repo (fs []) ∧ (∀ a ∈ repo, Temp (fs []) a → a.refs ≠ []) := by
  unfold prepare at h
  split at h
  · cases h
  · have h' := (Option.some.inj h).symm
    simp only [List.foldl_cons, List.foldl_nil] at h'
    have hbase : ∀ a ∈ ((ls []).filterMap parseEntry).map (fun nd => (⟨nd.1, nd.2, []⟩ : Artifact)), HexD a.digest := by
      intro a ha
      simp only [List.mem_map, List.mem_filterMap] at ha
      obtain ⟨nd, ⟨x, _, hx⟩, rfl⟩ := ha
      exact HexD.of_parse hx
    rw [readLinks_map fs (ls []) _ hbase, List.map_map] at h'
    -- membership
    have hmem : ∀ a, a ∈ repo ↔ ∃ n d, HexD d ∧ fs [] (entryName n d) ≠ none ∧
        a = ⟨n, d, ((ls []).filter (refersTo (fs []) n d)).map (fun _ => [])⟩ := by
      intro a
      rw [h']
      simp only [List.mem_map, List.mem_filterMap, Function.comp, List.nil_append]
      constructor
      · rintro ⟨⟨n, d⟩, ⟨x, hx, hp⟩, rfl⟩
        obtain ⟨rfl, hd⟩ := (parseEntry_iff _ _ _).1 hp
        exact ⟨n, d, hd, (hL.2 _).1 hx, rfl⟩
      · rintro ⟨n, d, hd, hx, rfl⟩
        exact ⟨(n, d), ⟨entryName n d, (hL.2 _).2 hx, (parseEntry_iff _ _ _).2 ⟨rfl, hd⟩⟩, rfl⟩
    have hent : ∀ n d, HexD d → fs [] (entryName n d) ≠ none → ValidName n ∧ ∃ c, fs [] (entryName n d) = some (.file c) :=
      fun n d hd hx => hI.entries _ n d ((parseEntry_iff _ _ _).2 ⟨rfl, hd⟩) hx
    have href : ∀ n d x, HexD d → refersTo (fs []) n d x = true → (x = n ∨ x = tmpName n) ∧ fs [] x = some (.link (entryName n d)) := by
      intro n d x hd hx
      unfold refersTo at hx
      simp only [ne_eq, decide_not, Bool.and_eq_true, Bool.not_eq_eq_eq_not, Bool.not_true, decide_eq_false_iff_not,
        decide_eq_true_eq] at hx
      exact ⟨hI.named x _ n d hx.1 hx.2 ((parseEntry_iff _ _ _).2 ⟨rfl, hd⟩), hx.2⟩
    have href' : ∀ n d x, ValidName n → (x = n ∨ x = tmpName n) → fs [] x = some (.link (entryName n d)) → 
        ((ls []).filter (refersTo (fs []) n d)).map (fun _ => ([] : Str)) ≠ [] := by
      intro n d x hn hx hl
      have hin : x ∈ (ls []).filter (refersTo (fs []) n d) := by
        rw [List.mem_filter]
        refine ⟨(hL.2 _).2 (by rw [hl]; simp), ?_⟩
        unfold refersTo
        have hh : x.head? ≠ some '.' := by
          rcases hx with rfl | rfl
          · exact hn.head
          · rw [tmpName_head hn.1]; exact hn.head
        simp [hl, hh]
      intro e
      rw [List.map_eq_nil_iff] at e
      rw [e] at hin
      cases hin
    refine ⟨?_, ?_, ?_, ?_, ?_, ?_, ?_, ?_⟩
    · intro a ha b hb h1 h2
      obtain ⟨n, d, _, _, rfl⟩ := (hmem a).1 ha
      obtain ⟨n', d', _, _, rfl⟩ := (hmem b).1 hb
      simp only at h1 h2
      subst h1; subst h2; rfl
    · intro a ha
      obtain ⟨n, d, hd, hx, rfl⟩ := (hmem a).1 ha
      exact ⟨(hent n d hd hx).1, hd⟩
    · intro a ha
      obtain ⟨n, d, hd, hx, rfl⟩ := (hmem a).1 ha
      exact (hent n d hd hx).2
    · intro a ha
      obtain ⟨n, d, hd, hx, rfl⟩ := (hmem a).1 ha
      have hone : ∀ x ∈ (ls []).filter (refersTo (fs []) n d), ∀ y ∈ (ls []).filter (refersTo (fs []) n d), x = y := by
        intro x hx' y hy'
        obtain ⟨h1, h2⟩ := href n d x hd (List.mem_filter.1 hx').2
        obtain ⟨h3, h4⟩ := href n d y hd (List.mem_filter.1 hy').2
        rcases h1 with rfl | rfl <;> rcases h3 with rfl | rfl
        · rfl
        · exact absurd h2 (hI.stale _ _ h4)
        · exact absurd h4 (hI.stale _ _ h2)
        · rfl
      rcases nodup_eq_of_subset_one (hL.1.filter _) hone with e | ⟨x, e⟩
      · left; simp only [e]; rfl
      · right; simp only [e]; rfl
    · intro n d hd hx
      exact ⟨_, (hmem _).2 ⟨n, d, hd, hx, rfl⟩, rfl, rfl⟩
    · intro a ha hr
      obtain ⟨n, d, hd, hx, rfl⟩ := (hmem a).1 ha
      simp only [ne_eq, List.map_eq_nil_iff] at hr
      obtain ⟨x, hx'⟩ := List.exists_mem_of_ne_nil _ hr
      obtain ⟨h1, h2⟩ := href n d x hd (List.mem_filter.1 hx').2
      rcases h1 with rfl | rfl
      · exact Or.inl h2
      · exact Or.inr h2
    · intro a ha hp
      obtain ⟨n, d, hd, hx, rfl⟩ := (hmem a).1 ha
      exact href' n d n (hent n d hd hx).1 (Or.inl rfl) hp
    · intro a ha hp
      obtain ⟨n, d, hd, hx, rfl⟩ := (hmem a).1 ha
      exact href' n d _ (hent n d hd hx).1 (Or.inr rfl) hp

/-! ## Pruning -/

/-- how pruning may change the directory: links stay; what is removed is not an artifact, or one which nothing refers to and which is not in use -/
def PruneRel (E : PruneEnv) (repo : Repo) (D D' : Dir) : Prop :=
  ∀ x, D' x = D x ∨ ((∀ t, D x ≠ some (.link t)) ∧ (D' x = none ∨ ∃ c, D' x = some (.file c)) ∧
    (parseEntry x = none ∨ ∃ a ∈ repo, a.refs = [] ∧ E.check a.name a.digest = .closed ∧ x = entryName a.name a.digest))

theorem PruneRel.refl (E : PruneEnv) (repo : Repo) (D : Dir) : PruneRel E repo D D := fun _ => Or.inl rfl

theorem PruneRel.step {E : PruneEnv} {repo : Repo} {D D' : Dir} (h : PruneRel E repo D D') (x : Str) (y : Option Node)
    (hy : y = none ∨ ∃ c, y = some (.file c)) (hl : ∀ t, D' x ≠ some (.link t))
    (hx : parseEntry x = none ∨ ∃ a ∈ repo, a.refs = [] ∧ E.check a.name a.digest = .closed ∧ x = entryName a.name a.digest) :
    PruneRel E repo D (D'.set x y) := by
  intro z
  by_cases hz : z = x
  · subst hz
    right
    rw [set_same]
    refine ⟨?_, hy, hx⟩
    rcases h z with e | e
    · rw [← e]; exact hl
    · exact e.1
  · rw [set_other hz]; exact h z

theorem PruneRel.inv {E : PruneEnv} {repo : Repo} {D D' : Dir} (h : PruneRel E repo D D') (I : Inv Good D)
    (hv : ∀ a ∈ repo, ValidName a.name ∧ HexD a.digest) (hR : Reflected repo D) : Inv Good D' := by
  have back : ∀ x t, D' x = some (.link t) → D x = some (.link t) := by
    intro x t hx
    rcases h x with e | e
    · rw [← e]; exact hx
    · rcases e.2.1 with e' | ⟨c, e'⟩ <;> rw [e'] at hx <;> cases hx
  refine ⟨?_, ?_, ?_, ?_⟩
  · intro x t m d h1 h2 h3
    exact I.named x t m d h1 (back x t h2) h3
  · intro x t h1 h2
    exact I.stale x t (back _ _ h1) (back _ _ h2)
  · intro m d hm hd hl
    have hl' := back _ _ hl
    obtain ⟨c, h1, h2⟩ := I.resolves m d hm hd hl'
    refine ⟨c, ?_, h2⟩
    rcases h (entryName m d) with e | e
    · rw [e]; exact h1
    · exfalso
      rcases e.2.2 with e' | ⟨a, ha, hr, _, he⟩
      · rw [(parseEntry_iff _ m d).2 ⟨rfl, hd⟩] at e'; cases e'
      · obtain ⟨h3, h4⟩ := entryName_inj hd (hv a ha).2 he
        refine hR a ha ?_ hr
        unfold Proper
        rw [← h3, ← h4]; exact hl'
  · intro x m d h1 h2
    rcases h x with e | e
    · rw [e] at h2 ⊢; exact I.entries x m d h1 h2
    · rcases e.2.2 with e' | ⟨a, ha, _, _, he⟩
      · rw [h1] at e'; cases e'
      · obtain ⟨h3, h4⟩ := (parseEntry_iff _ _ _).1 h1
        obtain ⟨h5, _⟩ := entryName_inj h4 (hv a ha).2 (h3 ▸ he)
        refine ⟨h5 ▸ (hv a ha).1, ?_⟩
        rcases e.2.1 with e' | e'
        · exact absurd e' h2
        · exact e'

theorem rmTree_rel {E : PruneEnv} {repo : Repo} {D : Dir} {x : Str} {fs : Fs} (h : PruneRel E repo D (fs []))
    (hl : ∀ t, fs [] x ≠ some (.link t))
    (hx : parseEntry x = none ∨ ∃ a ∈ repo, a.refs = [] ∧ E.check a.name a.digest = .closed ∧ x = entryName a.name a.digest) :
    (∀ s ∈ (rmTree E [] x fs).states, PruneRel E repo D (s [])) ∧
    ((rmTree E [] x fs).ok = true → (rmTree E [] x fs).final = fs.set [] x none) ∧ PruneRel E repo D ((rmTree E [] x fs).final []) := by
  have hpart : ∀ c, PruneRel E repo D (fs.set [] x (some (.file c)) []) := by
    intro c; rw [fset_same]; exact h.step x _ (Or.inr ⟨c, rfl⟩) hl hx
  have hnone : PruneRel E repo D (fs.set [] x none []) := by
    rw [fset_same]; exact h.step x _ (Or.inl rfl) hl hx
  have hlist : ∀ s ∈ fs :: (E.rmPartials [] x).map (fun c => fs.set [] x (some (.file c))), PruneRel E repo D (s []) := by
    intro s hs
    simp only [List.mem_cons, List.mem_map] at hs
    rcases hs with rfl | ⟨c, _, rfl⟩
    · exact h
    · exact hpart c
  unfold rmTree
  simp only
  split
  · refine ⟨?_, fun _ => rfl, hnone⟩
    intro s hs
    simp only [List.mem_append, List.mem_singleton] at hs
    rcases hs with hs | rfl
    · exact hlist s hs
    · exact hnone
  · refine ⟨hlist, by simp, ?_⟩
    simp only
    cases hg : (fs :: (E.rmPartials [] x).map (fun c => fs.set [] x (some (.file c)))).getLast? with
    | none => simp at hg
    | some s => exact hlist s (List.mem_of_getLast? hg)

/-- after a successful removal everything is as before or gone -/
def Gone (D D' : Dir) : Prop := ∀ x, D' x = D x ∨ D' x = none

theorem Gone.trans {D D' D'' : Dir} (h : Gone D D') (h' : Gone D' D'') : Gone D D'' := by
  intro x
  rcases h' x with e | e
  · rw [e]; exact h x
  · exact Or.inr e

theorem Gone.set (D : Dir) (x : Str) : Gone D (D.set x none) := by
  intro z
  by_cases hz : z = x
  · subst hz; right; rw [set_same]
  · left; rw [set_other hz]

theorem pruneRoot_spec (E : PruneEnv) (repo : Repo) (D : Dir) (l : List Str) : ∀ fs : Fs, PruneRel E repo D (fs []) →
    (∀ s ∈ (pruneRoot E [[]] l fs).states, PruneRel E repo D (s [])) ∧
    PruneRel E repo D ((pruneRoot E [[]] l fs).final []) ∧
    ((pruneRoot E [[]] l fs).ok = true → Gone (fs []) ((pruneRoot E [[]] l fs).final []) ∧
      ∀ x ∈ l, parseEntry x = none → (∀ t, fs [] x ≠ some (.link t)) → (pruneRoot E [[]] l fs).final [] x = none) := by
  induction l with
  | nil =>
    intro fs h
    simp only [pruneRoot, Run.pure]
    exact ⟨fun s hs => by simp at hs; subst hs; exact h, h, fun _ => ⟨fun _ => Or.inl rfl, by simp⟩⟩
  | cons n l ih =>
    intro fs h
    unfold pruneRoot
    split
    · rename_i hc
      obtain ⟨i1, i2, i3⟩ := ih fs h
      refine ⟨i1, i2, fun hk => ⟨(i3 hk).1, ?_⟩⟩
      intro x hx hp hl
      rcases List.mem_cons.1 hx with rfl | hx
      · simp only [Bool.or_eq_true, hp, Option.isSome_none, Bool.false_eq_true, false_or] at hc
        rcases hc with hc | hc
        · exfalso
          unfold expected at hc
          rw [if_pos rfl] at hc
          split at hc
          · rename_i t ht; exact hl t ht
          · cases hc
        · have hn : fs [] x = none := by simpa using hc
          rcases (i3 hk).1 x with e | e
          · rw [e]; exact hn
          · exact e
      · exact (i3 hk).2 x hx hp hl
    · rename_i hc
      simp only [Bool.or_eq_true, not_or, Bool.not_eq_true, Option.isSome_eq_false_iff, Option.isNone_iff_eq_none] at hc
      have hl : ∀ t, fs [] n ≠ some (.link t) := by
        intro t ht
        have := hc.1.2
        unfold expected at this
        rw [if_pos rfl, ht] at this
        cases this
      obtain ⟨r1, r2, r3⟩ := rmTree_rel (x := n) h hl (Or.inl hc.1.1)
      have next := ih (rmTree E [] n fs).final r3
      refine ⟨?_, ?_, ?_⟩
      · intro s hs
        rcases mem_bind hs with hs | ⟨_, hs⟩
        · exact r1 s hs
        · exact next.1 s hs
      · unfold Run.bind
        split
        · exact next.2.1
        · exact r3
      · intro hok
        obtain ⟨hk, hk2, hf⟩ := bind_ok hok
        rw [hf]
        have hgone : Gone (fs []) ((rmTree E [] n fs).final []) := by
          rw [r2 hk, fset_same]; exact Gone.set _ _
        refine ⟨hgone.trans (next.2.2 hk2).1, ?_⟩
        intro x hx hp hxl
        by_cases hxn : x = n
        · subst hxn
          have e0 : (rmTree E [] x fs).final [] x = none := by rw [r2 hk, fset_same, set_same]
          rcases (next.2.2 hk2).1 x with e | e
          · rw [e]; exact e0
          · exact e
        · have hx' : x ∈ l := by simpa [hxn] using hx
          refine (next.2.2 hk2).2 x hx' hp ?_
          rw [r2 hk, fset_same, set_other hxn]; exact hxl

theorem pruneUnused_spec (E : PruneEnv) (repo : Repo) (D : Dir) (l : Repo) : ∀ fs : Fs, PruneRel E repo D (fs []) →
    (∀ a ∈ l, a ∈ repo ∧ ∀ t, D (entryName a.name a.digest) ≠ some (.link t)) →
    (∀ s ∈ (pruneUnused E l fs).states, PruneRel E repo D (s [])) ∧
    PruneRel E repo D ((pruneUnused E l fs).final []) ∧
    ((pruneUnused E l fs).ok = true → Gone (fs []) ((pruneUnused E l fs).final []) ∧
      ∀ a ∈ l, a.refs = [] → E.check a.name a.digest ≠ .error ∧
        (E.check a.name a.digest = .closed → (pruneUnused E l fs).final [] (entryName a.name a.digest) = none)) := by
  induction l with
  | nil =>
    intro fs h _
    simp only [pruneUnused, Run.pure]
    exact ⟨fun s hs => by simp at hs; subst hs; exact h, h, fun _ => ⟨fun _ => Or.inl rfl, by simp⟩⟩
  | cons a l ih =>
    intro fs h hm
    have hm' : ∀ b ∈ l, b ∈ repo ∧ ∀ t, D (entryName b.name b.digest) ≠ some (.link t) := fun b hb => hm b (List.mem_cons_of_mem _ hb)
    obtain ⟨har, hal⟩ := hm a (by simp)
    unfold pruneUnused
    split
    · rename_i hr
      obtain ⟨i1, i2, i3⟩ := ih fs h hm'
      refine ⟨i1, i2, fun hk => ⟨(i3 hk).1, ?_⟩⟩
      intro b hb hbr
      rcases List.mem_cons.1 hb with rfl | hb
      · exact absurd hbr hr
      · exact (i3 hk).2 b hb hbr
    · rename_i hr
      have hr' : a.refs = [] := by simpa using hr
      cases hc : E.check a.name a.digest with
      | opened =>
        simp only
        obtain ⟨i1, i2, i3⟩ := ih fs h hm'
        refine ⟨i1, i2, fun hk => ⟨(i3 hk).1, ?_⟩⟩
        intro b hb hbr
        rcases List.mem_cons.1 hb with rfl | hb
        · rw [hc]; simp
        · exact (i3 hk).2 b hb hbr
      | error =>
        simp only [Run.pure]
        exact ⟨fun s hs => by simp at hs; subst hs; exact h, h, by simp⟩
      | closed =>
        simp only
        have hl : ∀ t, fs [] (entryName a.name a.digest) ≠ some (.link t) := by
          intro t ht
          rcases h (entryName a.name a.digest) with e | e
          · rw [e] at ht; exact hal t ht
          · rcases e.2.1 with e' | ⟨c, e'⟩ <;> rw [e'] at ht <;> cases ht
        obtain ⟨r1, r2, r3⟩ := rmTree_rel (x := entryName a.name a.digest) h hl (Or.inr ⟨a, har, hr', hc, rfl⟩)
        have next := ih (rmTree E [] (entryName a.name a.digest) fs).final r3 hm'
        refine ⟨?_, ?_, ?_⟩
        · intro s hs
          rcases mem_bind hs with hs | ⟨_, hs⟩
          · exact r1 s hs
          · exact next.1 s hs
        · unfold Run.bind
          split
          · exact next.2.1
          · exact r3
        · intro hok
          obtain ⟨hk, hk2, hf⟩ := bind_ok hok
          rw [hf]
          have hgone : Gone (fs []) ((rmTree E [] (entryName a.name a.digest) fs).final []) := by
            rw [r2 hk, fset_same]; exact Gone.set _ _
          refine ⟨hgone.trans (next.2.2 hk2).1, ?_⟩
          intro b hb hbr
          rcases List.mem_cons.1 hb with rfl | hb
          · refine ⟨by rw [hc]; simp, fun _ => ?_⟩
            have e0 : (rmTree E [] (entryName b.name b.digest) fs).final [] (entryName b.name b.digest) = none := by
              rw [r2 hk, fset_same, set_same]
            rcases (next.2.2 hk2).1 (entryName b.name b.digest) with e | e
            · rw [e]; exact e0
            · exact e
          · exact (next.2.2 hk2).2 b hb hbr

theorem pruneSubs_root (E : PruneEnv) (fs : Fs) : pruneSubs E [[]] fs = ⟨[fs, fs], fs, true⟩ := by
  simp [pruneSubs, Run.bind, Run.pure]

theorem prune_spec (E : PruneEnv) (repo : Repo) (fs : Fs) 
    (hnl : ∀ a ∈ repo, ∀ t, fs [] (entryName a.name a.digest) ≠ some (.link t)) :
    (∀ s ∈ (prune E [[]] repo fs).states, PruneRel E repo (fs []) (s [])) ∧
    PruneRel E repo (fs []) ((prune E [[]] repo fs).final []) ∧
    ((prune E [[]] repo fs).ok = true → Gone (fs []) ((prune E [[]] repo fs).final []) ∧
      (∀ x ∈ E.ls [], parseEntry x = none → (∀ t, fs [] x ≠ some (.link t)) → (prune E [[]] repo fs).final [] x = none) ∧
      ∀ a ∈ repo, a.refs = [] → E.check a.name a.digest ≠ .error ∧
        (E.check a.name a.digest = .closed → (prune E [[]] repo fs).final [] (entryName a.name a.digest) = none)) := by
  obtain ⟨p1, p2, p3⟩ := pruneRoot_spec E repo (fs []) (E.ls []) fs (PruneRel.refl _ _ _)
  obtain ⟨q1, q2, q3⟩ := pruneUnused_spec E repo (fs []) repo (pruneRoot E [[]] (E.ls []) fs).final p2 (fun a ha => ⟨ha, hnl a ha⟩)
  have e : prune E [[]] repo fs = (⟨[fs, fs], fs, true⟩ : Run).bind (fun fs1 => (pruneRoot E [[]] (E.ls []) fs1).bind (fun fs2 => pruneUnused E repo fs2)) := by
    unfold prune; rw [pruneSubs_root]
  rw [e]
  refine ⟨?_, ?_, ?_⟩
  · intro s hs
    rcases mem_bind hs with hs | ⟨_, hs⟩
    · simp at hs; subst hs; exact PruneRel.refl _ _ _
    · rcases mem_bind hs with hs | ⟨_, hs⟩
      · exact p1 s hs
      · exact q1 s hs
  · show PruneRel E repo (fs []) (((pruneRoot E [[]] (E.ls []) fs).bind (fun fs2 => pruneUnused E repo fs2)).final [])
    unfold Run.bind
    split
    · exact q2
    · exact p2
  · intro hok
    obtain ⟨_, hk, hf⟩ := bind_ok hok
    obtain ⟨hk1, hk2, hf2⟩ := bind_ok hk
    rw [hf]
    simp only at hf2 ⊢
    rw [hf2]
    refine ⟨(p3 hk1).1.trans (q3 hk2).1, ?_, (q3 hk2).2⟩
    intro x hx hp hl
    have := (p3 hk1).2 x hx hp hl
    rcases (q3 hk2).1 x with e | e
    · rw [e]; exact this
    · exact e

/-- the table after pruning -/
theorem prune_mem (E : PruneEnv) (repo : Repo) (fs : Fs) (hI : Inv Good (fs []))
    (hk : ∀ a ∈ repo, ∀ b ∈ repo, a.name = b.name → a.digest = b.digest → a = b)
    (hv : ∀ a ∈ repo, ValidName a.name ∧ HexD a.digest)
    (hd : ∀ a ∈ repo, ∃ c, fs [] (entryName a.name a.digest) = some (.file c))
    (hr : ∀ a ∈ repo, a.refs = [] ∨ a.refs = [[]])
    (ha : ∀ n d, HexD d → fs [] (entryName n d) ≠ none → ∃ a ∈ repo, a.name = n ∧ a.digest = d)
    (hL : Linked repo (fs [])) (hR : Reflected repo (fs []))
    (hopen : ∀ n d c, E.check n d = .opened → fs [] (entryName n d) = some (.file c) → Good n d c)
    (hok : (prune E [[]] repo fs).ok = true) :
    Mem Good (pruneRepo E repo) ((prune E [[]] repo fs).final []) ∧ Linked (pruneRepo E repo) ((prune E [[]] repo fs).final []) ∧
      Reflected (pruneRepo E repo) ((prune E [[]] repo fs).final []) := by
  obtain ⟨_, p2, p3⟩ := prune_spec E repo fs (by
    intro a h t ht
    obtain ⟨c, hc⟩ := hd a h
    rw [hc] at ht; cases ht)
  obtain ⟨g1, _, g3⟩ := p3 hok
  generalize (prune E [[]] repo fs).final [] = D' at p2 g1 g3 ⊢
  have hmem : ∀ a, a ∈ pruneRepo E repo ↔ a ∈ repo ∧ (a.refs ≠ [] ∨ E.check a.name a.digest ≠ .closed) := by
    intro a; simp [pruneRepo]
  have hlink : ∀ x t, fs [] x = some (.link t) → D' x = some (.link t) := by
    intro x t hx
    rcases p2 x with e | e
    · rw [e]; exact hx
    · exact absurd hx (e.1 t)
  have hlink' : ∀ x t, D' x = some (.link t) → fs [] x = some (.link t) := by
    intro x t hx
    rcases p2 x with e | e
    · rw [← e]; exact hx
    · rcases e.2.1 with e' | ⟨c, e'⟩ <;> rw [e'] at hx <;> cases hx
  have hkept : ∀ a ∈ pruneRepo E repo, D' (entryName a.name a.digest) = fs [] (entryName a.name a.digest) := by
    intro a h
    obtain ⟨h1, h2⟩ := (hmem a).1 h
    rcases p2 (entryName a.name a.digest) with e | e
    · exact e
    · exfalso
      rcases e.2.2 with e' | ⟨b, hb, hbr, hbc, he⟩
      · rw [(parseEntry_iff _ a.name a.digest).2 ⟨rfl, (hv a h1).2⟩] at e'; cases e'
      · obtain ⟨h3, h4⟩ := entryName_inj (hv a h1).2 (hv b hb).2 he
        have := hk a h1 b hb h3 h4
        subst this
        rcases h2 with h2 | h2
        · exact h2 hbr
        · exact h2 hbc
  refine ⟨⟨?_, ?_, ?_, ?_, ?_⟩, ?_, ?_⟩
  · intro a h b h'
    exact hk a ((hmem a).1 h).1 b ((hmem b).1 h').1
  · intro a h; exact hv a ((hmem a).1 h).1
  · intro a h
    obtain ⟨h1, h2⟩ := (hmem a).1 h
    rw [hkept a h]
    obtain ⟨c, hc⟩ := hd a h1
    refine ⟨c, hc, ?_⟩
    by_cases hrr : a.refs = []
    · left
      rcases h2 with h2 | h2
      · exact absurd hrr h2
      · have h3 := (g3 a h1 hrr).1
        cases hcc : E.check a.name a.digest with
        | closed => exact absurd hcc h2
        | error => exact absurd hcc h3
        | opened => exact hopen _ _ _ hcc hc
    · rcases hL a h1 hrr with h3 | h3
      · left
        obtain ⟨c', h4, h5⟩ := hI.resolves _ _ (hv a h1).1 (hv a h1).2 h3
        rw [hc] at h4
        cases h4
        exact h5
      · right; exact hlink _ _ h3
  · intro a h; exact hr a ((hmem a).1 h).1
  · intro n d hh hx
    have hx' : fs [] (entryName n d) ≠ none := by
      rcases g1 (entryName n d) with e | e
      · rw [← e]; exact hx
      · exact absurd e hx
    obtain ⟨a, h1, rfl, rfl⟩ := ha n d hh hx'
    refine ⟨a, (hmem a).2 ⟨h1, ?_⟩, rfl, rfl⟩
    by_cases hrr : a.refs = []
    · right
      intro hc
      exact hx ((g3 a h1 hrr).2 hc)
    · exact Or.inl hrr
  · intro a h hrr
    rcases hL a ((hmem a).1 h).1 hrr with h3 | h3
    · exact Or.inl (hlink _ _ h3)
    · exact Or.inr (hlink _ _ h3)
  · intro a h hp
    exact hR a ((hmem a).1 h).1 (hlink' _ _ hp)

/-! ## One plan -/

theorem dropOld_mem {keep : List Str} {repo : Repo} {a : Artifact} :
    a ∈ dropOld keep repo ↔ ∃ b ∈ repo, a = if b.name ∈ keep then b else { b with refs := [] } := by
  unfold dropOld
  simp only [List.mem_map]
  constructor
  · rintro ⟨b, hb, rfl⟩; exact ⟨b, hb, rfl⟩
  · rintro ⟨b, hb, rfl⟩; exact ⟨b, hb, rfl⟩

theorem dropOld_key (keep : List Str) (b : Artifact) :
    (if b.name ∈ keep then b else { b with refs := [] }).name = b.name ∧ (if b.name ∈ keep then b else { b with refs := [] }).digest = b.digest := by
  split <;> exact ⟨rfl, rfl⟩

theorem dropOld_memory {keep : List Str} {repo : Repo} {D : Dir} (hM : Mem Good repo D) : Mem Good (dropOld keep repo) D := by
  refine ⟨?_, ?_, ?_, ?_, ?_⟩
  · intro a ha b hb h1 h2
    obtain ⟨a', ha', rfl⟩ := dropOld_mem.1 ha
    obtain ⟨b', hb', rfl⟩ := dropOld_mem.1 hb
    rw [(dropOld_key keep a').1, (dropOld_key keep b').1] at h1
    rw [(dropOld_key keep a').2, (dropOld_key keep b').2] at h2
    rw [hM.keys a' ha' b' hb' h1 h2]
  · intro a ha
    obtain ⟨a', ha', rfl⟩ := dropOld_mem.1 ha
    rw [(dropOld_key keep a').1, (dropOld_key keep a').2]
    exact hM.valid a' ha'
  · intro a ha
    obtain ⟨a', ha', rfl⟩ := dropOld_mem.1 ha
    rw [(dropOld_key keep a').1, (dropOld_key keep a').2]
    exact hM.data a' ha'
  · intro a ha
    obtain ⟨a', ha', rfl⟩ := dropOld_mem.1 ha
    split
    · exact hM.refs a' ha'
    · exact Or.inl rfl
  · intro n d hd hx
    obtain ⟨a, ha, h1, h2⟩ := hM.all n d hd hx
    exact ⟨_, dropOld_mem.2 ⟨a, ha, rfl⟩, by rw [(dropOld_key keep a).1, h1], by rw [(dropOld_key keep a).2, h2]⟩

theorem dropOld_linked {keep : List Str} {repo : Repo} {D : Dir} (hL : Linked repo D) : Linked (dropOld keep repo) D := by
  intro a ha hr
  obtain ⟨a', ha', rfl⟩ := dropOld_mem.1 ha
  by_cases hk : a'.name ∈ keep
  · rw [if_pos hk] at hr ⊢; exact hL a' ha' hr
  · rw [if_neg hk] at hr; exact absurd rfl hr

/-- what a commit does to the links -/
theorem commit_active (E : CommitEnv) (repo : Repo) (fs : Fs) (hI : Inv Good (fs [])) (hM : Mem Good repo (fs [])) (hP : Pre repo (fs []))
    (hok : (commit E [[]] repo fs).ok = true) (n d : Str) (hn : ValidName n) (hd : HexD d)
    (hl : ∀ b ∈ repo, b.name = n → b.refs ≠ [] → Proper (fs []) b ∨ Temp (fs []) b) :
    Active (commit E [[]] repo fs).final n d ↔ Active fs n d ∧ ∀ a ∈ repo, a.name = n → a.digest = d → a.refs ≠ [] := by
  obtain ⟨m1, m2, m3, m4, m5, m6, m7⟩ := commit_mem E repo fs hI hM hP hok
  have hI' := ((commit_spec E repo fs hI hM).2 hok).1
  constructor
  · intro h
    obtain ⟨c, h1, _⟩ := hI'.resolves n d hn hd h
    obtain ⟨a, ha, rfl, rfl⟩ := m1.all n d hd (by rw [h1]; simp)
    have hr := m3 a ha h
    refine ⟨m7 a ha h (hl a ha rfl hr), ?_⟩
    intro b hb h1 h2
    rw [hM.keys b hb a ha h1 h2]; exact hr
  · rintro ⟨h, hr⟩
    obtain ⟨c, h1, _⟩ := hI.resolves n d hn hd h
    obtain ⟨a, ha, rfl, rfl⟩ := hM.all n d hd (by rw [h1]; simp)
    exact m6 a ha (hr a ha rfl rfl) h hl

theorem ValidName.ne_tmpEntry {n : Str} (h : ValidName n) (m d : Str) : n ≠ tmpEntry m d := by
  intro e
  apply h.2.1
  rw [e]
  unfold tmpEntry
  exact List.mem_append_left _ (entryName_dot m d)

theorem tmpEntry_ne_entry {m d : Str} (hd : HexD d) (n d' : Str) (hd' : HexD d') : entryName n d' ≠ tmpEntry m d := by
  intro e
  have h1 := parseEntry_tmp m d hd
  rw [← e, (parseEntry_iff _ _ _).2 ⟨rfl, hd'⟩] at h1
  cases h1

theorem tmpEntry_head (m d : Str) : (tmpEntry m d).head? = some '.' := rfl

theorem installData_spec (E : CopyEnv) (n d : Str) (content : Bytes) (fs : Fs) (hI : Inv Good (fs [])) (hn : ValidName n) (hd : HexD d)
    (hg : Good n d content) :
    (∀ s ∈ (installData E n d content fs).states, Inv Good (s [])) ∧
    ((installData E n d content fs).ok = true → Inv Good ((installData E n d content fs).final []) ∧
      fs [] (entryName n d) = none ∧ (installData E n d content fs).final [] (entryName n d) = some (.file content) ∧
      ∀ x, x ≠ entryName n d → (installData E n d content fs).final [] x = fs [] x) := by
  have htmp : ∀ y, (y = none ∨ ∃ c, y = some (.file c)) → Inv Good (fs.set [] (tmpEntry n d) y []) := by
    intro y hy
    rw [fset_same]
    refine hI.set_nonlink _ _ ?_ ?_ ?_
    · rintro t e
      rcases hy with rfl | ⟨c, rfl⟩ <;> cases e
    · intro m d' _ hd' e
      exact absurd e.symm (tmpEntry_ne_entry hd m d' hd')
    · intro m d' h
      rw [parseEntry_tmp n d hd] at h; cases h
  unfold installData
  split
  · refine ⟨?_, by simp [Run.pure]⟩
    intro s hs; simp [Run.pure] at hs; subst hs; exact hI
  · rename_i hg0
    simp only [Bool.or_eq_true, not_or, Bool.not_eq_true, Option.isSome_eq_false_iff, Option.isNone_iff_eq_none] at hg0
    have hpart : ∀ s ∈ fs :: E.partials.map (fun c => fs.set [] (tmpEntry n d) (some (.file c))), Inv Good (s []) := by
      intro s hs
      simp only [List.mem_cons, List.mem_map] at hs
      rcases hs with rfl | ⟨c, _, rfl⟩
      · exact hI
      · exact htmp _ (Or.inr ⟨c, rfl⟩)
    simp only
    split
    · exact ⟨hpart, by simp⟩
    · rename_i hcp
      have hw : E.written content = content := by
        unfold CopyEnv.written
        rw [if_pos (by simpa using hcp)]
      simp only [hw]
      split
      · refine ⟨?_, by simp⟩
        intro s hs
        simp only [List.mem_append, List.mem_singleton] at hs
        rcases hs with hs | rfl
        · exact hpart s hs
        · exact htmp _ (Or.inr ⟨content, rfl⟩)
      · have hback : ((fs.set [] (tmpEntry n d) (some (.file content))).set [] (tmpEntry n d) none) [] = fs [] := by
          rw [fset_same, fset_same]
          funext x
          by_cases hx : x = tmpEntry n d
          · subst hx; rw [set_same, hg0.1]
          · rw [set_other hx, set_other hx]
        have hfin : (((fs.set [] (tmpEntry n d) (some (.file content))).set [] (tmpEntry n d) none).set [] (entryName n d) (some (.file content))) []
            = (fs []).set (entryName n d) (some (.file content)) := by
          rw [fset_same, hback]
        have hIf : Inv Good ((fs []).set (entryName n d) (some (.file content))) := by
          refine hI.set_nonlink _ _ (by simp) ?_ ?_
          · intro m d' hm hd' e _
            obtain ⟨rfl, rfl⟩ := entryName_inj hd hd' e
            exact ⟨content, rfl, hg⟩
          · intro m d' h _
            obtain ⟨e, hd'⟩ := (parseEntry_iff _ _ _).1 h
            obtain ⟨rfl, rfl⟩ := entryName_inj hd hd' e
            exact ⟨hn, content, rfl⟩
        refine ⟨?_, fun _ => ⟨?_, hg0.2, ?_, ?_⟩⟩
        · intro s hs
          simp only [List.mem_append, List.mem_cons, List.not_mem_nil, or_false] at hs
          rcases hs with hs | rfl | rfl
          · exact hpart s (by simpa using hs)
          · exact htmp _ (Or.inr ⟨content, rfl⟩)
          · rw [hfin]; exact hIf
        · simp only; rw [hfin]; exact hIf
        · simp only; rw [hfin, set_same]
        · intro x hx; simp only; rw [hfin, set_other hx]

theorem find_none {repo : Repo} {n d : Str} (h : (find repo n d).isSome = false) : ∀ a ∈ repo, ¬ (a.name = n ∧ a.digest = d) := by
  intro a ha
  have : find repo n d = none := by simpa using h
  have := List.find?_eq_none.1 this a ha
  simpa using this

theorem find_some {repo : Repo} {n d : Str} (h : (find repo n d).isSome = true) : ∃ a ∈ repo, a.name = n ∧ a.digest = d := by
  obtain ⟨a, ha⟩ := Option.isSome_iff_exists.1 h
  have h1 := List.find?_some ha
  exact ⟨a, List.mem_of_find?_eq_some ha, by simpa using h1⟩

/-- the table with the new artifact -/
def withNew (r1 : Repo) (x : Plan) : Repo := if (find r1 x.name x.digest).isSome then r1 else r1 ++ [⟨x.name, x.digest, []⟩]

/-- activating one artifact -/
def act (n d : Str) (a : Artifact) : Artifact :=
  if a.name ≠ n then a
  else if a.digest ≠ d then deactivate a []
  else if [] ∈ a.refs then a else { a with refs := a.refs ++ [[]] }

theorem act_key (n d : Str) (a : Artifact) : (act n d a).name = a.name ∧ (act n d a).digest = a.digest := by
  unfold act deactivate
  split
  · exact ⟨rfl, rfl⟩
  · split
    · exact ⟨rfl, rfl⟩
    · split <;> exact ⟨rfl, rfl⟩

theorem act_refs (n d : Str) (a : Artifact) (h : a.refs = [] ∨ a.refs = [[]]) :
    (a.name ≠ n → act n d a = a) ∧ (a.name = n → a.digest ≠ d → (act n d a).refs = []) ∧ (a.name = n → a.digest = d → (act n d a).refs = [[]]) := by
  unfold act deactivate
  refine ⟨?_, ?_, ?_⟩
  · intro h1; rw [if_pos h1]
  · intro h1 h2; rw [if_neg (by simpa using h1), if_pos h2]
    rcases h with h | h <;> simp [h]
  · intro h1 h2; rw [if_neg (by simpa using h1), if_neg (by simpa using h2)]
    rcases h with h | h <;> simp [h]

theorem planRepo_eq (keep : List Str) (repo : Repo) (x : Plan) :
    planRepo keep [] repo x = (withNew (dropOld keep repo) x).map (act x.name x.digest) := rfl

end Rauc.Artifacts
