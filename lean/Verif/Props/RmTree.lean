import Verif.Model.RmTree

/-!
# C93: removing a tree removes exactly this tree, and files in use are found
-/

namespace Rauc.RmTree

/-! ## Specification -/

mutual
/-- the paths of a tree at `p`, and whether they are directories -/
def nodes : Tree → Path → List (Path × Bool)
  | .file .., p => [(p, false)]
  | .link _, p => [(p, false)]
  | .dir _ es, p => (p, true) :: nodesAll es p
def nodesAll : Forest → Path → List (Path × Bool)
  | .nil, _ => []
  | .cons n _ t rest, p => nodes t (p ++ [n]) ++ nodesAll rest p
end

/-- the names in a directory -/
def names : Forest → List Str
  | .nil => []
  | .cons n _ _ rest => n :: names rest

mutual
/-- every directory has each name once, can be read, and nothing is mounted in it -/
def Plain : Tree → Prop
  | .file .. => True
  | .link _ => True
  | .dir readable es => readable = true ∧ (names es).Nodup ∧ PlainAll es
def PlainAll : Forest → Prop
  | .nil => True
  | .cons _ other t rest => other = false ∧ Plain t ∧ PlainAll rest
end

/-- at or below `p`, the file system has exactly the tree -/
def Holds (fs : Fs) (p : Path) (t : Tree) : Prop := ∀ e : Path × Bool, p <+: e.1 → (e ∈ fs ↔ e ∈ nodes t p)

/-- nothing is below a file -/
def FsOk (fs : Fs) : Prop := ∀ e ∈ fs, ∀ q, q <+: e.1 → q ≠ e.1 → (q, false) ∉ fs

/-- `n` is a name in the directory, on the same file system, for `t` -/
inductive Entry : Forest → Str → Tree → Prop
  | head (n : Str) (t : Tree) (rest : Forest) : Entry (.cons n false t rest) n t
  | tail (m : Str) (o : Bool) (u : Tree) {rest : Forest} {n : Str} {t : Tree} : Entry rest n t → Entry (.cons m o u rest) n t

/-- `u` is part of `t`, on the same file system -/
inductive Part : Tree → Tree → Prop
  | refl (t : Tree) : Part t t
  | child (r : Bool) {es : Forest} {n : Str} {t u : Tree} : Entry es n t → Part t u → Part (.dir r es) u

/-! ## Only the tree -/

/-- nothing new, and everything outside of `p` is kept -/
def Inside (p : Path) (fs fs' : Fs) : Prop := (∀ e ∈ fs', e ∈ fs) ∧ ∀ e ∈ fs, ¬ p <+: e.1 → e ∈ fs'

theorem Inside.rfl {p : Path} {fs : Fs} : Inside p fs fs := ⟨fun _ h => h, fun _ h _ => h⟩

theorem Inside.trans {p : Path} {a b c : Fs} (h : Inside p a b) (h' : Inside p b c) : Inside p a c :=
  ⟨fun e he => h.1 e (h'.1 e he), fun e he hn => h'.2 e (h.2 e he hn) hn⟩

theorem Inside.mono {p q : Path} {a b : Fs} (hq : p <+: q) (h : Inside q a b) : Inside p a b :=
  ⟨h.1, fun e he hn => h.2 e he (fun hx => hn (hq.trans hx))⟩

theorem inside_filter (p : Path) (fs : Fs) : Inside p fs (fs.filter (fun e => e.1 != p)) := by
  refine ⟨fun e he => (List.mem_filter.1 he).1, fun e he hn => List.mem_filter.2 ⟨he, ?_⟩⟩
  simp only [bne_iff_ne, ne_eq]
  rintro rfl
  exact hn (List.prefix_refl _)

theorem rmCb_inside (refused : Path → Bool) (p : Path) (i : Info) (fs : Fs) : Inside p fs (rmCb refused p i fs).1 := by
  have h1 : Inside p fs (unlink refused p fs).1 := by
    unfold unlink
    split
    · exact .rfl
    · split
      · exact inside_filter p fs
      · exact .rfl
  have h2 : Inside p fs (rmdir refused p fs).1 := by
    unfold rmdir
    split
    · exact .rfl
    · split
      · exact inside_filter p fs
      · exact .rfl
  unfold rmCb
  cases i.flag
  · exact h1
  · exact h1
  · exact h2
  · exact .rfl

mutual
theorem walk_inside (refused : Path → Bool) : ∀ (t : Tree) (p : Path) (fs : Fs), Inside p fs (walk (rmCb refused) t p fs).1
  | .file k o a, p, fs => by rw [walk]; exact rmCb_inside _ _ _ _
  | .link _, p, fs => by rw [walk]; exact rmCb_inside _ _ _ _
  | .dir r es, p, fs => by
    rw [walk]
    split
    · exact rmCb_inside _ _ _ _
    · have h := walkAll_inside refused es p fs
      generalize walkAll (rmCb refused) es p fs = x at h
      obtain ⟨s, k⟩ := x
      split
      · rename_i hx
        cases hx
        exact h.trans (rmCb_inside _ _ _ _)
      · rename_i hx
        cases hx
        exact h
theorem walkAll_inside (refused : Path → Bool) : ∀ (es : Forest) (p : Path) (fs : Fs), Inside p fs (walkAll (rmCb refused) es p fs).1
  | .nil, p, fs => by rw [walkAll]; exact .rfl
  | .cons n other t rest, p, fs => by
    rw [walkAll]
    split
    · exact walkAll_inside refused rest p fs
    · have h := (walk_inside refused t (p ++ [n]) fs).mono (List.prefix_append p [n])
      generalize walk (rmCb refused) t (p ++ [n]) fs = x at h
      obtain ⟨s, k⟩ := x
      split
      · rename_i hx
        cases hx
        exact h.trans (walkAll_inside refused rest p _)
      · rename_i hx
        cases hx
        exact h
end

/-- **C93.** Removing a tree creates nothing and removes nothing outside of the tree, whatever symbolic links, other mounts or unremovable files are in it. -/
theorem C93_inside (refused : Path → Bool) (t : Option Tree) (p : Path) (fs : Fs) :
    (∀ e ∈ (rmTree refused t p fs).1, e ∈ fs) ∧ ∀ e ∈ fs, ¬ p <+: e.1 → e ∈ (rmTree refused t p fs).1 := by
  unfold rmTree
  split
  · exact Inside.rfl (p := p)
  · cases t with
    | none => exact Inside.rfl (p := p)
    | some t =>
      have h := walk_inside refused t p fs
      dsimp only
      generalize walk (rmCb refused) t p fs = x at h
      obtain ⟨s, k⟩ := x
      split
      · rename_i hx; cases hx; exact h
      · rename_i hx; cases hx; exact h

theorem unlink_zero {refused : Path → Bool} {p : Path} {fs fs' : Fs} (h : unlink refused p fs = (fs', 0)) :
    (p, false) ∈ fs ∧ fs' = fs.filter (fun e => e.1 != p) := by
  unfold unlink at h
  split at h
  · simp at h
  · split at h
    · rename_i hm; simp only [Prod.mk.injEq, and_true] at h; exact ⟨hm, h.symm⟩
    · simp at h

theorem rmdir_zero {refused : Path → Bool} {p : Path} {fs fs' : Fs} (h : rmdir refused p fs = (fs', 0)) :
    fs' = fs.filter (fun e => e.1 != p) ∧ ∀ e ∈ fs, p <+: e.1 → e.1 = p := by
  unfold rmdir at h
  split at h
  · simp at h
  · split at h
    · rename_i hm
      simp only [Prod.mk.injEq, and_true] at h
      refine ⟨h.symm, fun e he hp => ?_⟩
      have := List.all_eq_true.1 hm.2 e he
      simp only [Bool.not_eq_true', Bool.and_eq_false_imp, List.isPrefixOf_iff_prefix, bne_eq_false_iff_eq] at this
      exact this hp
    · simp at h

/-- **C93.** If removing a tree succeeds, nothing is left of it. -/
theorem C93_removed (refused : Path → Bool) (t : Option Tree) (p : Path) (fs : Fs) (hf : FsOk fs) (h : (rmTree refused t p fs).2 = true) :
    ∀ e ∈ (rmTree refused t p fs).1, ¬ p <+: e.1 := by
  unfold rmTree at h ⊢
  split at h
  · simp at h
  · rename_i hp
    rw [if_neg hp]
    cases t with
    | none => simp at h
    | some t =>
      dsimp only at h ⊢
      have leaf : ∀ fs', unlink refused p fs = (fs', 0) → ∀ e ∈ fs', ¬ p <+: e.1 := by
        intro fs' hu e he hpe
        obtain ⟨h1, rfl⟩ := unlink_zero hu
        obtain ⟨h2, h3⟩ := List.mem_filter.1 he
        have h3 : e.1 ≠ p := by simpa using h3
        exact hf e h2 p hpe (Ne.symm h3) h1
      have key : ∀ fs', walk (rmCb refused) t p fs = (fs', 0) → ∀ e ∈ fs', ¬ p <+: e.1 := by
        intro fs' hw
        cases t with
        | file k o a => rw [walk] at hw; exact leaf fs' hw
        | link l => rw [walk] at hw; exact leaf fs' hw
        | dir r es =>
          rw [walk] at hw
          split at hw
          · simp [rmCb] at hw
          · split at hw
            · rename_i s hx
              obtain ⟨rfl, h2⟩ := rmdir_zero hw
              intro e he hpe
              obtain ⟨h3, h4⟩ := List.mem_filter.1 he
              exact absurd (h2 e h3 hpe) (by simpa using h4)
            · rename_i s k hne hx
              cases hw
              exact (hne rfl).elim
      generalize walk (rmCb refused) t p fs = x at h key
      obtain ⟨s, k⟩ := x
      split at h
      · rename_i hx
        cases hx
        exact key _ rfl
      · simp at h

/-! ## Everything -/

mutual
theorem nodes_prefix : ∀ (t : Tree) (p : Path) (e : Path × Bool), e ∈ nodes t p → p <+: e.1
  | .file .., p, e, h => by simp only [nodes, List.mem_singleton] at h; rw [h]; exact List.prefix_refl _
  | .link _, p, e, h => by simp only [nodes, List.mem_singleton] at h; rw [h]; exact List.prefix_refl _
  | .dir _ es, p, e, h => by
    simp only [nodes, List.mem_cons] at h
    rcases h with rfl | h
    · exact List.prefix_refl _
    · obtain ⟨n, -, hn⟩ := nodesAll_prefix es p e h
      exact (List.prefix_append p [n]).trans hn
theorem nodesAll_prefix : ∀ (es : Forest) (p : Path) (e : Path × Bool), e ∈ nodesAll es p → ∃ n ∈ names es, p ++ [n] <+: e.1
  | .nil, p, e, h => by simp [nodesAll] at h
  | .cons n _ t rest, p, e, h => by
    simp only [nodesAll, List.mem_append] at h
    rcases h with h | h
    · exact ⟨n, by simp [names], nodes_prefix t _ e h⟩
    · obtain ⟨m, hm, h2⟩ := nodesAll_prefix rest p e h
      exact ⟨m, by simp [names, hm], h2⟩
end

theorem root_mem : ∀ (t : Tree) (p : Path), ∃ b, (p, b) ∈ nodes t p
  | .file .., p => ⟨false, by simp [nodes]⟩
  | .link _, p => ⟨false, by simp [nodes]⟩
  | .dir _ es, p => ⟨true, by simp [nodes]⟩

theorem child_unique {p q : Path} {n m : Str} (h : p ++ [n] <+: q) (h' : p ++ [m] <+: q) : n = m := by
  obtain ⟨a, rfl⟩ := h
  obtain ⟨b, hb⟩ := h'
  simp only [List.append_assoc, List.cons_append, List.nil_append, List.append_cancel_left_eq, List.cons.injEq] at hb
  exact hb.1.symm

theorem not_self {p : Path} {n : Str} (h : p ++ [n] <+: p) : False := by
  have := h.length_le
  simp at this
  omega

mutual
theorem walk_all (refused : Path → Bool) : ∀ (t : Tree) (p : Path) (fs : Fs), Plain t → Holds fs p t → (∀ q, p <+: q → refused q = false) →
    walk (rmCb refused) t p fs = (fs.filter (fun e => !p.isPrefixOf e.1), 0)
  | .file k o a, p, fs, _, hh, hr => by
    rw [walk]
    exact leaf_all refused p fs hr ((hh (p, false) (List.prefix_refl _)).2 (by simp [nodes])) (fun e he hp => by
      have := (hh e hp).1 he
      simp only [nodes, List.mem_singleton] at this
      rw [this])
  | .link _, p, fs, _, hh, hr => by
    rw [walk]
    exact leaf_all refused p fs hr ((hh (p, false) (List.prefix_refl _)).2 (by simp [nodes])) (fun e he hp => by
      have := (hh e hp).1 he
      simp only [nodes, List.mem_singleton] at this
      rw [this])
  | .dir r es, p, fs, hpl, hh, hr => by
    simp only [Plain] at hpl
    obtain ⟨rfl, hn, hpa⟩ := hpl
    rw [walk]
    have hbelow : ∀ e : Path × Bool, p <+: e.1 → e.1 ≠ p → (e ∈ fs ↔ e ∈ nodesAll es p) := by
      intro e hp hne
      rw [hh e hp]
      simp only [nodes, List.mem_cons]
      exact ⟨fun h => h.resolve_left (fun he => hne (by rw [he])), Or.inr⟩
    rw [if_neg (by simp), walkAll_all refused es p fs hn hpa hbelow hr]
    change rmdir refused p _ = _
    unfold rmdir
    rw [hr p (List.prefix_refl _), if_neg (by simp), if_pos]
    · simp only [Prod.mk.injEq, and_true, List.filter_filter]
      refine List.filter_congr (fun e he => ?_)
      by_cases hpe : p <+: e.1
      · by_cases hee : e.1 = p
        · simp [hee]
        · simp [List.isPrefixOf_iff_prefix.2 hpe, hee]
      · have h1 : p.isPrefixOf e.1 = false := Bool.eq_false_iff.2 (fun h => hpe (List.isPrefixOf_iff_prefix.1 h))
        have h2 : e.1 ≠ p := by rintro rfl; exact hpe (List.prefix_refl _)
        simp [h1, h2]
    · constructor
      · refine List.mem_filter.2 ⟨(hh (p, true) (List.prefix_refl _)).2 (by simp [nodes]), by simp⟩
      · refine List.all_eq_true.2 (fun e he => ?_)
        exact (List.mem_filter.1 he).2
theorem walkAll_all (refused : Path → Bool) : ∀ (es : Forest) (p : Path) (fs : Fs), (names es).Nodup → PlainAll es →
    (∀ e : Path × Bool, p <+: e.1 → e.1 ≠ p → (e ∈ fs ↔ e ∈ nodesAll es p)) → (∀ q, p <+: q → refused q = false) →
    walkAll (rmCb refused) es p fs = (fs.filter (fun e => !(p.isPrefixOf e.1 && e.1 != p)), 0)
  | .nil, p, fs, _, _, hh, _ => by
    rw [walkAll]
    simp only [Prod.mk.injEq, and_true]
    refine (List.filter_eq_self.2 (fun e he => ?_)).symm
    by_cases hp : p <+: e.1
    · by_cases hne : e.1 = p
      · simp [hne]
      · have := (hh e hp hne).1 he
        simp [nodesAll] at this
    · have : p.isPrefixOf e.1 = false := Bool.eq_false_iff.2 (fun h => hp (List.isPrefixOf_iff_prefix.1 h))
      simp [this]
  | .cons n other t rest, p, fs, hn, hpl, hh, hr => by
    simp only [PlainAll] at hpl
    obtain ⟨rfl, hpt, hpr⟩ := hpl
    simp only [names, List.nodup_cons] at hn
    have hne : ∀ {q : Path}, p ++ [n] <+: q → q ≠ p := by rintro q hq rfl; exact not_self hq
    have hpre : p <+: p ++ [n] := List.prefix_append _ _
    have hhold : Holds fs (p ++ [n]) t := by
      intro e he
      rw [hh e (hpre.trans he) (hne he)]
      simp only [nodesAll, List.mem_append]
      refine ⟨fun h => h.resolve_right (fun h' => ?_), Or.inl⟩
      obtain ⟨m, hm, h2⟩ := nodesAll_prefix rest p e h'
      exact hn.1 (child_unique he h2 ▸ hm)
    rw [walkAll, if_neg (by simp), walk_all refused t (p ++ [n]) fs hpt hhold (fun q hq => hr q (hpre.trans hq))]
    change walkAll (rmCb refused) rest p _ = _
    rw [walkAll_all refused rest p _ hn.2 hpr _ hr]
    · simp only [Prod.mk.injEq, and_true, List.filter_filter]
      refine List.filter_congr (fun e he => ?_)
      by_cases hpe : p ++ [n] <+: e.1
      · simp [List.isPrefixOf_iff_prefix.2 hpe, List.isPrefixOf_iff_prefix.2 (hpre.trans hpe), hne hpe]
      · have : (p ++ [n]).isPrefixOf e.1 = false := Bool.eq_false_iff.2 (fun h => hpe (List.isPrefixOf_iff_prefix.1 h))
        simp [this]
    · intro e hp hep
      rw [List.mem_filter, hh e hp hep]
      simp only [nodesAll, List.mem_append, Bool.not_eq_true']
      constructor
      · rintro ⟨h | h, h2⟩
        · rw [List.isPrefixOf_iff_prefix.2 (nodes_prefix t _ e h)] at h2
          cases h2
        · exact h
      · intro h
        refine ⟨Or.inr h, ?_⟩
        obtain ⟨m, hm, h2⟩ := nodesAll_prefix rest p e h
        rw [Bool.eq_false_iff]
        intro hx
        exact hn.1 (child_unique (List.isPrefixOf_iff_prefix.1 hx) h2 ▸ hm)
theorem leaf_all (refused : Path → Bool) (p : Path) (fs : Fs) (hr : ∀ q, p <+: q → refused q = false) (hm : (p, false) ∈ fs) (hu : ∀ e ∈ fs, p <+: e.1 → e.1 = p) :
    unlink refused p fs = (fs.filter (fun e => !p.isPrefixOf e.1), 0) := by
  unfold unlink
  rw [hr p (List.prefix_refl _), if_neg (by simp), if_pos hm]
  simp only [Prod.mk.injEq, and_true]
  refine List.filter_congr (fun e he => ?_)
  by_cases hpe : p <+: e.1
  · simp [hu e he hpe]
  · have h1 : p.isPrefixOf e.1 = false := Bool.eq_false_iff.2 (fun h => hpe (List.isPrefixOf_iff_prefix.1 h))
    have h2 : e.1 ≠ p := by rintro rfl; exact hpe (List.prefix_refl _)
    simp [h1, h2]
end

/-- **C93.** A tree in which nothing else is mounted, and which the kernel lets RAUC read and remove, is removed. -/
theorem C93_works (refused : Path → Bool) (t : Tree) (p : Path) (fs : Fs) (hp : p ≠ []) (hpl : Plain t) (hh : Holds fs p t) (hr : ∀ q, p <+: q → refused q = false) :
    (rmTree refused (some t) p fs).2 = true := by
  unfold rmTree
  rw [if_neg hp]
  dsimp only
  rw [walk_all refused t p fs hpl hh hr]
  rfl

/-! ## Files in use -/

/-- nothing in the tree stands in the way -/
def Quiet (t : Tree) : Prop :=
  ∀ u, Part t u → (∀ k o a, u = .file k o a → k = .regular ∧ o = false ∧ a = true) ∧ (∀ r es, u = .dir r es → r = true)

/-- a file in the tree explains a result -/
def Explains (t : Tree) : Option Check → Int → Prop
  | some .inUse, r => r = 1 ∧ Part t (.file .regular true true)
  | some .hangs, r => r = 2 ∧ ∃ o, Part t (.file .fifo o true)
  | some .error, r => r = -1 ∧ ∃ k o a, Part t (.file k o a) ∧ (k = .device ∨ k = .socket ∨ a = false)
  | some .unused, _ => False
  | none, r => r = -1 ∧ ∃ es, Part t (.dir false es)

theorem part_file {k : Kind} {o a : Bool} {u : Tree} : Part (.file k o a) u ↔ u = .file k o a := by
  constructor
  · intro h; cases h; rfl
  · rintro rfl; exact .refl _

theorem part_link {l : Path} {u : Tree} : Part (.link l) u ↔ u = .link l := by
  constructor
  · intro h; cases h; rfl
  · rintro rfl; exact .refl _

theorem explains_mono {t t' : Tree} (h : ∀ u, Part t' u → Part t u) {e : Option Check} {r : Int} (hx : Explains t' e r) : Explains t e r := by
  unfold Explains at *
  cases e with
  | none => obtain ⟨h1, es, h2⟩ := hx; exact ⟨h1, es, h _ h2⟩
  | some c => cases c with
    | unused => exact hx
    | inUse => exact ⟨hx.1, h _ hx.2⟩
    | error => obtain ⟨h1, k, o, a, h2, h3⟩ := hx; exact ⟨h1, k, o, a, h _ h2, h3⟩
    | hangs => obtain ⟨h1, o, h2⟩ := hx; exact ⟨h1, o, h _ h2⟩

mutual
theorem walk_open : ∀ (t : Tree) (p : Path),
    (walk openCb t p none = (none, 0) ∧ Quiet t) ∨ (∃ e r, walk openCb t p none = (e, r) ∧ r ≠ 0 ∧ ¬ Quiet t ∧ Explains t e r)
  | .file k o a, p => by
    have hq : Quiet (.file k o a) ↔ k = .regular ∧ o = false ∧ a = true := by
      constructor
      · intro h; exact (h _ (.refl _)).1 k o a rfl
      · intro h u hu
        rw [part_file] at hu
        subst hu
        exact ⟨by rintro _ _ _ ⟨⟩; exact h, by rintro _ _ ⟨⟩⟩
    rw [walk, hq]
    cases a with
    | false => exact Or.inr ⟨some .error, -1, rfl, by decide, by simp, rfl, k, o, false, .refl _, by simp⟩
    | true =>
      cases k with
      | regular =>
        cases o with
        | false => exact Or.inl ⟨rfl, by simp⟩
        | true => exact Or.inr ⟨some .inUse, 1, rfl, by decide, by simp, rfl, .refl _⟩
      | fifo => exact Or.inr ⟨some .hangs, 2, rfl, by decide, by simp, rfl, o, .refl _⟩
      | device => exact Or.inr ⟨some .error, -1, rfl, by decide, by simp, rfl, _, o, true, .refl _, by simp⟩
      | socket => exact Or.inr ⟨some .error, -1, rfl, by decide, by simp, rfl, _, o, true, .refl _, by simp⟩
  | .link l, p => by
    refine Or.inl ⟨by rw [walk]; rfl, fun u hu => ?_⟩
    rw [part_link] at hu
    subst hu
    exact ⟨by rintro _ _ _ ⟨⟩, by rintro _ _ ⟨⟩⟩
  | .dir r es, p => by
    rw [walk]
    cases r with
    | false =>
      refine Or.inr ⟨none, -1, rfl, by decide, fun h => ?_, rfl, es, .refl _⟩
      have := (h _ (.refl _)).2 false es rfl
      cases this
    | true =>
      rw [if_neg (by simp)]
      rcases walkAll_open es p with ⟨h1, h2⟩ | ⟨e, r, h1, h2, n, t, h3, h4, h5⟩
      · left
        rw [h1]
        refine ⟨rfl, fun u hu => ?_⟩
        cases hu with
        | refl => exact ⟨by rintro _ _ _ ⟨⟩, by rintro _ _ ⟨⟩; rfl⟩
        | child _ hen hpt => exact h2 _ _ hen u hpt
      · right
        refine ⟨e, r, ?_, h2, fun h => h4 (fun u hu => h u (.child _ h3 hu)), explains_mono (fun u hu => .child _ h3 hu) h5⟩
        rw [h1]
        split
        · rename_i hx; cases hx; exact absurd rfl h2
        · rename_i hx; cases hx; rfl
theorem walkAll_open : ∀ (es : Forest) (p : Path),
    (walkAll openCb es p none = (none, 0) ∧ ∀ n t, Entry es n t → Quiet t) ∨
    (∃ e r, walkAll openCb es p none = (e, r) ∧ r ≠ 0 ∧ ∃ n t, Entry es n t ∧ ¬ Quiet t ∧ Explains t e r)
  | .nil, p => by
    refine Or.inl ⟨by rw [walkAll], fun n t h => ?_⟩
    cases h
  | .cons n other t rest, p => by
    rw [walkAll]
    cases other with
    | true =>
      rw [if_pos rfl]
      rcases walkAll_open rest p with ⟨h1, h2⟩ | ⟨e, r, h1, h2, m, u, h3, h4⟩
      · refine Or.inl ⟨h1, fun m u hu => ?_⟩
        cases hu with
        | tail _ _ _ hu => exact h2 m u hu
      · exact Or.inr ⟨e, r, h1, h2, m, u, .tail _ _ _ h3, h4⟩
    | false =>
      rw [if_neg (by simp)]
      rcases walk_open t (p ++ [n]) with ⟨h1, h2⟩ | ⟨e, r, h1, h2, h3, h4⟩
      · rw [h1]
        change (walkAll openCb rest p none = _ ∧ _) ∨ (∃ e r, walkAll openCb rest p none = _ ∧ _)
        rcases walkAll_open rest p with ⟨g1, g2⟩ | ⟨e, r, g1, g2, m, u, g3, g4⟩
        · refine Or.inl ⟨g1, fun m u hu => ?_⟩
          cases hu with
          | head => exact h2
          | tail _ _ _ hu => exact g2 m u hu
        · exact Or.inr ⟨e, r, g1, g2, m, u, .tail _ _ _ g3, g4⟩
      · refine Or.inr ⟨e, r, ?_, h2, n, t, .head _ _ _, h3, h4⟩
        rw [h1]
        split
        · rename_i hx; cases hx; exact absurd rfl h2
        · rename_i hx; cases hx; rfl
end

/-- **C93.** A tree is found to be unused exactly if all of its directories can be read and all files in it are regular, can be opened, and are not open; it is found to be in use
only if a file in it is open, and the check fails only because of a special file, a file that cannot be opened or a directory that cannot be read. Files on other file systems mounted in the tree are not looked at. -/
theorem C93_open (t : Tree) (p : Path) (hp : p ≠ []) :
    (checkOpen (some t) p = .unused ↔ ∀ u, Part t u → (∀ k o a, u = .file k o a → k = .regular ∧ o = false ∧ a = true) ∧ (∀ r es, u = .dir r es → r = true)) ∧
    (checkOpen (some t) p = .inUse → Part t (.file .regular true true)) ∧
    (checkOpen (some t) p = .hangs → ∃ o, Part t (.file .fifo o true)) ∧
    (checkOpen (some t) p = .error → (∃ k o a, Part t (.file k o a) ∧ (k = .device ∨ k = .socket ∨ a = false)) ∨ ∃ es, Part t (.dir false es)) := by
  unfold checkOpen
  rw [if_neg hp]
  dsimp only
  rcases walk_open t p with ⟨h1, h2⟩ | ⟨e, r, h1, h2, h3, h4⟩
  · rw [h1]
    exact ⟨⟨fun _ => h2, fun _ => rfl⟩, by rintro ⟨⟩, by rintro ⟨⟩, by rintro ⟨⟩⟩
  · rw [h1]
    unfold Explains at h4
    cases e with
    | none =>
      obtain ⟨rfl, h5⟩ := h4
      exact ⟨⟨by rintro ⟨⟩, fun h => absurd h h3⟩, by rintro ⟨⟩, by rintro ⟨⟩, fun _ => Or.inr h5⟩
    | some c =>
      cases c with
      | unused => exact h4.elim
      | inUse =>
        obtain ⟨rfl, h5⟩ := h4
        exact ⟨⟨by rintro ⟨⟩, fun h => absurd h h3⟩, fun _ => h5, by rintro ⟨⟩, by rintro ⟨⟩⟩
      | error =>
        obtain ⟨rfl, h5⟩ := h4
        exact ⟨⟨by rintro ⟨⟩, fun h => absurd h h3⟩, by rintro ⟨⟩, by rintro ⟨⟩, fun _ => Or.inl h5⟩
      | hangs =>
        obtain ⟨rfl, h5⟩ := h4
        exact ⟨⟨by rintro ⟨⟩, fun h => absurd h h3⟩, by rintro ⟨⟩, fun _ => h5, by rintro ⟨⟩⟩

/-! ## Examples and limits -/

def exTree : Tree :=
  .dir true (.cons c!"bin" false (.dir true (.cons c!"sh" false (.file .regular false true) .nil))
    (.cons c!"data" false (.link [c!"srv", c!"data"]) .nil))
def exFs : Fs :=
  [([c!"srv"], true), ([c!"srv", c!"data"], true), ([c!"srv", c!"data", c!"db"], false), ([c!"art"], true), ([c!"art", c!"bin"], true), ([c!"art", c!"bin", c!"sh"], false),
   ([c!"art", c!"data"], false)]

/-- the tree goes, what the link points to stays -/
example : rmTree (fun _ => false) (some exTree) [c!"art"] exFs =
    ([([c!"srv"], true), ([c!"srv", c!"data"], true), ([c!"srv", c!"data", c!"db"], false)], true) := by decide +kernel

example : checkOpen (some exTree) [c!"art"] = .unused := by decide +kernel

theorem exPlain : Plain exTree := by
  simp only [exTree, Plain, PlainAll, names]
  decide

theorem exHolds : Holds exFs [c!"art"] exTree := by
  rintro ⟨q, b⟩ hq
  simp only [exFs, exTree, nodes, nodesAll, List.mem_cons, List.not_mem_nil, List.cons_append, List.nil_append, Prod.mk.injEq, or_false, List.append_nil]
  have hs : ∀ l, ¬ ([c!"art"] <+: c!"srv" :: l) := by
    rintro l ⟨x, hx⟩
    simp at hx
  constructor
  · rintro (⟨rfl, rfl⟩ | ⟨rfl, rfl⟩ | ⟨rfl, rfl⟩ | h)
    · exact absurd hq (hs _)
    · exact absurd hq (hs _)
    · exact absurd hq (hs _)
    · rcases h with h | h | h | h
      · exact Or.inl h
      · exact Or.inr (Or.inl h)
      · exact Or.inr (Or.inr (Or.inl h))
      · exact Or.inr (Or.inr (Or.inr h))
  · rintro (h | h | h | h)
    · exact Or.inr (Or.inr (Or.inr (Or.inl h)))
    · exact Or.inr (Or.inr (Or.inr (Or.inr (Or.inl h))))
    · exact Or.inr (Or.inr (Or.inr (Or.inr (Or.inr (Or.inl h)))))
    · exact Or.inr (Or.inr (Or.inr (Or.inr (Or.inr (Or.inr h)))))

/-- **Finding (C93).** A tree with a named pipe, for example from a tar archive, makes the check hang: open(2) waits for a writer. -/
theorem C93_finding_fifo (n : Str) (rest : Forest) (o : Bool) (p : Path) (hp : p ≠ []) :
    checkOpen (some (.dir true (.cons n false (.file .fifo o true) rest))) p = .hangs := by
  simp [checkOpen, hp, walk, walkAll, openCb]

/-- **Finding (C93).** A tree with a device node or a socket can never be found to be unused, so it can never be pruned. -/
theorem C93_finding_special (t : Tree) (p : Path) (k : Kind) (o a : Bool) (hk : k = .device ∨ k = .socket) (ht : Part t (.file k o a)) : checkOpen (some t) p ≠ .unused := by
  intro h
  by_cases hp : p = []
  · simp [checkOpen, hp] at h
  · have := ((C93_open t p hp).1.1 h _ ht).1 k o a rfl
    rcases hk with rfl | rfl
    · cases this.1
    · cases this.1

/-- **Finding (C93).** Another file system mounted in a tree is not looked at by the check, even if files there are open; removing the tree then deletes the rest of it first, and
fails at the mount point. -/
def exMounted : Tree := .dir true (.cons c!"a" false (.file .regular false true) (.cons c!"mnt" true (.dir true (.cons c!"x" false (.file .regular true true) .nil)) .nil))
def exMountedFs : Fs := [([c!"art"], true), ([c!"art", c!"a"], false), ([c!"art", c!"mnt"], true), ([c!"art", c!"mnt", c!"x"], false)]

theorem C93_finding_mount : checkOpen (some exMounted) [c!"art"] = .unused ∧
    rmTree (fun _ => false) (some exMounted) [c!"art"] exMountedFs = ([([c!"art"], true), ([c!"art", c!"mnt"], true), ([c!"art", c!"mnt", c!"x"], false)], false) := by decide +kernel

end Rauc.RmTree
