import Verif.Props.ArtifactsSession

/-!
# C36, C37: durability, references, and pruning of repositories with parents
-/

namespace Rauc.Artifacts

open Utils (Node Dir tmpName updateSymlink)

/-! ## References -/

theorem prepare_keys_hex {ls : Str → List Str} {parents : List Str} {fs : Fs} {repo : Repo} (h : prepare ls parents fs = some repo) :
    repo = parents.foldl (fun r p => (ls p).foldl (readLink fs p) r) (((ls []).filterMap parseEntry).map (fun nd => ⟨nd.1, nd.2, []⟩)) := by
  unfold prepare at h
  split at h
  · cases h
  · exact (Option.some.inj h).symm

/-- does this entry refer to the artifact -/
def pointsTo (fs : Fs) (p : Str) (a : Artifact) (x : Str) : Bool :=
  decide (x.head? ≠ some '.') && (match fs p x with | some (.link t) => decide (parseTarget p t = some (a.name, a.digest)) | _ => false)

theorem readLink_eq (fs : Fs) (p : Str) (repo : Repo) (x : Str) :
    readLink fs p repo x = repo.map (fun a => if pointsTo fs p a x then { a with refs := a.refs ++ [p] } else a) := by
  have hid : ∀ f : Artifact → Artifact, (∀ a ∈ repo, f a = a) → repo = repo.map f := by
    intro f hf
    conv_lhs => rw [← List.map_id repo]
    exact List.map_congr_left (fun a ha => (hf a ha).symm)
  unfold readLink
  by_cases hx : x.head? = some '.'
  · rw [if_pos hx]
    exact hid _ (fun a _ => by rw [if_neg]; simp [pointsTo, hx])
  · rw [if_neg hx]
    cases hn : fs p x with
    | none => exact hid _ (fun a _ => by rw [if_neg]; simp [pointsTo, hn])
    | some nd =>
      cases nd with
      | link t =>
        simp only
        cases ht : parseTarget p t with
        | none => exact hid _ (fun a _ => by rw [if_neg]; simp [pointsTo, hn, ht])
        | some nd =>
          obtain ⟨n, d⟩ := nd
          simp only [addRef]
          apply List.map_congr_left
          intro a _
          by_cases hc : a.name = n ∧ a.digest = d
          · rw [if_pos hc, if_pos]; simp [pointsTo, hx, hn, ht, hc]
          · rw [if_neg hc, if_neg]
            simp only [pointsTo, hn, ht, Option.some.injEq, Prod.mk.injEq, Bool.and_eq_true, decide_eq_true_eq, not_and]
            intro _ h1 h2; exact hc ⟨h1.symm, h2.symm⟩
      | _ => exact hid _ (fun a _ => by rw [if_neg]; simp [pointsTo, hn])

/-- the references that one directory adds -/
def linksTo (fs : Fs) (ls : Str → List Str) (p n d : Str) : List Str := (ls p).filter (pointsTo fs p ⟨n, d, []⟩)

theorem readLinks_eq (fs : Fs) (p : Str) (l : List Str) : ∀ repo : Repo, l.foldl (readLink fs p) repo =
    repo.map (fun a => { a with refs := a.refs ++ (l.filter (pointsTo fs p ⟨a.name, a.digest, []⟩)).map (fun _ => p) }) := by
  induction l with
  | nil => intro repo; simp
  | cons x l ih =>
    intro repo
    rw [List.foldl_cons, ih, readLink_eq, List.map_map]
    apply List.map_congr_left
    intro a _
    simp only [Function.comp]
    have e : pointsTo fs p ⟨a.name, a.digest, []⟩ x = pointsTo fs p a x := rfl
    by_cases hc : pointsTo fs p a x = true
    · rw [if_pos hc, List.filter_cons_of_pos (by rw [e]; exact hc)]
      simp
    · rw [if_neg hc, List.filter_cons_of_neg (by rw [e]; exact hc)]

theorem parents_eq (fs : Fs) (ls : Str → List Str) (parents : List Str) : ∀ repo : Repo,
    parents.foldl (fun r p => (ls p).foldl (readLink fs p) r) repo =
    repo.map (fun a => { a with refs := a.refs ++ parents.flatMap (fun p => (linksTo fs ls p a.name a.digest).map (fun _ => p)) }) := by
  induction parents with
  | nil => intro repo; simp
  | cons p l ih =>
    intro repo
    rw [List.foldl_cons, ih, readLinks_eq, List.map_map]
    apply List.map_congr_left
    intro a _
    simp [Function.comp, linksTo]

theorem parseTarget_iff (p t n d : Str) : parseTarget p t = some (n, d) ↔ t = targetOf p n d ∧ HexD d := by
  constructor
  · intro h
    unfold parseTarget at h
    split at h
    · rename_i hp
      obtain ⟨e, hd⟩ := (parseEntry_iff _ _ _).1 h
      refine ⟨?_, hd⟩
      rw [List.isPrefixOf_iff_prefix] at hp
      obtain ⟨r, rfl⟩ := hp
      rw [List.drop_left] at e
      rw [e]; rfl
    · cases h
  · rintro ⟨rfl, hd⟩
    exact parseTarget_targetOf p n d hd

/-- **C37.** What a repository is found to contain: exactly the artifacts whose data is there (under a lower-case digest), each with a reference from exactly those parents which have a link to it. -/
theorem C37_references (ls : Str → List Str) (parents : List Str) (fs : Fs) (repo : Repo) (h : prepare ls parents fs = some repo) :
    (∀ n d, (∃ a ∈ repo, a.name = n ∧ a.digest = d) ↔ entryName n d ∈ ls [] ∧ HexD d) ∧
    ∀ a ∈ repo, ∀ p, p ∈ a.refs ↔ p ∈ parents ∧ ∃ x ∈ ls p, x.head? ≠ some '.' ∧ fs p x = some (.link (targetOf p a.name a.digest)) := by
  have e := prepare_keys_hex h
  rw [parents_eq, List.map_map] at e
  have hmem : ∀ a ∈ repo, ∃ nd ∈ (ls []).filterMap parseEntry, a = ⟨nd.1, nd.2, parents.flatMap (fun p => (linksTo fs ls p nd.1 nd.2).map (fun _ => p))⟩ := by
    intro a ha
    rw [e] at ha
    obtain ⟨nd, hnd, rfl⟩ := List.mem_map.1 ha
    exact ⟨nd, hnd, by simp⟩
  constructor
  · intro n d
    constructor
    · rintro ⟨a, ha, rfl, rfl⟩
      obtain ⟨nd, hnd, rfl⟩ := hmem a ha
      obtain ⟨x, hx, hp⟩ := List.mem_filterMap.1 hnd
      obtain ⟨e', hd⟩ := (parseEntry_iff x nd.1 nd.2).1 hp
      exact ⟨e' ▸ hx, hd⟩
    · rintro ⟨hx, hd⟩
      refine ⟨⟨n, d, parents.flatMap (fun p => (linksTo fs ls p n d).map (fun _ => p))⟩, ?_, rfl, rfl⟩
      · rw [e]
        exact List.mem_map.2 ⟨(n, d), List.mem_filterMap.2 ⟨_, hx, (parseEntry_iff _ _ _).2 ⟨rfl, hd⟩⟩, by simp⟩
  · intro a ha p
    obtain ⟨nd, hnd, rfl⟩ := hmem a ha
    obtain ⟨y, hy, hpe⟩ := List.mem_filterMap.1 hnd
    have hd := ((parseEntry_iff y nd.1 nd.2).1 hpe).2
    simp only [List.mem_flatMap, List.mem_map]
    constructor
    · rintro ⟨q, hq, x, hx, rfl⟩
      refine ⟨hq, ?_⟩
      obtain ⟨hx1, hx2⟩ := List.mem_filter.1 hx
      simp only [pointsTo, Bool.and_eq_true, decide_eq_true_eq] at hx2
      obtain ⟨h1, h2⟩ := hx2
      refine ⟨x, hx1, h1, ?_⟩
      cases hn : fs q x with
      | none => rw [hn] at h2; simp at h2
      | some node =>
        rw [hn] at h2
        cases node with
        | link t =>
          simp only [decide_eq_true_eq] at h2
          rw [((parseTarget_iff _ _ _ _).1 h2).1]
        | _ => simp at h2
    · rintro ⟨hq, x, hx, h1, h2⟩
      refine ⟨p, hq, x, List.mem_filter.2 ⟨hx, ?_⟩, rfl⟩
      simp only [pointsTo, h2, Bool.and_eq_true, decide_eq_true_eq]
      exact ⟨h1, (parseTarget_iff _ _ _ _).2 ⟨rfl, hd⟩⟩

/-! ## Durability -/

theorem installData_ok {E : CopyEnv} {n d : Str} {c : Bytes} {fs : Fs} (h : (installData E n d c fs).ok = true) :
    E.copied = true ∧ E.renamed = true ∧ E.synced = true := by
  unfold installData at h
  split at h
  · simp [Run.pure] at h
  · simp only at h
    split at h
    · simp at h
    · rename_i h1
      split at h
      · simp at h
      · rename_i h2
        exact ⟨by simpa using h1, by simpa using h2, h⟩

theorem commit_ok {E : CommitEnv} {repo : Repo} {parents : List Str} : ∀ {fs : Fs}, (commit E parents repo fs).ok = true → E.sync = true := by
  unfold commit
  induction parents with
  | nil => intro fs h; exact h
  | cons p l ih =>
    intro fs h
    unfold commitParents at h
    obtain ⟨_, h2, _⟩ := bind_ok h
    exact ih h2

theorem planRepo_keys (keep : List Str) (p : Str) (repo : Repo) (x : Plan) (n d : Str)
    (h : ∃ a ∈ planRepo keep p repo x, a.name = n ∧ a.digest = d) :
    (∃ a ∈ repo, a.name = n ∧ a.digest = d) ∨ (n = x.name ∧ d = x.digest) := by
  obtain ⟨a, ha, rfl, rfl⟩ := h
  unfold planRepo activate at ha
  simp only at ha
  obtain ⟨b, hb, rfl⟩ := List.mem_map.1 ha
  have hk : ∀ b : Artifact, (if b.name ≠ x.name then b else if b.digest ≠ x.digest then deactivate b p
      else if p ∈ b.refs then b else { b with refs := b.refs ++ [p] }).name = b.name ∧
      (if b.name ≠ x.name then b else if b.digest ≠ x.digest then deactivate b p
      else if p ∈ b.refs then b else { b with refs := b.refs ++ [p] }).digest = b.digest := by
    intro b
    unfold deactivate
    split
    · exact ⟨rfl, rfl⟩
    · split
      · exact ⟨rfl, rfl⟩
      · split <;> exact ⟨rfl, rfl⟩
  rw [(hk b).1, (hk b).2]
  have hold : ∀ c ∈ dropOld keep repo, ∃ a ∈ repo, a.name = c.name ∧ a.digest = c.digest := by
    intro c hc
    unfold dropOld at hc
    obtain ⟨a, ha, rfl⟩ := List.mem_map.1 hc
    refine ⟨a, ha, ?_⟩
    split <;> exact ⟨rfl, rfl⟩
  split at hb
  · exact Or.inl (hold b hb)
  · rcases List.mem_append.1 hb with hb | hb
    · exact Or.inl (hold b hb)
    · simp only [List.mem_singleton] at hb
      subst hb
      exact Or.inr ⟨rfl, rfl⟩

/-- all the writes for one artifact have been confirmed by the kernel -/
def Durable (E : PlanEnv) (wrote : Prop) : Prop :=
  E.commit1.sync = true ∧ E.commit2.sync = true ∧ (wrote → E.copy.copied = true ∧ E.copy.renamed = true ∧ E.copy.synced = true)

theorem installPlan_ok {E : PlanEnv} {parents keep : List Str} {p : Str} {repo : Repo} {x : Plan} {fs : Fs}
    (h : (installPlan E parents keep p repo x fs).ok = true) : Durable E (¬ ∃ a ∈ repo, a.name = x.name ∧ a.digest = x.digest) := by
  unfold installPlan at h
  obtain ⟨h1, h2, _⟩ := bind_ok h
  obtain ⟨h3, h4, _⟩ := bind_ok h2
  refine ⟨commit_ok h1, commit_ok h4, ?_⟩
  intro hno
  have : (find (dropOld keep repo) x.name x.digest).isSome = false := by
    cases hf : (find (dropOld keep repo) x.name x.digest).isSome with
    | false => rfl
    | true =>
      obtain ⟨a, ha, e1, e2⟩ := find_some hf
      unfold dropOld at ha
      obtain ⟨b, hb, rfl⟩ := List.mem_map.1 ha
      refine absurd ⟨b, hb, ?_, ?_⟩ hno
      · rw [← e1]; split <;> rfl
      · rw [← e2]; split <;> rfl
  rw [this] at h3
  simp only [Bool.false_eq_true, if_false] at h3
  exact installData_ok h3

theorem plansLoop_ok (E : Nat → PlanEnv) (parents keep : List Str) (p : Str) (plans : List Plan) : ∀ (i : Nat) (repo : Repo) (fs : Fs),
    (plansLoop E parents keep p i repo plans fs).1.ok = true →
    ∀ j (hj : j < plans.length), Durable (E (i + j))
      ((¬ ∃ a ∈ repo, a.name = plans[j].name ∧ a.digest = plans[j].digest) ∧
        ∀ k (hk : k < j), ¬ (plans[k].name = plans[j].name ∧ plans[k].digest = plans[j].digest)) := by
  induction plans with
  | nil => intro i repo fs _ j hj; simp at hj
  | cons x l ih =>
    intro i repo fs h j hj
    unfold plansLoop at h
    simp only at h
    split at h
    · rename_i hok
      cases j with
      | zero =>
        have := installPlan_ok hok
        exact ⟨this.1, this.2.1, fun hw => this.2.2 hw.1⟩
      | succ j =>
        have := ih (i + 1) _ _ h j (by simpa using hj)
        rw [show i + 1 + j = i + (j + 1) from by omega] at this
        refine ⟨this.1, this.2.1, ?_⟩
        rintro ⟨hw1, hw2⟩
        apply this.2.2
        simp only [List.getElem_cons_succ] at hw1 hw2
        refine ⟨?_, ?_⟩
        · intro hex
          rcases planRepo_keys keep p repo x _ _ hex with hr | ⟨e1, e2⟩
          · exact hw1 hr
          · exact hw2 0 (by omega) ⟨by simpa using e1.symm, by simpa using e2.symm⟩
        · intro k hk hc
          exact hw2 (k + 1) (by omega) (by simpa using hc)
    · rename_i hok
      rw [h] at hok
      exact absurd rfl hok

/-- **C36.** An installation is successful only if everything it wrote has reached the disk: for each of its artifacts the two commits have been synced, and unless the data was there
already (or came with an earlier image of the same bundle) it was copied completely, renamed and synced. -/
theorem C36_durable (E : SessionEnv) (parents keep : List Str) (p : Str) (plans : List Plan) (fs : Fs)
    (hok : (session E parents p keep plans fs).ok = true) (j : Nat) (hj : j < plans.length) :
    (E.plans j).commit1.sync = true ∧ (E.plans j).commit2.sync = true ∧
    (entryName plans[j].name plans[j].digest ∉ E.ls [] → (∀ k (hk : k < j), (plans[k].name, plans[k].digest) ≠ (plans[j].name, plans[j].digest)) →
      (E.plans j).copy.copied = true ∧ (E.plans j).copy.renamed = true ∧ (E.plans j).copy.synced = true) := by
  unfold session at hok
  cases hp : prepare E.ls parents fs with
  | none => rw [hp] at hok; simp [Run.pure] at hok
  | some repo =>
    rw [hp] at hok
    simp only at hok
    split at hok
    · rename_i h1; rw [hok] at h1; cases h1
    · split at hok
      · cases hok
      · rename_i h2
        have hl : (plansLoop E.plans parents keep p 0 (pruneRepo E.prune1 repo) plans (prune E.prune1 parents repo fs).final).1.ok = true := by simpa using h2
        have := plansLoop_ok E.plans parents keep p plans 0 _ _ hl j hj
        rw [Nat.zero_add] at this
        refine ⟨this.1, this.2.1, ?_⟩
        intro hnot hearlier
        apply this.2.2
        refine ⟨?_, fun k hk hc => hearlier k hk (by rw [hc.1, hc.2])⟩
        rintro ⟨a, ha, e1, e2⟩
        unfold pruneRepo at ha
        have ha' := (List.mem_filter.1 ha).1
        exact hnot (((C37_references E.ls parents fs repo hp).1 _ _).1 ⟨a, ha', e1, e2⟩).1

/-! ## Pruning a repository with parents -/

theorem rmTree_final {E : PruneEnv} {p n : Str} {fs : Fs} (h : (rmTree E p n fs).ok = true) : (rmTree E p n fs).final = fs.set p n none := by
  unfold rmTree at h ⊢
  simp only at h ⊢
  split
  · rfl
  · rename_i hc; simp [hc] at h

theorem set_else {fs : Fs} {p n q x : Str} {y : Option Node} (h : ¬ (q = p ∧ x = n)) : fs.set p n y q x = fs q x := by
  unfold Fs.set Fs.upd
  by_cases hq : q = p
  · subst hq
    rw [if_pos rfl, set_other (fun e => h ⟨rfl, e⟩)]
  · rw [if_neg hq]

theorem pruneSub_ok (E : PruneEnv) (p : Str) (l : List Str) : ∀ fs : Fs, (pruneSub E p l fs).ok = true →
    (∀ q x, (pruneSub E p l fs).final q x = fs q x ∨ (q = p ∧ (pruneSub E p l fs).final q x = none ∧ ∀ t, fs q x ≠ some (.link t))) ∧
    ∀ x ∈ l, (∀ t, fs p x ≠ some (.link t)) → (pruneSub E p l fs).final p x = none := by
  induction l with
  | nil => intro fs _; exact ⟨fun _ _ => Or.inl rfl, by simp⟩
  | cons n l ih =>
    intro fs h
    have keep : (pruneSub E p (n :: l) fs = pruneSub E p l fs) → (fs p n = none ∨ ∃ t, fs p n = some (.link t)) →
        (∀ q x, (pruneSub E p (n :: l) fs).final q x = fs q x ∨ (q = p ∧ (pruneSub E p (n :: l) fs).final q x = none ∧ ∀ t, fs q x ≠ some (.link t))) ∧
        ∀ x ∈ n :: l, (∀ t, fs p x ≠ some (.link t)) → (pruneSub E p (n :: l) fs).final p x = none := by
      intro e hn
      rw [e] at h ⊢
      obtain ⟨i1, i2⟩ := ih fs h
      refine ⟨i1, ?_⟩
      intro x hx hl
      rcases List.mem_cons.1 hx with rfl | hx
      · rcases hn with hn | ⟨t, hn⟩
        · rcases i1 p x with h' | h'
          · rw [h', hn]
          · exact h'.2.1
        · exact absurd hn (hl t)
      · exact i2 x hx hl
    cases hn : fs p n with
    | none => exact keep (by rw [pruneSub.eq_def]; simp only [hn]) (Or.inl hn)
    | some nd =>
      have remove : (∀ t, nd ≠ .link t) → pruneSub E p (n :: l) fs = (rmTree E p n fs).bind (pruneSub E p l) →
        (∀ q x, (pruneSub E p (n :: l) fs).final q x = fs q x ∨ (q = p ∧ (pruneSub E p (n :: l) fs).final q x = none ∧ ∀ t, fs q x ≠ some (.link t))) ∧
        ∀ x ∈ n :: l, (∀ t, fs p x ≠ some (.link t)) → (pruneSub E p (n :: l) fs).final p x = none := by
        intro hnl e
        rw [e] at h ⊢
        obtain ⟨h1, h2, h3⟩ := bind_ok h
        rw [h3]
        rw [rmTree_final h1] at h2 ⊢
        obtain ⟨i1, i2⟩ := ih _ h2
        have hsame : (fs.set p n none) p n = none := by rw [fset_same, set_same]
        refine ⟨?_, ?_⟩
        · intro q x
          by_cases hqx : q = p ∧ x = n
          · obtain ⟨rfl, rfl⟩ := hqx
            refine Or.inr ⟨rfl, ?_, ?_⟩
            · rcases i1 q x with h' | h'
              · rw [h', hsame]
              · exact h'.2.1
            · intro t ht; rw [hn] at ht; exact hnl t (Option.some.inj ht)
          · have := i1 q x
            rw [set_else hqx] at this
            exact this
        · intro x hx hl
          by_cases hxn : x = n
          · subst hxn
            rcases i1 p x with h' | h'
            · rw [h', hsame]
            · exact h'.2.1
          · have hx' : x ∈ l := by simpa [hxn] using hx
            refine i2 x hx' ?_
            intro t
            rw [set_else (fun e => hxn e.2)]
            exact hl t
      cases nd with
      | link t => exact keep (by rw [pruneSub.eq_def]; simp only [hn]) (Or.inr ⟨t, hn⟩)
      | _ => exact remove (by simp) (by rw [pruneSub.eq_def]; simp only [hn])

theorem pruneSubs_ok (E : PruneEnv) (l : List Str) (hl : [] ∉ l) : ∀ fs : Fs, (pruneSubs E l fs).ok = true →
    (∀ q x, (pruneSubs E l fs).final q x = fs q x ∨ (q ∈ l ∧ (pruneSubs E l fs).final q x = none ∧ ∀ t, fs q x ≠ some (.link t))) ∧
    ∀ q ∈ l, ∀ x ∈ E.ls q, (∀ t, fs q x ≠ some (.link t)) → (pruneSubs E l fs).final q x = none := by
  induction l with
  | nil => intro fs _; exact ⟨fun _ _ => Or.inl rfl, by simp⟩
  | cons p l ih =>
    intro fs h
    have hp : p ≠ [] := fun e => hl (by simp [e])
    unfold pruneSubs at h ⊢
    rw [if_neg hp] at h ⊢
    obtain ⟨h1, h2, h3⟩ := bind_ok h
    rw [h3]
    obtain ⟨s1, s2⟩ := pruneSub_ok E p (E.ls p) fs h1
    obtain ⟨i1, i2⟩ := ih (fun e => hl (List.mem_cons_of_mem _ e)) _ h2
    have comb : ∀ q x, (pruneSubs E l (pruneSub E p (E.ls p) fs).final).final q x = fs q x ∨
        (q ∈ p :: l ∧ (pruneSubs E l (pruneSub E p (E.ls p) fs).final).final q x = none ∧ ∀ t, fs q x ≠ some (.link t)) := by
      intro q x
      rcases s1 q x with a | a <;> rcases i1 q x with b | b
      · rw [b, a]; exact Or.inl rfl
      · rw [a] at b; exact Or.inr ⟨List.mem_cons_of_mem _ b.1, b.2⟩
      · rw [b, a.2.1]; exact Or.inr ⟨by simp [a.1], rfl, a.2.2⟩
      · exact Or.inr ⟨by simp [a.1], b.2.1, a.2.2⟩
    refine ⟨comb, ?_⟩
    intro q hq x hx hnl
    rcases List.mem_cons.1 hq with rfl | hq
    · have := s2 x hx hnl
      rcases i1 q x with b | b
      · rw [b, this]
      · exact b.2.1
    · refine i2 q hq x hx ?_
      intro t
      rcases s1 q x with a | a
      · rw [a]; exact hnl t
      · rw [a.2.1]; simp

theorem pruneRoot_ok (E : PruneEnv) (parents : List Str) (l : List Str) : ∀ fs : Fs, (pruneRoot E parents l fs).ok = true →
    (∀ q x, (pruneRoot E parents l fs).final q x = fs q x ∨
      (q = [] ∧ (pruneRoot E parents l fs).final q x = none ∧ parseEntry x = none ∧ expected parents x (fs [] x) = false)) ∧
    ∀ x ∈ l, parseEntry x = none → expected parents x (fs [] x) = false → (pruneRoot E parents l fs).final [] x = none := by
  induction l with
  | nil => intro fs _; exact ⟨fun _ _ => Or.inl rfl, by simp⟩
  | cons n l ih =>
    intro fs h
    unfold pruneRoot at h ⊢
    split at h <;> rename_i hc
    · rw [if_pos hc]
      obtain ⟨i1, i2⟩ := ih fs h
      refine ⟨i1, ?_⟩
      intro x hx hp he
      by_cases hxn : x = n
      · subst hxn
        rw [hp, he] at hc
        simp only [Option.isSome_none, Bool.or_false, Bool.false_or, Option.isNone_iff_eq_none] at hc
        rcases i1 [] x with h' | h'
        · rw [h', hc]
        · exact h'.2.1
      · exact i2 x (by simpa [hxn] using hx) hp he
    · rw [if_neg hc]
      obtain ⟨h1, h2, h3⟩ := bind_ok h
      rw [h3]
      rw [rmTree_final h1] at h2 ⊢
      obtain ⟨i1, i2⟩ := ih _ h2
      simp only [Bool.or_eq_true, not_or, Bool.not_eq_true, Option.isSome_eq_false_iff, Option.isNone_iff_eq_none] at hc
      have hsame : (fs.set [] n none) [] n = none := by rw [fset_same, set_same]
      have hother : ∀ x, x ≠ n → (fs.set [] n none) [] x = fs [] x := fun x hx => set_else (fun e => hx e.2)
      have hgone : (pruneRoot E parents l (fs.set [] n none)).final [] n = none := by
        rcases i1 [] n with h' | h'
        · rw [h', hsame]
        · exact h'.2.1
      refine ⟨?_, ?_⟩
      · intro q x
        by_cases hqx : q = [] ∧ x = n
        · obtain ⟨rfl, rfl⟩ := hqx
          exact Or.inr ⟨rfl, hgone, hc.1.1, hc.1.2⟩
        · have := i1 q x
          rw [set_else hqx] at this
          rcases this with h' | ⟨rfl, h', hp, he⟩
          · exact Or.inl h'
          · rw [hother x (fun e => hqx ⟨rfl, e⟩)] at he
            exact Or.inr ⟨rfl, h', hp, he⟩
      · intro x hx hp he
        by_cases hxn : x = n
        · subst hxn; exact hgone
        · exact i2 x (by simpa [hxn] using hx) hp (by rw [hother x hxn]; exact he)

theorem pruneUnused_ok (E : PruneEnv) (l : Repo) : ∀ fs : Fs, (pruneUnused E l fs).ok = true →
    (∀ q x, (pruneUnused E l fs).final q x = fs q x ∨ (q = [] ∧ (pruneUnused E l fs).final q x = none ∧
      ∃ a ∈ l, x = entryName a.name a.digest ∧ a.refs = [] ∧ E.check a.name a.digest = .closed)) ∧
    ∀ a ∈ l, a.refs = [] → E.check a.name a.digest = .closed → (pruneUnused E l fs).final [] (entryName a.name a.digest) = none := by
  induction l with
  | nil => intro fs _; exact ⟨fun _ _ => Or.inl rfl, by simp⟩
  | cons a l ih =>
    intro fs h
    have keep : pruneUnused E (a :: l) fs = pruneUnused E l fs → (a.refs = [] → E.check a.name a.digest ≠ .closed) →
      (∀ q x, (pruneUnused E (a :: l) fs).final q x = fs q x ∨ (q = [] ∧ (pruneUnused E (a :: l) fs).final q x = none ∧
        ∃ b ∈ a :: l, x = entryName b.name b.digest ∧ b.refs = [] ∧ E.check b.name b.digest = .closed)) ∧
      ∀ b ∈ a :: l, b.refs = [] → E.check b.name b.digest = .closed → (pruneUnused E (a :: l) fs).final [] (entryName b.name b.digest) = none := by
      intro e hn
      rw [e] at h ⊢
      obtain ⟨i1, i2⟩ := ih fs h
      refine ⟨?_, ?_⟩
      · intro q x
        rcases i1 q x with h' | ⟨h1, h2, b, hb, h3⟩
        · exact Or.inl h'
        · exact Or.inr ⟨h1, h2, b, List.mem_cons_of_mem _ hb, h3⟩
      · intro b hb hr hcl
        rcases List.mem_cons.1 hb with rfl | hb
        · exact absurd hcl (hn hr)
        · exact i2 b hb hr hcl
    by_cases hr : a.refs = []
    · cases hch : E.check a.name a.digest with
      | opened => exact keep (by rw [pruneUnused.eq_def]; simp [hr, hch]) (by simp [hch])
      | error =>
        rw [pruneUnused.eq_def] at h
        simp [hr, hch, Run.pure] at h
      | closed =>
        have e : pruneUnused E (a :: l) fs = (rmTree E [] (entryName a.name a.digest) fs).bind (pruneUnused E l) := by
          rw [pruneUnused.eq_def]; simp [hr, hch]
        rw [e] at h ⊢
        obtain ⟨h1, h2, h3⟩ := bind_ok h
        rw [h3]
        rw [rmTree_final h1] at h2 ⊢
        obtain ⟨i1, i2⟩ := ih _ h2
        have hsame : (fs.set [] (entryName a.name a.digest) none) [] (entryName a.name a.digest) = none := by rw [fset_same, set_same]
        have hgone : (pruneUnused E l (fs.set [] (entryName a.name a.digest) none)).final [] (entryName a.name a.digest) = none := by
          rcases i1 [] (entryName a.name a.digest) with h' | h'
          · rw [h', hsame]
          · exact h'.2.1
        refine ⟨?_, ?_⟩
        · intro q x
          by_cases hqx : q = [] ∧ x = entryName a.name a.digest
          · obtain ⟨rfl, rfl⟩ := hqx
            exact Or.inr ⟨rfl, hgone, a, by simp, rfl, hr, hch⟩
          · have := i1 q x
            rw [set_else hqx] at this
            rcases this with h' | ⟨g1, g2, b, hb, g3⟩
            · exact Or.inl h'
            · exact Or.inr ⟨g1, g2, b, List.mem_cons_of_mem _ hb, g3⟩
        · intro b hb hrb hcl
          rcases List.mem_cons.1 hb with rfl | hb
          · exact hgone
          · exact i2 b hb hrb hcl
    · exact keep (by rw [pruneUnused.eq_def]; simp [hr]) (fun h' => absurd h' hr)

/-- **C37.** A successful pruning of a repository for parents leaves, of what is in the repository's directory: the directories of the parents, and the data of artifacts some parent has a link to or which are in use; and
in the directories of the parents only links. It removes nothing else than what it has to. -/
theorem C37_prune_parents (ls : Str → List Str) (parents : List Str) (fs : Fs) (repo : Repo) (hpar : [] ∉ parents)
    (hprep : prepare ls parents fs = some repo) (E : PruneEnv) (hE : ∀ p x, fs p x ≠ none → x ∈ E.ls p) (hls : ∀ p x, fs p x ≠ none → x ∈ ls p)
    (hok : (prune E parents repo fs).ok = true) :
    (∀ x, (prune E parents repo fs).final [] x ≠ none →
      (x ∈ parents ∧ fs [] x = some .dir) ∨
      ∃ n d, x = entryName n d ∧ HexD d ∧
        (E.check n d ≠ .closed ∨ ∃ p ∈ parents, ∃ y, y.head? ≠ some '.' ∧ fs p y = some (.link (targetOf p n d)))) ∧
    (∀ p ∈ parents, ∀ x, (prune E parents repo fs).final p x ≠ none → ∃ t, fs p x = some (.link t)) ∧
    (∀ p x, (prune E parents repo fs).final p x ≠ none → (prune E parents repo fs).final p x = fs p x) := by
  obtain ⟨r1, r2⟩ := C37_references ls parents fs repo hprep
  unfold prune at hok ⊢
  obtain ⟨h1, h2, h3⟩ := bind_ok hok
  obtain ⟨h4, h5, h6⟩ := bind_ok h2
  rw [h3, h6]
  obtain ⟨a1, a2⟩ := pruneSubs_ok E parents hpar fs h1
  obtain ⟨b1, b2⟩ := pruneRoot_ok E parents (E.ls []) _ h4
  obtain ⟨c1, c2⟩ := pruneUnused_ok E repo _ h5
  have hroot : ∀ x, (pruneSubs E parents fs).final [] x = fs [] x := by
    intro x
    rcases a1 [] x with h | h
    · exact h
    · exact absurd h.1 hpar
  have hne : ∀ p ∈ parents, p ≠ [] := fun p hp e => hpar (e ▸ hp)
  have hpar1 : parents ≠ [[]] := fun e => hpar (by rw [e]; simp)
  have mono : ∀ p x, (pruneUnused E repo (pruneRoot E parents (E.ls []) (pruneSubs E parents fs).final).final).final p x ≠ none →
      (pruneUnused E repo (pruneRoot E parents (E.ls []) (pruneSubs E parents fs).final).final).final p x = (pruneRoot E parents (E.ls []) (pruneSubs E parents fs).final).final p x ∧
      (pruneRoot E parents (E.ls []) (pruneSubs E parents fs).final).final p x = (pruneSubs E parents fs).final p x ∧
      (pruneSubs E parents fs).final p x = fs p x := by
    intro p x hx
    have e1 : (pruneUnused E repo (pruneRoot E parents (E.ls []) (pruneSubs E parents fs).final).final).final p x = (pruneRoot E parents (E.ls []) (pruneSubs E parents fs).final).final p x := by
      rcases c1 p x with h | h
      · exact h
      · exact absurd h.2.1 hx
    rw [e1] at hx
    have e2 : (pruneRoot E parents (E.ls []) (pruneSubs E parents fs).final).final p x = (pruneSubs E parents fs).final p x := by
      rcases b1 p x with h | h
      · exact h
      · exact absurd h.2.1 hx
    rw [e2] at hx
    refine ⟨e1, e2, ?_⟩
    rcases a1 p x with h | h
    · exact h
    · exact absurd h.2.1 hx
  refine ⟨?_, ?_, ?_⟩
  · intro x hx
    obtain ⟨e1, e2, e3⟩ := mono [] x hx
    have hfx : fs [] x ≠ none := by rw [← e3, ← e2, ← e1]; exact hx
    cases hpe : parseEntry x with
    | none =>
      left
      have hexp : expected parents x (fs [] x) = true := by
        cases hb : expected parents x (fs [] x) with
        | true => rfl
        | false =>
          have := b2 x (hE [] x hfx) hpe (by rw [hroot]; exact hb)
          rw [e1, this] at hx
          exact absurd rfl hx
      unfold expected at hexp
      rw [if_neg hpar1] at hexp
      simpa using hexp
    | some nd =>
      right
      obtain ⟨n, d⟩ := nd
      obtain ⟨rfl, hd⟩ := (parseEntry_iff _ _ _).1 hpe
      refine ⟨n, d, rfl, hd, ?_⟩
      obtain ⟨a, ha, rfl, rfl⟩ := (r1 n d).2 ⟨hls [] _ hfx, hd⟩
      by_cases hcl : E.check a.name a.digest = .closed
      · right
        have hr : a.refs ≠ [] := fun hr => hx (c2 a ha hr hcl)
        obtain ⟨p, hp⟩ := List.exists_mem_of_ne_nil _ hr
        obtain ⟨h1, y, _, h2, h3⟩ := (r2 a ha p).1 hp
        exact ⟨p, h1, y, h2, h3⟩
      · exact Or.inl hcl
  · intro p hp x hx
    obtain ⟨e1, e2, e3⟩ := mono p x hx
    have hfx : fs p x ≠ none := by rw [← e3, ← e2, ← e1]; exact hx
    apply Classical.not_forall_not.1
    intro hnl
    have := a2 p hp x (hE p x hfx) hnl
    rw [e1, e2, this] at hx
    exact hx rfl
  · intro p x hx
    obtain ⟨e1, e2, e3⟩ := mono p x hx
    rw [e1, e2, e3]

namespace Example

/-- a repository with two parents: the version `ab` is used by the second one, `cd` by none, and there is a directory that does not belong there -/
def fsP : Fs := fun p x =>
  if p = [] then
    (if x = c!"rootfs.0" ∨ x = c!"rootfs.1" ∨ x = c!"other" then some .dir
     else if x = c!".artifact-app-ab" then some (.file [1]) else if x = c!".artifact-app-cd" then some (.file [2]) else none)
  else if p = c!"rootfs.1" then (if x = c!"app" then some (.link c!"../.artifact-app-ab") else if x = c!"junk" then some (.file []) else none)
  else none

def lsP (p : Str) : List Str :=
  if p = [] then [c!"rootfs.0", c!"rootfs.1", c!"other", c!".artifact-app-ab", c!".artifact-app-cd"]
  else if p = c!"rootfs.1" then [c!"app", c!"junk"] else []

def EP : PruneEnv := ⟨lsP, fun _ _ => .closed, fun _ _ => [], fun _ _ => true⟩

def repoP : Repo := [⟨c!"app", c!"ab", [c!"rootfs.1"]⟩, ⟨c!"app", c!"cd", []⟩]

theorem lsP_all : ∀ p x, fsP p x ≠ none → x ∈ lsP p := by
  intro p x h
  unfold fsP at h
  unfold lsP
  split at h <;> rename_i hp
  · rw [if_pos hp]
    split at h <;> rename_i h1
    · rcases h1 with rfl | rfl | rfl <;> decide
    · split at h <;> rename_i h2
      · subst h2; decide
      · split at h <;> rename_i h3
        · subst h3; decide
        · exact absurd rfl h
  · rw [if_neg hp]
    split at h <;> rename_i hq
    · rw [if_pos hq]
      split at h <;> rename_i h1
      · subst h1; decide
      · split at h <;> rename_i h2
        · subst h2; decide
        · exact absurd rfl h
    · exact absurd rfl h

set_option maxRecDepth 8000 in
example : prepare lsP [c!"rootfs.0", c!"rootfs.1"] fsP = some repoP ∧ (prune EP [c!"rootfs.0", c!"rootfs.1"] repoP fsP).ok = true ∧
    (prune EP [c!"rootfs.0", c!"rootfs.1"] repoP fsP).final [] c!"other" = none ∧
    (prune EP [c!"rootfs.0", c!"rootfs.1"] repoP fsP).final [] c!".artifact-app-cd" = none ∧
    (prune EP [c!"rootfs.0", c!"rootfs.1"] repoP fsP).final [] c!".artifact-app-ab" = some (.file [1]) ∧
    (prune EP [c!"rootfs.0", c!"rootfs.1"] repoP fsP).final c!"rootfs.1" c!"junk" = none ∧
    (prune EP [c!"rootfs.0", c!"rootfs.1"] repoP fsP).final c!"rootfs.1" c!"app" = some (.link c!"../.artifact-app-ab") := by decide +kernel

/-- `C36_durable` applies to the first installation of the previous example -/
example : (E1.plans 0).copy.copied = true ∧ (E1.plans 0).copy.renamed = true ∧ (E1.plans 0).copy.synced = true :=
  (C36_durable E1 [[]] [c!"app"] [] [first] noFs done1.1 0 (by decide)).2.2 (by simp [E1, env]) (by intro k hk; omega)

end Example

end Rauc.Artifacts
