import Verif.Props.Artifacts

/-!
# C36, C37: installations and histories of installations
-/

namespace Rauc.Artifacts

open Utils (Node Dir tmpName updateSymlink)

variable {Good : Str → Str → Bytes → Prop}

theorem withNew_mem {r1 : Repo} {x : Plan} {a : Artifact} (h : a ∈ withNew r1 x) :
    a ∈ r1 ∨ ((find r1 x.name x.digest).isSome = false ∧ a = ⟨x.name, x.digest, []⟩) := by
  unfold withNew at h
  split at h
  · exact Or.inl h
  · rename_i hf
    simp only [List.mem_append, List.mem_singleton] at h
    rcases h with h | h
    · exact Or.inl h
    · exact Or.inr ⟨by simpa using hf, h⟩

theorem withNew_sub {r1 : Repo} {x : Plan} {a : Artifact} (h : a ∈ r1) : a ∈ withNew r1 x := by
  unfold withNew
  split
  · exact h
  · exact List.mem_append_left _ h

theorem withNew_has (r1 : Repo) (x : Plan) : ∃ a ∈ withNew r1 x, a.name = x.name ∧ a.digest = x.digest := by
  unfold withNew
  split
  · rename_i h; exact find_some h
  · exact ⟨⟨x.name, x.digest, []⟩, by simp, rfl, rfl⟩

/-- the copy, if one is needed -/
def copyStep (E : PlanEnv) (r1 : Repo) (x : Plan) (fs1 : Fs) : Run :=
  if (find r1 x.name x.digest).isSome then Run.pure fs1 true else installData E.copy x.name x.digest x.content fs1

theorem copyStep_spec (E : PlanEnv) (r1 : Repo) (x : Plan) (fs1 : Fs) (hI : Inv Good (fs1 [])) (hM : Mem Good r1 (fs1 []))
    (hn : ValidName x.name) (hd : HexD x.digest) (hg : Good x.name x.digest x.content) :
    (∀ s ∈ (copyStep E r1 x fs1).states, Inv Good (s [])) ∧
    ((copyStep E r1 x fs1).ok = true → Inv Good ((copyStep E r1 x fs1).final []) ∧ Mem Good (withNew r1 x) ((copyStep E r1 x fs1).final []) ∧
      ∀ y, y ≠ entryName x.name x.digest → (copyStep E r1 x fs1).final [] y = fs1 [] y) := by
  unfold copyStep withNew
  cases hf : (find r1 x.name x.digest).isSome with
  | true =>
    simp only [if_true]
    exact ⟨fun s hs => by simp [Run.pure] at hs; subst hs; exact hI, fun _ => ⟨hI, hM, fun _ _ => rfl⟩⟩
  | false =>
    simp only [Bool.false_eq_true, if_false]
    obtain ⟨h1, h2⟩ := installData_spec E.copy x.name x.digest x.content fs1 hI hn hd hg
    refine ⟨h1, fun hk => ?_⟩
    obtain ⟨i1, i2, i3, i4⟩ := h2 hk
    refine ⟨i1, ?_, i4⟩
    generalize (installData E.copy x.name x.digest x.content fs1).final [] = D' at i3 i4
    have hnew : ∀ a ∈ r1, ¬ (a.name = x.name ∧ a.digest = x.digest) := find_none hf
    refine ⟨?_, ?_, ?_, ?_, ?_⟩
    · intro a ha b hb e1 e2
      simp only [List.mem_append, List.mem_singleton] at ha hb
      rcases ha with ha | rfl <;> rcases hb with hb | rfl
      · exact hM.keys a ha b hb e1 e2
      · exact absurd ⟨e1, e2⟩ (hnew a ha)
      · exact absurd ⟨e1.symm, e2.symm⟩ (hnew b hb)
      · rfl
    · intro a ha
      simp only [List.mem_append, List.mem_singleton] at ha
      rcases ha with ha | rfl
      · exact hM.valid a ha
      · exact ⟨hn, hd⟩
    · intro a ha
      simp only [List.mem_append, List.mem_singleton] at ha
      rcases ha with ha | rfl
      · obtain ⟨c, e1, e2⟩ := hM.data a ha
        refine ⟨c, ?_, ?_⟩
        · rw [i4]; exact e1
          intro e; exact hnew a ha (entryName_inj (hM.valid a ha).2 hd e)
        · rw [i4 _ ((hM.valid a ha).1.tmp_ne_entry _ _)]; exact e2
      · exact ⟨x.content, i3, Or.inl hg⟩
    · intro a ha
      simp only [List.mem_append, List.mem_singleton] at ha
      rcases ha with ha | rfl
      · exact hM.refs a ha
      · exact Or.inl rfl
    · intro n d hdd hx
      by_cases he : entryName n d = entryName x.name x.digest
      · obtain ⟨rfl, rfl⟩ := entryName_inj hdd hd he
        exact ⟨⟨x.name, x.digest, []⟩, by simp, rfl, rfl⟩
      · rw [i4 _ he] at hx
        obtain ⟨a, ha, e1, e2⟩ := hM.all n d hdd hx
        exact ⟨a, List.mem_append_left _ ha, e1, e2⟩

theorem act_memory {repo : Repo} {D : Dir} {n d : Str} (hM : Mem Good repo D) : Mem Good (repo.map (act n d)) D := by
  refine ⟨?_, ?_, ?_, ?_, ?_⟩
  · intro a ha b hb h1 h2
    obtain ⟨a', ha', rfl⟩ := List.mem_map.1 ha
    obtain ⟨b', hb', rfl⟩ := List.mem_map.1 hb
    rw [(act_key n d a').1, (act_key n d b').1] at h1
    rw [(act_key n d a').2, (act_key n d b').2] at h2
    rw [hM.keys a' ha' b' hb' h1 h2]
  · intro a ha
    obtain ⟨a', ha', rfl⟩ := List.mem_map.1 ha
    rw [(act_key n d a').1, (act_key n d a').2]
    exact hM.valid a' ha'
  · intro a ha
    obtain ⟨a', ha', rfl⟩ := List.mem_map.1 ha
    rw [(act_key n d a').1, (act_key n d a').2]
    exact hM.data a' ha'
  · intro a ha
    obtain ⟨a', ha', rfl⟩ := List.mem_map.1 ha
    obtain ⟨e1, e2, e3⟩ := act_refs n d a' (hM.refs a' ha')
    by_cases h1 : a'.name = n
    · by_cases h2 : a'.digest = d
      · exact Or.inr (e3 h1 h2)
      · exact Or.inl (e2 h1 h2)
    · rw [e1 h1]; exact hM.refs a' ha'
  · intro m e hd hx
    obtain ⟨a, ha, h1, h2⟩ := hM.all m e hd hx
    exact ⟨_, List.mem_map.2 ⟨a, ha, rfl⟩, by rw [(act_key n d a).1, h1], by rw [(act_key n d a).2, h2]⟩

/-- one plan -/
theorem plan_spec (E : PlanEnv) (keep : List Str) (repo : Repo) (x : Plan) (fs : Fs) (hI : Inv Good (fs [])) (hM : Mem Good repo (fs []))
    (hL : Linked repo (fs [])) (hR : Reflected repo (fs [])) (hn : ValidName x.name) (hd : HexD x.digest) (hg : Good x.name x.digest x.content) :
    (∀ s ∈ (installPlan E [[]] keep [] repo x fs).states, Inv Good (s [])) ∧
    ((installPlan E [[]] keep [] repo x fs).ok = true →
      Inv Good ((installPlan E [[]] keep [] repo x fs).final []) ∧
      Mem Good (planRepo keep [] repo x) ((installPlan E [[]] keep [] repo x fs).final []) ∧
      Linked (planRepo keep [] repo x) ((installPlan E [[]] keep [] repo x fs).final []) ∧
      Reflected (planRepo keep [] repo x) ((installPlan E [[]] keep [] repo x fs).final []) ∧
      Active (installPlan E [[]] keep [] repo x fs).final x.name x.digest ∧
      ∀ n d, ValidName n → HexD d → n ≠ x.name →
        (Active (installPlan E [[]] keep [] repo x fs).final n d ↔ n ∈ keep ∧ Active fs n d)) := by
  have hM1 : Mem Good (dropOld keep repo) (fs []) := dropOld_memory hM
  have hL1 : Linked (dropOld keep repo) (fs []) := dropOld_linked hL
  have hP1 : Pre (dropOld keep repo) (fs []) := by
    intro a ha hr
    rcases hL1 a ha hr with h | h
    · exact Or.inl h
    · exact Or.inr (Or.inl h)
  have c1 := commit_spec E.commit1 (dropOld keep repo) fs hI hM1
  have e : installPlan E [[]] keep [] repo x fs = (commit E.commit1 [[]] (dropOld keep repo) fs).bind (fun fs1 =>
      (copyStep E (dropOld keep repo) x fs1).bind (fun fs2 => commit E.commit2 [[]] (planRepo keep [] repo x) fs2)) := rfl
  rw [e]
  -- after the first commit
  have after1 : (commit E.commit1 [[]] (dropOld keep repo) fs).ok = true →
      Inv Good ((commit E.commit1 [[]] (dropOld keep repo) fs).final []) ∧
      Mem Good (dropOld keep repo) ((commit E.commit1 [[]] (dropOld keep repo) fs).final []) ∧
      Linked (dropOld keep repo) ((commit E.commit1 [[]] (dropOld keep repo) fs).final []) ∧
      Reflected (dropOld keep repo) ((commit E.commit1 [[]] (dropOld keep repo) fs).final []) ∧
      ∀ n d, ValidName n → HexD d → (Active (commit E.commit1 [[]] (dropOld keep repo) fs).final n d ↔ n ∈ keep ∧ Active fs n d) := by
    intro hk
    have cm := commit_mem E.commit1 (dropOld keep repo) fs hI hM1 hP1 hk
    refine ⟨(c1.2 hk).1, cm.1, cm.2.1, cm.2.2.1, ?_⟩
    intro n d hn' hd'
    rw [commit_active E.commit1 (dropOld keep repo) fs hI hM1 hP1 hk n d hn' hd' (fun b hb _ => hL1 b hb)]
    constructor
    · rintro ⟨h1, h2⟩
      refine ⟨?_, h1⟩
      obtain ⟨c, h3, _⟩ := hI.resolves n d hn' hd' h1
      obtain ⟨a, ha, rfl, rfl⟩ := hM.all n d hd' (by rw [h3]; simp)
      have := h2 _ (dropOld_mem.2 ⟨a, ha, rfl⟩) (dropOld_key keep a).1 (dropOld_key keep a).2
      by_cases hk : a.name ∈ keep
      · exact hk
      · rw [if_neg hk] at this; exact absurd rfl this
    · rintro ⟨h1, h2⟩
      refine ⟨h2, ?_⟩
      intro b hb hbn hbd
      obtain ⟨a, ha, rfl⟩ := dropOld_mem.1 hb
      rw [(dropOld_key keep a).1] at hbn
      rw [(dropOld_key keep a).2] at hbd
      rw [if_pos (by rw [hbn]; exact h1)]
      refine hR a ha ?_
      unfold Proper
      rw [hbn, hbd]; exact h2
  generalize commit E.commit1 [[]] (dropOld keep repo) fs = R1 at c1 after1 ⊢
  have after2 : R1.ok = true → _ := fun hk =>
    copyStep_spec E (dropOld keep repo) x R1.final (after1 hk).1 (after1 hk).2.1 hn hd hg
  -- before the second commit
  have before3 : R1.ok = true → (copyStep E (dropOld keep repo) x R1.final).ok = true →
      Mem Good (planRepo keep [] repo x) ((copyStep E (dropOld keep repo) x R1.final).final []) ∧
      (∀ b ∈ planRepo keep [] repo x, b.name ≠ x.name → b.refs ≠ [] →
        Proper ((copyStep E (dropOld keep repo) x R1.final).final []) b ∨ Temp ((copyStep E (dropOld keep repo) x R1.final).final []) b) ∧
      (∀ b ∈ planRepo keep [] repo x, b.name = x.name → b.refs ≠ [] → b.digest = x.digest) ∧
      (∀ b ∈ planRepo keep [] repo x, b.name = x.name → b.digest = x.digest → b.refs ≠ []) ∧
      (∀ b ∈ planRepo keep [] repo x, b.name ≠ x.name → b ∈ dropOld keep repo) ∧
      (∃ b ∈ planRepo keep [] repo x, b.name = x.name ∧ b.digest = x.digest) := by
    intro hk hk2
    obtain ⟨i1, i2, i3⟩ := (after2 hk).2 hk2
    rw [planRepo_eq]
    have hold : ∀ b ∈ (withNew (dropOld keep repo) x).map (act x.name x.digest), b.name ≠ x.name → b ∈ dropOld keep repo := by
      intro b hb hbn
      obtain ⟨a, ha, rfl⟩ := List.mem_map.1 hb
      rw [(act_key _ _ a).1] at hbn
      rw [(act_refs _ _ a (i2.refs a ha)).1 hbn]
      rcases withNew_mem ha with h | ⟨_, rfl⟩
      · exact h
      · exact absurd rfl hbn
    refine ⟨act_memory i2, ?_, ?_, ?_, hold, ?_⟩
    · intro b hb hbn hr
      have hb1 := hold b hb hbn
      have hv := (hM1.valid b hb1).1
      have hd' := (hM1.valid b hb1).2
      rcases (after1 hk).2.2.1 b hb1 hr with h | h
      · left; unfold Proper at h ⊢; rw [i3 _ (hv.ne_entry _ _)]; exact h
      · right; unfold Temp at h ⊢; rw [i3 _ (hv.tmp_ne_entry _ _)]; exact h
    · intro b hb hbn hr
      obtain ⟨a, ha, rfl⟩ := List.mem_map.1 hb
      rw [(act_key _ _ a).1] at hbn
      rw [(act_key _ _ a).2]
      apply Decidable.not_not.1
      intro hne
      exact hr ((act_refs _ _ a (i2.refs a ha)).2.1 hbn hne)
    · intro b hb hbn hbd
      obtain ⟨a, ha, rfl⟩ := List.mem_map.1 hb
      rw [(act_key _ _ a).1] at hbn
      rw [(act_key _ _ a).2] at hbd
      rw [(act_refs _ _ a (i2.refs a ha)).2.2 hbn hbd]; simp
    · obtain ⟨a, ha, h1, h2⟩ := withNew_has (dropOld keep repo) x
      exact ⟨_, List.mem_map.2 ⟨a, ha, rfl⟩, by rw [(act_key _ _ a).1, h1], by rw [(act_key _ _ a).2, h2]⟩
  have pre3 : ∀ (hk : R1.ok = true) (hk2 : (copyStep E (dropOld keep repo) x R1.final).ok = true),
      Pre (planRepo keep [] repo x) ((copyStep E (dropOld keep repo) x R1.final).final []) := by
    intro hk hk2 a ha hr
    obtain ⟨b1, b2, b3, b4, b5, _⟩ := before3 hk hk2
    by_cases han : a.name = x.name
    · right; right
      intro b hb hbn hbr
      exact b1.keys b hb a ha hbn ((b3 b hb (hbn.trans han) hbr).trans (b3 a ha han hr).symm)
    · rcases b2 a ha han hr with h | h
      · exact Or.inl h
      · exact Or.inr (Or.inl h)
  refine ⟨?_, ?_⟩
  · intro s hs
    rcases mem_bind hs with hs | ⟨hk, hs⟩
    · exact c1.1 s hs
    · rcases mem_bind hs with hs | ⟨hk2, hs⟩
      · exact (after2 hk).1 s hs
      · exact (commit_spec E.commit2 _ _ ((after2 hk).2 hk2).1 (before3 hk hk2).1).1 s hs
  · intro hok
    obtain ⟨hk, hk', hf⟩ := bind_ok hok
    obtain ⟨hk2, hk3, hf2⟩ := bind_ok hk'
    rw [hf, hf2]
    have hI2 := ((after2 hk).2 hk2).1
    have hP3 := pre3 hk hk2
    obtain ⟨b1, b2, b3, b4, b5, b6⟩ := before3 hk hk2
    have h3 := ((after2 hk).2 hk2).2.2
    have cs := (commit_spec E.commit2 _ _ hI2 b1).2 hk3
    have cm := commit_mem E.commit2 _ _ hI2 b1 hP3 hk3
    refine ⟨cs.1, cm.1, cm.2.1, cm.2.2.1, ?_, ?_⟩
    · obtain ⟨b, hb, h1, h2⟩ := b6
      have hp := cm.2.2.2.2.1 b hb (b4 b hb h1 h2) (by
        intro b' hb' h1' hr'
        exact b1.keys b' hb' b hb h1' ((b3 b' hb' (h1'.trans h1) hr').trans h2.symm))
      unfold Proper at hp
      unfold Active
      rw [← h1, ← h2]; exact hp
    · intro n d hn' hd' hne
      rw [commit_active E.commit2 _ _ hI2 b1 hP3 hk3 n d hn' hd' (fun b hb hbn => b2 b hb (by rw [hbn]; exact hne))]
      have e2 : Active (copyStep E (dropOld keep repo) x R1.final).final n d ↔ Active R1.final n d := by
        unfold Active
        rw [h3 _ (hn'.ne_entry _ _)]
      rw [e2, (after1 hk).2.2.2.2 n d hn' hd']
      constructor
      · rintro ⟨h, _⟩; exact h
      · intro h
        refine ⟨h, ?_⟩
        intro a ha hna hda
        refine (after1 hk).2.2.2.1 a (b5 a ha (by rw [hna]; exact hne)) ?_
        unfold Proper
        rw [hna, hda]
        exact ((after1 hk).2.2.2.2 n d hn' hd').2 h

/-- is the name given by one of the plans, and by which? the last one counts -/
def lastPlan (plans : List Plan) (n : Str) : Option Plan := plans.reverse.find? (fun x => x.name = n)

theorem lastPlan_cons (x : Plan) (l : List Plan) (n : Str) :
    lastPlan (x :: l) n = (lastPlan l n).or (if x.name = n then some x else none) := by
  unfold lastPlan
  rw [List.reverse_cons, List.find?_append]
  congr 1
  simp [List.find?_cons]
  split <;> simp_all

theorem plansLoop_spec (E : Nat → PlanEnv) (keep : List Str) (plans : List Plan) : ∀ (i : Nat) (repo : Repo) (fs : Fs) (_ : Inv Good (fs []))
    (_ : Mem Good repo (fs [])) (_ : Linked repo (fs [])) (_ : Reflected repo (fs []))
    (_ : ∀ x ∈ plans, ValidName x.name ∧ HexD x.digest ∧ Good x.name x.digest x.content),
    (∀ s ∈ (plansLoop E [[]] keep [] i repo plans fs).1.states, Inv Good (s [])) ∧
    ((plansLoop E [[]] keep [] i repo plans fs).1.ok = true →
      Inv Good ((plansLoop E [[]] keep [] i repo plans fs).1.final []) ∧
      Mem Good (plansLoop E [[]] keep [] i repo plans fs).2 ((plansLoop E [[]] keep [] i repo plans fs).1.final []) ∧
      Linked (plansLoop E [[]] keep [] i repo plans fs).2 ((plansLoop E [[]] keep [] i repo plans fs).1.final []) ∧
      Reflected (plansLoop E [[]] keep [] i repo plans fs).2 ((plansLoop E [[]] keep [] i repo plans fs).1.final []) ∧
      ((∀ x ∈ plans, x.name ∈ keep) → ∀ n d, ValidName n → HexD d →
        (Active (plansLoop E [[]] keep [] i repo plans fs).1.final n d ↔
          match lastPlan plans n with
          | some x => d = x.digest
          | none => (plans = [] ∨ n ∈ keep) ∧ Active fs n d))) := by
  induction plans with
  | nil =>
    intro i repo fs hI hM hL hR _
    simp only [plansLoop, Run.pure]
    refine ⟨fun s hs => by simp at hs; subst hs; exact hI, fun _ => ⟨hI, hM, hL, hR, ?_⟩⟩
    intro _ n d _ _
    simp [lastPlan]
  | cons x l ih =>
    intro i repo fs hI hM hL hR hx
    obtain ⟨hn, hd, hg⟩ := hx x (by simp)
    obtain ⟨p1, p2⟩ := plan_spec (E i) keep repo x fs hI hM hL hR hn hd hg
    unfold plansLoop
    simp only
    split
    · rename_i hk
      obtain ⟨q1, q2, q3, q4, q5, q6⟩ := p2 hk
      obtain ⟨r1, r2⟩ := ih (i + 1) (planRepo keep [] repo x) _ q1 q2 q3 q4 (fun y hy => hx y (List.mem_cons_of_mem _ hy))
      refine ⟨?_, ?_⟩
      · intro s hs
        simp only [List.mem_append] at hs
        rcases hs with hs | hs
        · exact p1 s hs
        · exact r1 s hs
      · intro hok
        simp only at hok ⊢
        obtain ⟨s1, s2, s3, s4, s5⟩ := r2 hok
        refine ⟨s1, s2, s3, s4, ?_⟩
        intro hkeep n d hn' hd'
        rw [s5 (fun y hy => hkeep y (List.mem_cons_of_mem _ hy)) n d hn' hd', lastPlan_cons]
        cases hlp : lastPlan l n with
        | some y => simp
        | none =>
          simp only [Option.none_or]
          by_cases hxn : x.name = n
          · subst hxn
            simp only [if_true]
            constructor
            · rintro ⟨_, h⟩
              unfold Active at h q5
              rw [q5] at h
              simp only [Option.some.injEq, Node.link.injEq] at h
              exact (entryName_inj hd hd' h).2.symm
            · rintro rfl
              exact ⟨Or.inr (hkeep x (by simp)), q5⟩
          · simp only [if_neg hxn]
            rw [q6 n d hn' hd' (fun e => hxn e.symm)]
            constructor
            · rintro ⟨_, h1, h2⟩; exact ⟨Or.inr h1, h2⟩
            · rintro ⟨h1, h2⟩
              rcases h1 with h1 | h1
              · cases h1
              · exact ⟨Or.inr h1, h1, h2⟩
    · rename_i hk
      refine ⟨p1, ?_⟩
      intro hok
      exact absurd hok hk

/-! ## A whole installation -/

/-- what is assumed about an installation and its environment: the directory is listed correctly, the images are for artifacts with proper names and digests
and have the content their digest stands for, and data which a process has open is complete -/
structure SessionOk (Good : Str → Str → Bytes → Prop) (E : SessionEnv) (plans : List Plan) (fs : Fs) : Prop where
  lists : Lists (E.ls []) (fs [])
  plans : ∀ x ∈ plans, ValidName x.name ∧ HexD x.digest ∧ Good x.name x.digest x.content
  opened : ∀ n d c, E.prune1.check n d = .opened → Stored fs n d c → Good n d c

theorem PruneRel.link_iff {E : PruneEnv} {repo : Repo} {D D' : Dir} (h : PruneRel E repo D D') (x t : Str) :
    D' x = some (.link t) ↔ D x = some (.link t) := by
  constructor
  · intro hx
    rcases h x with e | e
    · rw [← e]; exact hx
    · rcases e.2.1 with e' | ⟨c, e'⟩ <;> rw [e'] at hx <;> cases hx
  · intro hx
    rcases h x with e | e
    · rw [e]; exact hx
    · exact absurd hx (e.1 t)

theorem session_spec (E : SessionEnv) (keep : List Str) (plans : List Plan) (fs : Fs) (hI : Inv Good (fs [])) (hS : SessionOk Good E plans fs) :
    (∀ s ∈ (session E [[]] [] keep plans fs).states, Inv Good (s [])) ∧
    ((session E [[]] [] keep plans fs).ok = true → (∀ x ∈ plans, x.name ∈ keep) → ∀ n d, ValidName n → HexD d →
      (Active (session E [[]] [] keep plans fs).final n d ↔
        match lastPlan plans n with
        | some x => d = x.digest
        | none => (plans = [] ∨ n ∈ keep) ∧ Active fs n d)) := by
  unfold session
  cases hp : prepare E.ls [[]] fs with
  | none => exact ⟨fun s hs => by simp [Run.pure] at hs; subst hs; exact hI, by simp [Run.pure]⟩
  | some repo =>
    obtain ⟨k1, k2, k3, k4, k5, k6, k7, _⟩ := prepare_spec E.ls fs repo hI hS.lists hp
    have hnl : ∀ a ∈ repo, ∀ t, fs [] (entryName a.name a.digest) ≠ some (.link t) := by
      intro a h t ht
      obtain ⟨c, hc⟩ := k3 a h
      rw [hc] at ht; cases ht
    obtain ⟨p1, p2, _⟩ := prune_spec E.prune1 repo fs hnl
    have st1 : ∀ s ∈ (prune E.prune1 [[]] repo fs).states, Inv Good (s []) := fun s hs => (p1 s hs).inv hI k2 k7
    have hI1 := p2.inv hI k2 k7
    simp only
    cases hk : (prune E.prune1 [[]] repo fs).ok with
    | false => simp only [Bool.not_false, if_true]; exact ⟨st1, by rw [hk]; simp⟩
    | true =>
      simp only [Bool.not_true, Bool.false_eq_true, if_false]
      obtain ⟨m1, m2, m3⟩ := prune_mem E.prune1 repo fs hI k1 k2 k3 k4 k5 k6 k7 hS.opened hk
      obtain ⟨l1, l2⟩ := plansLoop_spec E.plans keep plans 0 (pruneRepo E.prune1 repo) (prune E.prune1 [[]] repo fs).final hI1 m1 m2 m3 hS.plans
      have hact : ∀ n d, Active (prune E.prune1 [[]] repo fs).final n d ↔ Active fs n d := fun n d => p2.link_iff n _
      generalize plansLoop E.plans [[]] keep [] 0 (pruneRepo E.prune1 repo) plans (prune E.prune1 [[]] repo fs).final = R2 at l1 l2 ⊢
      obtain ⟨R2, repo2⟩ := R2
      simp only at l1 l2 ⊢
      cases hk2 : R2.ok with
      | false =>
        simp only [Bool.not_false, if_true]
        refine ⟨?_, by simp⟩
        intro s hs
        rcases List.mem_append.1 hs with hs | hs
        · exact st1 s hs
        · exact l1 s hs
      | true =>
        simp only [Bool.not_true, Bool.false_eq_true, if_false]
        obtain ⟨i1, i2, i3, i4, i5⟩ := l2 hk2
        obtain ⟨q1, q2, _⟩ := prune_spec E.prune2 repo2 R2.final (by
          intro a h t ht
          obtain ⟨c, hc, _⟩ := i2.data a h
          rw [hc] at ht; cases ht)
        refine ⟨?_, ?_⟩
        · intro s hs
          simp only [List.mem_append] at hs
          rcases hs with (hs | hs) | hs
          · exact st1 s hs
          · exact l1 s hs
          · exact (q1 s hs).inv i1 i2.valid i4
        · intro _ hkeep n d hn hd
          have : Active (prune E.prune2 [[]] repo2 R2.final).final n d ↔ Active R2.final n d := q2.link_iff n _
          rw [this, i5 hkeep n d hn hd]
          simp only [hact]

/-! ## Histories -/

/-- the states of a repository which starts empty and is changed only by installations, each of which may stop at any point -/
inductive Reach (Good : Str → Str → Bytes → Prop) : Fs → Prop
  | empty (fs : Fs) : (∀ x, fs [] x = none) → Reach Good fs
  | step (fs : Fs) (E : SessionEnv) (keep : List Str) (plans : List Plan) (s : Fs) : Reach Good fs → SessionOk Good E plans fs →
      s ∈ (session E [[]] [] keep plans fs).states → Reach Good s

theorem Reach.inv {fs : Fs} (h : Reach Good fs) : Inv Good (fs []) := by
  induction h with
  | empty fs h =>
    refine ⟨?_, ?_, ?_, ?_⟩
    · intro x t m d _ h2; rw [h x] at h2; cases h2
    · intro x t h2; rw [h] at h2; cases h2
    · intro m d _ _ h2; rw [h] at h2; cases h2
    · intro x m d _ h2; exact absurd (h x) h2
  | step fs E keep plans s _ hS hs ih => exact (session_spec E keep plans fs ih hS).1 s hs

/-- **C37, partial** (digests in lower case; for upper case digests it is false, see `C37_finding_uppercase`). At every point in time, whatever installations were run and wherever they were interrupted: the artifact a name stands for is there, with its complete content. -/
theorem C37_links_resolve_partial (fs : Fs) (h : Reach Good fs) (n d : Str) (hn : ValidName n) (hd : HexD d) (ha : Active fs n d) :
    ∃ c, Stored fs n d c ∧ Good n d c := h.inv.resolves n d hn hd ha

/-- **C36.** After a successful installation: the name of every installed artifact stands for the version just installed (and for that one only), other artifacts which the bundle
has an image of are unchanged, and the ones the bundle does not know are gone. -/
theorem C36_session (fs : Fs) (h : Reach Good fs) (E : SessionEnv) (keep : List Str) (plans : List Plan) (hS : SessionOk Good E plans fs)
    (hkeep : ∀ x ∈ plans, x.name ∈ keep) (hnodup : (plans.map (·.name)).Nodup) (hne : plans ≠ [])
    (hok : (session E [[]] [] keep plans fs).ok = true) :
    (∀ x ∈ plans, ∀ d, HexD d → (Active (session E [[]] [] keep plans fs).final x.name d ↔ d = x.digest)) ∧
    (∀ n d, ValidName n → HexD d → (∀ x ∈ plans, x.name ≠ n) →
      (Active (session E [[]] [] keep plans fs).final n d ↔ n ∈ keep ∧ Active fs n d)) := by
  have key := (session_spec E keep plans fs h.inv hS).2 hok hkeep
  constructor
  · intro x hx d hd
    rw [key x.name d (hS.plans x hx).1 hd]
    have : lastPlan plans x.name = some x := by
      unfold lastPlan
      cases hf : plans.reverse.find? (fun y => y.name = x.name) with
      | none =>
        have := List.find?_eq_none.1 hf x (by simpa using hx)
        simp at this
      | some y =>
        have h1 := List.find?_some hf
        have h2 := List.mem_of_find?_eq_some hf
        simp only [decide_eq_true_eq] at h1
        simp only [List.mem_reverse] at h2
        have : y = x := by
          clear key hf hok hS hkeep hne
          induction plans with
          | nil => cases hx
          | cons z l ih =>
            simp only [List.map_cons, List.nodup_cons] at hnodup
            rcases List.mem_cons.1 hx with rfl | hx' <;> rcases List.mem_cons.1 h2 with rfl | h2'
            · rfl
            · exact absurd (List.mem_map.2 ⟨y, h2', h1⟩) hnodup.1
            · exact absurd (show y.name ∈ l.map (·.name) from List.mem_map.2 ⟨x, hx', h1.symm⟩) hnodup.1
            · exact ih hnodup.2 hx' h2'
        rw [this]
    rw [this]
  · intro n d hn hd hno
    rw [key n d hn hd]
    have : lastPlan plans n = none := by
      unfold lastPlan
      rw [List.find?_eq_none]
      intro y hy
      simpa using hno y (by simpa using hy)
    rw [this]
    simp [hne]

/-! ## Pruning any repository -/

theorem parseTarget_targetOf (p n d : Str) (hd : HexD d) : parseTarget p (targetOf p n d) = some (n, d) := by
  unfold parseTarget targetOf
  rw [if_pos (by rw [List.isPrefixOf_iff_prefix]; exact ⟨_, rfl⟩), List.drop_left]
  exact (parseEntry_iff _ _ _).2 ⟨rfl, hd⟩

/-- all artifacts with this name and digest in the table have a reference -/
def HasRef (repo : Repo) (n d : Str) : Prop := ∀ a ∈ repo, a.name = n → a.digest = d → a.refs ≠ []

theorem readLink_hasRef {fs : Fs} {p : Str} {repo : Repo} {x n d : Str} (h : HasRef repo n d) : HasRef (readLink fs p repo x) n d := by
  unfold readLink
  split
  · exact h
  · split
    · split
      · exact h
      · intro a ha h1 h2
        unfold addRef at ha
        obtain ⟨b, hb, rfl⟩ := List.mem_map.1 ha
        split at h1 <;> rename_i hc
        · rw [if_pos hc]; simp
        · rw [if_neg hc] at h2 ⊢; exact h b hb h1 h2
    · exact h

theorem readLink_adds {fs : Fs} {p : Str} {repo : Repo} {x n d : Str} (hd : HexD d) (hh : x.head? ≠ some '.') 
    (hx : fs p x = some (.link (targetOf p n d))) : HasRef (readLink fs p repo x) n d := by
  unfold readLink
  rw [if_neg hh, hx]
  simp only [parseTarget_targetOf p n d hd]
  intro a ha h1 h2
  unfold addRef at ha
  obtain ⟨b, hb, rfl⟩ := List.mem_map.1 ha
  split at h1 <;> rename_i hc
  · rw [if_pos hc]; simp
  · rw [if_neg hc] at h2; exact absurd ⟨h1, h2⟩ hc

theorem readLinks_hasRef {fs : Fs} {p : Str} (l : List Str) : ∀ {repo : Repo} {n d : Str}, HasRef repo n d → HasRef (l.foldl (readLink fs p) repo) n d := by
  induction l with
  | nil => intro repo n d h; exact h
  | cons x l ih => intro repo n d h; exact ih (readLink_hasRef h)

theorem readLinks_adds {fs : Fs} {p : Str} (l : List Str) : ∀ {repo : Repo} {x n d : Str}, x ∈ l → HexD d → x.head? ≠ some '.' →
    fs p x = some (.link (targetOf p n d)) → HasRef (l.foldl (readLink fs p) repo) n d := by
  induction l with
  | nil => intro repo x n d h; cases h
  | cons y l ih =>
    intro repo x n d h hd hh hx
    rcases List.mem_cons.1 h with rfl | h
    · exact readLinks_hasRef l (readLink_adds hd hh hx)
    · exact ih h hd hh hx

theorem prepare_hasRef {ls : Str → List Str} {parents : List Str} {fs : Fs} {repo : Repo} (h : prepare ls parents fs = some repo) {p x n d : Str}
    (hp : p ∈ parents) (hx : x ∈ ls p) (hd : HexD d) (hh : x.head? ≠ some '.') (hl : fs p x = some (.link (targetOf p n d))) : HasRef repo n d := by
  unfold prepare at h
  split at h
  · cases h
  · have h' := (Option.some.inj h).symm
    rw [h']
    clear h h'
    generalize (((ls []).filterMap parseEntry).map (fun nd => (⟨nd.1, nd.2, []⟩ : Artifact))) = base
    induction parents generalizing base with
    | nil => cases hp
    | cons q l ih =>
      rw [List.foldl_cons]
      rcases List.mem_cons.1 hp with rfl | hp
      · have h0 : HasRef ((ls p).foldl (readLink fs p) base) n d := readLinks_adds _ hx hd hh hl
        generalize (ls p).foldl (readLink fs p) base = b at h0
        clear hx hl ih
        induction l generalizing b with
        | nil => exact h0
        | cons q l ih => rw [List.foldl_cons]; exact ih (by simp) _ (readLinks_hasRef _ h0)
      · exact ih hp _

/-- what is true for the states of a removal holds for the states and the result of any of the loops -/
theorem rmTree_all (P : Fs → Prop) (E : PruneEnv) (p x : Str) (fs : Fs) (h0 : P fs) (h1 : ∀ y, (∀ t, y ≠ some (.link t)) → P (fs.set p x y)) :
    (∀ s ∈ (rmTree E p x fs).states, P s) ∧ P (rmTree E p x fs).final := by
  have hlist : ∀ s ∈ fs :: (E.rmPartials p x).map (fun c => fs.set p x (some (.file c))), P s := by
    intro s hs
    simp only [List.mem_cons, List.mem_map] at hs
    rcases hs with rfl | ⟨c, _, rfl⟩
    · exact h0
    · exact h1 _ (by simp)
  unfold rmTree
  simp only
  split
  · refine ⟨?_, h1 none (by simp)⟩
    intro s hs
    simp only [List.mem_append, List.mem_singleton] at hs
    rcases hs with hs | rfl
    · exact hlist s hs
    · exact h1 none (by simp)
  · refine ⟨hlist, ?_⟩
    simp only
    cases hg : (fs :: (E.rmPartials p x).map (fun c => fs.set p x (some (.file c)))).getLast? with
    | none => simp at hg
    | some s => exact hlist s (List.mem_of_getLast? hg)

theorem bind_all (P : Fs → Prop) {r : Run} {k : Fs → Run} (h : (∀ s ∈ r.states, P s) ∧ P r.final) 
    (h' : P r.final → (∀ s ∈ (k r.final).states, P s) ∧ P (k r.final).final) :
    (∀ s ∈ (r.bind k).states, P s) ∧ P (r.bind k).final := by
  refine ⟨?_, ?_⟩
  · intro s hs
    rcases mem_bind hs with hs | ⟨_, hs⟩
    · exact h.1 s hs
    · exact (h' h.2).1 s hs
  · unfold Run.bind
    split
    · exact (h' h.2).2
    · exact h.2

theorem pure_all (P : Fs → Prop) {fs : Fs} {b : Bool} (h : P fs) : (∀ s ∈ (Run.pure fs b).states, P s) ∧ P (Run.pure fs b).final :=
  ⟨fun s hs => by simp [Run.pure] at hs; subst hs; exact h, h⟩

/-- **C37, partial** (digests in lower case). Pruning any repository (with or without parents, in whatever state the directories are), at any point: an artifact that is referred to by a link of one of the parents, or is in use,
keeps its data; and no link and no directory of a parent is removed. -/
theorem C37_prune_partial (ls : Str → List Str) (parents : List Str) (fs : Fs) (repo : Repo) (E : PruneEnv) (n d : Str) 
    (hpar : parents = [[]] ∨ [] ∉ parents) (hprep : prepare ls parents fs = some repo) (hd : HexD d)
    (hneed : (∃ p ∈ parents, ∃ x ∈ ls p, x.head? ≠ some '.' ∧ fs p x = some (.link (targetOf p n d))) ∨ E.check n d ≠ .closed) :
    ∀ s ∈ (prune E parents repo fs).states,
      s [] (entryName n d) = fs [] (entryName n d) ∧
      (∀ p ∈ parents, ∀ x t, (p = [] → parseEntry x = none) → fs p x = some (.link t) → s p x = some (.link t)) ∧
      (∀ p ∈ parents, p ≠ [] → parseEntry p = none → fs [] p = some .dir → s [] p = some .dir) := by
  have hnoent : ∀ x ∈ ls [], ∀ t, (parseEntry x).isSome = true → fs [] x ≠ some (.link t) := by
    intro x hx t hp ht
    unfold prepare at hprep
    split at hprep
    · cases hprep
    · rename_i hany
      apply hany
      rw [List.any_eq_true]
      refine ⟨x, hx, ?_⟩
      rw [ht]; simp [hp]
  have hrepo : ∀ a ∈ repo, HexD a.digest := by
    have step : ∀ (l : List Str) (p : Str) (b : Repo), (∀ a ∈ b, HexD a.digest) → ∀ a ∈ l.foldl (readLink fs p) b, HexD a.digest := by
      intro l p
      induction l with
      | nil => intro b h; exact h
      | cons x l ih =>
        intro b h
        apply ih
        unfold readLink
        split
        · exact h
        · split
          · split
            · exact h
            · intro a ha
              unfold addRef at ha
              obtain ⟨c, hc, rfl⟩ := List.mem_map.1 ha
              split <;> exact h c hc
          · exact h
    have all : ∀ (ps : List Str) (b : Repo), (∀ a ∈ b, HexD a.digest) → ∀ a ∈ ps.foldl (fun r p => (ls p).foldl (readLink fs p) r) b, HexD a.digest := by
      intro ps
      induction ps with
      | nil => intro b h; exact h
      | cons p ps ih => intro b h; exact ih _ (step _ _ _ h)
    unfold prepare at hprep
    split at hprep
    · cases hprep
    · have h' := (Option.some.inj hprep).symm
      rw [h']
      apply all
      intro a ha
      simp only [List.mem_map, List.mem_filterMap] at ha
      obtain ⟨nd, ⟨x, _, hx⟩, rfl⟩ := ha
      exact HexD.of_parse hx
  have hkeep : ∀ a ∈ repo, a.name = n → a.digest = d → a.refs ≠ [] ∨ E.check a.name a.digest ≠ .closed := by
    intro a ha h1 h2
    rcases hneed with ⟨p, hp, x, hx, hh, hl⟩ | h
    · exact Or.inl (prepare_hasRef hprep hp hx hd hh hl a ha h1 h2)
    · right; rw [h1, h2]; exact h
  -- what stays true
  let P : Fs → Prop := fun s => s [] (entryName n d) = fs [] (entryName n d) ∧
      (∀ p ∈ parents, ∀ x t, (p = [] → parseEntry x = none) → fs p x = some (.link t) → s p x = some (.link t)) ∧
      (∀ p ∈ parents, p ≠ [] → parseEntry p = none → fs [] p = some .dir → s [] p = some .dir)
  have hset : ∀ (s : Fs) (p x : Str) (y : Option Node), P s → (p = [] → x ≠ entryName n d) →
      (p ∈ parents → (p = [] → parseEntry x = none) → ∀ t, s p x ≠ some (.link t)) →
      (p = [] → x ∈ parents → x ≠ [] → parseEntry x = none → s [] x ≠ some .dir) → P (s.set p x y) := by
    intro s p x y h h1 h2 h3
    refine ⟨?_, ?_, ?_⟩
    · rw [← h.1]
      unfold Fs.set Fs.upd
      split
      · rename_i e; subst e; rw [set_other (fun e => h1 rfl e.symm)]
      · rfl
    · intro q hq z t hqz hz
      have := h.2.1 q hq z t hqz hz
      unfold Fs.set Fs.upd
      split
      · rename_i e
        subst e
        by_cases hzx : z = x
        · subst hzx; exact absurd this (h2 hq hqz t)
        · rw [set_other hzx]; exact this
      · exact this
    · intro q hq hq0 hqp hz
      have := h.2.2 q hq hq0 hqp hz
      unfold Fs.set Fs.upd
      split
      · rename_i e
        subst e
        by_cases hzx : q = x
        · subst hzx; exact absurd this (h3 rfl hq hq0 hqp)
        · rw [set_other hzx]; exact this
      · exact this
  have hsub : ∀ p, p ≠ [] → ∀ (l : List Str) (s : Fs), P s → (∀ s' ∈ (pruneSub E p l s).states, P s') ∧ P (pruneSub E p l s).final := by
    intro p hp l
    induction l with
    | nil => intro s h; exact pure_all P h
    | cons x l ih =>
      intro s h
      unfold pruneSub
      have hrm : (∀ t, s p x ≠ some (.link t)) → (∀ s' ∈ ((rmTree E p x s).bind (pruneSub E p l)).states, P s') ∧ P ((rmTree E p x s).bind (pruneSub E p l)).final := by
        intro hnl
        refine bind_all P (rmTree_all P E p x s h ?_) (ih _)
        intro y _
        exact hset s p x y h (fun e => absurd e hp) (fun _ _ => hnl) (fun e => absurd e hp)
      cases hx : s p x with
      | none => exact ih s h
      | some y =>
        cases y with
        | link t => exact ih s h
        | file c => exact hrm (by rw [hx]; simp)
        | dir => exact hrm (by rw [hx]; simp)
  have hsubs : ∀ (l : List Str) (s : Fs), P s → (∀ s' ∈ (pruneSubs E l s).states, P s') ∧ P (pruneSubs E l s).final := by
    intro l
    induction l with
    | nil => intro s h; exact pure_all P h
    | cons p l ih =>
      intro s h
      unfold pruneSubs
      refine bind_all P ?_ (ih _)
      split
      · exact pure_all P h
      · rename_i hp; exact hsub p hp _ s h
  have hroot : ∀ (l : List Str) (s : Fs), P s → (∀ s' ∈ (pruneRoot E parents l s).states, P s') ∧ P (pruneRoot E parents l s).final := by
    intro l
    induction l with
    | nil => intro s h; exact pure_all P h
    | cons x l ih =>
      intro s h
      unfold pruneRoot
      split
      · exact ih s h
      · rename_i hc
        simp only [Bool.or_eq_true, not_or, Bool.not_eq_true, Option.isSome_eq_false_iff, Option.isNone_iff_eq_none] at hc
        refine bind_all P (rmTree_all P E [] x s h ?_) (ih _)
        intro y _
        refine hset s [] x y h ?_ ?_ ?_
        · intro _ e
          have := hc.1.1
          rw [e, (parseEntry_iff _ n d).2 ⟨rfl, hd⟩] at this
          cases this
        · intro hin _ t ht
          have hpe : parents = [[]] := by
            rcases hpar with h | h
            · exact h
            · exact absurd hin h
          have := hc.1.2
          unfold expected at this
          rw [if_pos hpe, ht] at this
          cases this
        · intro _ hin hne _ hdir
          have := hc.1.2
          unfold expected at this
          split at this
          · rename_i hpe
            rw [hpe] at hin
            simp only [List.mem_singleton] at hin
            exact hne hin
          · rw [hdir] at this
            simp [hin] at this
  have hunused : ∀ (l : Repo) (s : Fs), (∀ a ∈ l, a ∈ repo) → P s → (∀ s' ∈ (pruneUnused E l s).states, P s') ∧ P (pruneUnused E l s).final := by
    intro l
    induction l with
    | nil => intro s _ h; exact pure_all P h
    | cons a l ih =>
      intro s hl h
      have hl' : ∀ b ∈ l, b ∈ repo := fun b hb => hl b (List.mem_cons_of_mem _ hb)
      unfold pruneUnused
      split
      · exact ih s hl' h
      · rename_i hr
        cases hc : E.check a.name a.digest with
        | opened => exact ih s hl' h
        | error => exact pure_all P h
        | closed =>
          simp only
          refine bind_all P (rmTree_all P E [] _ s h ?_) (ih _ hl')
          intro y _
          have hpa := (parseEntry_iff _ a.name a.digest).2 ⟨rfl, hrepo a (hl a (by simp))⟩
          refine hset s [] _ y h ?_ ?_ ?_
          · intro _ e
            obtain ⟨h1, h2⟩ := entryName_inj (hrepo a (hl a (by simp))) hd e
            rcases hkeep a (hl a (by simp)) h1 h2 with h3 | h3
            · exact hr h3
            · exact h3 hc
          · intro _ hno
            rw [hno rfl] at hpa; cases hpa
          · intro _ _ _ hno
            rw [hno] at hpa; cases hpa
  have h0 : P fs := ⟨rfl, fun _ _ _ _ _ h => h, fun _ _ _ _ h => h⟩
  unfold prune
  exact (bind_all P (hsubs parents fs h0) (fun h1 => bind_all P (hroot (E.ls []) _ h1) (fun h2 => hunused repo _ (fun _ h => h) h2))).1

/-- **C37, partial** (digests in lower case). A successful pruning of a repository removes every artifact that nothing refers to and that is not in use, and everything else that does not belong there. -/
theorem C37_prune_complete_partial (fs : Fs) (h : Reach Good fs) (ls : Str → List Str) (hls : Lists (ls []) (fs [])) (repo : Repo)
    (hprep : prepare ls [[]] fs = some repo) (E : PruneEnv) (hE : Lists (E.ls []) (fs [])) (hok : (prune E [[]] repo fs).ok = true) :
    (∀ n d, HexD d → E.check n d = .closed → (∀ x, x.head? ≠ some '.' → fs [] x ≠ some (.link (entryName n d))) →
      (prune E [[]] repo fs).final [] (entryName n d) = none) ∧
    (∀ x, parseEntry x = none → (∀ t, fs [] x ≠ some (.link t)) → (prune E [[]] repo fs).final [] x = none) := by
  obtain ⟨k1, k2, k3, k4, k5, k6, k7, _⟩ := prepare_spec ls fs repo h.inv hls hprep
  obtain ⟨_, _, p3⟩ := prune_spec E repo fs (by
    intro a ha t ht
    obtain ⟨c, hc⟩ := k3 a ha
    rw [hc] at ht; cases ht)
  obtain ⟨g1, g2, g3⟩ := p3 hok
  constructor
  · intro n d hd hc hno
    by_cases hx : fs [] (entryName n d) = none
    · rcases g1 (entryName n d) with e | e
      · rw [e]; exact hx
      · exact e
    · obtain ⟨a, ha, rfl, rfl⟩ := k5 n d hd hx
      refine (g3 a ha ?_).2 hc
      apply Decidable.not_not.1
      intro hr
      have hv := (k2 a ha).1
      rcases k6 a ha hr with e | e
      · exact hno _ hv.head e
      · exact hno _ (by rw [tmpName_head hv.1]; exact hv.head) e
  · intro x hp hl
    by_cases hx : fs [] x = none
    · rcases g1 x with e | e
      · rw [e]; exact hx
      · exact e
    · exact g2 x ((hE.2 x).2 hx) hp hl

/-! ## Any repository: activating and committing -/

/-- **C36.** Activating an artifact for a parent changes the references of that parent to the artifact's name only; afterwards that parent refers to it, and to no other version
(provided there were no repeated references, see `C36_finding_alias`). -/
theorem C36_activate (repo : Repo) (n d p : Str) (hcount : ∀ a ∈ repo, a.refs.count p ≤ 1) :
    (activate repo n d p).map (fun a => (a.name, a.digest)) = repo.map (fun a => (a.name, a.digest)) ∧
    (∀ a ∈ activate repo n d p, a.name = n → (p ∈ a.refs ↔ a.digest = d)) ∧
    (∀ q, q ≠ p → (activate repo n d p).map (fun a => (a.name, a.digest, a.refs.count q)) = repo.map (fun a => (a.name, a.digest, a.refs.count q))) ∧
    (∀ q, (activate (repo.filter (·.name ≠ n)) n d p).map (fun a => (a.name, a.digest, a.refs.count q)) =
      (repo.filter (·.name ≠ n)).map (fun a => (a.name, a.digest, a.refs.count q))) := by
  refine ⟨?_, ?_, ?_, ?_⟩
  · unfold activate
    rw [List.map_map]
    apply List.map_congr_left
    intro a _
    simp only [Function.comp, deactivate]
    split
    · rfl
    · split
      · rfl
      · split <;> rfl
  · intro a ha hn
    unfold activate at ha
    obtain ⟨b, hb, rfl⟩ := List.mem_map.1 ha
    have hc := hcount b hb
    by_cases h1 : b.name = n
    · by_cases h2 : b.digest = d
      · simp only [h1, h2, ne_eq, not_true_eq_false, if_false]
        by_cases h3 : p ∈ b.refs
        · rw [if_pos h3]; simp [h3, h2]
        · rw [if_neg h3]; simp [h2]
      · simp only [h1, h2, ne_eq, not_true_eq_false, if_false, not_false_eq_true, if_true, deactivate, iff_false]
        intro hm
        have := List.count_erase_self (a := p) (l := b.refs)
        have h4 : 0 < (b.refs.erase p).count p := List.count_pos_iff.2 hm
        omega
    · rw [if_pos h1] at hn
      exact absurd hn h1
  · intro q hq
    unfold activate
    rw [List.map_map]
    apply List.map_congr_left
    intro a _
    simp only [Function.comp, deactivate]
    split
    · rfl
    · split
      · simp [List.count_erase_of_ne hq]
      · split
        · rfl
        · have : List.count q [p] = 0 := by
            rw [List.count_eq_zero]; simpa using hq
          simp [List.count_append, this]
  · intro q
    unfold activate
    rw [List.map_map]
    apply List.map_congr_left
    intro a ha
    have : a.name ≠ n := by simpa using (List.mem_filter.1 ha).2
    simp [Function.comp, this]

theorem commitOne_final (E : CommitEnv) (repo : Repo) (p n : Str) (fs : Fs) (hok : (commitOne E repo p n fs).ok = true) :
    (commitOne E repo p n fs).final p n = (chosen repo p n).map (fun a => .link (targetOf p a.name a.digest)) ∧
    ∀ q m, (q ≠ p ∨ m ≠ n) → (commitOne E repo p n fs).final q m = fs q m := by
  unfold commitOne at hok ⊢
  cases hc : chosen repo p n with
  | some a =>
    simp only [hc] at hok ⊢
    obtain ⟨_, l, hl, h2⟩ := updateSymlink_states (E.link p n) (fs p) (targetOf p a.name a.digest) n
    rw [hl]
    simp only [Option.getD_some, Option.map_some]
    refine ⟨?_, ?_⟩
    · rw [upd_same]
      rcases h2 hok with ⟨h3, rfl⟩ | ⟨_, _, rfl⟩
      · exact h3
      · exact set_same _ _ _
    · intro q m hqm
      by_cases hq : q = p
      · subst hq
        rw [upd_same]
        have hm : m ≠ n := by rcases hqm with h | h; exact absurd rfl h; exact h
        rcases h2 hok with ⟨_, rfl⟩ | ⟨_, _, rfl⟩
        · rfl
        · exact set_other hm
      · simp [Fs.upd, hq]
  | none =>
    simp only [hc, Option.map_none] at hok ⊢
    have hset : (fs.set p n none) p n = none ∧ ∀ q m, (q ≠ p ∨ m ≠ n) → (fs.set p n none) q m = fs q m := by
      refine ⟨by rw [fset_same, set_same], ?_⟩
      intro q m hqm
      by_cases hq : q = p
      · subst hq
        have hm : m ≠ n := by rcases hqm with h | h; exact absurd rfl h; exact h
        rw [fset_same, set_other hm]
      · simp [Fs.set, Fs.upd, hq]
    cases hx : fs p n with
    | none => exact ⟨hx, fun _ _ _ => rfl⟩
    | some y =>
      cases y with
      | dir => simp [hx, Run.pure] at hok
      | link t =>
        simp only [hx] at hok ⊢
        split at hok
        · rename_i hu; rw [if_pos hu]; exact hset
        · simp [Run.pure] at hok
      | file c =>
        simp only [hx] at hok ⊢
        split at hok
        · rename_i hu; rw [if_pos hu]; exact hset
        · simp [Run.pure] at hok

theorem commitNames_final (E : CommitEnv) (repo : Repo) (p : Str) (l : List Str) : ∀ fs : Fs, (commitNames E repo p l fs).ok = true →
    (∀ n ∈ l, (commitNames E repo p l fs).final p n = (chosen repo p n).map (fun a => .link (targetOf p a.name a.digest))) ∧
    ∀ q m, (q ≠ p ∨ m ∉ l) → (commitNames E repo p l fs).final q m = fs q m := by
  induction l with
  | nil => intro fs _; exact ⟨by simp, fun _ _ _ => rfl⟩
  | cons n l ih =>
    intro fs hok
    unfold commitNames at hok ⊢
    obtain ⟨h1, h2, h3⟩ := bind_ok hok
    rw [h3]
    obtain ⟨i1, i2⟩ := ih _ h2
    obtain ⟨j1, j2⟩ := commitOne_final E repo p n fs h1
    refine ⟨?_, ?_⟩
    · intro m hm
      by_cases hml : m ∈ l
      · exact i1 m hml
      · have : m = n := by simpa [hml] using hm
        subst this
        rw [i2 p m (Or.inr hml)]; exact j1
    · intro q m hqm
      by_cases hq : q = p
      · subst hq
        have hm : m ∉ n :: l := by rcases hqm with h | h; exact absurd rfl h; exact h
        simp only [List.mem_cons, not_or] at hm
        rw [i2 _ _ (Or.inr hm.2), j2 _ _ (Or.inr hm.1)]
      · rw [i2 _ _ (Or.inl hq), j2 _ _ (Or.inl hq)]

/-- **C36.** A successful commit, for any repository: every parent has, for every artifact name in the table, one link: to an artifact of this name which the parent refers to in the table; or no link if
there is none. Everything else, in particular the other parents' directories, is unchanged. -/
theorem C36_commit (E : CommitEnv) (parents : List Str) (repo : Repo) (fs : Fs) (hok : (commit E parents repo fs).ok = true) :
    (∀ p ∈ parents, ∀ n, (∃ a ∈ repo, a.name = n) →
      (∃ a ∈ repo, a.name = n ∧ p ∈ a.refs ∧ (commit E parents repo fs).final p n = some (.link (targetOf p n a.digest))) ∨
      ((∀ a ∈ repo, a.name = n → p ∉ a.refs) ∧ (commit E parents repo fs).final p n = none)) ∧
    (∀ p n, (p ∉ parents ∨ ∀ a ∈ repo, a.name ≠ n) → (commit E parents repo fs).final p n = fs p n) := by
  have key : ∀ (ps : List Str) (fs : Fs), (commitParents E repo ps fs).ok = true →
      (∀ p ∈ ps, ∀ n ∈ names repo, (commitParents E repo ps fs).final p n = (chosen repo p n).map (fun a => .link (targetOf p a.name a.digest))) ∧
      (∀ p n, (p ∉ ps ∨ n ∉ names repo) → (commitParents E repo ps fs).final p n = fs p n) := by
    intro ps
    induction ps with
    | nil => intro fs _; exact ⟨by simp, fun _ _ _ => rfl⟩
    | cons q ps ih =>
      intro fs hok
      unfold commitParents at hok ⊢
      obtain ⟨h1, h2, h3⟩ := bind_ok hok
      rw [h3]
      obtain ⟨i1, i2⟩ := ih _ h2
      obtain ⟨j1, j2⟩ := commitNames_final E repo q (names repo) fs h1
      refine ⟨?_, ?_⟩
      · intro p hp n hn
        by_cases hps : p ∈ ps
        · exact i1 p hps n hn
        · have : p = q := by simpa [hps] using hp
          subst this
          rw [i2 p n (Or.inl hps)]; exact j1 n hn
      · intro p n hpn
        rcases hpn with h | h
        · simp only [List.mem_cons, not_or] at h
          rw [i2 _ _ (Or.inl h.2), j2 _ _ (Or.inl h.1)]
        · rw [i2 _ _ (Or.inr h), j2 _ _ (Or.inr h)]
  obtain ⟨h1, h2⟩ := key parents fs hok
  refine ⟨?_, ?_⟩
  · intro p hp n hn
    have h3 := h1 p hp n (mem_names.2 hn)
    unfold commit
    cases hc : chosen repo p n with
    | none =>
      right
      rw [hc] at h3
      exact ⟨chosen_none hc, h3⟩
    | some a =>
      left
      obtain ⟨e1, e2, e3⟩ := chosen_some hc
      rw [hc] at h3
      refine ⟨a, e1, e2, e3, ?_⟩
      rw [h3, ← e2]; rfl
  · intro p n hpn
    apply h2
    rcases hpn with h | h
    · exact Or.inl h
    · right
      intro hn
      obtain ⟨a, ha, e⟩ := mem_names.1 hn
      exact h a ha e

/-! ## Findings -/

/-- an artifact can be switched to another version only if there is no temporary link -/
theorem plan_blocked (E : PlanEnv) (keep : List Str) (repo : Repo) (x : Plan) (fs : Fs) (hI : Inv Good (fs [])) (hM : Mem Good repo (fs []))
    (hL : Linked repo (fs [])) (hR : Reflected repo (fs [])) (hn : ValidName x.name) (hd : HexD x.digest) (hg : Good x.name x.digest x.content)
    (htmp : fs [] (tmpName x.name) ≠ none) (hna : ¬ Active fs x.name x.digest) : (installPlan E [[]] keep [] repo x fs).ok = false := by
  cases hok : (installPlan E [[]] keep [] repo x fs).ok with
  | false => rfl
  | true =>
    exfalso
    have hM1 : Mem Good (dropOld keep repo) (fs []) := dropOld_memory hM
    have hL1 : Linked (dropOld keep repo) (fs []) := dropOld_linked hL
    have hP1 : Pre (dropOld keep repo) (fs []) := by
      intro a ha hr
      rcases hL1 a ha hr with h | h
      · exact Or.inl h
      · exact Or.inr (Or.inl h)
    have hact := ((plan_spec E keep repo x fs hI hM hL hR hn hd hg).2 hok).2.2.2.2.1
    have e : installPlan E [[]] keep [] repo x fs = (commit E.commit1 [[]] (dropOld keep repo) fs).bind (fun fs1 =>
        (copyStep E (dropOld keep repo) x fs1).bind (fun fs2 => commit E.commit2 [[]] (planRepo keep [] repo x) fs2)) := rfl
    rw [e] at hok hact
    obtain ⟨hk, hk', hf⟩ := bind_ok hok
    obtain ⟨hk2, hk3, hf2⟩ := bind_ok hk'
    rw [hf, hf2] at hact
    have cs1 := (commit_spec E.commit1 (dropOld keep repo) fs hI hM1).2 hk
    have cm1 := commit_mem E.commit1 (dropOld keep repo) fs hI hM1 hP1 hk
    have cp := (copyStep_spec E (dropOld keep repo) x _ cs1.1 cm1.1 hn hd hg).2 hk2
    have cs2 := (commit_spec E.commit2 (planRepo keep [] repo x) _ cp.1 (by rw [planRepo_eq]; exact act_memory cp.2.1)).2 hk3
    have hin : x.name ∈ names (planRepo keep [] repo x) := by
      rw [planRepo_eq]
      obtain ⟨a, ha, h1, _⟩ := withNew_has (dropOld keep repo) x
      exact mem_names.2 ⟨_, List.mem_map.2 ⟨a, ha, rfl⟩, by rw [(act_key _ _ a).1, h1]⟩
    have hw := cs2.2.2 x.name hin
    unfold Active at hact
    rw [hw.1] at hact
    unfold wanted at hact
    cases hc : chosen (planRepo keep [] repo x) [] x.name with
    | none => rw [hc] at hact; cases hact
    | some a =>
      rw [hc] at hact
      simp only [Option.map_some, Option.some.injEq, Node.link.injEq] at hact
      have han := (chosen_some hc).2.1
      rcases hw.2 a hc with h | h
      · unfold Proper at h
        rw [han] at h
        rw [han] at hact
        rw [hact] at h
        rw [cp.2.2 _ (hn.ne_entry _ _)] at h
        have := (commit_active E.commit1 (dropOld keep repo) fs hI hM1 hP1 hk x.name x.digest hn hd (fun b hb _ => hL1 b hb)).1 h
        exact hna this.1
      · rw [cp.2.2 _ (hn.tmp_ne_entry _ _)] at h
        rw [cs1.2.1 _ (by
          intro hm
          obtain ⟨b, hb, hbn⟩ := mem_names.1 hm
          exact (hM1.valid b hb).1.ne_tmp _ hbn)] at h
        exact htmp h

/-- **C36, finding.** If an installation is interrupted while a link is being replaced, the temporary link stays; nothing removes it, and from then on every installation of another
version of this artifact fails. -/
theorem C36_finding_stale_link_blocks (fs : Fs) (h : Reach Good fs) (E : SessionEnv) (keep : List Str) (x : Plan) (hS : SessionOk Good E [x] fs) (t : Str)
    (htmp : fs [] (tmpName x.name) = some (.link t)) (hna : ¬ Active fs x.name x.digest) :
    (session E [[]] [] keep [x] fs).ok = false ∧
    ∀ s ∈ (session E [[]] [] keep [x] fs).states, s [] (tmpName x.name) = some (.link t) := by
  obtain ⟨hn, hd, hg⟩ := hS.plans x (by simp)
  have hI := h.inv
  unfold session
  cases hp : prepare E.ls [[]] fs with
  | none => exact ⟨rfl, fun s hs => by simp [Run.pure] at hs; subst hs; exact htmp⟩
  | some repo =>
    obtain ⟨k1, k2, k3, k4, k5, k6, k7, _⟩ := prepare_spec E.ls fs repo hI hS.lists hp
    obtain ⟨p1, p2, _⟩ := prune_spec E.prune1 repo fs (by
      intro a h t ht
      obtain ⟨c, hc⟩ := k3 a h
      rw [hc] at ht; cases ht)
    have hI1 := p2.inv hI k2 k7
    have st1 : ∀ s ∈ (prune E.prune1 [[]] repo fs).states, s [] (tmpName x.name) = some (.link t) := fun s hs => ((p1 s hs).link_iff _ _).2 htmp
    simp only
    cases hk : (prune E.prune1 [[]] repo fs).ok with
    | false => simp only [Bool.not_false, if_true]; exact ⟨hk, st1⟩
    | true =>
      simp only [Bool.not_true, Bool.false_eq_true, if_false]
      obtain ⟨m1, m2, m3⟩ := prune_mem E.prune1 repo fs hI k1 k2 k3 k4 k5 k6 k7 hS.opened hk
      have htmp1 := (p2.link_iff _ _).2 htmp
      have hb := plan_blocked (E.plans 0) keep (pruneRepo E.prune1 repo) x _ hI1 m1 m2 m3 hn hd hg (by rw [htmp1]; simp)
        (fun h => hna ((p2.link_iff _ _).1 h))
      unfold plansLoop
      simp only [hb, Bool.false_eq_true, if_false, Bool.not_false, if_true]
      refine ⟨trivial, ?_⟩
      intro s hs
      rcases List.mem_append.1 hs with hs | hs
      · exact st1 s hs
      · -- no state of the plan changes the temporary link
        have fr : ∀ (C : CommitEnv) (r : Repo) (f : Fs), (∀ a ∈ r, ValidName a.name) → f [] (tmpName x.name) = some (.link t) →
            (∀ s ∈ (commit C [[]] r f).states, s [] (tmpName x.name) = some (.link t)) ∧ (commit C [[]] r f).final [] (tmpName x.name) = some (.link t) := by
          intro C r f hv hf
          rw [commit_root]
          refine bind_all (fun s => s [] (tmpName x.name) = some (.link t)) ?_ (fun h => pure_all _ h)
          have hnames : ∀ n ∈ names r, ValidName n := by
            intro n hn
            obtain ⟨a, ha, rfl⟩ := mem_names.1 hn
            exact hv a ha
          revert hnames
          generalize names r = l
          intro hnames
          clear hk hb st1 hI1 m1 m2 m3 htmp1 p1 p2 hp
          induction l generalizing f with
          | nil => exact pure_all _ hf
          | cons n l ih =>
            unfold commitNames
            refine bind_all (fun s => s [] (tmpName x.name) = some (.link t)) ?_ (fun h => ih _ h (fun m hm => hnames m (List.mem_cons_of_mem _ hm)))
            have hn' := hnames n (by simp)
            have hno : tmpName x.name ≠ n := fun e => hn'.ne_tmp _ e.symm
            unfold commitOne
            cases hc : chosen r [] n with
            | none =>
              simp only
              have hset : (f.set [] n none) [] (tmpName x.name) = some (.link t) := by rw [fset_same, set_other hno]; exact hf
              have hif : ∀ b : Bool, (∀ s ∈ (if b = true then (⟨[f, f.set [] n none], f.set [] n none, true⟩ : Run) else Run.pure f false).states, s [] (tmpName x.name) = some (.link t)) ∧
                  (if b = true then (⟨[f, f.set [] n none], f.set [] n none, true⟩ : Run) else Run.pure f false).final [] (tmpName x.name) = some (.link t) := by
                intro b
                cases b with
                | false => exact pure_all (fun s => s [] (tmpName x.name) = some (.link t)) hf
                | true =>
                  simp only [if_true]
                  refine ⟨?_, hset⟩
                  intro s hs
                  simp only [List.mem_cons, List.not_mem_nil, or_false] at hs
                  rcases hs with rfl | rfl
                  · exact hf
                  · exact hset
              cases hx : f [] n with
              | none => exact pure_all (fun s => s [] (tmpName x.name) = some (.link t)) hf
              | some y =>
                cases y with
                | dir => exact pure_all (fun s => s [] (tmpName x.name) = some (.link t)) hf
                | link _ => exact hif _
                | file _ => exact hif _
            | some a =>
              simp only
              have han := (chosen_some hc).2.1
              have hst := (updateSymlink_states (C.link [] n) (f []) (targetOf [] a.name a.digest) n)
              have hall : ∀ D' ∈ (updateSymlink (C.link [] n) (f []) (targetOf [] a.name a.digest) n).1, D' (tmpName x.name) = some (.link t) := by
                intro D' hD
                rcases hst.1 D' hD with rfl | ⟨h0, _, rfl | rfl⟩
                · exact hf
                · have : tmpName x.name ≠ tmpName n := by intro e; rw [e, h0] at hf; cases hf
                  rw [set_other this]; exact hf
                · rw [set_other hno]; exact hf
              refine ⟨?_, ?_⟩
              · intro s hs
                obtain ⟨D', hD, rfl⟩ := List.mem_map.1 hs
                rw [upd_same]; exact hall D' hD
              · rw [upd_same]
                obtain ⟨l', hl, _⟩ := hst.2
                rw [hl]
                exact hall l' (List.mem_of_getLast? hl)
        have hv1 : ∀ a ∈ dropOld keep (pruneRepo E.prune1 repo), ValidName a.name := fun a ha => ((dropOld_memory m1).valid a ha).1
        have e : installPlan (E.plans 0) [[]] keep [] (pruneRepo E.prune1 repo) x (prune E.prune1 [[]] repo fs).final =
          (commit (E.plans 0).commit1 [[]] (dropOld keep (pruneRepo E.prune1 repo)) (prune E.prune1 [[]] repo fs).final).bind (fun fs1 =>
            (copyStep (E.plans 0) (dropOld keep (pruneRepo E.prune1 repo)) x fs1).bind
              (fun fs2 => commit (E.plans 0).commit2 [[]] (planRepo keep [] (pruneRepo E.prune1 repo) x) fs2)) := rfl
        rw [e] at hs
        have hcopy : ∀ f : Fs, f [] (tmpName x.name) = some (.link t) →
            (∀ s ∈ (copyStep (E.plans 0) (dropOld keep (pruneRepo E.prune1 repo)) x f).states, s [] (tmpName x.name) = some (.link t)) ∧
            (copyStep (E.plans 0) (dropOld keep (pruneRepo E.prune1 repo)) x f).final [] (tmpName x.name) = some (.link t) := by
          intro f hf
          have n1 : tmpName x.name ≠ tmpEntry x.name x.digest := by
            intro e
            have := congrArg List.head? e
            rw [tmpName_head hn.1, tmpEntry_head] at this
            exact hn.head this
          have n2 : tmpName x.name ≠ entryName x.name x.digest := hn.tmp_ne_entry _ _
          have s1 : ∀ (g : Fs) y, g [] (tmpName x.name) = some (.link t) → (g.set [] (tmpEntry x.name x.digest) y) [] (tmpName x.name) = some (.link t) := by
            intro g y hg; rw [fset_same, set_other n1]; exact hg
          have s2 : ∀ (g : Fs) y, g [] (tmpName x.name) = some (.link t) → (g.set [] (entryName x.name x.digest) y) [] (tmpName x.name) = some (.link t) := by
            intro g y hg; rw [fset_same, set_other n2]; exact hg
          unfold copyStep
          split
          · exact pure_all (fun s => s [] (tmpName x.name) = some (.link t)) hf
          · unfold installData
            split
            · exact pure_all (fun s => s [] (tmpName x.name) = some (.link t)) hf
            · have hpart : ∀ s ∈ f :: (E.plans 0).copy.partials.map (fun c => f.set [] (tmpEntry x.name x.digest) (some (.file c))), s [] (tmpName x.name) = some (.link t) := by
                intro s hs
                simp only [List.mem_cons, List.mem_map] at hs
                rcases hs with rfl | ⟨c, _, rfl⟩
                · exact hf
                · exact s1 f _ hf
              simp only
              split
              · refine ⟨hpart, ?_⟩
                simp only
                cases hg : (f :: (E.plans 0).copy.partials.map (fun c => f.set [] (tmpEntry x.name x.digest) (some (.file c)))).getLast? with
                | none => simp at hg
                | some s => exact hpart s (List.mem_of_getLast? hg)
              · split
                · refine ⟨?_, s1 f _ hf⟩
                  intro s hs
                  simp only [List.mem_append, List.mem_singleton] at hs
                  rcases hs with hs | rfl
                  · exact hpart s hs
                  · exact s1 f _ hf
                · refine ⟨?_, s2 _ _ (s1 _ _ (s1 f _ hf))⟩
                  intro s hs
                  simp only [List.mem_append, List.mem_cons, List.not_mem_nil, or_false] at hs
                  rcases hs with hs | rfl | rfl
                  · exact hpart s (by simpa using hs)
                  · exact s1 f _ hf
                  · exact s2 _ _ (s1 _ _ (s1 f _ hf))
        have hv2 : ∀ a ∈ planRepo keep [] (pruneRepo E.prune1 repo) x, ValidName a.name := by
          intro a ha
          rw [planRepo_eq] at ha
          obtain ⟨b, hb, rfl⟩ := List.mem_map.1 ha
          rw [(act_key _ _ b).1]
          rcases withNew_mem hb with hb | ⟨_, rfl⟩
          · exact hv1 b hb
          · exact hn
        exact (bind_all (fun s => s [] (tmpName x.name) = some (.link t)) (fr _ _ _ hv1 htmp1)
          (fun h1 => bind_all (fun s => s [] (tmpName x.name) = some (.link t)) (hcopy _ h1) (fun h2 => fr _ _ _ hv2 h2))).1 s hs

namespace Example

def env (check : Str → Str → OpenCheck) (l l2 : List Str) : SessionEnv :=
  { ls := fun _ => l
    prune1 := ⟨fun _ => l, check, fun _ _ => [], fun _ _ => true⟩
    plans := fun _ => ⟨⟨fun _ _ => {}, fun _ _ => true, true⟩, ⟨[[1]], true, true, true⟩, ⟨fun _ _ => {}, fun _ _ => true, true⟩⟩
    prune2 := ⟨fun _ => l2, check, fun _ _ => [], fun _ _ => true⟩ }

def noFs : Fs := fun _ _ => none

def good (_ d : Str) (c : Bytes) : Prop := (d = c!"ab" ∧ c = [1, 2]) ∨ (d = c!"cd" ∧ c = [3])

def first : Plan := ⟨c!"app", c!"ab", [1, 2]⟩
def second : Plan := ⟨c!"app", c!"cd", [3]⟩

def E1 : SessionEnv := env (fun _ _ => .closed) [] [c!"app", c!".artifact-app-ab"]
def fs1 : Fs := (session E1 [[]] [] [c!"app"] [first] noFs).final
def E2 : SessionEnv := env (fun _ _ => .closed) [c!"app", c!".artifact-app-ab"] [c!"app", c!".artifact-app-ab", c!".artifact-app-cd"]

theorem ok1 : SessionOk good E1 [first] noFs := by
  refine ⟨⟨by simp [E1, env], by simp [E1, env, noFs]⟩, ?_, ?_⟩
  · intro x hx
    simp only [List.mem_singleton] at hx
    subst hx
    exact ⟨⟨by decide, by decide, by decide⟩, ⟨by decide, by decide⟩, Or.inl ⟨rfl, rfl⟩⟩
  · intro n d c h; simp [E1, env] at h

set_option maxRecDepth 8000 in
theorem done1 : (session E1 [[]] [] [c!"app"] [first] noFs).ok = true ∧ Active fs1 c!"app" c!"ab" ∧ Stored fs1 c!"app" c!"ab" [1, 2] ∧ fs1 [] c!".artifact-app-ab.tmp" = none := by
  refine ⟨by decide, by unfold Active; decide, by unfold Stored; decide, by decide⟩

/-- the hypotheses can be met: an installation in an empty repository -/
theorem reach1 : Reach good fs1 := by
  refine Reach.step noFs E1 [c!"app"] [first] fs1 (Reach.empty _ (fun _ => rfl)) ok1 ?_
  have : (session E1 [[]] [] [c!"app"] [first] noFs).states.getLast? = some fs1 := rfl
  exact List.mem_of_getLast? this

set_option maxRecDepth 8000 in
/-- and then the installation of another version: the old one is pruned -/
theorem done2 : (session E2 [[]] [] [c!"app"] [second] fs1).ok = true ∧
    (session E2 [[]] [] [c!"app"] [second] fs1).final [] c!"app" = some (.link c!".artifact-app-cd") ∧
    (session E2 [[]] [] [c!"app"] [second] fs1).final [] c!".artifact-app-cd" = some (.file [3]) ∧
    (session E2 [[]] [] [c!"app"] [second] fs1).final [] c!".artifact-app-ab" = none := by
  refine ⟨by decide, by decide, by decide, by decide⟩

set_option maxRecDepth 8000 in
/-- interrupted while the link is replaced, the repository is left with a temporary link: the hypotheses of `C36_finding_stale_link_blocks` can be met -/
theorem stale_reached : ∃ s ∈ (session E2 [[]] [] [c!"app"] [second] fs1).states,
    s [] (tmpName c!"app") = some (.link c!".artifact-app-cd") ∧ s [] c!"app" = some (.link c!".artifact-app-ab") := by
  refine ⟨(session E2 [[]] [] [c!"app"] [second] fs1).states[12]'(by decide), List.getElem_mem _, by decide, by decide⟩

/-- **C37, finding.** The manifest check accepts digests in upper case (manifest.c:615-634), but the name of such an artifact does not match the pattern for artifacts (artifacts.c:374-379):
the pruning at the end of the installation removes the data just installed and activated, and the installation is reported as successful. -/
def upper : Plan := ⟨c!"app", c!"AB", [1, 2]⟩
def E3 : SessionEnv := env (fun _ _ => .closed) [] [c!"app", c!".artifact-app-AB"]

set_option maxRecDepth 8000 in
theorem C37_finding_uppercase : (session E3 [[]] [] [c!"app"] [upper] noFs).ok = true ∧
    (session E3 [[]] [] [c!"app"] [upper] noFs).final [] c!"app" = some (.link c!".artifact-app-AB") ∧
    (session E3 [[]] [] [c!"app"] [upper] noFs).final [] c!".artifact-app-AB" = none := by
  refine ⟨by decide, by decide, by decide⟩

/-- **C36, finding.** With a second link to the same artifact (under another name), one of the two references remains when the artifact is deactivated: then two versions are referenced, and which of them the
link will refer to depends on the order of the table. -/
theorem C36_finding_alias : activate [⟨c!"app", c!"ab", [[], []]⟩, ⟨c!"app", c!"cd", []⟩] c!"app" c!"cd" [] = [⟨c!"app", c!"ab", [[]]⟩, ⟨c!"app", c!"cd", [[]]⟩] ∧
    (chosen (activate [⟨c!"app", c!"ab", [[], []]⟩, ⟨c!"app", c!"cd", []⟩] c!"app" c!"cd" []) [] c!"app").map (·.digest) = some c!"ab" := by decide

/-- a repository with two parents: activating for one leaves the other alone -/
example : activate [⟨c!"app", c!"ab", [c!"rootfs.0", c!"rootfs.1"]⟩, ⟨c!"app", c!"cd", []⟩] c!"app" c!"cd" c!"rootfs.0" =
    [⟨c!"app", c!"ab", [c!"rootfs.1"]⟩, ⟨c!"app", c!"cd", [c!"rootfs.0"]⟩] := by decide

end Example

end Rauc.Artifacts
