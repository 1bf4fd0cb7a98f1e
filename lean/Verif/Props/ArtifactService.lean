import Verif.Model.ArtifactService
import Verif.Props.ArtifactsSession

/-!
# C89 — the artifact status of the service is true, and asking for it is safe
-/

namespace Rauc.ArtifactService

open Artifacts
open Utils (Node Dir tmpName updateSymlink)

/-! ## Specification -/

/-- the answer lists this artifact -/
def Listed (t : Repo) (n d : Str) : Prop := ∃ a ∈ t, a.name = n ∧ a.digest = d

/-- the answer says that this artifact is in use -/
def InUse (t : Repo) (n d : Str) : Prop := ∃ a ∈ t, a.name = n ∧ a.digest = d ∧ a.refs ≠ []

/-- a temporary link an interrupted installation left behind -/
def Leftover (fs : Fs) (n d : Str) : Prop := fs [] (tmpName n) = some (.link (entryName n d))

/-- The answer is what is in the directory. -/
structure True_ (t : Repo) (fs : Fs) : Prop where
  listed : ∀ n d, HexD d → (Listed t n d ↔ ∃ c, Stored fs n d c)
  inUse : ∀ n d, ValidName n → HexD d → Active fs n d → InUse t n d
  active : ∀ n d, HexD d → InUse t n d → Active fs n d ∨ Leftover fs n d

/-- nothing is assumed about the content -/
abbrev any : Str → Str → Bytes → Prop := fun _ _ _ => True

/-- The repository's directory is listed correctly each time it is read, and can be opened; the images are for artifacts with proper names and digests. -/
def Fair : St → List Op → Prop
  | _, [] => True
  | s, .status :: l => Fair (step s .status) l
  | s, .install i :: l => i.init.dirOk = true ∧ Lists (i.init.ls []) (s.fs []) ∧ (∀ x ∈ i.plans, ValidName x.name ∧ HexD x.digest) ∧ Fair (step s (.install i)) l

/-! ## The last state is one of the states -/

def Closed (r : Run) : Prop := r.final ∈ r.states

theorem closed_pure (fs : Fs) (b : Bool) : Closed (Run.pure fs b) := by simp [Closed, Run.pure]

theorem closed_bind {r : Run} {k : Fs → Run} (h : Closed r) (hk : Closed (k r.final)) : Closed (r.bind k) := by
  unfold Closed Run.bind at *
  split
  · exact List.mem_append_right _ hk
  · exact h

theorem closed_last {fs : Fs} {l : List Fs} {b : Bool} : Closed ⟨fs :: l, (fs :: l).getLast?.getD fs, b⟩ := by
  unfold Closed
  simp only [List.getLast?_eq_some_getLast (List.cons_ne_nil fs l), Option.getD_some]
  exact List.getLast_mem _

theorem closed_rmTree (E : PruneEnv) (p n : Str) (fs : Fs) : Closed (rmTree E p n fs) := by
  unfold rmTree
  dsimp only
  split
  · simp [Closed]
  · exact closed_last

theorem closed_pruneSub (E : PruneEnv) (p : Str) (l : List Str) : ∀ fs, Closed (pruneSub E p l fs) := by
  induction l with
  | nil => exact fun fs => closed_pure _ _
  | cons n l ih =>
    intro fs
    unfold pruneSub
    split
    · exact ih _
    · exact ih _
    · exact closed_bind (closed_rmTree _ _ _ _) (ih _)

theorem closed_pruneSubs (E : PruneEnv) (l : List Str) : ∀ fs, Closed (pruneSubs E l fs) := by
  induction l with
  | nil => exact fun fs => closed_pure _ _
  | cons p l ih =>
    intro fs
    unfold pruneSubs
    refine closed_bind ?_ (ih _)
    split
    · exact closed_pure _ _
    · exact closed_pruneSub _ _ _ _

theorem closed_pruneRoot (E : PruneEnv) (ps l : List Str) : ∀ fs, Closed (pruneRoot E ps l fs) := by
  induction l with
  | nil => exact fun fs => closed_pure _ _
  | cons n l ih =>
    intro fs
    unfold pruneRoot
    split
    · exact ih _
    · exact closed_bind (closed_rmTree _ _ _ _) (ih _)

theorem closed_pruneUnused (E : PruneEnv) (l : Repo) : ∀ fs, Closed (pruneUnused E l fs) := by
  induction l with
  | nil => exact fun fs => closed_pure _ _
  | cons a l ih =>
    intro fs
    unfold pruneUnused
    split
    · exact ih _
    · split
      · exact ih _
      · exact closed_pure _ _
      · exact closed_bind (closed_rmTree _ _ _ _) (ih _)

theorem closed_prune (E : PruneEnv) (ps : List Str) (repo : Repo) (fs : Fs) : Closed (prune E ps repo fs) :=
  closed_bind (closed_pruneSubs _ _ _) (closed_bind (closed_pruneRoot _ _ _ _) (closed_pruneUnused _ _ _))

theorem symlink_cons (E : Utils.LinkEnv) (d : Dir) (t n : Str) : ∃ l, (updateSymlink E d t n).1 = d :: l := by
  unfold updateSymlink updateSymlink.replaceLink
  (repeat' split) <;> exact ⟨_, rfl⟩

theorem closed_commitOne (E : CommitEnv) (repo : Repo) (p n : Str) (fs : Fs) : Closed (commitOne E repo p n fs) := by
  unfold commitOne
  split
  · rename_i a _
    obtain ⟨l, hl⟩ := symlink_cons (E.link p n) (fs p) (targetOf p a.name a.digest) n
    dsimp only
    unfold Closed
    simp only [hl]
    rw [List.getLast?_eq_some_getLast (List.cons_ne_nil _ l), Option.getD_some]
    exact List.mem_map.2 ⟨_, List.getLast_mem _, rfl⟩
  · split
    · exact closed_pure _ _
    · exact closed_pure _ _
    · split
      · simp [Closed]
      · exact closed_pure _ _

theorem closed_commitNames (E : CommitEnv) (repo : Repo) (p : Str) (l : List Str) : ∀ fs, Closed (commitNames E repo p l fs) := by
  induction l with
  | nil => exact fun fs => closed_pure _ _
  | cons n l ih => exact fun fs => closed_bind (closed_commitOne _ _ _ _ _) (ih _)

theorem closed_commit (E : CommitEnv) (ps : List Str) (repo : Repo) : ∀ fs, Closed (commit E ps repo fs) := by
  unfold commit
  induction ps with
  | nil => exact fun fs => closed_pure _ _
  | cons n l ih => exact fun fs => closed_bind (closed_commitNames _ _ _ _ _) (ih _)

theorem closed_installData (E : CopyEnv) (n d : Str) (c : Bytes) (fs : Fs) : Closed (installData E n d c fs) := by
  unfold installData
  split
  · exact closed_pure _ _
  · dsimp only
    split
    · exact closed_last
    · split
      · simp [Closed]
      · simp [Closed]

theorem closed_installPlan (E : PlanEnv) (ps keep : List Str) (p : Str) (repo : Repo) (x : Plan) (fs : Fs) : Closed (installPlan E ps keep p repo x fs) := by
  unfold installPlan
  refine closed_bind (closed_commit _ _ _ _) (closed_bind ?_ (closed_commit _ _ _ _))
  split
  · exact closed_pure _ _
  · exact closed_installData _ _ _ _ _

theorem closed_plansLoop (E : Nat → PlanEnv) (ps keep : List Str) (p : Str) (l : List Plan) : ∀ i repo fs, Closed (plansLoop E ps keep p i repo l fs).1 := by
  induction l with
  | nil => exact fun i repo fs => closed_pure _ _
  | cons x l ih =>
    intro i repo fs
    unfold plansLoop
    dsimp only
    split
    · exact List.mem_append_right _ (ih _ _ _)
    · exact closed_installPlan _ _ _ _ _ _ _

theorem closed_session (E : SessionEnv) (keep : List Str) (plans : List Plan) (fs : Fs) : Closed (session E [[]] [] keep plans fs) := by
  unfold session
  split
  · exact closed_pure _ _
  · dsimp only
    split
    · exact closed_prune _ _ _ _
    · split
      · exact List.mem_append_right _ (closed_plansLoop _ _ _ _ _ _ _ _)
      · exact List.mem_append_right _ (closed_prune _ _ _ _)

/-! ## The table in memory is the one of the model of installations -/

theorem pruneTable_eq (E : PruneEnv) (repo : Repo) : ∀ fs, (pruneUnused E repo fs).ok = true → pruneTable E repo = pruneRepo E repo := by
  induction repo with
  | nil => exact fun _ _ => rfl
  | cons a l ih =>
    intro fs h
    unfold pruneUnused at h
    unfold pruneTable pruneRepo
    rw [List.filter_cons]
    by_cases hr : a.refs ≠ []
    · rw [if_pos hr] at h ⊢
      rw [if_pos (by simp [hr])]
      rw [ih fs h]; rfl
    · rw [if_neg hr] at h ⊢
      have hr' : a.refs = [] := by simpa using hr
      cases hc : E.check a.name a.digest with
      | opened =>
        simp only [hc] at h ⊢
        rw [if_pos (by simp [hr'])]
        rw [ih fs h]; rfl
      | error => simp [hc, Run.pure] at h
      | closed =>
        simp only [hc] at h ⊢
        obtain ⟨h1, h2, -⟩ := bind_ok h
        have : E.rmOk [] (entryName a.name a.digest) = true := by
          unfold rmTree at h1
          dsimp only at h1
          split at h1
          · assumption
          · cases h1
        rw [if_pos this, if_neg (by simp [hr'])]
        exact ih _ h2

theorem afterPrune_eq (E : PruneEnv) (repo : Repo) (fs : Fs) (h : (prune E [[]] repo fs).ok = true) : afterPrune E repo fs = pruneRepo E repo := by
  unfold prune at h
  obtain ⟨h1, h2, -⟩ := bind_ok h
  obtain ⟨h3, h4, -⟩ := bind_ok h2
  unfold afterPrune
  rw [if_pos (by unfold Run.bind; rw [if_pos h1]; exact h3)]
  exact pruneTable_eq E repo _ h4

theorem afterPlan_eq (E : PlanEnv) (keep : List Str) (repo : Repo) (x : Plan) (fs : Fs) (h : (installPlan E [[]] keep [] repo x fs).ok = true) :
    afterPlan E keep repo x fs = planRepo keep [] repo x := by
  unfold installPlan at h
  obtain ⟨h1, h2, -⟩ := bind_ok h
  obtain ⟨h3, -, -⟩ := bind_ok h2
  unfold afterPlan
  dsimp only
  rw [if_neg (by simp [h1])]
  split
  · rfl
  · rename_i hf
    rw [if_neg hf] at h3
    rw [if_neg (by simp [h3])]

theorem afterPlans_eq (E : Nat → PlanEnv) (keep : List Str) (plans : List Plan) : ∀ i repo fs, (plansLoop E [[]] keep [] i repo plans fs).1.ok = true →
    afterPlans E keep i repo plans fs = (plansLoop E [[]] keep [] i repo plans fs).2 := by
  induction plans with
  | nil => exact fun _ _ _ _ => rfl
  | cons x l ih =>
    intro i repo fs h
    unfold plansLoop at h ⊢
    unfold afterPlans
    dsimp only at h ⊢
    by_cases hk : (installPlan (E i) [[]] keep [] repo x fs).ok = true
    · rw [if_pos hk] at h ⊢
      rw [if_pos hk, afterPlan_eq _ _ _ _ _ hk]
      exact ih _ _ _ h
    · rw [if_neg hk] at h
      exact absurd h hk

/-- the ends of a table that is right -/
theorem true_of {t : Repo} {fs : Fs} (hM : Mem any t (fs [])) (hL : Linked t (fs [])) (hR : Reflected t (fs [])) (hI : Inv any (fs [])) : True_ t fs := by
  refine ⟨fun n d hd => ⟨?_, ?_⟩, ?_, ?_⟩
  · rintro ⟨a, ha, rfl, rfl⟩
    obtain ⟨c, hc, -⟩ := hM.data a ha
    exact ⟨c, hc⟩
  · rintro ⟨c, hc⟩
    obtain ⟨a, ha, h1, h2⟩ := hM.all n d hd (by unfold Stored at hc; rw [hc]; simp)
    exact ⟨a, ha, h1, h2⟩
  · intro n d hn hd ha
    obtain ⟨c, hc, -⟩ := hI.resolves n d hn hd ha
    obtain ⟨a, ha', h1, h2⟩ := hM.all n d hd (by rw [hc]; simp)
    refine ⟨a, ha', h1, h2, hR a ha' ?_⟩
    unfold Proper
    rw [h1, h2]; exact ha
  · rintro n d hd ⟨a, ha, rfl, rfl, hr⟩
    exact hL a ha hr

theorem prepare_some {ls : Str → List Str} {ps : List Str} {fs : Fs} (hI : Inv any (fs [])) : ∃ t, prepare ls ps fs = some t := by
  unfold prepare
  rw [if_neg]
  · exact ⟨_, rfl⟩
  · intro h
    obtain ⟨n, -, h⟩ := List.any_eq_true.1 h
    simp only [Bool.and_eq_true] at h
    obtain ⟨h1, h2⟩ := h
    obtain ⟨⟨m, d⟩, hp⟩ := Option.isSome_iff_exists.1 h1
    split at h2
    · rename_i t ht
      obtain ⟨-, c, hc⟩ := hI.entries n m d hp (by rw [ht]; simp)
      rw [ht] at hc; cases hc
    · cases h2

theorem prepare_true {ls : Str → List Str} {fs : Fs} {t : Repo} (hI : Inv any (fs [])) (hls : Lists (ls []) (fs [])) (h : prepare ls [[]] fs = some t) : True_ t fs := by
  obtain ⟨k1, k2, k3, k4, k5, k6, k7, -⟩ := prepare_spec ls fs t hI hls h
  refine true_of ⟨k1, k2, fun a ha => ?_, k4, k5⟩ k6 k7 hI
  obtain ⟨c, hc⟩ := k3 a ha
  exact ⟨c, hc, .inl trivial⟩

theorem session_true (E : SessionEnv) (keep : List Str) (plans : List Plan) (fs : Fs) (t : Repo) (hI : Inv any (fs [])) (hls : Lists (E.ls []) (fs []))
    (hp : ∀ x ∈ plans, ValidName x.name ∧ HexD x.digest) (h : prepare E.ls [[]] fs = some t) (hok : (session E [[]] [] keep plans fs).ok = true) :
    True_ (afterSession E keep plans t fs) (session E [[]] [] keep plans fs).final := by
  have hIf : Inv any ((session E [[]] [] keep plans fs).final []) :=
    (session_spec E keep plans fs hI ⟨hls, fun x hx => ⟨(hp x hx).1, (hp x hx).2, trivial⟩, fun _ _ _ _ _ => trivial⟩).1 _ (closed_session E keep plans fs)
  obtain ⟨k1, k2, k3, k4, k5, k6, k7, -⟩ := prepare_spec E.ls fs t hI hls h
  have hnl : ∀ a ∈ t, ∀ u, fs [] (entryName a.name a.digest) ≠ some (.link u) := by
    intro a ha u hu
    obtain ⟨c, hc⟩ := k3 a ha
    rw [hc] at hu; cases hu
  unfold session at hok hIf ⊢
  rw [h] at hok hIf ⊢
  dsimp only at hok hIf ⊢
  unfold afterSession
  dsimp only
  by_cases hk : (prune E.prune1 [[]] t fs).ok = true
  · have hk' : ¬((!(prune E.prune1 [[]] t fs).ok) = true) := by simp [hk]
    simp only [if_neg hk', afterPrune_eq _ _ _ hk] at hok hIf ⊢
    have hI1 := (prune_spec E.prune1 t fs hnl).2.1.inv hI k2 k7
    obtain ⟨m1, m2, m3⟩ := prune_mem E.prune1 t fs hI k1 k2 k3 k4 k5 k6 k7 (fun _ _ _ _ _ => trivial) hk
    have l2 := (plansLoop_spec (Good := any) E.plans keep plans 0 (pruneRepo E.prune1 t) (prune E.prune1 [[]] t fs).final hI1 m1 m2 m3
      (fun x hx => ⟨(hp x hx).1, (hp x hx).2, trivial⟩)).2
    by_cases hk2 : (plansLoop E.plans [[]] keep [] 0 (pruneRepo E.prune1 t) plans (prune E.prune1 [[]] t fs).final).1.ok = true
    · have hk2' : ¬((!(plansLoop E.plans [[]] keep [] 0 (pruneRepo E.prune1 t) plans (prune E.prune1 [[]] t fs).final).1.ok) = true) := by simp [hk2]
      simp only [if_neg hk2', afterPlans_eq _ _ _ _ _ _ hk2] at hok hIf ⊢
      obtain ⟨i1, i2, i3, i4, -⟩ := l2 hk2
      generalize plansLoop E.plans [[]] keep [] 0 (pruneRepo E.prune1 t) plans (prune E.prune1 [[]] t fs).final = R at *
      obtain ⟨R, t2⟩ := R
      dsimp only at hok hIf i1 i2 i3 i4 ⊢
      rw [afterPrune_eq _ _ _ hok]
      obtain ⟨q1, q2, q3⟩ := prune_mem E.prune2 t2 R.final i1 i2.keys i2.valid (fun a ha => (i2.data a ha).imp fun _ h => h.1) i2.refs i2.all i3 i4 (fun _ _ _ _ _ => trivial) hok
      exact true_of q1 q2 q3 hIf
    · rw [if_pos (by simpa using hk2)] at hok
      cases hok
  · rw [if_pos (by simpa using hk)] at hok
    exact absurd hok hk

/-! ## The service -/

/-- what holds between two operations -/
structure Ok (s : St) : Prop where
  inv : Inv any (s.fs [])
  alive : s.alive = true
  arts : ∃ t, s.arts = .live t
  refs : ∃ l, s.refs = .live l

theorem init_fair (E : InitEnv) (s : St) (h : Ok s) (hd : E.dirOk = true) :
    Ok (init E s).1 ∧ (init E s).1.fs = s.fs ∧ ((init E s).2 = true → ∃ t, prepare E.ls [[]] s.fs = some t ∧ (init E s).1.arts = .live t) := by
  obtain ⟨hI, ha, ⟨t, ht⟩, ⟨l, hl⟩⟩ := h
  obtain ⟨t0, h0⟩ := prepare_some (ls := E.ls) (ps := []) hI
  obtain ⟨t1, h1⟩ := prepare_some (ls := E.ls) (ps := [[]]) hI
  unfold init
  by_cases hr : E.reached = true
  · rw [if_neg (by simp [hr])]
    simp only [ht, hl, destroy, Bool.not_true, Bool.or_self, Bool.false_eq_true, if_false, hd, h0, h1]
    cases hk : E.linksOk
    · exact ⟨⟨hI, ha, ⟨t0, rfl⟩, ⟨_, rfl⟩⟩, rfl, fun h => by cases h⟩
    · exact ⟨⟨hI, ha, ⟨t1, rfl⟩, ⟨_, rfl⟩⟩, rfl, fun _ => ⟨t1, rfl, rfl⟩⟩
  · rw [if_pos (by simpa using hr)]
    exact ⟨⟨hI, ha, ⟨t, ht⟩, ⟨l, hl⟩⟩, rfl, fun h => by cases h⟩

theorem install_fair (i : Install) (s : St) (h : Ok s) (hd : i.init.dirOk = true) (hls : Lists (i.init.ls []) (s.fs []))
    (hp : ∀ x ∈ i.plans, ValidName x.name ∧ HexD x.digest) :
    Ok (install i s).1 ∧ ((install i s).2 = true → ∃ t, (install i s).1.arts = .live t ∧ True_ t (install i s).1.fs) := by
  obtain ⟨k1, k2, k3⟩ := init_fair i.init s h hd
  unfold install
  generalize init i.init s = r at *
  obtain ⟨s1, b⟩ := r
  dsimp only at k1 k2 k3
  cases b with
  | false => exact ⟨k1, fun h => by cases h⟩
  | true =>
    obtain ⟨t, ht, hl⟩ := k3 rfl
    obtain ⟨hI, ha, -, hr⟩ := k1
    simp only [hl]
    have hS : SessionOk any { i.env with ls := i.init.ls } i.plans s1.fs :=
      ⟨by rw [k2]; exact hls, fun x hx => ⟨(hp x hx).1, (hp x hx).2, trivial⟩, fun _ _ _ _ _ => trivial⟩
    refine ⟨⟨(session_spec _ _ _ _ hI hS).1 _ (closed_session _ _ _ _), ha, ⟨_, rfl⟩, hr⟩, fun hok => ⟨_, rfl, ?_⟩⟩
    exact session_true { i.env with ls := i.init.ls } i.keep i.plans s1.fs t hI hS.lists hp (by rw [k2]; exact ht) hok

theorem step_fair (s : St) (op : Op) (l : List Op) (h : Ok s) (hf : Fair s (op :: l)) : Ok (step s op) ∧ Fair (step s op) l := by
  cases op with
  | status =>
    refine ⟨?_, hf⟩
    unfold step status
    obtain ⟨t, ht⟩ := h.arts
    simp only [h.alive, ht]
    exact h
  | install i =>
    obtain ⟨h1, h2, h3, h4⟩ := hf
    refine ⟨?_, h4⟩
    unfold step
    rw [if_neg (by simp [h.alive])]
    exact (install_fair i s h h1 h2 h3).1

theorem run_fair (ops : List Op) : ∀ s, Ok s → Fair s ops → Ok (run s ops) := by
  unfold run
  induction ops with
  | nil => exact fun s h _ => h
  | cons op l ih =>
    intro s h hf
    obtain ⟨h1, h2⟩ := step_fair s op l h hf
    exact ih _ h1 h2

theorem start_ok {E : InitEnv} {fs : Fs} {s : St} (hI : Inv any (fs [])) (h : start E fs = some s) :
    Ok s ∧ s.fs = fs ∧ ∃ t, prepare E.ls [[]] fs = some t ∧ s.arts = .live t := by
  obtain ⟨t0, h0⟩ := prepare_some (ls := E.ls) (ps := []) hI
  obtain ⟨t1, h1⟩ := prepare_some (ls := E.ls) (ps := [[]]) hI
  unfold start init at h
  obtain ⟨reached, dirOk, ls, linksOk, othersOk⟩ := E
  dsimp only at h0 h1 h
  cases reached <;> cases dirOk <;> cases linksOk <;> cases othersOk <;> simp [destroy, h0, h1] at h
  subst h
  exact ⟨⟨hI, rfl, ⟨t1, rfl⟩, ⟨_, rfl⟩⟩, rfl, t1, h1, rfl⟩

/-! ## Theorems -/

variable {Good : Str → Str → Bytes → Prop}

theorem inv_any {D : Dir} (h : Inv Good D) : Inv any D :=
  ⟨h.named, h.stale, fun m d hm hd hl => (h.resolves m d hm hd hl).imp fun _ hc => ⟨hc.1, trivial⟩, h.entries⟩

/-- **C89 (safe).** As long as the repository's directory can be opened, the service survives every history of installations (which may fail anywhere) and queries, and every query is answered. -/
theorem C89_safe_partial (fs : Fs) (h : Reach Good fs) (E : InitEnv) (s : St) (hs : start E fs = some s) (ops : List Op) (hf : Fair s ops) :
    (run s ops).alive = true ∧ (status (run s ops)).isSome = true := by
  obtain ⟨h1, -⟩ := start_ok (inv_any h.inv) hs
  have := run_fair ops s h1 hf
  refine ⟨this.alive, ?_⟩
  obtain ⟨t, ht⟩ := this.arts
  unfold status
  rw [ht]; rfl

/-- **C89 (true at the start).** Until the first installation the answer is what is in the directory. -/
theorem C89_start (fs : Fs) (h : Reach Good fs) (E : InitEnv) (hls : Lists (E.ls []) (fs [])) (s : St) (hs : start E fs = some s) : ∃ t, status s = some t ∧ True_ t s.fs := by
  obtain ⟨-, h2, t, h3, h4⟩ := start_ok (inv_any h.inv) hs
  refine ⟨t, by unfold status; rw [h4], ?_⟩
  rw [h2]
  exact prepare_true (inv_any h.inv) hls h3

/-- **C89 (true after success).** After every installation that succeeded - whatever happened before, failed installations included - the answer is what is in the directory. -/
theorem C89_installed_partial (fs : Fs) (h : Reach Good fs) (E : InitEnv) (s : St) (hs : start E fs = some s) (ops : List Op) (i : Install) (hf : Fair s (ops ++ [.install i]))
    (hok : (install i (run s ops)).2 = true) :
    ∃ t, status (run s (ops ++ [.install i])) = some t ∧ True_ t (run s (ops ++ [.install i])).fs := by
  obtain ⟨h1, -⟩ := start_ok (inv_any h.inv) hs
  have key : ∀ (ops : List Op) (s : St), Ok s → Fair s (ops ++ [.install i]) → Ok (run s ops) ∧ Fair (run s ops) [.install i] := by
    intro ops
    induction ops with
    | nil => exact fun s h hf => ⟨h, hf⟩
    | cons op l ih =>
      intro s h hf
      obtain ⟨k1, k2⟩ := step_fair s op _ h hf
      exact ih _ k1 k2
  obtain ⟨k1, k2, k3, k4, -⟩ := key ops s h1 hf
  have hrun : run s (ops ++ [.install i]) = (install i (run s ops)).1 := by
    unfold run
    rw [List.foldl_append, List.foldl_cons, List.foldl_nil]
    have := k1.alive
    unfold run at this
    generalize ops.foldl step s = s1 at *
    obtain ⟨a, b, c, d⟩ := s1
    dsimp only at this
    subst this
    rfl
  obtain ⟨t, ht, hT⟩ := (install_fair i _ k1 k2 k3 k4).2 hok
  rw [hrun]
  exact ⟨t, by unfold status; rw [ht], hT⟩

/-! ## What the code does not guarantee -/

def noFs : Fs := fun _ _ => none
/-- the service after its start with an empty repository -/
def s0 : St := { fs := noFs, arts := .live [], refs := .live [[]] }
def ls1 : Str → List Str := fun _ => []
def ini : InitEnv := { ls := ls1 }
def okLink : CommitEnv := ⟨fun _ _ => ⟨true, true, true, true⟩, fun _ _ => true, true⟩
def badLink : CommitEnv := ⟨fun _ _ => ⟨true, false, true, true⟩, fun _ _ => true, true⟩
def sess (c : Bool) (k : CommitEnv) : SessionEnv :=
  ⟨ls1, ⟨ls1, fun _ _ => .closed, fun _ _ => [], fun _ _ => true⟩, fun _ => ⟨okLink, ⟨[], c, true, true⟩, k⟩, ⟨ls1, fun _ _ => .closed, fun _ _ => [], fun _ _ => true⟩⟩
def ins (c : Bool) (k : CommitEnv) : Op := .install ⟨ini, sess c k, [c!"app"], [⟨c!"app", c!"ab", [1, 2]⟩]⟩

/-- **C89 violated (use after free).** The service runs; an installation finds that the repository's directory cannot be opened (it is on a file system that is not mounted any more) and fails. The
next query for the artifact status uses the table that was freed. -/
theorem C89_finding_use_after_free : start ini noFs = some s0 ∧
    (run s0 [.install ⟨{ ini with dirOk := false }, sess true okLink, [], []⟩]).alive = true ∧
    (run s0 [.install ⟨{ ini with dirOk := false }, sess true okLink, [], []⟩, .status]).alive = false :=
  ⟨rfl, by decide +kernel, by decide +kernel⟩

/-- **C89 violated (double free).** As above, but the next thing is an installation: it frees the table a second time, even if the directory is back. -/
theorem C89_finding_double_free : start ini noFs = some s0 ∧
    (run s0 [.install ⟨{ ini with dirOk := false }, sess true okLink, [], []⟩, ins true okLink]).alive = false :=
  ⟨rfl, by decide +kernel⟩

/-- **C89 violated (phantom artifact).** After the data of an artifact could not be copied, the service reports this artifact until the next installation, although it does not exist. -/
theorem C89_finding_phantom : start ini noFs = some s0 ∧ ∃ t, status (run s0 [ins false okLink]) = some t ∧
    Listed t c!"app" c!"ab" ∧ ¬ ∃ c, Stored (run s0 [ins false okLink]).fs c!"app" c!"ab" c :=
  ⟨rfl, [⟨c!"app", c!"ab", []⟩], by decide +kernel, ⟨⟨c!"app", c!"ab", []⟩, by decide, rfl, rfl⟩, by
    rintro ⟨c, hc⟩
    have : (run s0 [ins false okLink]).fs [] (entryName c!"app" c!"ab") = none := by decide +kernel
    unfold Stored at hc
    rw [this] at hc
    cases hc⟩

/-- **C89 violated (phantom activation).** After the link of an artifact could not be created, the service reports this artifact as active until the next installation, although it is not. -/
theorem C89_finding_inactive : start ini noFs = some s0 ∧ ∃ t, status (run s0 [ins true badLink]) = some t ∧
    InUse t c!"app" c!"ab" ∧ ¬ Active (run s0 [ins true badLink]).fs c!"app" c!"ab" :=
  ⟨rfl, [⟨c!"app", c!"ab", [[]]⟩], by decide +kernel, ⟨⟨c!"app", c!"ab", [[]]⟩, by decide, rfl, rfl, by decide⟩, by
    have : (run s0 [ins true badLink]).fs [] c!"app" = none := by decide +kernel
    intro hc
    unfold Active at hc
    rw [this] at hc
    cases hc⟩

/-! ## Satisfiable -/

/-- An installation whose data could not be copied, a query, and an installation that succeeds. -/
example : start ini noFs = some s0 ∧ Fair s0 [ins false okLink, .status, ins true okLink] ∧
    (status (run s0 [ins false okLink, .status, ins true okLink])) = some [⟨c!"app", c!"ab", [[]]⟩] := by
  have hp : ∀ x ∈ [(⟨c!"app", c!"ab", [1, 2]⟩ : Plan)], ValidName x.name ∧ HexD x.digest := by
    intro x hx
    rw [List.mem_singleton.1 hx]
    exact ⟨by unfold ValidName; decide, by unfold HexD; decide⟩
  refine ⟨rfl, ⟨rfl, ⟨by decide, fun x => by simp [ini, ls1, noFs, s0]⟩, hp, rfl, ⟨by decide, fun x => ?_⟩, hp, trivial⟩, by decide +kernel⟩
  have : (step (step s0 (ins false okLink)) .status).fs [] = fun _ => none := rfl
  show x ∈ [] ↔ (step (step s0 (ins false okLink)) .status).fs [] x ≠ none
  rw [this]; simp

end Rauc.ArtifactService
