import Verif.Props.ComposefsStore

/-!
# C65: whole installations and histories
-/

namespace Rauc.Composefs

open Rauc.Artifacts
open Utils (Node Dir tmpName)

variable {Good : Str → Str → Bytes → Prop} {load : Loader} {Obj : Str → Bytes → Prop}

/-- nothing that is there already is changed -/
def Preserves (st s : CState) : Prop :=
  (∀ n d, HexD d → st.fs [] (entryName n d) ≠ none → s.fs [] (entryName n d) = st.fs [] (entryName n d)) ∧
  ∀ o, st.store o ≠ none → s.store o = st.store o

theorem Preserves.refl (st : CState) : Preserves st st := ⟨fun _ _ _ _ => rfl, fun _ _ => rfl⟩

theorem Preserves.trans {a b c : CState} (h : Preserves a b) (h' : Preserves b c) : Preserves a c := by
  constructor
  · intro n d hd hne
    have e := h.1 n d hd hne
    rw [h'.1 n d hd (by rw [e]; exact hne), e]
  · intro o ho
    have e := h.2 o ho
    rw [h'.2 o (by rw [e]; exact ho), e]

theorem installData_entries (E : CopyEnv) (n d : Str) (content : Bytes) (fs : Fs) (hd : HexD d) :
    ∀ s ∈ (installData E n d content fs).states, ∀ m e, HexD e → fs [] (entryName m e) ≠ none → s [] (entryName m e) = fs [] (entryName m e) := by
  intro s hs m e he hne
  have htmp : ∀ y, (fs.set [] (tmpEntry n d) y) [] (entryName m e) = fs [] (entryName m e) := by
    intro y
    rw [fset_same, set_other (tmpEntry_ne_entry hd m e he)]
  unfold installData at hs
  split at hs
  · simp [Run.pure] at hs; subst hs; rfl
  · rename_i hc
    simp only [Bool.or_eq_true, not_or, Bool.not_eq_true, Option.isSome_eq_false_iff, Option.isNone_iff_eq_none] at hc
    have hpart : ∀ s ∈ fs :: E.partials.map (fun c => fs.set [] (tmpEntry n d) (some (.file c))), s [] (entryName m e) = fs [] (entryName m e) := by
      intro s hs
      simp only [List.mem_cons, List.mem_map] at hs
      rcases hs with rfl | ⟨c, _, rfl⟩
      · rfl
      · exact htmp _
    simp only at hs
    split at hs
    · exact hpart s hs
    · split at hs
      · rcases List.mem_append.1 hs with hs | hs
        · exact hpart s hs
        · simp only [List.mem_singleton] at hs
          subst hs; exact htmp _
      · rcases List.mem_append.1 hs with hs | hs
        · exact hpart s hs
        · simp only [List.mem_cons, List.not_mem_nil, or_false] at hs
          rcases hs with rfl | rfl
          · exact htmp _
          · have : entryName m e ≠ entryName n d := by
              intro h; rw [h] at hne; exact hne hc.2
            rw [fset_same, set_other this, fset_same, set_other (tmpEntry_ne_entry hd m e he), htmp]

/-- the plan as it appears in the directory -/
def effPlan (load : Loader) (E : CPlanEnv) (x : CPlan) (tbl : List Str) (store : Store) : PlanEnv :=
  ⟨E.commit1, effCopy load E.copy x.content x.bundle tbl store, E.commit2⟩

theorem cPlan_spec (E : CPlanEnv) (keep : List Str) (repo : Repo) (x : CPlan) (tbl : List Str) (st : CState)
    (hI : Inv Good (st.fs [])) (hM : Mem Good repo (st.fs []))
    (hL : Linked repo (st.fs [])) (hR : Reflected repo (st.fs [])) (hn : ValidName x.name) (hd : HexD x.digest) (hg : Good x.name x.digest x.content)
    (hJ : Complete load Obj st.fs st.store) (hT : Covers tbl st.store) (hS : Sound Obj tbl st.store) (hb : ∀ o b, x.bundle o = some b → Obj o b) :
    (∀ s ∈ (cPlan load E [[]] keep [] repo x tbl st).1.states, Inv Good (s.fs []) ∧ Complete load Obj s.fs s.store ∧ Preserves st s) ∧
    ((cPlan load E [[]] keep [] repo x tbl st).1.ok = true →
      (installPlan (effPlan load E x tbl st.store) [[]] keep [] repo x.plain st.fs).ok = true ∧
      (cPlan load E [[]] keep [] repo x tbl st).1.final.fs = (installPlan (effPlan load E x tbl st.store) [[]] keep [] repo x.plain st.fs).final ∧
      Complete load Obj (cPlan load E [[]] keep [] repo x tbl st).1.final.fs (cPlan load E [[]] keep [] repo x tbl st).1.final.store ∧
      Preserves st (cPlan load E [[]] keep [] repo x tbl st).1.final ∧
      Covers (cPlan load E [[]] keep [] repo x tbl st).2 (cPlan load E [[]] keep [] repo x tbl st).1.final.store ∧
      Sound Obj (cPlan load E [[]] keep [] repo x tbl st).2 (cPlan load E [[]] keep [] repo x tbl st).1.final.store) := by
  have hspec := (plan_spec (effPlan load E x tbl st.store) keep repo x.plain st.fs hI hM hL hR hn hd hg).1
  have hv1 : ∀ a ∈ dropOld keep repo, ValidName a.name := fun a ha => ((dropOld_memory hM).valid a ha).1
  have hv2 : ∀ a ∈ planRepo keep [] repo x.plain, ValidName a.name := by
    intro a ha
    rw [planRepo_eq] at ha
    obtain ⟨b, hb, rfl⟩ := List.mem_map.1 ha
    rw [(act_key _ _ b).1]
    rcases withNew_mem hb with hb | ⟨_, rfl⟩
    · exact hv1 b hb
    · exact hn
  have e : installPlan (effPlan load E x tbl st.store) [[]] keep [] repo x.plain st.fs = (commit E.commit1 [[]] (dropOld keep repo) st.fs).bind (fun fs1 =>
      (copyStep (effPlan load E x tbl st.store) (dropOld keep repo) x.plain fs1).bind (fun fs2 => commit E.commit2 [[]] (planRepo keep [] repo x.plain) fs2)) := rfl
  rw [e] at hspec ⊢
  -- a commit
  have hcommit : ∀ (C : CommitEnv) (r : Repo), (∀ a ∈ r, ValidName a.name) → ∀ s0 : CState, Complete load Obj s0.fs s0.store →
      (∀ f ∈ (commit C [[]] r s0.fs).states, Complete load Obj f s0.store ∧ Preserves s0 ⟨f, s0.store⟩) ∧
      Complete load Obj (commit C [[]] r s0.fs).final s0.store ∧ Preserves s0 ⟨(commit C [[]] r s0.fs).final, s0.store⟩ := by
    intro C r hv s0 h0
    refine ⟨?_, ?_, ?_⟩
    · intro f hf
      refine ⟨h0.congr ?_, ?_, fun _ _ => rfl⟩
      · intro n d c os _ hs _
        unfold Stored at hs ⊢
        rwa [(commit_entries C r s0.fs hv n d).1 f hf] at hs
      · intro n d _ _
        exact (commit_entries C r s0.fs hv n d).1 f hf
    · refine h0.congr ?_
      intro n d c os _ hs _
      unfold Stored at hs ⊢
      rwa [(commit_entries C r s0.fs hv n d).2] at hs
    · exact ⟨fun n d _ _ => (commit_entries C r s0.fs hv n d).2, fun _ _ => rfl⟩
  obtain ⟨c1, c2, c3⟩ := hcommit E.commit1 (dropOld keep repo) hv1 st hJ
  unfold cPlan
  simp only
  have hin1 : ∀ f ∈ (commit E.commit1 [[]] (dropOld keep repo) st.fs).states, Inv Good (f []) := by
    intro f hf
    refine hspec f ?_
    unfold Run.bind
    split
    · exact List.mem_append_left _ hf
    · exact hf
  have st1 : ∀ s ∈ (lift st.store (commit E.commit1 [[]] (dropOld keep repo) st.fs)).states, Inv Good (s.fs []) ∧ Complete load Obj s.fs s.store ∧ Preserves st s := by
    intro s hs
    simp only [lift, List.mem_map] at hs
    obtain ⟨f, hf, rfl⟩ := hs
    exact ⟨hin1 f hf, (c1 f hf).1, (c1 f hf).2⟩
  have hok1 : (lift st.store (commit E.commit1 [[]] (dropOld keep repo) st.fs)).ok = (commit E.commit1 [[]] (dropOld keep repo) st.fs).ok := rfl
  rw [hok1]
  cases hk1 : (commit E.commit1 [[]] (dropOld keep repo) st.fs).ok with
  | false => simp only [Bool.not_false, if_true]; exact ⟨st1, by rw [hok1, hk1]; simp⟩
  | true =>
    simp only [Bool.not_true, Bool.false_eq_true, if_false]
    have hfin1 : (lift st.store (commit E.commit1 [[]] (dropOld keep repo) st.fs)).final = ⟨(commit E.commit1 [[]] (dropOld keep repo) st.fs).final, st.store⟩ := rfl
    rw [hfin1]
    generalize hF : (commit E.commit1 [[]] (dropOld keep repo) st.fs).final = f1 at c2 c3 ⊢
    have hb1 : ∀ k : Fs → Run, (commit E.commit1 [[]] (dropOld keep repo) st.fs).bind k =
        ⟨(commit E.commit1 [[]] (dropOld keep repo) st.fs).states ++ (k f1).states, (k f1).final, (k f1).ok⟩ := by
      intro k; unfold Run.bind; rw [if_pos hk1, hF]
    rw [hb1] at hspec ⊢
    -- the copy
    have hcopy : ∀ r2 : CRun × List Str,
        r2 = (if (find (dropOld keep repo) x.name x.digest).isSome then (CRun.pure ⟨f1, st.store⟩ true, tbl)
          else cInstall load E.copy x.name x.digest x.content x.bundle tbl ⟨f1, st.store⟩) →
        (∀ s ∈ r2.1.states, s.fs ∈ (copyStep (effPlan load E x tbl st.store) (dropOld keep repo) x.plain f1).states ∧
          Complete load Obj s.fs s.store ∧ Preserves ⟨f1, st.store⟩ s) ∧
        (r2.1.ok = true → (copyStep (effPlan load E x tbl st.store) (dropOld keep repo) x.plain f1).ok = true ∧
          r2.1.final.fs = (copyStep (effPlan load E x tbl st.store) (dropOld keep repo) x.plain f1).final ∧ r2.1.final ∈ r2.1.states ∧
          Covers r2.2 r2.1.final.store ∧ Sound Obj r2.2 r2.1.final.store) := by
      rintro r2 rfl
      unfold copyStep
      have hp : (find (dropOld keep repo) x.plain.name x.plain.digest) = find (dropOld keep repo) x.name x.digest := rfl
      rw [hp]
      split
      · refine ⟨?_, fun _ => ⟨rfl, rfl, by simp [CRun.pure], hT, hS⟩⟩
        intro s hs
        simp [CRun.pure] at hs
        subst hs
        exact ⟨by simp [Run.pure], c2, Preserves.refl _⟩
      · obtain ⟨i1, i2⟩ := cInstall_spec E.copy x.name x.digest x.content x.bundle tbl ⟨f1, st.store⟩ hd c2 hT hS hb (load := load)
        refine ⟨?_, i2⟩
        intro s hs
        obtain ⟨j1, j2, j3⟩ := i1 s hs
        exact ⟨j1, j2, installData_entries _ _ _ _ _ hd _ j1, j3⟩
    generalize hr2 : (if (find (dropOld keep repo) x.name x.digest).isSome then (CRun.pure ⟨f1, st.store⟩ true, tbl)
          else cInstall load E.copy x.name x.digest x.content x.bundle tbl ⟨f1, st.store⟩) = r2 at hcopy ⊢
    obtain ⟨d1, d2⟩ := hcopy r2 rfl
    have hin2 : ∀ f ∈ (copyStep (effPlan load E x tbl st.store) (dropOld keep repo) x.plain f1).states, Inv Good (f []) := by
      intro f hf
      refine hspec f (List.mem_append_right _ ?_)
      unfold Run.bind
      split
      · exact List.mem_append_left _ hf
      · exact hf
    have st2 : ∀ s ∈ r2.1.states, Inv Good (s.fs []) ∧ Complete load Obj s.fs s.store ∧ Preserves st s := by
      intro s hs
      obtain ⟨j1, j2, j3⟩ := d1 s hs
      exact ⟨hin2 _ j1, j2, c3.trans j3⟩
    cases hk2 : r2.1.ok with
    | false =>
      simp only [Bool.not_false, if_true]
      refine ⟨?_, by simp⟩
      intro s hs
      rcases List.mem_append.1 hs with hs | hs
      · exact st1 s hs
      · exact st2 s hs
    | true =>
      simp only [Bool.not_true, Bool.false_eq_true, if_false]
      obtain ⟨k1, k2, k3, k4, k5⟩ := d2 hk2
      obtain ⟨_, j2, j3⟩ := st2 _ k3
      obtain ⟨g1, g2, g3⟩ := hcommit E.commit2 (planRepo keep [] repo x.plain) hv2 r2.1.final j2
      have hb2 : ∀ k : Fs → Run, (copyStep (effPlan load E x tbl st.store) (dropOld keep repo) x.plain f1).bind k =
          ⟨(copyStep (effPlan load E x tbl st.store) (dropOld keep repo) x.plain f1).states ++ (k r2.1.final.fs).states, (k r2.1.final.fs).final, (k r2.1.final.fs).ok⟩ := by
        intro k; unfold Run.bind; rw [if_pos k1, k2]
      rw [hb2] at hspec ⊢
      refine ⟨?_, ?_⟩
      · intro s hs
        simp only [List.mem_append] at hs
        rcases hs with (hs | hs) | hs
        · exact st1 s hs
        · exact st2 s hs
        · simp only [lift, List.mem_map] at hs
          obtain ⟨f, hf, rfl⟩ := hs
          exact ⟨hspec f (List.mem_append_right _ (List.mem_append_right _ hf)), (g1 f hf).1, j3.trans (g1 f hf).2⟩
      · intro hk3
        exact ⟨hk3, rfl, g2, j3.trans g3, k4, k5⟩

theorem cPlans_spec (E : Nat → CPlanEnv) (keep : List Str) (plans : List CPlan) : ∀ (i : Nat) (repo : Repo) (tbl : List Str) (st : CState)
    (_ : Inv Good (st.fs [])) (_ : Mem Good repo (st.fs [])) (_ : Linked repo (st.fs [])) (_ : Reflected repo (st.fs []))
    (_ : ∀ x ∈ plans, ValidName x.name ∧ HexD x.digest ∧ Good x.name x.digest x.content ∧ ∀ o b, x.bundle o = some b → Obj o b)
    (_ : Complete load Obj st.fs st.store) (_ : Covers tbl st.store) (_ : Sound Obj tbl st.store),
    (∀ s ∈ (cPlans load E [[]] keep [] i repo plans tbl st).1.states, Inv Good (s.fs []) ∧ Complete load Obj s.fs s.store ∧ Preserves st s) ∧
    ((cPlans load E [[]] keep [] i repo plans tbl st).1.ok = true →
      Inv Good ((cPlans load E [[]] keep [] i repo plans tbl st).1.final.fs []) ∧
      Mem Good (cPlans load E [[]] keep [] i repo plans tbl st).2.1 ((cPlans load E [[]] keep [] i repo plans tbl st).1.final.fs []) ∧
      Linked (cPlans load E [[]] keep [] i repo plans tbl st).2.1 ((cPlans load E [[]] keep [] i repo plans tbl st).1.final.fs []) ∧
      Reflected (cPlans load E [[]] keep [] i repo plans tbl st).2.1 ((cPlans load E [[]] keep [] i repo plans tbl st).1.final.fs []) ∧
      Complete load Obj (cPlans load E [[]] keep [] i repo plans tbl st).1.final.fs (cPlans load E [[]] keep [] i repo plans tbl st).1.final.store ∧
      Preserves st (cPlans load E [[]] keep [] i repo plans tbl st).1.final ∧
      Covers (cPlans load E [[]] keep [] i repo plans tbl st).2.2 (cPlans load E [[]] keep [] i repo plans tbl st).1.final.store ∧
      Sound Obj (cPlans load E [[]] keep [] i repo plans tbl st).2.2 (cPlans load E [[]] keep [] i repo plans tbl st).1.final.store ∧
      ((∀ x ∈ plans, x.name ∈ keep) → ∀ n d, ValidName n → HexD d →
        (Active (cPlans load E [[]] keep [] i repo plans tbl st).1.final.fs n d ↔
          match lastPlan (plans.map CPlan.plain) n with
          | some x => d = x.digest
          | none => (plans = [] ∨ n ∈ keep) ∧ Active st.fs n d))) := by
  induction plans with
  | nil =>
    intro i repo tbl st hI hM hL hR _ hJ hT hS
    simp only [cPlans, CRun.pure]
    refine ⟨fun s hs => by simp at hs; subst hs; exact ⟨hI, hJ, Preserves.refl _⟩, fun _ => ⟨hI, hM, hL, hR, hJ, Preserves.refl _, hT, hS, ?_⟩⟩
    intro _ n d _ _
    simp [lastPlan]
  | cons x l ih =>
    intro i repo tbl st hI hM hL hR hx hJ hT hS
    obtain ⟨hn, hd, hg, hb⟩ := hx x (by simp)
    obtain ⟨p1, p2⟩ := cPlan_spec (E i) keep repo x tbl st hI hM hL hR hn hd hg hJ hT hS hb
    have ps := (plan_spec (effPlan load (E i) x tbl st.store) keep repo x.plain st.fs hI hM hL hR hn hd hg).2
    unfold cPlans
    simp only
    split
    · rename_i hk
      obtain ⟨k1, k2, k3, k4, k5, k6⟩ := p2 hk
      obtain ⟨q1, q2, q3, q4, q5, q6⟩ := ps k1
      rw [← k2] at q1 q2 q3 q4 q5 q6
      obtain ⟨r1, r2⟩ := ih (i + 1) (planRepo keep [] repo x.plain) (cPlan load (E i) [[]] keep [] repo x tbl st).2
        (cPlan load (E i) [[]] keep [] repo x tbl st).1.final q1 q2 q3 q4 (fun y hy => hx y (List.mem_cons_of_mem _ hy)) k3 k5 k6
      refine ⟨?_, ?_⟩
      · intro s hs
        simp only [List.mem_append] at hs
        rcases hs with hs | hs
        · exact p1 s hs
        · exact ⟨(r1 s hs).1, (r1 s hs).2.1, k4.trans (r1 s hs).2.2⟩
      · intro hok
        simp only at hok ⊢
        obtain ⟨s1, s2, s3, s4, s5, s6, s7, s8, s9⟩ := r2 hok
        refine ⟨s1, s2, s3, s4, s5, k4.trans s6, s7, s8, ?_⟩
        intro hkeep n d hn' hd'
        rw [s9 (fun y hy => hkeep y (List.mem_cons_of_mem _ hy)) n d hn' hd', List.map_cons, lastPlan_cons]
        have hxk : x.name ∈ keep := hkeep x (by simp)
        have hpn : x.plain.name = x.name := rfl
        have hpd : x.plain.digest = x.digest := rfl
        simp only [hpn, hpd] at q5 q6 ⊢
        cases hlp : lastPlan (l.map CPlan.plain) n with
        | some y => simp
        | none =>
          simp only [Option.none_or]
          by_cases hxn : x.name = n
          · subst hxn
            simp only [if_true]
            constructor
            · rintro ⟨_, h⟩
              unfold Active at h q5
              rw [q5] at h
              simp only [Option.some.injEq, Node.link.injEq] at h
              exact (entryName_inj hd hd' h).2.symm
            · rintro rfl
              exact ⟨Or.inr hxk, q5⟩
          · simp only [if_neg hxn]
            rw [q6 n d hn' hd' (fun e => hxn e.symm)]
            constructor
            · rintro ⟨_, h1, h2⟩; exact ⟨Or.inr h1, h2⟩
            · rintro ⟨h1, h2⟩
              rcases h1 with h1 | h1
              · cases h1
              · exact ⟨Or.inr h1, h1, h2⟩
    · rename_i hk
      exact ⟨p1, fun hok => absurd hok hk⟩

/-! ## A whole installation -/

/-- what is assumed about an installation and its environment, as in `SessionOk`; the bundle's objects are what their name says, and removing the tree of an artifact removes its image first -/
structure CSessionOk (Good : Str → Str → Bytes → Prop) (load : Loader) (Obj : Str → Bytes → Prop) (E : CSessionEnv) (plans : List CPlan) (st : CState) : Prop where
  lists : Lists (E.ls []) (st.fs [])
  objects : ∀ o, o ∈ E.objects ↔ st.store o ≠ none
  plans : ∀ x ∈ plans, ValidName x.name ∧ HexD x.digest ∧ Good x.name x.digest x.content ∧ ∀ o b, x.bundle o = some b → Obj o b
  opened : ∀ n d c, E.prune1.fs.check n d = .opened → Stored st.fs n d c → Good n d c
  rm1 : RmOk load E.prune1.fs
  rm2 : RmOk load E.prune2.fs

theorem cSession_spec (E : CSessionEnv) (keep : List Str) (plans : List CPlan) (st : CState) (hI : Inv Good (st.fs []))
    (hJ : Complete load Obj st.fs st.store) (hS : CSessionOk Good load Obj E plans st) :
    (∀ s ∈ (cSession load E [[]] [] keep plans st).states, Inv Good (s.fs []) ∧ Complete load Obj s.fs s.store ∧
      ∀ n d c os, HexD d → Stored st.fs n d c → objectsOf load c = some os → E.prune1.fs.check n d ≠ .closed → E.prune2.fs.check n d ≠ .closed →
        Stored s.fs n d c ∧ ∀ o ∈ os, s.store o = st.store o) ∧
    ((cSession load E [[]] [] keep plans st).ok = true →
      ((∀ x ∈ plans, x.name ∈ keep) → ∀ n d, ValidName n → HexD d →
        (Active (cSession load E [[]] [] keep plans st).final.fs n d ↔
          match lastPlan (plans.map CPlan.plain) n with
          | some x => d = x.digest
          | none => (plans = [] ∨ n ∈ keep) ∧ Active st.fs n d)) ∧
      Inv Good ((cSession load E [[]] [] keep plans st).final.fs []) ∧
      Complete load Obj (cSession load E [[]] [] keep plans st).final.fs (cSession load E [[]] [] keep plans st).final.store ∧
      ∀ o, (cSession load E [[]] [] keep plans st).final.store o ≠ none → ∃ n d c os, HexD d ∧
        Stored (cSession load E [[]] [] keep plans st).final.fs n d c ∧ objectsOf load c = some os ∧ o ∈ os ∧
        (Active (cSession load E [[]] [] keep plans st).final.fs n d ∨
          (cSession load E [[]] [] keep plans st).final.fs [] (tmpName n) = some (.link (entryName n d)) ∨ E.prune2.fs.check n d ≠ .closed)) := by
  unfold cSession
  cases hp : prepare E.ls [[]] st.fs with
  | none => exact ⟨fun s hs => by simp [CRun.pure] at hs; subst hs; exact ⟨hI, hJ, fun _ _ _ _ _ h _ _ _ => ⟨h, fun _ _ => rfl⟩⟩, by simp [CRun.pure]⟩
  | some repo =>
    obtain ⟨k1, k2, k3, k4, k5, k6, k7, _⟩ := prepare_spec E.ls st.fs repo hI hS.lists hp
    have hnl : ∀ a ∈ repo, ∀ t, st.fs [] (entryName a.name a.digest) ≠ some (.link t) := by
      intro a h t ht
      obtain ⟨c, hc⟩ := k3 a h
      rw [hc] at ht; cases ht
    have hT : Covers E.objects st.store := fun o h => (hS.objects o).2 h
    obtain ⟨p1, p2⟩ := cPrune_spec E.prune1 repo E.objects st (fun a h => (k2 a h).2) hnl k5 hS.rm1 hJ hT
    have hprot : ∀ n d, E.prune1.fs.check n d ≠ .closed → Protected E.prune1.fs repo n d := by
      rintro n d h a _ rfl rfl; exact Or.inr h
    have st1 : ∀ s ∈ (cPrune load E.prune1 [[]] repo E.objects st).1.states, Inv Good (s.fs []) ∧ Complete load Obj s.fs s.store ∧
        ∀ n d c os, HexD d → Stored st.fs n d c → objectsOf load c = some os → E.prune1.fs.check n d ≠ .closed → E.prune2.fs.check n d ≠ .closed →
        Stored s.fs n d c ∧ ∀ o ∈ os, s.store o = st.store o := by
      intro s hs
      obtain ⟨a1, a2, a3⟩ := p1 s hs
      refine ⟨a1.inv hI k2 k7, a2, ?_⟩
      intro n d c os hd hst hos h1 _
      refine ⟨?_, a3 n d c os hd hst hos (hprot n d h1)⟩
      unfold Stored at hst ⊢
      rw [PruneRel.kept a1 (fun a h => (k2 a h).2) hd (hprot n d h1)]; exact hst
    simp only
    cases hk : (cPrune load E.prune1 [[]] repo E.objects st).1.ok with
    | false => simp only [Bool.not_false, if_true]; exact ⟨st1, by rw [hk]; simp⟩
    | true =>
      simp only [Bool.not_true, Bool.false_eq_true, if_false]
      obtain ⟨b1, b2, b3, b4, b5, _, _⟩ := p2 hk
      obtain ⟨m1, m2, m3⟩ := prune_mem E.prune1.fs repo st.fs hI k1 k2 k3 k4 k5 k6 k7 hS.opened b1
      obtain ⟨_, q2, _⟩ := prune_spec E.prune1.fs repo st.fs hnl
      have hact : ∀ n d, Active (prune E.prune1.fs [[]] repo st.fs).final n d ↔ Active st.fs n d := fun n d => q2.link_iff n _
      obtain ⟨c1, c2, c3⟩ := st1 _ b3
      rw [← b2] at m1 m2 m3 hact
      obtain ⟨l1, l2⟩ := cPlans_spec E.plans keep plans 0 (pruneRepo E.prune1.fs repo) (cPrune load E.prune1 [[]] repo E.objects st).2
        (cPrune load E.prune1 [[]] repo E.objects st).1.final c1 m1 m2 m3 hS.plans c2 b4 b5
      -- what is preserved by the plans
      have hpres : ∀ s : CState, Preserves (cPrune load E.prune1 [[]] repo E.objects st).1.final s →
          ∀ n d c os, HexD d → Stored st.fs n d c → objectsOf load c = some os → E.prune1.fs.check n d ≠ .closed → E.prune2.fs.check n d ≠ .closed →
          Stored s.fs n d c ∧ ∀ o ∈ os, s.store o = st.store o := by
        intro s hs n d c os hd hst hos h1 h2
        obtain ⟨e1, e2⟩ := c3 n d c os hd hst hos h1 h2
        constructor
        · unfold Stored at e1 ⊢
          rw [hs.1 n d hd (by rw [e1]; simp)]; exact e1
        · intro o ho
          obtain ⟨b, hb, _⟩ := hJ n d c os hd hst hos o ho
          have := e2 o ho
          rw [hs.2 o (by rw [this, hb]; simp)]; exact this
      generalize cPlans load E.plans [[]] keep [] 0 (pruneRepo E.prune1.fs repo) plans (cPrune load E.prune1 [[]] repo E.objects st).2
        (cPrune load E.prune1 [[]] repo E.objects st).1.final = R2 at l1 l2 ⊢
      obtain ⟨R2, repo2, tbl2⟩ := R2
      simp only at l1 l2 ⊢
      have st2 : ∀ s ∈ R2.states, Inv Good (s.fs []) ∧ Complete load Obj s.fs s.store ∧
          ∀ n d c os, HexD d → Stored st.fs n d c → objectsOf load c = some os → E.prune1.fs.check n d ≠ .closed → E.prune2.fs.check n d ≠ .closed →
          Stored s.fs n d c ∧ ∀ o ∈ os, s.store o = st.store o := by
        intro s hs
        obtain ⟨x1, x2, x3⟩ := l1 s hs
        exact ⟨x1, x2, hpres s x3⟩
      cases hk2 : R2.ok with
      | false =>
        simp only [Bool.not_false, if_true]
        refine ⟨?_, by simp⟩
        intro s hs
        rcases List.mem_append.1 hs with hs | hs
        · exact st1 s hs
        · exact st2 s hs
      | true =>
        simp only [Bool.not_true, Bool.false_eq_true, if_false]
        obtain ⟨i1, i2, i3, i4, i5, i6, i7, i8, i9⟩ := l2 hk2
        have hnl2 : ∀ a ∈ repo2, ∀ t, R2.final.fs [] (entryName a.name a.digest) ≠ some (.link t) := by
          intro a h t ht
          obtain ⟨c, hc, _⟩ := i2.data a h
          rw [hc] at ht; cases ht
        obtain ⟨y1, y2⟩ := cPrune_spec E.prune2 repo2 tbl2 R2.final (fun a h => (i2.valid a h).2) hnl2 i2.all hS.rm2 i5 i7
        have hprot2 : ∀ n d, E.prune2.fs.check n d ≠ .closed → Protected E.prune2.fs repo2 n d := by
          rintro n d h a _ rfl rfl; exact Or.inr h
        have st3 : ∀ s ∈ (cPrune load E.prune2 [[]] repo2 tbl2 R2.final).1.states, Inv Good (s.fs []) ∧ Complete load Obj s.fs s.store ∧
            ∀ n d c os, HexD d → Stored st.fs n d c → objectsOf load c = some os → E.prune1.fs.check n d ≠ .closed → E.prune2.fs.check n d ≠ .closed →
            Stored s.fs n d c ∧ ∀ o ∈ os, s.store o = st.store o := by
          intro s hs
          obtain ⟨z1, z2, z3⟩ := y1 s hs
          refine ⟨z1.inv i1 i2.valid i4, z2, ?_⟩
          intro n d c os hd hst hos h1 h2
          obtain ⟨e1, e2⟩ := hpres R2.final i6 n d c os hd hst hos h1 h2
          constructor
          · unfold Stored at e1 ⊢
            rw [PruneRel.kept z1 (fun a h => (i2.valid a h).2) hd (hprot2 n d h2)]; exact e1
          · intro o ho
            rw [z3 n d c os hd e1 hos (hprot2 n d h2) o ho]
            exact e2 o ho
        refine ⟨?_, ?_⟩
        · intro s hs
          simp only [List.mem_append] at hs
          rcases hs with (hs | hs) | hs
          · exact st1 s hs
          · exact st2 s hs
          · exact st3 s hs
        · intro hk3
          obtain ⟨w1, w2, w3, w4, w5, w6, w7⟩ := y2 hk3
          obtain ⟨_, q2', _⟩ := prune_spec E.prune2.fs repo2 R2.final.fs hnl2
          refine ⟨?_, (st3 _ w3).1, (st3 _ w3).2.1, ?_⟩
          · intro hkeep n d hn hd
            have : Active (cPrune load E.prune2 [[]] repo2 tbl2 R2.final).1.final.fs n d ↔ Active R2.final.fs n d := by
              rw [w2]; exact q2'.link_iff n _
            rw [this, i9 hkeep n d hn hd]
            simp only [hact]
          · intro o ho
            obtain ⟨a, ha, c, os, e1, e2, e3⟩ := w6 o ho
            simp only [pruneRepo, List.mem_filter, decide_eq_true_eq] at ha
            refine ⟨a.name, a.digest, c, os, (i2.valid a ha.1).2, e1, e2, e3, ?_⟩
            rcases ha.2 with h | h
            · simp only [Active, w2]
              rcases i3 a ha.1 h with h | h
              · exact Or.inl ((q2'.link_iff _ _).2 h)
              · exact Or.inr (Or.inl ((q2'.link_iff _ _).2 h))
            · exact Or.inr (Or.inr h)

/-! ## Histories -/

/-- the states of a repository which starts empty and is changed only by installations, each of which may stop at any point -/
inductive CReach (Good : Str → Str → Bytes → Prop) (load : Loader) (Obj : Str → Bytes → Prop) : CState → Prop
  | empty (st : CState) : (∀ x, st.fs [] x = none) → CReach Good load Obj st
  | step (st : CState) (E : CSessionEnv) (keep : List Str) (plans : List CPlan) (s : CState) : CReach Good load Obj st → CSessionOk Good load Obj E plans st →
      s ∈ (cSession load E [[]] [] keep plans st).states → CReach Good load Obj s

theorem CReach.inv {st : CState} (h : CReach Good load Obj st) : Inv Good (st.fs []) ∧ Complete load Obj st.fs st.store := by
  induction h with
  | empty st h =>
    refine ⟨⟨?_, ?_, ?_, ?_⟩, ?_⟩
    · intro x t m d _ h2; rw [h x] at h2; cases h2
    · intro x t h2; rw [h] at h2; cases h2
    · intro m d _ _ h2; rw [h] at h2; cases h2
    · intro x m d _ h2; exact absurd (h x) h2
    · intro n d c os _ h2; unfold Stored at h2; rw [h] at h2; cases h2
  | step st E keep plans s _ hS hs ih =>
    have := (cSession_spec E keep plans st ih.1 ih.2 hS).1 s hs
    exact ⟨this.1, this.2.1⟩

/-- **C65.** At every point in time, whatever installations were run and wherever they were interrupted: the artifact a name stands for is there, with its complete image, and every object its image
refers to is in the store, with its complete content. -/
theorem C65_complete_partial (hgood : ∀ n d c, Good n d c → objectsOf load c ≠ none) (st : CState) (h : CReach Good load Obj st) (n d : Str) (hn : ValidName n) (hd : HexD d)
    (ha : Active st.fs n d) :
    ∃ c, Stored st.fs n d c ∧ Good n d c ∧ (∃ r, load c = some r) ∧ ∀ o, Needs load c o → ∃ b, st.store o = some b ∧ Obj o b := by
  obtain ⟨hI, hJ⟩ := h.inv
  obtain ⟨c, h1, h2⟩ := hI.resolves n d hn hd ha
  refine ⟨c, h1, h2, ?_, ?_⟩
  · have := hgood n d c h2
    unfold objectsOf at this
    cases hl : load c with
    | none => rw [hl] at this; exact absurd rfl this
    | some r => exact ⟨r, rfl⟩
  · intro o ho
    cases hos : objectsOf load c with
    | none => exact absurd hos (hgood n d c h2)
    | some os => exact hJ n d c os hd h1 hos o ((objectsOf_some hos o).1.2 ho)

/-- **C65.** While an installation runs (and wherever it is interrupted), an artifact which a process has open stays as it is: neither its image nor any object of it is removed or written. -/
theorem C65_open (st : CState) (h : CReach Good load Obj st) (E : CSessionEnv) (keep : List Str) (plans : List CPlan) (hS : CSessionOk Good load Obj E plans st)
    (n d : Str) (c : Bytes) (hd : HexD d) (hc : Stored st.fs n d c) (hload : objectsOf load c ≠ none)
    (h1 : E.prune1.fs.check n d = .opened) (h2 : E.prune2.fs.check n d = .opened) :
    ∀ s ∈ (cSession load E [[]] [] keep plans st).states, Stored s.fs n d c ∧ ∀ o, Needs load c o → s.store o ≠ none ∧ s.store o = st.store o := by
  intro s hs
  obtain ⟨hI, hJ⟩ := h.inv
  cases hos : objectsOf load c with
  | none => exact absurd hos hload
  | some os =>
    obtain ⟨e1, e2⟩ := ((cSession_spec E keep plans st hI hJ hS).1 s hs).2.2 n d c os hd hc hos (by rw [h1]; simp) (by rw [h2]; simp)
    refine ⟨e1, fun o ho => ?_⟩
    have hm := (objectsOf_some hos o).1.2 ho
    have e := e2 o hm
    obtain ⟨b, hb, _⟩ := hJ n d c os hd hc hos o hm
    exact ⟨by rw [e, hb]; simp, e⟩

/-- **C65.** After a successful installation the installed artifacts are the ones the names stand for, and the store has exactly the objects which the artifacts need that are active (or half activated, or still in use). -/
theorem C65_session (hgood : ∀ n d c, Good n d c → objectsOf load c ≠ none) (st : CState) (h : CReach Good load Obj st) (E : CSessionEnv) (keep : List Str) (plans : List CPlan)
    (hS : CSessionOk Good load Obj E plans st) (hkeep : ∀ x ∈ plans, x.name ∈ keep) (hnodup : (plans.map (·.name)).Nodup)
    (hok : (cSession load E [[]] [] keep plans st).ok = true) :
    (∀ x ∈ plans, Active (cSession load E [[]] [] keep plans st).final.fs x.name x.digest ∧
      ∃ c, Stored (cSession load E [[]] [] keep plans st).final.fs x.name x.digest c ∧ Good x.name x.digest c ∧
        ∀ o, Needs load c o → ∃ b, (cSession load E [[]] [] keep plans st).final.store o = some b ∧ Obj o b) ∧
    (∀ o, (cSession load E [[]] [] keep plans st).final.store o ≠ none → ∃ n d c, HexD d ∧
      Stored (cSession load E [[]] [] keep plans st).final.fs n d c ∧ Needs load c o ∧
      (Active (cSession load E [[]] [] keep plans st).final.fs n d ∨
        (cSession load E [[]] [] keep plans st).final.fs [] (tmpName n) = some (.link (entryName n d)) ∨ E.prune2.fs.check n d ≠ .closed)) := by
  obtain ⟨hI, hJ⟩ := h.inv
  obtain ⟨k1, k2, k3, k4⟩ := (cSession_spec E keep plans st hI hJ hS).2 hok
  constructor
  · intro x hx
    obtain ⟨hn, hd, _⟩ := hS.plans x hx
    have hact : Active (cSession load E [[]] [] keep plans st).final.fs x.name x.digest := by
      rw [k1 hkeep x.name x.digest hn hd]
      have : ∃ y, lastPlan (plans.map CPlan.plain) x.name = some y ∧ y.digest = x.digest := by
        unfold lastPlan
        cases hf : (plans.map CPlan.plain).reverse.find? (fun y => y.name = x.name) with
        | none =>
          have := List.find?_eq_none.1 hf x.plain (by simpa using ⟨x, hx, rfl⟩)
          simp [CPlan.plain] at this
        | some y =>
          refine ⟨y, rfl, ?_⟩
          have h1 := List.find?_some hf
          have h2 := List.mem_of_find?_eq_some hf
          simp only [decide_eq_true_eq] at h1
          simp only [List.mem_reverse, List.mem_map] at h2
          obtain ⟨z, hz, rfl⟩ := h2
          have : z = x := by
            clear k1 k2 k3 k4 hf hok hS hkeep
            induction plans with
            | nil => cases hx
            | cons w l ih =>
              simp only [List.map_cons, List.nodup_cons] at hnodup
              rcases List.mem_cons.1 hx with rfl | hx' <;> rcases List.mem_cons.1 hz with rfl | hz'
              · rfl
              · exact absurd (List.mem_map.2 ⟨z, hz', h1⟩) hnodup.1
              · exact absurd (show z.name ∈ l.map (·.name) from List.mem_map.2 ⟨x, hx', h1.symm⟩) hnodup.1
              · exact ih hnodup.2 hx' hz'
          rw [this]; rfl
      obtain ⟨y, h1, h2⟩ := this
      rw [h1]
      exact h2.symm
    refine ⟨hact, ?_⟩
    obtain ⟨c, h1, h2⟩ := k2.resolves _ _ hn hd hact
    refine ⟨c, h1, h2, ?_⟩
    intro o ho
    cases hos : objectsOf load c with
    | none => exact absurd hos (hgood _ _ c h2)
    | some os => exact k3 _ _ c os hd h1 hos o ((objectsOf_some hos o).1.2 ho)
  · intro o ho
    obtain ⟨n, d, c, os, e1, e2, e3, e4, e5⟩ := k4 o ho
    exact ⟨n, d, c, e1, e2, (objectsOf_some e3 o).1.1 e4, e5⟩

/-- **C65.** A bundle whose image cannot be read, has a file with an improper object name, or needs an object which neither the bundle nor the store has, is refused: the installation fails,
nothing that is there is changed and nothing is activated. -/
theorem C65_refused (E : CPlanEnv) (keep : List Str) (repo : Repo) (x : CPlan) (tbl : List Str) (st : CState)
    (hnew : ∀ a ∈ repo, ¬ (a.name = x.name ∧ a.digest = x.digest))
    (hbad : load x.content = none ∨ ∃ o, Needs load x.content o ∧ (¬ ProperName o ∨ (x.bundle o = none ∧ o ∉ tbl))) :
    (cPlan load E [[]] keep [] repo x tbl st).1.ok = false ∧
    ∀ f, (cInstall load E.copy x.name x.digest x.content x.bundle tbl f).1.ok = false ∧
      ∀ s ∈ (cInstall load E.copy x.name x.digest x.content x.bundle tbl f).1.states, ∀ y, y ≠ tmpEntry x.name x.digest → s.fs [] y = f.fs [] y := by
  have key : ∀ f, (cInstall load E.copy x.name x.digest x.content x.bundle tbl f).1.ok = false ∧
      ∀ s ∈ (cInstall load E.copy x.name x.digest x.content x.bundle tbl f).1.states, ∀ y, y ≠ tmpEntry x.name x.digest → s.fs [] y = f.fs [] y := by
    intro f
    unfold cInstall
    split
    · refine ⟨rfl, ?_⟩
      intro s hs y _
      simp [CRun.pure] at hs
      subst hs; rfl
    · have hset : ∀ (c : Option Node) y, y ≠ tmpEntry x.name x.digest → (f.fs.set [] (tmpEntry x.name x.digest) c) [] y = f.fs [] y := by
        intro c y hy; rw [fset_same, set_other hy]
      have hpart : ∀ s ∈ f :: E.copy.partials.map (fun c => (⟨f.fs.set [] (tmpEntry x.name x.digest) (some (.file c)), f.store⟩ : CState)),
          ∀ y, y ≠ tmpEntry x.name x.digest → s.fs [] y = f.fs [] y := by
        intro s hs y hy
        simp only [List.mem_cons, List.mem_map] at hs
        rcases hs with rfl | ⟨c, _, rfl⟩
        · rfl
        · exact hset _ y hy
      simp only
      split
      · exact ⟨rfl, hpart⟩
      · cases hos : objectsOf load x.content with
        | none =>
          refine ⟨rfl, ?_⟩
          intro s hs y hy
          simp only [List.mem_append, List.mem_singleton] at hs
          rcases hs with hs | rfl
          · exact hpart s hs y hy
          · exact hset _ y hy
        | some os =>
          have hfe : fetchable x.bundle f.store (missing tbl os) = false := by
            rcases hbad with h | ⟨o, ho, h | ⟨h1, h2⟩⟩
            · unfold objectsOf at hos; rw [h] at hos; cases hos
            · exact absurd ((objectsOf_some hos o).2 ho) h
            · unfold fetchable
              rw [List.all_eq_false]
              exact ⟨o, mem_missing.2 ⟨(objectsOf_some hos o).1.2 ho, h2⟩, by simp [h1]⟩
          simp only [hfe, Bool.and_false, Bool.not_false, if_true]
          refine ⟨trivial, ?_⟩
          intro s hs y hy
          simp only [List.mem_append, List.mem_singleton, List.mem_map] at hs
          rcases hs with (hs | rfl) | ⟨w, _, rfl⟩
          · exact hpart s hs y hy
          · exact hset _ y hy
          · exact hset _ y hy
  refine ⟨?_, key⟩
  unfold cPlan
  simp only
  split
  · rename_i h; simpa using h
  · have hf : (find (dropOld keep repo) x.name x.digest).isSome = false := by
      cases h : (find (dropOld keep repo) x.name x.digest).isSome with
      | false => rfl
      | true =>
        obtain ⟨a, ha, h1, h2⟩ := find_some h
        obtain ⟨b, hb, rfl⟩ := dropOld_mem.1 ha
        refine absurd ⟨?_, ?_⟩ (hnew b hb)
        · rw [← h1]; split <;> rfl
        · rw [← h2]; split <;> rfl
    rw [hf]
    simp only [Bool.false_eq_true, if_false, (key _).1, Bool.not_false, if_true]

/-! ## Findings -/

/-- **C65, finding.** If a link refers to an artifact whose image is gone, every installation fails, whatever it installs; it does not get any further than the first pruning, and the state is as before.
Such a state is reached by interrupting two installations, see `Example.blocked_reached`. -/
theorem C65_finding_blocked (st : CState) (h : CReach Good load Obj st) (n d l : Str) (c : Bytes) (hd : HexD d) (hl : l.head? ≠ some '.')
    (hlink : st.fs [] l = some (.link (entryName n d))) (hc : Stored st.fs n d c) (hbad : objectsOf load c = none)
    (E : CSessionEnv) (keep : List Str) (plans : List CPlan) (hS : CSessionOk Good load Obj E plans st) :
    (cSession load E [[]] [] keep plans st).ok = false ∧
    ∀ s ∈ (cSession load E [[]] [] keep plans st).states, s.fs [] l = some (.link (entryName n d)) ∧ Stored s.fs n d c := by
  obtain ⟨hI, hJ⟩ := h.inv
  unfold cSession
  cases hp : prepare E.ls [[]] st.fs with
  | none => exact ⟨rfl, fun s hs => by simp [CRun.pure] at hs; subst hs; exact ⟨hlink, hc⟩⟩
  | some repo =>
    obtain ⟨k1, k2, k3, k4, k5, k6, k7, _⟩ := prepare_spec E.ls st.fs repo hI hS.lists hp
    have hnl : ∀ a ∈ repo, ∀ t, st.fs [] (entryName a.name a.digest) ≠ some (.link t) := by
      intro a h t ht
      obtain ⟨c, hc⟩ := k3 a h
      rw [hc] at ht; cases ht
    have href : HasRef repo n d := prepare_hasRef hp (p := []) (x := l) (by simp) ((hS.lists.2 l).2 (by rw [hlink]; simp)) hd hl (by rw [hlink, targetOf_root])
    have hprot : Protected E.prune1.fs repo n d := fun a ha h1 h2 => Or.inl (href a ha h1 h2)
    obtain ⟨p1, p2⟩ := cPrune_spec E.prune1 repo E.objects st (fun a h => (k2 a h).2) hnl k5 hS.rm1 hJ (fun o h => (hS.objects o).2 h)
    have hkept : ∀ s : CState, PruneRel E.prune1.fs repo (st.fs []) (s.fs []) → s.fs [] l = some (.link (entryName n d)) ∧ Stored s.fs n d c := by
      intro s hs
      refine ⟨(hs.link_iff _ _).2 hlink, ?_⟩
      unfold Stored at hc ⊢
      rw [PruneRel.kept (fs' := s.fs) hs (fun a h => (k2 a h).2) hd hprot]; exact hc
    have hfail : (cPrune load E.prune1 [[]] repo E.objects st).1.ok = false := by
      cases hk : (cPrune load E.prune1 [[]] repo E.objects st).1.ok with
      | false => rfl
      | true =>
        obtain ⟨_, _, b3, _, _, _, b7⟩ := p2 hk
        obtain ⟨a, ha, h1, h2⟩ := k5 n d hd (by unfold Stored at hc; rw [hc]; simp)
        obtain ⟨c', os, e1, e2⟩ := b7 a (by
          simp only [pruneRepo, List.mem_filter, ha, true_and, decide_eq_true_eq]
          exact Or.inl (href a ha h1 h2))
        have := (hkept _ (p1 _ b3).1).2
        unfold Stored at this e1
        rw [h1, h2, this] at e1
        cases e1
        rw [hbad] at e2; cases e2
    simp only [hfail, Bool.not_false, if_true]
    exact ⟨trivial, fun s hs => hkept s (p1 s hs).1⟩

namespace Example

def o1 : Str := c!"aa/00000000000000000000000000000000000000000000000000000000000000"
def o2 : Str := c!"bb/00000000000000000000000000000000000000000000000000000000000000"

/-- images: [1] has two files, [2] one of them and a directory with another, [] is no image -/
def ld : Loader := fun c =>
  if c = [1] then some (.mk false none [.mk true (some o1) [], .mk true none []])
  else if c = [2] then some (.mk false none [.mk false none [.mk true (some o1) []], .mk true (some o2) []])
  else none

def good (_ d : Str) (c : Bytes) : Prop := (d = c!"ab" ∧ c = [1]) ∨ (d = c!"cd" ∧ c = [2])
def obj (o : Str) (b : Bytes) : Prop := (o = o1 ∧ b = [7]) ∨ (o = o2 ∧ b = [8])

def bundle : Store := fun o => if o = o1 then some [7] else if o = o2 then some [8] else none

def env (l l2 os : List Str) (rmOk : Bool) : CSessionEnv :=
  { ls := fun _ => l
    objects := os
    prune1 := ⟨⟨fun _ => l, fun _ _ => .closed, fun _ _ => [[]], fun _ _ => true⟩, fun _ => true, true⟩
    plans := fun _ => ⟨⟨fun _ _ => {}, fun _ _ => true, true⟩, ⟨[[9]], true, [fun _ => some [0]], true, true, true, true⟩, ⟨fun _ _ => {}, fun _ _ => true, true⟩⟩
    prune2 := ⟨⟨fun _ => l2, fun _ _ => .closed, fun _ _ => [[]], fun _ _ => rmOk⟩, fun _ => true, true⟩ }

def st0 : CState := ⟨fun _ _ => none, fun _ => none⟩
def first : CPlan := ⟨c!"app", c!"ab", [1], bundle⟩
def second : CPlan := ⟨c!"app", c!"cd", [2], bundle⟩
def E1 : CSessionEnv := env [] [c!"app", c!".artifact-app-ab"] [] true
def st1 : CState := (cSession ld E1 [[]] [] [c!"app"] [first] st0).final
def E2 : CSessionEnv := env [c!"app", c!".artifact-app-ab"] [c!"app", c!".artifact-app-ab", c!".artifact-app-cd"] [o1] true

theorem good_loads (n d : Str) (c : Bytes) (h : good n d c) : objectsOf ld c ≠ none := by
  rcases h with ⟨_, rfl⟩ | ⟨_, rfl⟩ <;> decide

theorem bundle_ok (o : Str) (b : Bytes) (h : bundle o = some b) : obj o b := by
  unfold bundle at h
  split at h
  · rename_i e; cases h; exact Or.inl ⟨e, rfl⟩
  · split at h
    · rename_i e; cases h; exact Or.inr ⟨e, rfl⟩
    · cases h

theorem rm_ok (l l2 os : List Str) (b : Bool) : RmOk ld (env l l2 os b).prune1.fs ∧ RmOk ld (env l l2 os b).prune2.fs := by
  constructor <;> (intro x c hc; simp [env] at hc; subst hc; decide)

theorem plan_ok (x : CPlan) (hx : x = first ∨ x = second) : ValidName x.name ∧ HexD x.digest ∧ good x.name x.digest x.content ∧ ∀ o b, x.bundle o = some b → obj o b := by
  rcases hx with rfl | rfl
  · exact ⟨⟨by decide, by decide, by decide⟩, ⟨by decide, by decide⟩, Or.inl ⟨rfl, rfl⟩, bundle_ok⟩
  · exact ⟨⟨by decide, by decide, by decide⟩, ⟨by decide, by decide⟩, Or.inr ⟨rfl, rfl⟩, bundle_ok⟩

theorem ok1 : CSessionOk good ld obj E1 [first] st0 where
  lists := ⟨by simp [E1, env], by simp [E1, env, st0]⟩
  objects := by simp [E1, env, st0]
  plans := by intro x hx; simp only [List.mem_singleton] at hx; exact plan_ok x (Or.inl hx)
  opened := by intro n d c h; simp [E1, env] at h
  rm1 := (rm_ok _ _ _ _).1
  rm2 := (rm_ok _ _ _ _).2

set_option maxRecDepth 100000 in
/-- the hypotheses can be met: an installation in an empty repository -/
theorem done1 : (cSession ld E1 [[]] [] [c!"app"] [first] st0).ok = true ∧ Active st1.fs c!"app" c!"ab" ∧ Stored st1.fs c!"app" c!"ab" [1] ∧
    st1.store o1 = some [7] ∧ st1.store o2 = none := by
  refine ⟨by decide +kernel, by unfold Active; decide +kernel, by unfold Stored; decide +kernel, by decide +kernel, by decide +kernel⟩

/-- a directory, entry by entry -/
def put (l : List (Str × Option Node)) : Dir := l.foldl (fun D e => Utils.Dir.set D e.1 e.2) (fun _ => none)

theorem put_mem (l : List (Str × Option Node)) (x : Str) (h : put l x ≠ none) : x ∈ l.map (·.1) := by
  unfold put at h
  have : ∀ (l : List (Str × Option Node)) (D : Dir), (l.foldl (fun D e => Utils.Dir.set D e.1 e.2) D) x ≠ none → x ∈ l.map (·.1) ∨ D x ≠ none := by
    intro l
    induction l with
    | nil => intro D h; exact Or.inr h
    | cons e l ih =>
      intro D h
      rcases ih _ h with h | h
      · exact Or.inl (by simp only [List.map_cons, List.mem_cons]; exact Or.inr h)
      · by_cases hx : x = e.1
        · exact Or.inl (by simp [hx])
        · simp only [set_other hx] at h; exact Or.inr h
  rcases this l _ h with h | h
  · exact h
  · exact absurd rfl h

theorem put_lists {L : List Str} {l : List (Str × Option Node)} (hn : L.Nodup) (hL : ∀ x ∈ L, x ∈ l.map (·.1)) (h : ∀ x ∈ l.map (·.1), x ∈ L ↔ put l x ≠ none) :
    Lists L (put l) :=
  ⟨hn, fun x => ⟨fun hx => (h x (hL x hx)).1 hx, fun hx => (h x (put_mem l x hx)).2 hx⟩⟩

def l1 : List (Str × Option Node) := [(c!".artifact-app-ab.tmp", some (.file [1])), (c!".artifact-app-ab.tmp", none), (c!".artifact-app-ab", some (.file [1])),
    (c!"app.tmp-link", some (.link c!".artifact-app-ab")), (c!"app", some (.link c!".artifact-app-ab")), (c!"app.tmp-link", none)]
/-- the directory after the first installation -/
theorem fs1 : st1.fs [] = put l1 := by rfl

theorem store1 : st1.store = overlay [o1] bundle (fun _ => none) := by rfl

theorem reach1 : CReach good ld obj st1 := by
  refine CReach.step st0 E1 [c!"app"] [first] st1 (CReach.empty _ (fun _ => rfl)) ok1 ?_
  have : (cSession ld E1 [[]] [] [c!"app"] [first] st0).states.getLast? = some st1 := rfl
  exact List.mem_of_getLast? this

theorem ok2 : CSessionOk good ld obj E2 [second] st1 where
  lists := by rw [fs1]; exact put_lists (by decide +kernel) (by decide +kernel) (by decide +kernel)
  objects := by
    intro o
    rw [store1]
    simp only [E2, env, overlay, List.mem_singleton]
    constructor
    · rintro rfl; simp [bundle]
    · intro h; apply Decidable.not_not.1; intro hn; simp [hn] at h
  plans := by intro x hx; simp only [List.mem_singleton] at hx; exact plan_ok x (Or.inr hx)
  opened := by intro n d c h; simp [E2, env] at h
  rm1 := (rm_ok _ _ _ _).1
  rm2 := (rm_ok _ _ _ _).2

set_option maxRecDepth 100000 in
/-- then another version: the object which both use is kept, the old artifact is pruned -/
theorem done2 : (cSession ld E2 [[]] [] [c!"app"] [second] st1).ok = true ∧
    (cSession ld E2 [[]] [] [c!"app"] [second] st1).final.fs [] c!".artifact-app-ab" = none ∧
    (cSession ld E2 [[]] [] [c!"app"] [second] st1).final.store o1 = some [7] ∧
    (cSession ld E2 [[]] [] [c!"app"] [second] st1).final.store o2 = some [8] := by
  refine ⟨by decide +kernel, by decide +kernel, by decide +kernel, by decide +kernel⟩

/-- interrupted while the link is replaced -/
def stB : CState := (cSession ld E2 [[]] [] [c!"app"] [second] st1).states[15]'(by decide +kernel)

def lB : List (Str × Option Node) := l1 ++ [(c!".artifact-app-cd.tmp", some (.file [2])), (c!".artifact-app-cd.tmp", none), (c!".artifact-app-cd", some (.file [2])),
    (c!"app.tmp-link", some (.link c!".artifact-app-cd"))]

theorem fsB : stB.fs [] = put lB := by rfl
theorem storeB : stB.store = overlay [o2] bundle (overlay [o1] bundle (fun _ => none)) := by rfl

theorem reachB : CReach good ld obj stB := CReach.step st1 E2 [c!"app"] [second] stB reach1 ok2 (List.getElem_mem _)

/-- a bundle with another artifact only -/
def other : CPlan := ⟨c!"lib", c!"ab", [1], bundle⟩
def E3 : CSessionEnv := env [c!"app", c!"app.tmp-link", c!".artifact-app-ab", c!".artifact-app-cd"]
  [c!"lib", c!"app.tmp-link", c!".artifact-app-ab", c!".artifact-app-cd", c!".artifact-lib-ab"] [o1, o2] true

theorem ok3 : CSessionOk good ld obj E3 [other] stB where
  lists := by rw [fsB]; exact put_lists (by decide +kernel) (by decide +kernel) (by decide +kernel)
  objects := by
    intro o
    rw [storeB]
    simp only [E3, env, overlay, List.mem_cons, List.not_mem_nil, or_false]
    constructor
    · rintro (rfl | rfl)
      · rw [if_neg (by decide +kernel)]; simp [bundle]
      · simp [bundle, show ¬ o2 = o1 by decide +kernel]
    · intro h; apply Decidable.not_not.1; intro hn; simp only [not_or] at hn; simp [hn] at h
  plans := by
    intro x hx
    simp only [List.mem_singleton] at hx
    subst hx
    exact ⟨⟨by decide, by decide, by decide⟩, ⟨by decide, by decide⟩, Or.inl ⟨rfl, rfl⟩, bundle_ok⟩
  opened := by intro n d c h; simp [E3, env] at h
  rm1 := (rm_ok _ _ _ _).1
  rm2 := (rm_ok _ _ _ _).2

/-- interrupted while the tree of the artifact that is no longer used is removed -/
def stC : CState := (cSession ld E3 [[]] [] [c!"lib"] [other] stB).states[29]'(by decide +kernel)

def lC : List (Str × Option Node) := lB ++ [(c!"app", none), (c!".artifact-lib-ab.tmp", some (.file [1])), (c!".artifact-lib-ab.tmp", none), (c!".artifact-lib-ab", some (.file [1])),
    (c!"lib.tmp-link", some (.link c!".artifact-lib-ab")), (c!"lib", some (.link c!".artifact-lib-ab")), (c!"lib.tmp-link", none), (c!".artifact-app-ab", none),
    (c!".artifact-app-cd", some (.file []))]

theorem fsC : stC.fs [] = put lC := by rfl
theorem storeC : stC.store = overlay [] bundle (overlay [o2] bundle (overlay [o1] bundle (fun _ => none))) := by rfl

set_option maxRecDepth 100000 in
/-- the hypotheses of `C65_finding_blocked` can be met, by interrupting two of three installations -/
theorem blocked_reached : CReach good ld obj stC ∧ HexD c!"cd" ∧ stC.fs [] c!"app.tmp-link" = some (.link (entryName c!"app" c!"cd")) ∧
    Stored stC.fs c!"app" c!"cd" [] ∧ objectsOf ld [] = none ∧
    ∃ E, CSessionOk good ld obj E [other] stC ∧ (cSession ld E [[]] [] [c!"lib"] [other] stC).ok = false := by
  have h1 : CReach good ld obj stC := CReach.step stB E3 [c!"lib"] [other] stC reachB ok3 (List.getElem_mem _)
  have h2 : HexD c!"cd" := ⟨by decide, by decide⟩
  have h3 : stC.fs [] c!"app.tmp-link" = some (.link (entryName c!"app" c!"cd")) := by rw [fsC]; decide +kernel
  have h4 : Stored stC.fs c!"app" c!"cd" [] := by unfold Stored; rw [fsC]; decide +kernel
  have h5 : objectsOf ld [] = none := by decide
  let E := env [c!"lib", c!"app.tmp-link", c!".artifact-app-cd", c!".artifact-lib-ab"] [] [o1, o2] true
  have h6 : CSessionOk good ld obj E [other] stC :=
    { lists := by rw [fsC]; exact put_lists (by decide +kernel) (by decide +kernel) (by decide +kernel)
      objects := by
        intro o
        rw [storeC]
        simp only [E, env, overlay, List.mem_cons, List.not_mem_nil, or_false, if_false]
        constructor
        · rintro (rfl | rfl)
          · rw [if_neg (by decide +kernel)]; simp [bundle]
          · simp [bundle, show ¬ o2 = o1 by decide +kernel]
        · intro h; apply Decidable.not_not.1; intro hn; simp only [not_or] at hn; simp [hn] at h
      plans := ok3.plans
      opened := by intro n d c h; simp [E, env] at h
      rm1 := (rm_ok _ _ _ _).1
      rm2 := (rm_ok _ _ _ _).2 }
  exact ⟨h1, h2, h3, h4, h5, E, h6, (C65_finding_blocked stC h1 _ _ _ _ h2 (by decide) h3 h4 h5 E _ _ h6).1⟩

set_option maxRecDepth 100000 in
/-- **C65, finding.** An object which is missing in the store (after file system damage, say) is reported with a warning only; installing the same bundle again, which has this object, is successful and does not
bring it back. -/
theorem C65_finding_not_repaired :
    let damaged : CState := ⟨st1.fs, fun _ => none⟩
    let r := cSession ld (env [c!"app", c!".artifact-app-ab"] [c!"app", c!".artifact-app-ab"] [] true) [[]] [] [c!"app"] [first] damaged
    first.bundle o1 = some [7] ∧ Needs ld first.content o1 ∧ r.ok = true ∧ Active r.final.fs c!"app" c!"ab" ∧ r.final.store o1 = none := by
  refine ⟨by decide +kernel, ?_, by decide +kernel, by unfold Active; decide +kernel, by decide +kernel⟩
  exact ⟨_, .mk true (some o1) [], rfl, .child _ _ (by simp [CNode.children]), rfl, rfl⟩

set_option maxRecDepth 100000 in
/-- the hypotheses of `C65_open` can be met: the old version is in use while the new one is installed -/
example : let E : CSessionEnv := { E2 with
      prune1 := { E2.prune1 with fs := { E2.prune1.fs with check := fun _ d => if d = c!"ab" then .opened else .closed } }
      prune2 := { E2.prune2 with fs := { E2.prune2.fs with check := fun _ d => if d = c!"ab" then .opened else .closed } } }
    Stored st1.fs c!"app" c!"ab" [1] ∧ objectsOf ld [1] ≠ none ∧ E.prune1.fs.check c!"app" c!"ab" = .opened ∧ E.prune2.fs.check c!"app" c!"ab" = .opened ∧
    (cSession ld E [[]] [] [c!"app"] [second] st1).ok = true ∧ Stored (cSession ld E [[]] [] [c!"app"] [second] st1).final.fs c!"app" c!"ab" [1] := by
  refine ⟨done1.2.2.1, by decide +kernel, by decide +kernel, by decide +kernel, by decide +kernel, by unfold Stored; decide +kernel⟩

set_option maxRecDepth 100000 in
/-- names: a path that leaves the store is no proper name, so the image is refused -/
example : objectsOf (fun _ => some (.mk false none [.mk true (some c!"../../etc/passwd") []])) [] = none ∧ nameValid o1 = true := by
  refine ⟨by decide +kernel, by decide +kernel⟩

end Example

end Rauc.Composefs
