import Verif.Props.Composefs

/-!
# C65: the object store during installations, with crashes
-/

namespace Rauc.Composefs

open Rauc.Artifacts
open Utils (Node Dir tmpName)

variable {Good : Str → Str → Bytes → Prop} {load : Loader} {Obj : Str → Bytes → Prop}

/-! ## Invariants -/

/-- the objects of every stored artifact (that can be loaded) are in the store, with the right content -/
def Complete (load : Loader) (Obj : Str → Bytes → Prop) (fs : Fs) (store : Store) : Prop :=
  ∀ n d c os, HexD d → Stored fs n d c → objectsOf load c = some os → ∀ o ∈ os, ∃ b, store o = some b ∧ Obj o b

/-- the table has all objects of the store -/
def Covers (tbl : List Str) (store : Store) : Prop := ∀ o, store o ≠ none → o ∈ tbl

/-- and they have the right content -/
def Sound (Obj : Str → Bytes → Prop) (tbl : List Str) (store : Store) : Prop := ∀ o ∈ tbl, ∃ b, store o = some b ∧ Obj o b

theorem Complete.congr {fs fs' : Fs} {store : Store} (h : Complete load Obj fs store)
    (he : ∀ n d c os, HexD d → Stored fs' n d c → objectsOf load c = some os → Stored fs n d c) : Complete load Obj fs' store :=
  fun n d c os hd hs ho => h n d c os hd (he n d c os hd hs ho) ho

/-! ## The directory -/

/-- what is true for the states of removals holds for all states of pruning -/
theorem prune_all (P : Fs → Prop) (E : PruneEnv) (repo : Repo) (fs : Fs) (h0 : P fs)
    (hset : ∀ s x y, P s → (y = none ∨ ∃ c ∈ E.rmPartials [] x, y = some (.file c)) → P (s.set [] x y)) :
    (∀ s ∈ (prune E [[]] repo fs).states, P s) ∧ P (prune E [[]] repo fs).final := by
  have hrm : ∀ x s, P s → (∀ s' ∈ (rmTree E [] x s).states, P s') ∧ P (rmTree E [] x s).final := by
    intro x s h
    have hlist : ∀ s' ∈ s :: (E.rmPartials [] x).map (fun c => s.set [] x (some (.file c))), P s' := by
      intro s' hs
      simp only [List.mem_cons, List.mem_map] at hs
      rcases hs with rfl | ⟨c, hc, rfl⟩
      · exact h
      · exact hset _ _ _ h (Or.inr ⟨c, hc, rfl⟩)
    have hn : P (s.set [] x none) := hset _ _ _ h (Or.inl rfl)
    unfold rmTree
    simp only
    split
    · refine ⟨?_, hn⟩
      intro s' hs
      simp only [List.mem_append, List.mem_singleton] at hs
      rcases hs with hs | rfl
      · exact hlist s' hs
      · exact hn
    · refine ⟨hlist, ?_⟩
      simp only
      cases hg : (s :: (E.rmPartials [] x).map (fun c => s.set [] x (some (.file c)))).getLast? with
      | none => simp at hg
      | some s' => exact hlist s' (List.mem_of_getLast? hg)
  have hroot : ∀ (l : List Str) (s : Fs), P s → (∀ s' ∈ (pruneRoot E [[]] l s).states, P s') ∧ P (pruneRoot E [[]] l s).final := by
    intro l
    induction l with
    | nil => intro s h; exact pure_all P h
    | cons x l ih =>
      intro s h
      unfold pruneRoot
      split
      · exact ih s h
      · exact bind_all P (hrm x s h) (ih _)
  have hunused : ∀ (l : Repo) (s : Fs), P s → (∀ s' ∈ (pruneUnused E l s).states, P s') ∧ P (pruneUnused E l s).final := by
    intro l
    induction l with
    | nil => intro s h; exact pure_all P h
    | cons a l ih =>
      intro s h
      unfold pruneUnused
      split
      · exact ih s h
      · cases hc : E.check a.name a.digest with
        | opened => exact ih s h
        | error => exact pure_all P h
        | closed => exact bind_all P (hrm _ s h) (ih _)
  unfold prune
  rw [pruneSubs_root]
  exact bind_all P ⟨fun s hs => by simp at hs; subst hs; exact h0, h0⟩
    (fun h1 => bind_all P (hroot (E.ls []) _ h1) (fun h2 => hunused repo _ h2))

/-- committing does not touch the data of artifacts -/
theorem commit_entries (E : CommitEnv) (repo : Repo) (fs : Fs) (hv : ∀ a ∈ repo, ValidName a.name) (n d : Str) :
    (∀ s ∈ (commit E [[]] repo fs).states, s [] (entryName n d) = fs [] (entryName n d)) ∧
    (commit E [[]] repo fs).final [] (entryName n d) = fs [] (entryName n d) := by
  have hnames : ∀ m ∈ names repo, ValidName m := by
    intro m hm
    obtain ⟨a, ha, rfl⟩ := mem_names.1 hm
    exact hv a ha
  rw [commit_root]
  refine bind_all (fun s => s [] (entryName n d) = fs [] (entryName n d)) ?_ (fun h => pure_all _ h)
  revert hnames
  generalize names repo = l
  intro hnames
  have : ∀ (l : List Str), (∀ m ∈ l, ValidName m) → ∀ f : Fs, f [] (entryName n d) = fs [] (entryName n d) →
      (∀ s ∈ (commitNames E repo [] l f).states, s [] (entryName n d) = fs [] (entryName n d)) ∧
      (commitNames E repo [] l f).final [] (entryName n d) = fs [] (entryName n d) := by
    clear hnames l
    intro l
    induction l with
    | nil => intro _ f hf; exact pure_all (fun s => s [] (entryName n d) = fs [] (entryName n d)) hf
    | cons m l ih =>
      intro hl f hf
      unfold commitNames
      refine bind_all (fun s => s [] (entryName n d) = fs [] (entryName n d)) ?_ (fun h => ih (fun k hk => hl k (List.mem_cons_of_mem _ hk)) _ h)
      have hm := hl m (by simp)
      have n1 : entryName n d ≠ m := fun e => hm.ne_entry _ _ e.symm
      have n2 : entryName n d ≠ tmpName m := fun e => hm.tmp_ne_entry _ _ e.symm
      unfold commitOne
      cases hc : chosen repo [] m with
      | none =>
        simp only
        have hset : (f.set [] m none) [] (entryName n d) = fs [] (entryName n d) := by rw [fset_same, set_other n1]; exact hf
        have hif : ∀ b : Bool, (∀ s ∈ (if b = true then (⟨[f, f.set [] m none], f.set [] m none, true⟩ : Run) else Run.pure f false).states, s [] (entryName n d) = fs [] (entryName n d)) ∧
            (if b = true then (⟨[f, f.set [] m none], f.set [] m none, true⟩ : Run) else Run.pure f false).final [] (entryName n d) = fs [] (entryName n d) := by
          intro b
          cases b with
          | false => exact pure_all (fun s => s [] (entryName n d) = fs [] (entryName n d)) hf
          | true =>
            simp only [if_true]
            refine ⟨?_, hset⟩
            intro s hs
            simp only [List.mem_cons, List.not_mem_nil, or_false] at hs
            rcases hs with rfl | rfl
            · exact hf
            · exact hset
        cases hx : f [] m with
        | none => exact pure_all (fun s => s [] (entryName n d) = fs [] (entryName n d)) hf
        | some y =>
          cases y with
          | dir => exact pure_all (fun s => s [] (entryName n d) = fs [] (entryName n d)) hf
          | link _ => exact hif _
          | file _ => exact hif _
      | some a =>
        simp only
        have hst := (updateSymlink_states (E.link [] m) (f []) (targetOf [] a.name a.digest) m)
        have hall : ∀ D' ∈ (Utils.updateSymlink (E.link [] m) (f []) (targetOf [] a.name a.digest) m).1, D' (entryName n d) = fs [] (entryName n d) := by
          intro D' hD
          rcases hst.1 D' hD with rfl | ⟨_, _, rfl | rfl⟩
          · exact hf
          · rw [set_other n2]; exact hf
          · rw [set_other n1]; exact hf
        refine ⟨?_, ?_⟩
        · intro s hs
          obtain ⟨D', hD, rfl⟩ := List.mem_map.1 hs
          rw [upd_same]; exact hall D' hD
        · rw [upd_same]
          obtain ⟨l', hl, _⟩ := hst.2
          rw [hl]
          exact hall l' (List.mem_of_getLast? hl)
  exact this l hnames fs rfl

/-! ## Pruning the store -/

theorem required_some {fs : Fs} : ∀ {repo : Repo} {req : List Str}, required load fs repo = some req →
    (∀ a ∈ repo, ∃ c os, Stored fs a.name a.digest c ∧ objectsOf load c = some os ∧ ∀ o ∈ os, o ∈ req) ∧
    (∀ o ∈ req, ∃ a ∈ repo, ∃ c os, Stored fs a.name a.digest c ∧ objectsOf load c = some os ∧ o ∈ os) := by
  intro repo
  induction repo with
  | nil =>
    intro req h
    unfold required at h
    cases h
    simp
  | cons a l ih =>
    intro req h
    unfold required at h
    cases hf : fs [] (entryName a.name a.digest) with
    | none => rw [hf] at h; cases h
    | some x =>
      rw [hf] at h
      cases x with
      | dir => cases h
      | link _ => cases h
      | file c =>
        simp only at h
        cases ho : objectsOf load c with
        | none => rw [ho] at h; cases h
        | some os =>
          rw [ho] at h
          simp only at h
          cases hr : required load fs l with
          | none => rw [hr] at h; cases h
          | some os' =>
            rw [hr] at h
            simp only [Option.some.injEq] at h
            subst h
            obtain ⟨i1, i2⟩ := ih hr
            constructor
            · intro b hb
              rcases List.mem_cons.1 hb with rfl | hb
              · exact ⟨c, os, hf, ho, fun o h => List.mem_append_left _ h⟩
              · obtain ⟨c', q, h1, h2, h3⟩ := i1 b hb
                exact ⟨c', q, h1, h2, fun o h => List.mem_append_right _ (h3 o h)⟩
            · intro o h
              rcases List.mem_append.1 h with h | h
              · exact ⟨a, by simp, c, os, hf, ho, h⟩
              · obtain ⟨b, hb, r⟩ := i2 o h
                exact ⟨b, List.mem_cons_of_mem _ hb, r⟩

theorem pruneObjects_spec (unlinkOk : Str → Bool) (req : List Str) : ∀ (l : List Str) (st : CState),
    (∀ s ∈ (pruneObjects unlinkOk req l st).1.states, s.fs = st.fs ∧ ∀ o, s.store o = st.store o ∨ (o ∉ req ∧ s.store o = none)) ∧
    (pruneObjects unlinkOk req l st).1.final ∈ (pruneObjects unlinkOk req l st).1.states ∧
    ((pruneObjects unlinkOk req l st).1.ok = true →
      (pruneObjects unlinkOk req l st).2 = l.filter (fun o => o ∈ req) ∧
      ∀ o, o ∈ l → o ∉ req → (pruneObjects unlinkOk req l st).1.final.store o = none) := by
  intro l
  induction l with
  | nil => intro st; simp [pruneObjects, CRun.pure]
  | cons o l ih =>
    intro st
    unfold pruneObjects
    split
    · rename_i ho
      obtain ⟨i1, i2, i3⟩ := ih st
      refine ⟨i1, i2, fun hk => ?_⟩
      obtain ⟨h1, h2⟩ := i3 hk
      refine ⟨by simp only [h1]; rw [List.filter_cons_of_pos (by simpa using ho)], ?_⟩
      intro x hx hxr
      rcases List.mem_cons.1 hx with rfl | hx
      · exact absurd ho hxr
      · exact h2 x hx hxr
    · rename_i ho
      split
      · obtain ⟨i1, i2, i3⟩ := ih ⟨st.fs, st.store.set o none⟩
        have hrel : ∀ s ∈ (pruneObjects unlinkOk req l ⟨st.fs, st.store.set o none⟩).1.states,
            s.fs = st.fs ∧ ∀ x, s.store x = st.store x ∨ (x ∉ req ∧ s.store x = none) := by
          intro s hs
          obtain ⟨h1, h2⟩ := i1 s hs
          refine ⟨h1, fun x => ?_⟩
          rcases h2 x with h | h
          · by_cases hx : x = o
            · subst hx
              right
              refine ⟨ho, ?_⟩
              rw [h]; simp [Store.set]
            · left
              rw [h]; simp [Store.set, hx]
          · exact Or.inr h
        refine ⟨?_, ?_, ?_⟩
        · intro s hs
          simp only [List.mem_cons] at hs
          rcases hs with rfl | hs
          · exact ⟨rfl, fun _ => Or.inl rfl⟩
          · exact hrel s hs
        · simp only [List.mem_cons]; exact Or.inr i2
        · intro hk
          obtain ⟨h1, h2⟩ := i3 hk
          refine ⟨by simp only [h1]; rw [List.filter_cons_of_neg (by simpa using ho)], ?_⟩
          intro x hx hxr
          rcases List.mem_cons.1 hx with rfl | hx
          · rcases (i1 _ i2).2 x with h | h
            · simp only; rw [h]; simp [Store.set]
            · exact h.2
          · exact h2 x hx hxr
      · refine ⟨?_, by simp [CRun.pure], by simp [CRun.pure]⟩
        intro s hs
        simp [CRun.pure] at hs
        subst hs
        exact ⟨rfl, fun _ => Or.inl rfl⟩

/-- what the store contains is needed by an artifact of the table -/
def Minimal (load : Loader) (fs : Fs) (repo : Repo) (store : Store) : Prop :=
  ∀ o, store o ≠ none → ∃ a ∈ repo, ∃ c os, Stored fs a.name a.digest c ∧ objectsOf load c = some os ∧ o ∈ os

theorem pruneStore_spec (E : CPruneEnv) (repo : Repo) (tbl : List Str) (st : CState)
    (hall : ∀ n d, HexD d → st.fs [] (entryName n d) ≠ none → ∃ a ∈ repo, a.name = n ∧ a.digest = d)
    (hv : ∀ a ∈ repo, HexD a.digest) (hJ : Complete load Obj st.fs st.store) (hT : Covers tbl st.store) :
    (∀ s ∈ (pruneStore load E repo tbl st).1.states, s.fs = st.fs ∧ Complete load Obj s.fs s.store ∧
      ∀ n d c os, HexD d → Stored st.fs n d c → objectsOf load c = some os → ∀ o ∈ os, s.store o = st.store o) ∧
    (pruneStore load E repo tbl st).1.final ∈ (pruneStore load E repo tbl st).1.states ∧
    ((pruneStore load E repo tbl st).1.ok = true →
      Covers (pruneStore load E repo tbl st).2 (pruneStore load E repo tbl st).1.final.store ∧
      Sound Obj (pruneStore load E repo tbl st).2 (pruneStore load E repo tbl st).1.final.store ∧
      Minimal load st.fs repo (pruneStore load E repo tbl st).1.final.store ∧
      ∀ a ∈ repo, ∃ c os, Stored st.fs a.name a.digest c ∧ objectsOf load c = some os) := by
  unfold pruneStore
  cases hr : required load st.fs repo with
  | none =>
    refine ⟨?_, by simp [CRun.pure], by simp [CRun.pure]⟩
    intro s hs
    simp [CRun.pure] at hs
    subst hs
    exact ⟨rfl, hJ, fun _ _ _ _ _ _ _ _ _ => rfl⟩
  | some req =>
    obtain ⟨q1, q2⟩ := required_some hr
    obtain ⟨i1, i2, i3⟩ := pruneObjects_spec E.unlinkOk req tbl st
    have same : ∀ s ∈ (pruneObjects E.unlinkOk req tbl st).1.states, ∀ n d c os, HexD d → Stored st.fs n d c → objectsOf load c = some os →
        ∀ o ∈ os, s.store o = st.store o := by
      intro s hs n d c os hd hst hos o ho
      obtain ⟨a, ha, rfl, rfl⟩ := hall n d hd (by unfold Stored at hst; rw [hst]; simp)
      obtain ⟨c', os', h1, h2, h3⟩ := q1 a ha
      unfold Stored at h1 hst
      rw [hst] at h1
      cases h1
      rw [hos] at h2
      cases h2
      rcases (i1 s hs).2 o with h | h
      · exact h
      · exact absurd (h3 o ho) h.1
    have hfin : ∀ s ∈ (pruneObjects E.unlinkOk req tbl st).1.states, Complete load Obj s.fs s.store := by
      intro s hs n d c os hd hst hos o ho
      have hfs := (i1 s hs).1
      rw [hfs] at hst
      rw [same s hs n d c os hd hst hos o ho]
      exact hJ n d c os hd hst hos o ho
    simp only
    refine ⟨fun s hs => ⟨(i1 s hs).1, hfin s hs, same s hs⟩, i2, ?_⟩
    intro hk
    simp only [Bool.and_eq_true] at hk
    obtain ⟨h1, h2⟩ := i3 hk.1
    have hin : ∀ o, (pruneObjects E.unlinkOk req tbl st).1.final.store o ≠ none → o ∈ tbl ∧ o ∈ req := by
      intro o ho
      have hst : st.store o ≠ none := by
        rcases (i1 _ i2).2 o with h | h
        · rwa [h] at ho
        · exact absurd h.2 ho
      have htb := hT o hst
      refine ⟨htb, ?_⟩
      apply Decidable.not_not.1
      intro hn
      exact ho (h2 o htb hn)
    refine ⟨?_, ?_, ?_, ?_⟩
    · intro o ho
      rw [h1]
      simpa using hin o ho
    · intro o ho
      rw [h1] at ho
      simp only [List.mem_filter, decide_eq_true_eq] at ho
      obtain ⟨a, ha, c, os, e1, e2, e3⟩ := q2 o ho.2
      have hfs := (i1 _ i2).1
      exact hfin _ i2 a.name a.digest c os (hv a ha) (by unfold Stored; rw [hfs]; exact e1) e2 o e3
    · intro o ho
      exact q2 o (hin o ho).2
    · intro a ha
      obtain ⟨c, os, e1, e2, _⟩ := q1 a ha
      exact ⟨c, os, e1, e2⟩

/-! ## Pruning -/

/-- what pruning may not remove -/
def Protected (E : PruneEnv) (repo : Repo) (n d : Str) : Prop := ∀ a ∈ repo, a.name = n → a.digest = d → a.refs ≠ [] ∨ E.check a.name a.digest ≠ .closed

/-- removing the tree of an artifact removes its image -/
def RmOk (load : Loader) (E : PruneEnv) : Prop := ∀ x c, c ∈ E.rmPartials [] x → objectsOf load c = none

theorem PruneRel.kept {E : PruneEnv} {repo : Repo} {fs fs' : Fs} (h : PruneRel E repo (fs []) (fs' [])) (hv : ∀ a ∈ repo, HexD a.digest)
    {n d : Str} (hd : HexD d) (hp : Protected E repo n d) : fs' [] (entryName n d) = fs [] (entryName n d) := by
  rcases h (entryName n d) with e | ⟨_, _, e | ⟨a, ha, h1, h2, h3⟩⟩
  · exact e
  · rw [(parseEntry_iff _ n d).2 ⟨rfl, hd⟩] at e; cases e
  · obtain ⟨e1, e2⟩ := entryName_inj hd (hv a ha) h3
    rcases hp a ha e1.symm e2.symm with h | h
    · exact absurd h1 h
    · exact absurd h2 h

theorem cPrune_spec (E : CPruneEnv) (repo : Repo) (tbl : List Str) (st : CState)
    (hv : ∀ a ∈ repo, HexD a.digest)
    (hnl : ∀ a ∈ repo, ∀ t, st.fs [] (entryName a.name a.digest) ≠ some (.link t))
    (hall : ∀ n d, HexD d → st.fs [] (entryName n d) ≠ none → ∃ a ∈ repo, a.name = n ∧ a.digest = d)
    (hrm : RmOk load E.fs) (hJ : Complete load Obj st.fs st.store) (hT : Covers tbl st.store) :
    (∀ s ∈ (cPrune load E [[]] repo tbl st).1.states, PruneRel E.fs repo (st.fs []) (s.fs []) ∧ Complete load Obj s.fs s.store ∧
      ∀ n d c os, HexD d → Stored st.fs n d c → objectsOf load c = some os → Protected E.fs repo n d → ∀ o ∈ os, s.store o = st.store o) ∧
    ((cPrune load E [[]] repo tbl st).1.ok = true → (prune E.fs [[]] repo st.fs).ok = true ∧
      (cPrune load E [[]] repo tbl st).1.final.fs = (prune E.fs [[]] repo st.fs).final ∧
      (cPrune load E [[]] repo tbl st).1.final ∈ (cPrune load E [[]] repo tbl st).1.states ∧
      Covers (cPrune load E [[]] repo tbl st).2 (cPrune load E [[]] repo tbl st).1.final.store ∧
      Sound Obj (cPrune load E [[]] repo tbl st).2 (cPrune load E [[]] repo tbl st).1.final.store ∧
      Minimal load (cPrune load E [[]] repo tbl st).1.final.fs (pruneRepo E.fs repo) (cPrune load E [[]] repo tbl st).1.final.store ∧
      ∀ a ∈ pruneRepo E.fs repo, ∃ c os, Stored (cPrune load E [[]] repo tbl st).1.final.fs a.name a.digest c ∧ objectsOf load c = some os) := by
  obtain ⟨p1, p2, p3⟩ := prune_spec E.fs repo st.fs hnl
  have hJs := prune_all (fun f => Complete load Obj f st.store) E.fs repo st.fs hJ (by
    intro s x y h hy
    refine h.congr ?_
    intro n d c os hd hs ho
    unfold Stored at hs ⊢
    rw [fset_same] at hs
    by_cases hx : entryName n d = x
    · rw [hx, set_same] at hs
      rcases hy with rfl | ⟨c', hc', rfl⟩
      · cases hs
      · cases hs
        rw [hrm x c hc'] at ho; cases ho
    · rw [set_other hx] at hs; exact hs)
  have first : ∀ s ∈ (lift st.store (prune E.fs [[]] repo st.fs)).states, PruneRel E.fs repo (st.fs []) (s.fs []) ∧ Complete load Obj s.fs s.store ∧
      ∀ n d c os, HexD d → Stored st.fs n d c → objectsOf load c = some os → Protected E.fs repo n d → ∀ o ∈ os, s.store o = st.store o := by
    intro s hs
    simp only [lift, List.mem_map] at hs
    obtain ⟨f, hf, rfl⟩ := hs
    exact ⟨p1 f hf, hJs.1 f hf, fun _ _ _ _ _ _ _ _ _ _ => rfl⟩
  unfold cPrune
  simp only
  split
  · rename_i hk
    obtain ⟨g1, _, g3⟩ := p3 hk
    obtain ⟨q1, q2, q3⟩ := pruneStore_spec E (pruneRepo E.fs repo) tbl (⟨(prune E.fs [[]] repo st.fs).final, st.store⟩ : CState) (Obj := Obj) (load := load) (by
      intro n d hd hne
      simp only at hne
      have h0 : st.fs [] (entryName n d) ≠ none := by
        rcases g1 (entryName n d) with e | e
        · rwa [e] at hne
        · exact absurd e hne
      obtain ⟨a, ha, rfl, rfl⟩ := hall n d hd h0
      refine ⟨a, ?_, rfl, rfl⟩
      simp only [pruneRepo, List.mem_filter, ha, true_and, decide_eq_true_eq]
      apply Decidable.not_not.1
      intro hn
      simp only [not_or, ne_eq, Decidable.not_not] at hn
      exact hne ((g3 a ha hn.1).2 hn.2)) (fun a ha => hv a (List.mem_filter.1 ha).1) hJs.2 hT
    constructor
    · intro s hs
      simp only [List.mem_append] at hs
      rcases hs with hs | hs
      · exact first s hs
      · obtain ⟨e1, e2, e3⟩ := q1 s hs
        refine ⟨by rw [e1]; exact p2, e2, ?_⟩
        intro n d c os hd hst hos hp o ho
        refine e3 n d c os hd ?_ hos o ho
        unfold Stored
        simp only
        rw [PruneRel.kept p2 hv hd hp]
        exact hst
    · intro hk2
      simp only at hk2
      obtain ⟨e1, e2, e3, e4⟩ := q3 hk2
      have hfs := (q1 _ q2).1
      simp only at hfs
      simp only [hfs]
      exact ⟨hk, trivial, List.mem_append_right _ q2, e1, e2, e3, e4⟩
  · rename_i hk
    exact ⟨first, fun h => absurd h hk⟩

/-! ## Installing -/

/-- the same installation, as far as the directory is concerned -/
def effCopy (load : Loader) (E : CCopyEnv) (content : Bytes) (bundle : Store) (tbl : List Str) (store : Store) : CopyEnv where
  partials := E.partials ++ (if E.cpOk then [content] else [])
  copied := E.cpOk && (match objectsOf load content with
    | none => false
    | some os => E.fetchOk && fetchable bundle store (missing tbl os) && E.syncfsOk)
  renamed := E.renamed
  synced := E.synced

theorem mem_missing {tbl os : List Str} {o : Str} : o ∈ missing tbl os ↔ o ∈ os ∧ o ∉ tbl := by
  simp [missing]

/-- the states in which the new artifact has no place yet -/
theorem cInstall_spec (E : CCopyEnv) (n d : Str) (content : Bytes) (bundle : Store) (tbl : List Str) (st : CState) (hd : HexD d)
    (hJ : Complete load Obj st.fs st.store) (hT : Covers tbl st.store) (hS : Sound Obj tbl st.store) (hb : ∀ o b, bundle o = some b → Obj o b) :
    (∀ s ∈ (cInstall load E n d content bundle tbl st).1.states,
      s.fs ∈ (installData (effCopy load E content bundle tbl st.store) n d content st.fs).states ∧ Complete load Obj s.fs s.store ∧
      ∀ o, st.store o ≠ none → s.store o = st.store o) ∧
    ((cInstall load E n d content bundle tbl st).1.ok = true →
      (installData (effCopy load E content bundle tbl st.store) n d content st.fs).ok = true ∧
      (cInstall load E n d content bundle tbl st).1.final.fs = (installData (effCopy load E content bundle tbl st.store) n d content st.fs).final ∧
      (cInstall load E n d content bundle tbl st).1.final ∈ (cInstall load E n d content bundle tbl st).1.states ∧
      Covers (cInstall load E n d content bundle tbl st).2 (cInstall load E n d content bundle tbl st).1.final.store ∧
      Sound Obj (cInstall load E n d content bundle tbl st).2 (cInstall load E n d content bundle tbl st).1.final.store) := by
  have htmp : ∀ (x : Option Node) (w : Store), Complete load Obj st.fs w → Complete load Obj (st.fs.set [] (tmpEntry n d) x) w := by
    intro x w h
    refine h.congr ?_
    intro m e c os he hs _
    unfold Stored at hs ⊢
    rw [fset_same, set_other (tmpEntry_ne_entry hd m e he)] at hs
    exact hs
  unfold cInstall
  unfold installData
  split
  · rename_i hc
    simp only [hc, if_true]
    refine ⟨?_, by simp [CRun.pure]⟩
    intro s hs
    simp [CRun.pure] at hs
    subst hs
    exact ⟨by simp [Run.pure], hJ, fun _ _ => rfl⟩
  · rename_i hc
    simp only [hc]
    have hpart : ∀ s ∈ st :: E.partials.map (fun c => (⟨st.fs.set [] (tmpEntry n d) (some (.file c)), st.store⟩ : CState)),
        (s.fs ∈ st.fs :: E.partials.map (fun c => st.fs.set [] (tmpEntry n d) (some (.file c)))) ∧ Complete load Obj s.fs s.store ∧
        ∀ o, st.store o ≠ none → s.store o = st.store o := by
      intro s hs
      simp only [List.mem_cons, List.mem_map] at hs
      rcases hs with rfl | ⟨c, hc, rfl⟩
      · exact ⟨by simp, hJ, fun _ _ => rfl⟩
      · exact ⟨by simp only [List.mem_cons, List.mem_map]; exact Or.inr ⟨c, hc, rfl⟩, htmp _ _ hJ, fun _ _ => rfl⟩
    cases hcp : E.cpOk with
    | false =>
      simp only [effCopy, hcp, Bool.not_false, if_true, Bool.false_and, Bool.false_eq_true, if_false, List.append_nil]
      refine ⟨?_, by simp⟩
      intro s hs
      exact hpart s hs
    | true =>
      simp only [Bool.not_true, Bool.false_eq_true, if_false]
      -- the directories in which everything is copied
      have hsub : ∀ f, f ∈ st.fs :: E.partials.map (fun c => st.fs.set [] (tmpEntry n d) (some (.file c))) ∨
          f = st.fs.set [] (tmpEntry n d) (some (.file content)) →
          f ∈ st.fs :: (E.partials ++ [content]).map (fun c => st.fs.set [] (tmpEntry n d) (some (.file c))) := by
        rintro f (h | rfl)
        · simp only [List.map_append, ← List.cons_append, List.mem_append]
          exact Or.inl h
        · simp
      have hfullJ := htmp (some (.file content)) st.store hJ
      cases hos : objectsOf load content with
      | none =>
        simp only [effCopy, hcp, hos, Bool.and_false, Bool.not_false, if_true]
        refine ⟨?_, by simp⟩
        intro s hs
        simp only [List.mem_append, List.mem_singleton] at hs
        rcases hs with hs | rfl
        · exact ⟨hsub _ (Or.inl (hpart s hs).1), (hpart s hs).2⟩
        · exact ⟨hsub _ (Or.inr rfl), hfullJ, fun _ _ => rfl⟩
      | some os =>
        have hover : ∀ (w : Store) o, st.store o ≠ none → overlay (missing tbl os) w st.store o = st.store o := by
          intro w o ho
          unfold overlay
          rw [if_neg]
          intro hm
          exact (mem_missing.1 hm).2 (hT o ho)
        have hoverJ : ∀ w : Store, Complete load Obj st.fs (overlay (missing tbl os) w st.store) := by
          intro w m e c os' he hs ho o hoo
          obtain ⟨b, h1, h2⟩ := hJ m e c os' he hs ho o hoo
          refine ⟨b, ?_, h2⟩
          rw [hover w o (by rw [h1]; simp)]; exact h1
        have hlost : ∀ s ∈ (st :: E.partials.map (fun c => (⟨st.fs.set [] (tmpEntry n d) (some (.file c)), st.store⟩ : CState))) ++
              [⟨st.fs.set [] (tmpEntry n d) (some (.file content)), st.store⟩] ++
              E.lost.map (fun w => (⟨st.fs.set [] (tmpEntry n d) (some (.file content)), overlay (missing tbl os) w st.store⟩ : CState)),
            (s.fs ∈ st.fs :: (E.partials ++ [content]).map (fun c => st.fs.set [] (tmpEntry n d) (some (.file c)))) ∧ Complete load Obj s.fs s.store ∧
            ∀ o, st.store o ≠ none → s.store o = st.store o := by
          intro s hs
          simp only [List.mem_append, List.mem_singleton, List.mem_map] at hs
          rcases hs with (hs | rfl) | ⟨w, _, rfl⟩
          · exact ⟨hsub _ (Or.inl (hpart s hs).1), (hpart s hs).2⟩
          · exact ⟨hsub _ (Or.inr rfl), hfullJ, fun _ _ => rfl⟩
          · exact ⟨hsub _ (Or.inr rfl), htmp _ _ (hoverJ w), hover w⟩
        have hstored : (⟨st.fs.set [] (tmpEntry n d) (some (.file content)), overlay (missing tbl os) bundle st.store⟩ : CState).fs ∈
            st.fs :: (E.partials ++ [content]).map (fun c => st.fs.set [] (tmpEntry n d) (some (.file c))) := hsub _ (Or.inr rfl)
        simp only
        cases hf : E.fetchOk && fetchable bundle st.store (missing tbl os) with
        | false =>
          simp only [effCopy, hcp, hos, hf, Bool.and_false, Bool.not_false, if_true, Bool.false_and]
          refine ⟨?_, by simp⟩
          intro s hs
          exact hlost s hs
        | true =>
          simp only [Bool.not_true, Bool.false_eq_true, if_false]
          cases hsy : E.syncfsOk with
          | false =>
            simp only [effCopy, hcp, hos, hf, hsy, Bool.and_false, Bool.not_false, if_true]
            refine ⟨?_, by simp⟩
            intro s hs
            rcases List.mem_append.1 hs with hs | hs
            · exact hlost s hs
            · simp only [List.mem_singleton] at hs
              subst hs
              exact ⟨hstored, htmp _ _ (hoverJ _), hover _⟩
          | true =>
            simp only [effCopy, hcp, hos, hf, hsy, Bool.and_true, Bool.not_true, Bool.false_eq_true, if_false, CopyEnv.written, if_true]
            cases hre : E.renamed with
            | false =>
              simp only [Bool.not_false, if_true]
              refine ⟨?_, by simp⟩
              intro s hs
              rcases List.mem_append.1 hs with hs | hs
              · exact ⟨List.mem_append_left _ (hlost s hs).1, (hlost s hs).2⟩
              · simp only [List.mem_singleton] at hs
                subst hs
                exact ⟨List.mem_append_left _ hstored, htmp _ _ (hoverJ _), hover _⟩
            | true =>
              simp only [Bool.not_true, Bool.false_eq_true, if_false]
              simp only [Bool.and_eq_true] at hf
              have hnew : ∀ o ∈ missing tbl os, ∃ b, overlay (missing tbl os) bundle st.store o = some b ∧ Obj o b := by
                intro o ho
                have := List.all_eq_true.1 hf.2 o ho
                simp only [Bool.and_eq_true] at this
                obtain ⟨b, hbo⟩ := Option.isSome_iff_exists.1 this.1
                exact ⟨b, by unfold overlay; rw [if_pos ho]; exact hbo, hb o b hbo⟩
              have hsound : Sound Obj (tbl ++ missing tbl os) (overlay (missing tbl os) bundle st.store) := by
                intro o ho
                by_cases hm : o ∈ missing tbl os
                · exact hnew o hm
                · rcases List.mem_append.1 ho with h | h
                  · obtain ⟨b, h1, h2⟩ := hS o h
                    exact ⟨b, by rw [hover _ o (by rw [h1]; simp)]; exact h1, h2⟩
                  · exact absurd h hm
              have hdone : Complete load Obj (((st.fs.set [] (tmpEntry n d) (some (.file content))).set [] (tmpEntry n d) none).set [] (entryName n d) (some (.file content)))
                  (overlay (missing tbl os) bundle st.store) := by
                intro m e c os' he hs ho o hoo
                unfold Stored at hs
                rw [fset_same] at hs
                by_cases hme : entryName m e = entryName n d
                · rw [hme, set_same] at hs
                  cases hs
                  rw [hos] at ho
                  cases ho
                  by_cases hm : o ∈ tbl
                  · exact hsound o (List.mem_append_left _ hm)
                  · exact hsound o (List.mem_append_right _ (mem_missing.2 ⟨hoo, hm⟩))
                · rw [set_other hme, fset_same, set_other (tmpEntry_ne_entry hd m e he), fset_same, set_other (tmpEntry_ne_entry hd m e he)] at hs
                  exact hoverJ _ m e c os' he hs ho o hoo
              refine ⟨?_, ?_⟩
              · intro s hs
                rcases List.mem_append.1 hs with hs | hs
                · exact ⟨List.mem_append_left _ (hlost s hs).1, (hlost s hs).2⟩
                · simp only [List.mem_cons, List.not_mem_nil, or_false] at hs
                  rcases hs with rfl | rfl
                  · exact ⟨List.mem_append_left _ hstored, htmp _ _ (hoverJ _), hover _⟩
                  · exact ⟨by simp, hdone, hover _⟩
              · intro hk
                refine ⟨hk, trivial, by simp, ?_, hsound⟩
                intro o ho
                by_cases hm : o ∈ missing tbl os
                · exact List.mem_append_right _ hm
                · refine List.mem_append_left _ (hT o ?_)
                  unfold overlay at ho
                  rwa [if_neg hm] at ho

end Rauc.Composefs
