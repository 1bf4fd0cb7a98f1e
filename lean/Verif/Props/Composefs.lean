import Verif.Model.Composefs
import Verif.Props.ArtifactsSession

/-!
# C65: the objects of composefs artifacts
-/

namespace Rauc.Composefs

open Rauc.Artifacts
open Utils (Node Dir tmpName)

/-! ## Specification -/

/-- `Below m r`: `m` is somewhere below `r` in the tree -/
inductive Below : CNode → CNode → Prop
  | child (m r : CNode) : m ∈ r.children → Below m r
  | deeper (m k r : CNode) : k ∈ r.children → Below m k → Below m r

/-- the image `content` has a file whose data is the object `o` -/
def Needs (load : Loader) (content : Bytes) (o : Str) : Prop :=
  ∃ r m, load content = some r ∧ Below m r ∧ m.isReg = true ∧ m.payload = some o

/-- two hexadecimal digits, a slash, 62 more of them -/
def ProperName (o : Str) : Prop :=
  ∃ a b, o = a ++ '/' :: b ∧ a.length = 2 ∧ b.length = 62 ∧ ∀ c ∈ a ++ b, c ∈ c!"0123456789abcdefABCDEF"

/-! ## Names -/

theorem zipIdx_all_iff {α : Type} (P : α → Nat → Prop) (l : List α) : ∀ k, (∀ x ∈ l.zipIdx k, P x.1 x.2) ↔ ∀ i (h : i < l.length), P l[i] (k + i) := by
  induction l with
  | nil => intro k; simp
  | cons a l ih =>
    intro k
    simp only [List.zipIdx_cons, List.mem_cons, forall_eq_or_imp, ih]
    constructor
    · rintro ⟨h0, h⟩ i hi
      cases i with
      | zero => exact h0
      | succ i =>
        have := h i (by simpa using hi)
        simpa [Nat.add_assoc, Nat.add_comm 1 i] using this
    · intro h
      refine ⟨h 0 (by simp), fun i hi => ?_⟩
      have := h (i + 1) (by simpa using hi)
      simpa [Nat.add_assoc, Nat.add_comm 1 i] using this

theorem nameValid_iff (o : Str) : nameValid o = true ↔ ProperName o := by
  unfold nameValid
  simp only [Bool.and_eq_true, decide_eq_true_eq, List.all_eq_true, Bool.or_eq_true, beq_iff_eq]
  constructor
  · rintro ⟨⟨h1, h2⟩, h3⟩
    have h3' := (zipIdx_all_iff (fun c i => i = 2 ∨ xdigit c = true) o 0).1 h3
    have hs : o.drop 2 = '/' :: o.drop 3 := by
      rw [List.drop_eq_getElem_cons (by omega : 2 < o.length)]
      rw [List.getElem?_eq_getElem (by omega)] at h2
      rw [Option.some.inj h2]
    refine ⟨o.take 2, o.drop 3, ?_, ?_, ?_, ?_⟩
    · rw [← hs, List.take_append_drop]
    · simp; omega
    · simp; omega
    · intro c hc
      have hx : ∀ i (hi : i < o.length), i ≠ 2 → o[i] ∈ c!"0123456789abcdefABCDEF" := by
        intro i hi hne
        rcases h3' i hi with h | h
        · omega
        · simpa [xdigit] using h
      rcases List.mem_append.1 hc with hc | hc
      · obtain ⟨i, hi, rfl⟩ := List.getElem_of_mem hc
        rw [List.length_take] at hi
        rw [List.getElem_take]
        exact hx i (by omega) (by omega)
      · obtain ⟨i, hi, rfl⟩ := List.getElem_of_mem hc
        rw [List.length_drop] at hi
        rw [List.getElem_drop]
        exact hx _ (by omega) (by omega)
  · rintro ⟨a, b, rfl, ha, hb, hc⟩
    have hd : ∀ c ∈ a ++ b, xdigit c = true := fun c h => by simpa [xdigit] using hc c h
    refine ⟨⟨by simp [ha, hb], ?_⟩, ?_⟩
    · rw [List.getElem?_append_right (by omega), ha]; rfl
    · refine (zipIdx_all_iff (fun c i => i = 2 ∨ xdigit c = true) _ 0).2 ?_
      intro i hi
      by_cases h1 : i < 2
      · right
        rw [List.getElem_append_left (by omega)]
        exact hd _ (List.mem_append_left _ (List.getElem_mem _))
      · by_cases h2 : i = 2
        · left; omega
        · right
          rw [List.getElem_append_right (by omega)]
          simp only [ha]
          obtain ⟨j, rfl⟩ : ∃ j, i = j + 3 := ⟨i - 3, by omega⟩
          have : ('/' :: b)[j + 3 - 2]'(by simp at hi ⊢; omega) = b[j]'(by simp at hi; omega) := by
            have : j + 3 - 2 = j + 1 := by omega
            simp only [this, List.getElem_cons_succ]
          rw [this]
          exact hd _ (List.mem_append_right _ (List.getElem_mem _))

/-- `m` is one of the nodes or below one of them -/
def Among (m : CNode) (cs : List CNode) : Prop := ∃ k ∈ cs, m = k ∨ Below m k

theorem below_iff (m : CNode) (r : Bool) (p : Option Str) (cs : List CNode) : Below m (.mk r p cs) ↔ Among m cs := by
  constructor
  · intro h
    cases h with
    | child _ h => exact ⟨m, h, Or.inl rfl⟩
    | deeper k _ h1 h2 => exact ⟨k, h1, Or.inr h2⟩
  · rintro ⟨k, hk, rfl | h⟩
    · exact .child _ _ hk
    · exact .deeper _ k _ hk h

theorem among_cons (m k : CNode) (cs : List CNode) : Among m (k :: cs) ↔ (m = k ∨ Below m k) ∨ Among m cs := by
  simp [Among]

/-- what the loop finds -/
def Found (cs : List CNode) (o : Str) : Prop := ∃ m, Among m cs ∧ m.isReg = true ∧ m.payload = some o

theorem found_cons (r : Bool) (p : Option Str) (c cs : List CNode) (o : Str) :
    Found (.mk r p c :: cs) o ↔ (r = true ∧ p = some o) ∨ Found c o ∨ Found cs o := by
  unfold Found
  constructor
  · rintro ⟨m, hm, h1, h2⟩
    rw [among_cons] at hm
    rcases hm with (rfl | h) | h
    · exact Or.inl ⟨h1, h2⟩
    · exact Or.inr (Or.inl ⟨m, (below_iff _ _ _ _).1 h, h1, h2⟩)
    · exact Or.inr (Or.inr ⟨m, h, h1, h2⟩)
  · rintro (⟨h1, h2⟩ | ⟨m, h, h1, h2⟩ | ⟨m, h, h1, h2⟩)
    · exact ⟨_, (among_cons _ _ _).2 (Or.inl (Or.inl rfl)), h1, h2⟩
    · exact ⟨m, (among_cons _ _ _).2 (Or.inl (Or.inr ((below_iff _ _ _ _).2 h))), h1, h2⟩
    · exact ⟨m, (among_cons _ _ _).2 (Or.inr h), h1, h2⟩

theorem collectList_spec : ∀ cs : List CNode,
    (∀ os, collectList cs = some os → ∀ o, (o ∈ os ↔ Found cs o) ∧ (Found cs o → ProperName o)) ∧
    (collectList cs = none → ∃ o, Found cs o ∧ ¬ ProperName o)
  | [] => by
    constructor
    · intro os h o
      rw [collectList] at h
      cases h
      constructor
      · simp [Found, Among]
      · rintro ⟨m, ⟨k, hk, _⟩, _⟩; cases hk
    · intro h; rw [collectList] at h; cases h
  | .mk r p c :: cs => by
    obtain ⟨a1, a2⟩ := collectList_spec c
    obtain ⟨b1, b2⟩ := collectList_spec cs
    have base : collect (.mk r p c) = collectList c := by rw [collect]
    -- the part after the check of the name
    have both : ∀ (l l' : List Str), collectList c = some l → collectList cs = some l' → ∀ o,
        (o ∈ l ++ l' ↔ Found c o ∨ Found cs o) ∧ (Found c o ∨ Found cs o → ProperName o) := by
      intro l l' h1 h2 o
      have e1 := a1 l h1 o
      have e2 := b1 l' h2 o
      refine ⟨by rw [List.mem_append, e1.1, e2.1], ?_⟩
      rintro (h | h)
      · exact e1.2 h
      · exact e2.2 h
    have plain : ¬ (r = true ∧ p.isSome = true) →
        collectList (.mk r p c :: cs) = (match collect (.mk r p c) with
          | none => none
          | some l => match collectList cs with
            | none => none
            | some l' => some (l ++ l')) := by
      intro hn
      rw [collectList.eq_def]
      cases r <;> cases p <;> first | rfl | (exfalso; exact hn ⟨rfl, rfl⟩)
    by_cases hrp : r = true ∧ p.isSome = true
    · obtain ⟨rfl, hp⟩ := hrp
      obtain ⟨n, rfl⟩ := Option.isSome_iff_exists.1 hp
      have e : collectList (.mk true (some n) c :: cs) = if nameValid n = true then (match collectList c with
          | none => none
          | some l => match collectList cs with
            | none => none
            | some l' => some (n :: (l ++ l'))) else none := by
        rw [← base]
        conv => lhs; rw [collectList.eq_def]
        rfl
      rw [e]
      by_cases hv : nameValid n = true
      · rw [if_pos hv]
        cases h1 : collectList c with
        | none =>
          refine ⟨by simp, fun _ => ?_⟩
          obtain ⟨o, ho, hno⟩ := a2 h1
          exact ⟨o, (found_cons _ _ _ _ _).2 (Or.inr (Or.inl ho)), hno⟩
        | some l =>
          cases h2 : collectList cs with
          | none =>
            refine ⟨by simp, fun _ => ?_⟩
            obtain ⟨o, ho, hno⟩ := b2 h2
            exact ⟨o, (found_cons _ _ _ _ _).2 (Or.inr (Or.inr ho)), hno⟩
          | some l' =>
            refine ⟨?_, by simp⟩
            intro os hos o
            simp only [Option.some.injEq] at hos
            subst hos
            obtain ⟨c1, c2⟩ := both l l' h1 h2 o
            rw [found_cons, List.mem_cons, c1]
            refine ⟨by simp [eq_comm], ?_⟩
            rintro (⟨_, h⟩ | h)
            · cases h; exact (nameValid_iff _).1 hv
            · exact c2 h
      · rw [if_neg hv]
        refine ⟨by simp, fun _ => ⟨n, (found_cons _ _ _ _ _).2 (Or.inl ⟨rfl, rfl⟩), ?_⟩⟩
        rw [← nameValid_iff]; exact hv
    · rw [plain hrp, base]
      have hno : ∀ o, ¬ (r = true ∧ p = some o) := by
        rintro o ⟨h1, h2⟩; exact hrp ⟨h1, by rw [h2]; rfl⟩
      cases h1 : collectList c with
      | none =>
        refine ⟨by simp, fun _ => ?_⟩
        obtain ⟨o, ho, hno⟩ := a2 h1
        exact ⟨o, (found_cons _ _ _ _ _).2 (Or.inr (Or.inl ho)), hno⟩
      | some l =>
        cases h2 : collectList cs with
        | none =>
          refine ⟨by simp, fun _ => ?_⟩
          obtain ⟨o, ho, hno⟩ := b2 h2
          exact ⟨o, (found_cons _ _ _ _ _).2 (Or.inr (Or.inr ho)), hno⟩
        | some l' =>
          refine ⟨?_, by simp⟩
          intro os hos o
          simp only [Option.some.injEq] at hos
          subst hos
          obtain ⟨c1, c2⟩ := both l l' h1 h2 o
          rw [found_cons, c1]
          exact ⟨by simp [hno], by simpa [hno] using c2⟩

theorem objectsOf_some {load : Loader} {c : Bytes} {os : List Str} (h : objectsOf load c = some os) (o : Str) :
    (o ∈ os ↔ Needs load c o) ∧ (Needs load c o → ProperName o) := by
  unfold objectsOf at h
  cases hl : load c with
  | none => rw [hl] at h; cases h
  | some r =>
    rw [hl] at h
    simp only at h
    obtain ⟨i, p, cs⟩ := r
    rw [collect] at h
    obtain ⟨h1, h2⟩ := (collectList_spec cs).1 os h o
    have : Needs load c o ↔ Found cs o := by
      unfold Needs Found
      constructor
      · rintro ⟨r', m, hr, hb, hm⟩
        rw [hl] at hr
        cases hr
        exact ⟨m, (below_iff _ _ _ _).1 hb, hm⟩
      · rintro ⟨m, ha, hm⟩
        exact ⟨_, m, hl, (below_iff _ _ _ _).2 ha, hm⟩
    rw [this]
    exact ⟨h1, h2⟩

/-- **C65.** Which objects an artifact needs is determined from its image: the payloads of all regular files, at any depth. An image which cannot be loaded or has a payload which is not a proper name is refused. -/
theorem C65_objects (load : Loader) (content : Bytes) :
    (∀ os, objectsOf load content = some os → (∀ o, o ∈ os ↔ Needs load content o) ∧ ∀ o ∈ os, ProperName o) ∧
    (objectsOf load content = none ↔ load content = none ∨ ∃ o, Needs load content o ∧ ¬ ProperName o) := by
  constructor
  · intro os h
    exact ⟨fun o => (objectsOf_some h o).1, fun o ho => (objectsOf_some h o).2 ((objectsOf_some h o).1.1 ho)⟩
  · constructor
    · intro h
      unfold objectsOf at h
      cases hl : load content with
      | none => exact Or.inl rfl
      | some r =>
        rw [hl] at h
        obtain ⟨i, p, cs⟩ := r
        simp only at h
        rw [collect] at h
        obtain ⟨o, ⟨m, hm, h1⟩, h2⟩ := (collectList_spec cs).2 h
        exact Or.inr ⟨o, ⟨_, m, hl, (below_iff _ _ _ _).2 hm, h1⟩, h2⟩
    · rintro (h | ⟨o, h1, h2⟩)
      · unfold objectsOf; rw [h]
      · cases h : objectsOf load content with
        | none => rfl
        | some os => exact absurd ((objectsOf_some h o).2 h1) h2

end Rauc.Composefs
