import Verif.Lemmas.Boot

/-! Order variables with arbitrary white space: what `g_strchomp` does to a re-joined token list. -/

namespace Rauc.Boot

/-- tokens read back after joining and chomping -/
def normTail : List Str → List Str
  | [] => []
  | t :: ts =>
    match normTail ts with
    | [] => if chomp t = [] then [] else [chomp t]
    | r => t :: r

theorem chomp_subset (s : Str) : ∀ c ∈ chomp s, c ∈ s := by
  induction s with
  | nil => simp [chomp]
  | cons x xs ih =>
    intro c hc
    simp only [chomp] at hc
    split at hc
    · split at hc
      · simp at hc
      · simp at hc; simp [hc]
    · rcases List.mem_cons.1 hc with rfl | h
      · simp
      · exact List.mem_cons_of_mem _ (ih c h)

theorem split_chomp_nodelim {t : Str} (h : ' ' ∉ t) : split ' ' (chomp t) = if chomp t = [] then [] else [chomp t] := by
  split
  · rename_i h0; rw [h0]; rfl
  · rename_i h0
    rw [split_eq _ _ h0]
    simpa using splitAux_nodelim ' ' (chomp t) [] (fun hm => h (chomp_subset _ _ hm))

theorem split_chomp_join (ts : List Str) (h : ∀ t ∈ ts, ' ' ∉ t) :
    split ' ' (chomp (join ' ' ts)) = normTail ts ∧ (normTail ts = [] ↔ chomp (join ' ' ts) = []) := by
  induction ts with
  | nil => simp [join, chomp, normTail, split]
  | cons t us ih =>
    obtain ⟨ih1, ih2⟩ := ih (fun x hx => h x (List.mem_cons_of_mem _ hx))
    have ht := h t (by simp)
    cases us with
    | nil =>
      simp only [join, normTail]
      refine ⟨split_chomp_nodelim ht, ?_⟩
      split <;> simp_all
    | cons u vs =>
      have hj : join ' ' (t :: u :: vs) = t ++ ' ' :: join ' ' (u :: vs) := rfl
      rw [hj]
      generalize join ' ' (u :: vs) = J at *
      rw [normTail]
      cases hn : normTail (u :: vs) with
      | nil =>
        have hJ := ih2.1 hn
        have h0 : chomp (' ' :: J) = [] := by simp [chomp, hJ, isSpace_space]
        rw [chomp_append_of_nil _ _ h0]
        simp only []
        refine ⟨split_chomp_nodelim ht, ?_⟩
        split <;> simp_all
      | cons a as =>
        have hJ : chomp J ≠ [] := fun e => by have := ih2.2 e; rw [hn] at this; cases this
        have h1 : chomp (' ' :: J) = ' ' :: chomp J := by
          rw [chomp]; split
          · rename_i e; exact absurd e hJ
          · rfl
        rw [chomp_append_nonspace _ _ (by rw [h1]; simp), h1]
        refine ⟨?_, by simp⟩
        rw [split_eq _ _ (by simp), splitAux_delim ' ' t [] _ ht]
        rw [← split_eq _ _ hJ, ih1, hn]
        simp

theorem normTail_split_chomp (o : Str) : normTail (split ' ' (chomp o)) = split ' ' (chomp o) := by
  have := (split_chomp_join (split ' ' (chomp o)) (split_fields ' ' _)).1
  rw [join_split, chomp_idem] at this
  exact this.symm

theorem normTail_filter (T : List Str) (h : normTail T = T) :
    normTail (T.filter (fun t => !(t == []))) = T.filter (fun t => !(t == [])) ∧
    (T ≠ [] → T.filter (fun t => !(t == [])) ≠ []) := by
  induction T with
  | nil => simp [normTail]
  | cons t ts ih =>
    rw [normTail] at h
    cases hn : normTail ts with
    | nil =>
      rw [hn] at h
      simp only [] at h
      split at h
      · cases h
      · rename_i hc
        injection h with h1 h2
        subst h2
        have htne : t ≠ [] := by rw [← h1]; exact hc
        simp [htne, normTail, h1]
    | cons a as =>
      rw [hn] at h
      simp only [] at h
      injection h with _ h2
      obtain ⟨i1, i2⟩ := ih (by rw [hn, h2])
      have hts : ts ≠ [] := by rw [← h2]; simp
      have hf := i2 hts
      refine ⟨?_, ?_⟩
      · by_cases ht : t = []
        · have e : (t :: ts).filter (fun t => !(t == [])) = ts.filter (fun t => !(t == [])) := by
            rw [List.filter_cons_of_neg]; simp [ht]
          rw [e, i1]
        · simp only [List.filter_cons]
          simp only [ht, Bool.not_eq_true', beq_eq_false_iff_ne, ne_eq, not_false_eq_true, if_true]
          rw [normTail, i1]
          split
          · rename_i e; exact absurd e hf
          · rfl
      · intro _
        by_cases ht : t = []
        · simpa [ht] using hf
        · simp [ht]

/-- a boot name that shows up when the shortened order is read was in the order before -/
theorem mem_order_of_mem_new {bn o : Str}
    (h : bn ∈ split ' ' (chomp (join ' ' (orderWithout bn (chomp o))))) : bn ∈ split ' ' (chomp o) := by
  have hfree : ∀ t ∈ orderWithout bn (chomp o), ' ' ∉ t := by
    intro t ht
    exact split_fields ' ' _ t (List.mem_filter.1 ht).1
  rw [(split_chomp_join _ hfree).1] at h
  by_cases hm : bn ∈ split ' ' (chomp o)
  · exact hm
  · exfalso
    have he : orderWithout bn (chomp o) = (split ' ' (chomp o)).filter (fun t => !(t == [])) := by
      unfold orderWithout
      apply List.filter_congr
      intro t ht
      have : t ≠ bn := fun e => hm (e ▸ ht)
      simp [this]
    rw [he, (normTail_filter _ (normTail_split_chomp o)).1] at h
    exact hm (List.mem_filter.1 h).1

/-- shape of the tokens read back: unchanged up to one token which lost trailing white space -/
theorem normTail_shape (ts : List Str) :
    normTail ts = [] ∨ ∃ init w junk, ts = init ++ w :: junk ∧ normTail ts = init ++ [chomp w] ∧
      chomp w ≠ [] ∧ ∀ j ∈ junk, chomp j = [] := by
  induction ts with
  | nil => exact Or.inl rfl
  | cons t us ih =>
    have hnil : ∀ us : List Str, normTail us = [] → ∀ j ∈ us, chomp j = [] := by
      intro us
      induction us with
      | nil => simp
      | cons x xs ih2 =>
        intro h
        rw [normTail] at h
        split at h
        · rename_i h2
          split at h
          · rename_i hc
            intro j hj
            rcases List.mem_cons.1 hj with rfl | hj
            · exact hc
            · exact ih2 h2 j hj
          · cases h
        · cases h
    rw [normTail]
    cases hn : normTail us with
    | nil =>
      simp only []
      split
      · exact Or.inl rfl
      · rename_i hc
        right
        exact ⟨[], t, us, rfl, rfl, hc, hnil us hn⟩
    | cons a as =>
      right
      rcases ih with h | ⟨init, w, junk, h1, h2, h3, h4⟩
      · rw [hn] at h; cases h
      · refine ⟨t :: init, w, junk, by rw [h1]; rfl, ?_, h3, h4⟩
        have e : a :: as = init ++ [chomp w] := by rw [← hn, h2]
        simp only [e, List.cons_append]

/-- scanning with fall-through made explicit -/
theorem ubootScan_append {rd env slots} (a b : List Str) :
    ubootScan rd env slots (a ++ b) =
      if (∀ t ∈ a, ubootTry rd env t slots = some none) then ubootScan rd env slots b
      else ubootScan rd env slots a := by
  induction a with
  | nil => simp
  | cons x xs ih =>
    simp only [List.cons_append, ubootScan]
    cases hx : ubootTry rd env x slots with
    | none => simp [hx]
    | some r =>
      cases r with
      | none => simp only [ih]; simp [hx]
      | some s => simp [hx]

theorem ubootScan_fall {rd env slots} (a : List Str) (h : ∀ t ∈ a, ubootTry rd env t slots = some none) :
    ubootScan rd env slots a = none := by
  induction a with
  | nil => rfl
  | cons x xs ih =>
    simp only [ubootScan, h x (by simp)]
    exact ih (fun t ht => h t (List.mem_cons_of_mem _ ht))

/-- if every token except `bn` falls through and `bn` occurs, the result is decided by `bn` -/
theorem ubootScan_only {rd env slots} (bn : Str) (T : List Str) (hm : bn ∈ T)
    (h : ∀ t ∈ T, t ≠ bn → ubootTry rd env t slots = some none) :
    ubootScan rd env slots T = ubootScan rd env slots [bn] := by
  induction T with
  | nil => simp at hm
  | cons x xs ih =>
    by_cases hx : x = bn
    · subst hx
      simp only [ubootScan]
      cases hr : ubootTry rd env x slots with
      | none => rfl
      | some r =>
        cases r with
        | some s => rfl
        | none =>
          simp only []
          apply ubootScan_fall
          intro t ht
          by_cases e : t = x
          · rw [e]; exact hr
          · exact h t (List.mem_cons_of_mem _ ht) e
    · simp only [ubootScan, h x (by simp) hx]
      rw [ih (by simpa [Ne.symm hx] using hm) (fun t ht => h t (List.mem_cons_of_mem _ ht))]
      simp [ubootScan]

/-- tokens with white space or empty tokens match no slot -/
theorem ubootTry_odd {rd env slots} (hwf : SlotsWF slots) (t : Str) (h : t = [] ∨ chomp t ≠ t) :
    ubootTry rd env t slots = some none := by
  apply ubootTry_nobody
  intro s hs hb
  obtain ⟨h1, h2⟩ := hwf.bootname_ok s hs t hb
  rcases h with h | h
  · exact h1 h
  · exact h (chomp_nospace t h2)

/-- The interrupted mark-bad of U-Boot (order written, attempts counter not yet cleared): the primary slot is the old
one, or the one after completion. -/
theorem uboot_bad_mid {rd slots} {env env1 env2 : KvEnv} (hwf : SlotsWF slots) {bn o : Str}
    (hL1 : env1 (kLeft bn) = env (kLeft bn))
    (hL : ∀ b, b ≠ bn → env1 (kLeft b) = env (kLeft b) ∧ env2 (kLeft b) = env (kLeft b)) :
    ubootScan rd env1 slots (split ' ' (chomp (join ' ' (orderWithout bn (chomp o))))) =
        ubootScan rd env2 slots (split ' ' (chomp (join ' ' (orderWithout bn (chomp o))))) ∨
    ubootScan rd env1 slots (split ' ' (chomp (join ' ' (orderWithout bn (chomp o))))) =
        ubootScan rd env slots (split ' ' (chomp o)) := by
  by_cases hmem : bn ∈ split ' ' (chomp (join ' ' (orderWithout bn (chomp o))))
  · have hT := mem_order_of_mem_new hmem
    have hfree : ∀ t ∈ orderWithout bn (chomp o), ' ' ∉ t := by
      intro t ht
      exact split_fields ' ' _ t (List.mem_filter.1 ht).1
    have heq := (split_chomp_join _ hfree).1
    rw [heq] at hmem ⊢
    have hnot : bn ∉ orderWithout bn (chomp o) := by
      intro h; have := (List.mem_filter.1 h).2; simp at this
    rcases normTail_shape (orderWithout bn (chomp o)) with h | ⟨init, w, junk, h1, h2, h3, h4⟩
    · rw [h] at hmem; simp at hmem
    · have hinit : bn ∉ init := fun h => hnot (by rw [h1]; exact List.mem_append_left _ h)
      rw [h2] at hmem ⊢
      have hw : chomp w = bn := by
        rcases List.mem_append.1 hmem with h | h
        · exact absurd h hinit
        · exact (List.mem_singleton.1 h).symm
      have hwne : w ≠ bn := fun e => hnot (by rw [h1, ← e]; simp)
      have cinit : ∀ e : KvEnv, (∀ b, b ≠ bn → e (kLeft b) = env (kLeft b)) → ∀ t ∈ init,
          ubootTry rd e t slots = ubootTry rd env t slots := by
        intro e he t ht
        exact ubootTry_congr t (he t (fun e => hinit (e ▸ ht)))
      have e1 := cinit env1 (fun b hb => (hL b hb).1)
      have e2 := cinit env2 (fun b hb => (hL b hb).2)
      by_cases hfall : ∀ t ∈ init, ubootTry rd env t slots = some none
      · right
        rw [ubootScan_append, if_pos (fun t ht => (e1 t ht).trans (hfall t ht)), hw]
        rw [ubootScan_congr (env' := env) [bn] (by simpa using hL1)]
        symm
        apply ubootScan_only bn _ hT
        intro t ht htb
        by_cases hte : t = []
        · exact ubootTry_odd hwf t (Or.inl hte)
        · have : t ∈ orderWithout bn (chomp o) := List.mem_filter.2 ⟨ht, by simp [htb, hte]⟩
          rw [h1] at this
          rcases List.mem_append.1 this with h | h
          · exact hfall t h
          · rcases List.mem_cons.1 h with rfl | h
            · exact ubootTry_odd hwf t (Or.inr (by rw [hw]; exact Ne.symm hwne))
            · exact ubootTry_odd hwf t (Or.inr (by rw [h4 t h]; exact Ne.symm hte))
      · left
        rw [ubootScan_append, ubootScan_append]
        have n1 : ¬ ∀ t ∈ init, ubootTry rd env1 t slots = some none :=
          fun h => hfall (fun t ht => (e1 t ht).symm.trans (h t ht))
        have n2 : ¬ ∀ t ∈ init, ubootTry rd env2 t slots = some none :=
          fun h => hfall (fun t ht => (e2 t ht).symm.trans (h t ht))
        rw [if_neg n1, if_neg n2]
        apply ubootScan_congr
        intro t ht
        have := hL t (fun e => hinit (e ▸ ht))
        rw [this.1, this.2]
  · left
    apply ubootScan_congr
    intro t ht
    have := hL t (fun e => hmem (e ▸ ht))
    rw [this.1, this.2]

end Rauc.Boot
