import Verif.Props.BootScript

/-!
# C113: the boot loader's scripts have no dead end
-/

namespace Rauc.Boot

/-! ## Specification -/

/-- the order as U-Boot's script sees it (its own default if there is none) -/
def ubootOrder (names : List Str) (env : KvEnv) : List Str := split ' ' (chomp ((shDefault kOrder (join ' ' names) env kOrder).getD []))

/-- the order as GRUB's script sees it -/
def grubOrder (names : List Str) (env : KvEnv) : List Str := split ' ' (chomp (grubVars names env gOrder))

/-! ## Proofs -/

theorem find_congr_mem {l : List Str} {p q : Str → Bool} (h : ∀ x ∈ l, p x = q x) : l.find? p = l.find? q := by
  induction l with
  | nil => rfl
  | cons a l ih =>
    rw [List.find?_cons, List.find?_cons, h a (by simp), ih (fun x hx => h x (List.mem_cons_of_mem _ hx))]

theorem shDefault_other {k d k' : Str} {env : KvEnv} (h : k' ≠ k) : shDefault k d env k' = env k' := by
  unfold shDefault
  cases env k with
  | none => exact kvSet_ne _ _ _ _ h
  | some v =>
    by_cases e : v = []
    · simp only [e, if_true]
      exact kvSet_ne _ _ _ _ h
    · simp only [e, if_false]

theorem shDefault_some {k d : Str} (env : KvEnv) (hd : d ≠ []) : ∃ v, shDefault k d env k = some v ∧ v ≠ [] := by
  cases hv : env k with
  | none =>
    simp only [shDefault, hv]
    exact ⟨d, kvSet_self _ _ _, hd⟩
  | some v =>
    by_cases e : v = []
    · simp only [shDefault, hv, e, if_true]
      exact ⟨d, kvSet_self _ _ _, hd⟩
    · simp only [shDefault, hv, e, if_false]
      exact ⟨v, rfl, e⟩

theorem shDefaults_order (names : List Str) (env : KvEnv) : names.foldl (fun e bn => shDefault (kLeft bn) c!"3" e) env kOrder = env kOrder := by
  induction names generalizing env with
  | nil => rfl
  | cons n l ih =>
    rw [List.foldl_cons, ih]
    exact shDefault_other (fun e => kLeft_ne_order n e.symm)

theorem resetAll_order (names : List Str) (env : KvEnv) : names.foldl (fun e bn => kvSet e (kLeft bn) (some c!"3")) env kOrder = env kOrder := by
  induction names generalizing env with
  | nil => rfl
  | cons n l ih =>
    rw [List.foldl_cons, ih]
    exact kvSet_ne _ _ _ _ (fun e => kLeft_ne_order n e.symm)

theorem resetAll_keep (names : List Str) (env : KvEnv) (u : Str) (h : env (kLeft u) = some c!"3") : names.foldl (fun e bn => kvSet e (kLeft bn) (some c!"3")) env (kLeft u) = some c!"3" := by
  induction names generalizing env with
  | nil => exact h
  | cons n l ih =>
    rw [List.foldl_cons]
    refine ih _ ?_
    by_cases e : kLeft u = kLeft n
    · rw [e]
      exact kvSet_self _ _ _
    · rw [kvSet_ne _ _ _ _ e]
      exact h

theorem resetAll_left (names : List Str) (env : KvEnv) (u : Str) (h : u ∈ names) : names.foldl (fun e bn => kvSet e (kLeft bn) (some c!"3")) env (kLeft u) = some c!"3" := by
  induction names generalizing env with
  | nil => cases h
  | cons n l ih =>
    rw [List.foldl_cons]
    rcases List.mem_cons.1 h with rfl | h
    · exact resetAll_keep _ _ _ (kvSet_self _ _ _)
    · exact ih _ h

/-- **C113 for U-Boot.** Whatever the variables contain: if the script finds no slot, it finds one at the next start, the first of the order that it knows. -/
theorem C113_uboot {names : List Str} (hne : join ' ' names ≠ []) {env : KvEnv} (h : (ubootSh names env).1 = none) :
    (ubootSh names (ubootSh names env).2).1 = (ubootOrder names env).find? (fun t => decide (t ∈ names)) := by
  obtain ⟨o, ho, ho2⟩ := shDefault_some (k := kOrder) env hne
  have e2 : (ubootSh names env).2 = names.foldl (fun e bn => kvSet e (kLeft bn) (some c!"3")) (names.foldl (fun e bn => shDefault (kLeft bn) c!"3" e) (shDefault kOrder (join ' ' names) env)) := by
    unfold ubootSh at h ⊢
    simp only at h ⊢
    split at h
    · cases h
    · rfl
  have hO : (ubootSh names env).2 kOrder = some o := by
    rw [e2, resetAll_order, shDefaults_order, ho]
  have hL : ∀ u ∈ names, (ubootSh names env).2 (kLeft u) = some c!"3" := by
    intro u hu
    rw [e2]
    exact resetAll_left _ _ _ hu
  have hcmp : UbComplete names (ubootSh names env).2 := ⟨⟨o, hO, ho2⟩, fun u hu => ⟨_, hL u hu, by decide⟩⟩
  rw [ubootSh_first hcmp, hO]
  unfold ubootOrder
  rw [ho]
  refine find_congr (fun u => ?_)
  by_cases hu : u ∈ names
  · have : shLeft (ubootSh names env).2 u = 3 := by
      simp only [shLeft, hL u hu]
      decide
    simp [hu, this]
  · simp [hu]

theorem grubShScan_keep {names toks : List Str} {v v' : Str → Str} (h : grubShScan names toks v = (none, v')) (u : Str) (hu : v (gTry u) = c!"1") : v' (gTry u) = c!"1" := by
  induction toks generalizing v with
  | nil =>
    simp only [grubShScan, Prod.mk.injEq, true_and] at h
    rw [← h]
    exact hu
  | cons x xs ih =>
    unfold grubShScan at h
    split at h
    · split at h
      · cases h
      · refine ih h ?_
        unfold setVar
        split
        · rfl
        · exact hu
    · exact ih h hu

/-- after the script found nothing, each slot in the order counts as tried -/
theorem grubShScan_none {names toks : List Str} {v v' : Str → Str} (h : grubShScan names toks v = (none, v')) :
    v' gOrder = v gOrder ∧ (∀ u, v' (gOk u) = v (gOk u)) ∧ ∀ u ∈ toks, u ∈ names → v' (gTry u) = c!"1" := by
  induction toks generalizing v with
  | nil =>
    simp only [grubShScan, Prod.mk.injEq, true_and] at h
    rw [← h]
    exact ⟨rfl, fun _ => rfl, fun u hu => nomatch hu⟩
  | cons x xs ih =>
    unfold grubShScan at h
    split at h
    · split at h
      · cases h
      · obtain ⟨i1, i2, i3⟩ := ih h
        refine ⟨i1.trans ?_, fun u => (i2 u).trans ?_, fun u hu hn => ?_⟩
        · exact if_neg (fun e => gTry_ne_order x e.symm)
        · exact if_neg (gOk_ne_gTry u x)
        · rcases List.mem_cons.1 hu with rfl | hu
          · exact grubShScan_keep h u (if_pos rfl)
          · exact i3 u hu hn
    · rename_i hx
      obtain ⟨i1, i2, i3⟩ := ih h
      refine ⟨i1, i2, fun u hu hn => ?_⟩
      rcases List.mem_cons.1 hu with rfl | hu
      · exact absurd hn hx
      · exact i3 u hu hn

theorem grubReset_other (names : List Str) (v : Str → Str) : grubReset names v gOrder = v gOrder ∧ ∀ u, grubReset names v (gOk u) = v (gOk u) := by
  unfold grubReset
  induction names generalizing v with
  | nil => exact ⟨rfl, fun _ => rfl⟩
  | cons n l ih =>
    rw [List.foldl_cons]
    obtain ⟨i1, i2⟩ := ih (if shNum (v (gOk n)) = 1 ∧ shNum (v (gTry n)) = 1 then setVar v (gTry n) c!"0" else v)
    refine ⟨i1.trans ?_, fun u => (i2 u).trans ?_⟩
    · split
      · exact if_neg (fun e => gTry_ne_order n e.symm)
      · rfl
    · split
      · exact if_neg (gOk_ne_gTry u n)
      · rfl

theorem grubReset_keep (names : List Str) (v : Str → Str) (u : Str) (h : shNum (v (gTry u)) = 0) : shNum (grubReset names v (gTry u)) = 0 := by
  unfold grubReset
  induction names generalizing v with
  | nil => exact h
  | cons n l ih =>
    rw [List.foldl_cons]
    refine ih _ ?_
    split
    · unfold setVar
      split
      · decide
      · exact h
    · exact h

theorem grubReset_try (names : List Str) (v : Str → Str) (u : Str) (hu : u ∈ names) (h1 : shNum (v (gOk u)) = 1) (h2 : shNum (v (gTry u)) = 1) : shNum (grubReset names v (gTry u)) = 0 := by
  unfold grubReset
  induction names generalizing v with
  | nil => cases hu
  | cons n l ih =>
    rw [List.foldl_cons]
    by_cases e : u = n
    · subst e
      refine grubReset_keep l _ u ?_
      rw [if_pos ⟨h1, h2⟩]
      unfold setVar
      rw [if_pos rfl]
      decide
    · refine ih _ ((List.mem_cons.1 hu).resolve_left e) ?_ ?_
      · split
        · unfold setVar
          rw [if_neg (gOk_ne_gTry u n)]
          exact h1
        · exact h1
      · split
        · unfold setVar
          rw [if_neg (fun h => e (gTry_inj h))]
          exact h2
        · exact h2

/-- **C113 for GRUB.** Whatever the variables contain: if the script finds no slot (and starts the rescue system), it starts at the next start the first of the order that is ok, if there is one. -/
theorem C113_grub {names : List Str} {env : KvEnv} (h : (grubSh names env).1 = none) :
    (grubSh names (grubSh names env).2).1 = (grubOrder names env).find? (fun t => decide (t ∈ names ∧ shNum (grubVars names env (gOk t)) = 1)) := by
  cases hsc : grubShScan names (split ' ' (chomp (grubVars names env gOrder))) (grubVars names env) with
  | mk y v =>
    cases y with
    | some t =>
      unfold grubSh at h
      rw [hsc] at h
      cases h
    | none =>
      have e2 : (grubSh names env).2 = grubSave names (grubReset names v) env := by
        unfold grubSh
        rw [hsc]
      obtain ⟨k1, k2, k3⟩ := grubShScan_none hsc
      obtain ⟨r1, r2⟩ := grubReset_other names v
      rw [e2, grubSh_first]
      have ho : grubVars names (grubSave names (grubReset names v) env) gOrder = grubVars names env gOrder := by
        rw [← k1, ← r1]
        simp [grubVars, grubSave]
      rw [ho]
      refine find_congr_mem (fun u hm => ?_)
      by_cases hu : u ∈ names
      · have v1 : grubVars names (grubSave names (grubReset names v) env) (gOk u) = grubVars names env (gOk u) := by
          have : grubSave names (grubReset names v) env (gOk u) = some (grubReset names v (gOk u)) := if_pos (.inr ⟨u, hu, .inl rfl⟩)
          rw [← k2 u, ← r2 u]
          simp [grubVars, this]
        have v2 : grubVars names (grubSave names (grubReset names v) env) (gTry u) = grubReset names v (gTry u) := by
          have : grubSave names (grubReset names v) env (gTry u) = some (grubReset names v (gTry u)) := if_pos (.inr ⟨u, hu, .inr rfl⟩)
          simp [grubVars, this]
        rw [v1, v2]
        by_cases hok : shNum (grubVars names env (gOk u)) = 1
        · have hz := grubReset_try names v u hu (by rw [k2 u]; exact hok) (by rw [k3 u hm hu]; decide)
          simp [hu, hok, hz]
        · simp [hok]
      · simp [hu]

/-! ## The hypotheses are met -/

/-- A and B used their attempts: no slot, then A again -/
example : let env : KvEnv := fun k => if k = kOrder then some c!"A B" else if k = kLeft c!"A" ∨ k = kLeft c!"B" then some c!"0" else none
    (ubootSh [c!"A", c!"B"] env).1 = none ∧ (ubootSh [c!"A", c!"B"] (ubootSh [c!"A", c!"B"] env).2).1 = some c!"A" := by
  intro env
  have h : (ubootSh [c!"A", c!"B"] env).1 = none := by decide
  exact ⟨h, (C113_uboot (by decide) h).trans (by decide)⟩

/-- A was marked bad, B was tried: no slot, then B again -/
example : let env : KvEnv := fun k => if k = gOrder then some c!"A B" else if k = gOk c!"B" ∨ k = gTry c!"B" then some c!"1" else some c!"0"
    (grubSh [c!"A", c!"B"] env).1 = none ∧ (grubSh [c!"A", c!"B"] (grubSh [c!"A", c!"B"] env).2).1 = some c!"B" := by
  intro env
  have h : (grubSh [c!"A", c!"B"] env).1 = none := by decide
  exact ⟨h, (C113_grub h).trans (by decide)⟩

end Rauc.Boot
