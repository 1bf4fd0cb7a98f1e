import Verif.Lemmas.Boot

namespace Rauc.Boot

theorem efiBo_setOrder {env : EfiEnv} (hw : EfiWF env) (l : List EfiEntry) (hl : ∀ e ∈ l, e ∈ env.entries) :
    efiBo (efiApp env (.setOrder (l.map EfiEntry.num))) = l := efi_resolve hw l hl

theorem efiNx_setNext {env : EfiEnv} (hw : EfiWF env) {e : EfiEntry} (he : e ∈ env.entries) :
    efiNx (efiApp env (.setNext e.num)) = some e := by
  simp [efiNx, efiApp, efiByNum_self hw he]

theorem eraseP_mem {α} {p : α → Bool} {l : List α} {a} (h : a ∈ l.eraseP p) : a ∈ l :=
  List.mem_of_mem_eraseP h

/-- Effect of the persistent boot order modification, completed or interrupted. -/
theorem efi_mod_prefix {fresh} (hf : FreshOK fresh) {rd env s g ts} (hw : EfiWF env)
    (h : efiModify fresh rd env s g = some ts) :
    ∃ bn e, s.bootname = some bn ∧ e.name = bn ∧ ∀ n,
      EfiWF ((ts.take n).foldl efiApp env) ∧
      efiNx ((ts.take n).foldl efiApp env) = efiNx env ∧
      ((efiBo ((ts.take n).foldl efiApp env) = efiBo env ∧ ((ts.take n).foldl efiApp env).order = env.order) ∨
       (efiBo ((ts.take n).foldl efiApp env) =
          (if g then [e] else []) ++ (efiBo env).eraseP (fun e => e.name == bn) ∧
        (ts.take n).foldl efiApp env = ts.foldl efiApp env)) ∧
      (((ts.take n).foldl efiApp env).entries = env.entries ∨
       ((ts.take n).foldl efiApp env).entries = env.entries ++ [⟨fresh env, bn⟩]) := by
  obtain ⟨bn, pre, e, all, hb, h1, h3, he, hpre, rfl⟩ := efiModify_cases hf h
  obtain ⟨hem, hen⟩ := efiByName_mem he
  refine ⟨bn, e, hb, hen, ?_⟩
  have hsub : ∀ x ∈ (if g then [e] else []) ++ (efiBo env).eraseP (fun e => e.name == bn),
      x = e ∨ x ∈ env.entries := by
    intro x hx
    rcases List.mem_append.1 hx with hx | hx
    · cases g <;> simp at hx; exact Or.inl hx
    · exact Or.inr (efiBo_mem (eraseP_mem hx))
  intro n
  rcases hpre with ⟨rfl, rfl⟩ | ⟨rfl, rfl⟩
  · cases n with
    | zero => exact ⟨hw, rfl, Or.inl ⟨rfl, rfl⟩, Or.inl rfl⟩
    | succ n =>
      simp only [List.nil_append, List.take_succ_cons, List.take_nil, List.foldl_cons, List.foldl_nil]
      refine ⟨hw, rfl, Or.inr ⟨?_, trivial⟩, Or.inl rfl⟩
      exact efiBo_setOrder hw _ (fun x hx => by rcases hsub x hx with rfl | h; exact hem; exact h)
  · have hw1 := efiWF_create hf env bn hw
    obtain ⟨hc1, hc2⟩ := efiBo_create hf env bn
    match n with
    | 0 => exact ⟨hw, rfl, Or.inl ⟨rfl, rfl⟩, Or.inl rfl⟩
    | 1 =>
      exact ⟨hw1, hc2, Or.inl ⟨hc1, rfl⟩, Or.inr rfl⟩
    | n + 2 =>
      simp only [List.cons_append, List.nil_append, List.take_succ_cons, List.take_nil, List.foldl_cons, List.foldl_nil]
      refine ⟨hw1, hc2, Or.inr ⟨?_, trivial⟩, Or.inr rfl⟩
      exact efiBo_setOrder hw1 _ (fun x hx => by
        rcases hsub x hx with rfl | h
        · exact hem
        · exact List.mem_append_left _ h)

/-- Effect of setting BootNext, completed or interrupted. -/
theorem efi_temp_prefix {fresh} (hf : FreshOK fresh) {rd env s ts} (hw : EfiWF env)
    (h : efiTemp fresh rd env s = some ts) :
    ∃ bn e, s.bootname = some bn ∧ e.name = bn ∧ ∀ n,
      EfiWF ((ts.take n).foldl efiApp env) ∧
      efiBo ((ts.take n).foldl efiApp env) = efiBo env ∧
      ((ts.take n).foldl efiApp env).order = env.order ∧
      (efiNx ((ts.take n).foldl efiApp env) = efiNx env ∨
       (efiNx ((ts.take n).foldl efiApp env) = some e ∧ (ts.take n).foldl efiApp env = ts.foldl efiApp env)) ∧
      (((ts.take n).foldl efiApp env).entries = env.entries ∨
       ((ts.take n).foldl efiApp env).entries = env.entries ++ [⟨fresh env, bn⟩]) := by
  obtain ⟨bn, pre, e, all, hb, h1, h3, he, hpre, rfl⟩ := efiTemp_cases hf h
  obtain ⟨hem, hen⟩ := efiByName_mem he
  refine ⟨bn, e, hb, hen, ?_⟩
  intro n
  rcases hpre with ⟨rfl, rfl⟩ | ⟨rfl, rfl⟩
  · cases n with
    | zero => exact ⟨hw, rfl, rfl, Or.inl rfl, Or.inl rfl⟩
    | succ n =>
      simp only [List.nil_append, List.take_succ_cons, List.take_nil, List.foldl_cons, List.foldl_nil]
      exact ⟨hw, rfl, rfl, Or.inr ⟨efiNx_setNext hw hem, trivial⟩, Or.inl rfl⟩
  · have hw1 := efiWF_create hf env bn hw
    obtain ⟨hc1, hc2⟩ := efiBo_create hf env bn
    match n with
    | 0 => exact ⟨hw, rfl, rfl, Or.inl rfl, Or.inl rfl⟩
    | 1 => exact ⟨hw1, hc1, rfl, Or.inl hc2, Or.inr rfl⟩
    | n + 2 =>
      simp only [List.cons_append, List.nil_append, List.take_succ_cons, List.take_nil, List.foldl_cons, List.foldl_nil]
      exact ⟨hw1, hc1, rfl, Or.inr ⟨efiNx_setNext hw1 hem, trivial⟩, Or.inr rfl⟩

theorem efiGetState_eq {rd env s bn} (hb : s.bootname = some bn) :
    efiGetState rd env s = (efiGet rd env).map (fun r => r.1.any (fun e => e.name == bn)) := by
  unfold efiGetState
  simp only [hb]
  cases efiGet rd env <;> rfl

theorem efi_getState_bo {rd env s} (h : efiGetState rd env s = some true) :
    ∃ bn, s.bootname = some bn ∧ ∃ e ∈ efiBo env, e.name = bn := by
  unfold efiGetState at h
  cases hb : s.bootname with
  | none => simp [hb] at h
  | some bn =>
    simp only [hb] at h
    cases hg : efiGet rd env with
    | none => simp [hg] at h
    | some r =>
      obtain ⟨_, _, _, rfl⟩ := efiGet_some hg
      simp only [hg] at h
      simp at h
      exact ⟨bn, rfl, h⟩

theorem efi_getPrimary_bo {rd slots env s} (h : efiGetPrimary rd slots env = some s) :
    s ∈ slots ∧ ∃ e, (e ∈ efiBo env ∨ efiNx env = some e) ∧ s.bootname = some e.name := by
  unfold efiGetPrimary at h
  split at h
  · simp at h
  · rename_i bo all nx hg
    obtain ⟨_, _, _, hr⟩ := efiGet_some hg
    simp only [Prod.mk.injEq] at hr
    obtain ⟨rfl, rfl, rfl⟩ := hr
    obtain ⟨h1, e, he, h2⟩ := efiScan_some h
    refine ⟨h1, e, ?_, h2⟩
    split at he
    · rename_i x hx
      rcases List.mem_cons.1 he with rfl | he
      · exact Or.inr hx
      · exact Or.inl he
    · exact Or.inl he

end Rauc.Boot
