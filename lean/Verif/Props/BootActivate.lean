import Verif.Props.Boot

namespace Rauc.Boot

/-! ## C02 -/

theorem ubootScan_first {rd env slots} (hwf : SlotsWF slots) {s} (hs : s ∈ slots) {bn} (hb : s.bootname = some bn)
    (r : List Str) (v : Str) (hv : env (kLeft bn) = some v) (hp : strtoull 16 (chomp v) ≠ 0) :
    ubootScan rd env slots (bn :: r) = if rd (kLeft bn) then some s else none := by
  simp only [ubootScan, ubootTry_eq hwf s hs bn hb]
  by_cases hr : rd (kLeft bn) = true
  · simp [kvGet, hr, hv, hp]
  · simp [kvGet, hr]

theorem C02_uboot (cfg : Cfg) (hc : cfg.WF) : ActivateMakesPrimary (uboot cfg) anyEnv := by
  intro slots hwf s hs env rd ts _ hts
  obtain ⟨bn, cur, hb, _, rfl⟩ := ubootSetPrimary_cases hts
  obtain ⟨hbn1, hbn2⟩ := hwf.bootname_ok s hs bn hb
  have hval : ∀ rd', ubootGetPrimary rd' slots (ubootApp (ubootApp env (kLeft bn, toHex (attemptsOr3 cfg.bootAttemptsPrimary)))
      (kOrder, join ' ' (bn :: orderWithout bn cur))) = 
      if rd' kOrder then (if rd' (kLeft bn) then some s else none) else none := by
    intro rd'
    have hj : join ' ' (bn :: orderWithout bn cur) ≠ [] := by
      cases orderWithout bn cur <;> simp [join, hbn1]
    unfold ubootGetPrimary
    by_cases ho : rd' kOrder = true
    · obtain ⟨r, hr⟩ := split_chomp_join_cons hbn1 hbn2 (orderWithout bn cur)
      have hg : kvGet rd' (ubootApp (ubootApp env (kLeft bn, toHex (attemptsOr3 cfg.bootAttemptsPrimary)))
        (kOrder, join ' ' (bn :: orderWithout bn cur))) kOrder = some (chomp (join ' ' (bn :: orderWithout bn cur))) := by
        simp [kvGet, ho, ubootApp, hj]
      simp only [hg, hr, ho, if_true]
      apply ubootScan_first hwf hs hb r (toHex (attemptsOr3 cfg.bootAttemptsPrimary))
      · rw [ubootApp_ne _ _ (kLeft_ne_order bn)]
        simp [ubootApp, toHex_nil]
      · have h1 := attemptsOr3_pos cfg.bootAttemptsPrimary
        have h2 := attemptsOr3_lt _ hc.2
        rw [strtoull_chomp_toHex _ (by unfold u64max; omega)]
        omega
    · simp [kvGet, ho]
  refine ⟨?_, fun rd' => ?_⟩
  · exact (hval allRd).trans (by simp [allRd])
  · have := hval rd'
    show ubootGetPrimary rd' slots _ = _ ∨ ubootGetPrimary rd' slots _ = _
    simp only [Backend.appAll, List.foldl_cons, List.foldl_nil] at this ⊢
    rw [this]
    by_cases h1 : rd' kOrder = true <;> by_cases h2 : rd' (kLeft bn) = true <;> simp [h1, h2]

theorem grubTry_err {rd env slots} {s : Slot} (hs : s ∈ slots) {bn : Str}
    (hb : s.bootname = some bn) (h : kvGet rd env (gOk bn) = none ∨ kvGet rd env (gTry bn) = none) :
    grubTry rd env bn slots = none := by
  induction slots with
  | nil => simp at hs
  | cons x xs ih =>
    simp only [grubTry]
    by_cases hx : x.bootname = some bn
    · simp only [hx, if_true]
      rcases h with h | h
      · simp [h]
      · cases hk : kvGet rd env (gOk bn) <;> simp [h]
    · simp only [hx, if_false]
      apply ih
      rcases List.mem_cons.1 hs with rfl | h'
      · exact absurd hb hx
      · exact h'

theorem C02_grub : ActivateMakesPrimary grub anyEnv := by
  intro slots hwf s hs env rd ts _ hts
  obtain ⟨bn, hb, rfl⟩ := grubSetPrimary_cases hts
  obtain ⟨hbn1, hbn2⟩ := hwf.bootname_ok s hs bn hb
  have hEnvDef : ∃ e : KvEnv, e = grubApp env
    [(gOk bn, c!"1"), (gTry bn, c!"0"), (gOrder, join ' ' (orderPrimaryNames slots s bn))] := ⟨_, rfl⟩
  obtain ⟨e, he⟩ := hEnvDef
  have hO : e gOrder = some (join ' ' (orderPrimaryNames slots s bn)) := by subst he; simp [grubApp]
  have hK : e (gOk bn) = some (c!"1") := by
    subst he; simp [grubApp, kvSet_ne _ _ _ _ (gOk_ne_order bn), kvSet_ne _ _ _ _ (gOk_ne_gTry bn bn)]
  have hT : e (gTry bn) = some (c!"0") := by
    subst he; simp [grubApp, kvSet_ne _ _ _ _ (gTry_ne_order bn)]
  have hval : ∀ rd', grubGetPrimary rd' slots e = 
      if rd' gOrder ∧ rd' (gOk bn) ∧ rd' (gTry bn) then some s else none := by
    intro rd'
    unfold grubGetPrimary
    by_cases ho : rd' gOrder = true
    · obtain ⟨r, hr⟩ := split_chomp_join_cons hbn1 hbn2 (slots.filterMap (fun t => if t = s then none else t.bootname))
      have hg : kvGet rd' e gOrder = some (chomp (join ' ' (orderPrimaryNames slots s bn))) := by simp [kvGet, ho, hO]
      simp only [hg]
      have hr' : split ' ' (chomp (join ' ' (orderPrimaryNames slots s bn))) = bn :: r := hr
      rw [hr']
      simp only [grubScan]
      by_cases h1 : rd' (gOk bn) = true
      · by_cases h2 : rd' (gTry bn) = true
        · rw [grubTry_good hwf s hs bn hb (c!"1") (c!"0") (by simp [kvGet, h1, hK]; decide)
            (by simp [kvGet, h2, hT]; decide) (by decide) (by decide)]
          simp [ho, h1, h2]
        · rw [grubTry_err hs hb (Or.inr (by simp [kvGet, h2]))]
          simp [h2]
      · rw [grubTry_err hs hb (Or.inl (by simp [kvGet, h1]))]
        simp [h1]
    · simp [kvGet, ho]
  have hfold : grub.appAll env [[(gOk bn, c!"1"), (gTry bn, c!"0"), (gOrder, join ' ' (orderPrimaryNames slots s bn))]] = e := by
    rw [he]; rfl
  rw [hfold]
  refine ⟨(hval allRd).trans (by simp [allRd]), fun rd' => ?_⟩
  have := hval rd'
  show grubGetPrimary rd' slots e = _ ∨ grubGetPrimary rd' slots e = _
  rw [this]
  split
  · exact Or.inl rfl
  · exact Or.inr rfl

theorem bbScan_winner {rd env} (s : Slot) (slots : List Slot) (top : Nat) (best : Option Slot)
    (hval : ∀ t ∈ slots, ∀ b p a, t.bootname = some b → bbGet rd env b = some (p, a) →
      (t = s → p = 20 ∧ a ≠ 0) ∧ (t ≠ s → p ≤ 10))
    (hb : ∃ bn, s.bootname = some bn)
    (hinv : (top ≤ 10 ∧ s ∈ slots) ∨ (top = 20 ∧ best = some s)) :
    bbScan rd env slots top best = none ∨ bbScan rd env slots top best = some (some s) := by
  induction slots generalizing top best with
  | nil =>
    rcases hinv with ⟨_, h⟩ | ⟨_, h⟩
    · simp at h
    · right; simp [bbScan, h]
  | cons t ts ih =>
    have hval' := fun u hu => hval u (List.mem_cons_of_mem _ hu)
    simp only [bbScan]
    cases htb : t.bootname with
    | none =>
      simp only []
      apply ih _ _ hval'
      rcases hinv with ⟨h1, h2⟩ | h
      · left
        refine ⟨h1, ?_⟩
        rcases List.mem_cons.1 h2 with rfl | h2
        · obtain ⟨bn, hbn⟩ := hb; rw [htb] at hbn; cases hbn
        · exact h2
      · exact Or.inr h
    | some b =>
      simp only []
      cases hg : bbGet rd env b with
      | none => exact Or.inl rfl
      | some pa =>
        obtain ⟨p, a⟩ := pa
        simp only []
        obtain ⟨hv1, hv2⟩ := hval t (by simp) b p a htb hg
        by_cases hts : t = s
        · obtain ⟨rfl, ha⟩ := hv1 hts
          simp only [ha, if_false]
          rcases hinv with ⟨h1, _⟩ | ⟨h1, h2⟩
          · rw [if_pos (by omega)]
            exact ih _ _ hval' (Or.inr ⟨rfl, by rw [hts]⟩)
          · rw [if_neg (by omega)]
            exact ih _ _ hval' (Or.inr ⟨h1, h2⟩)
        · have hp := hv2 hts
          have hmem : top ≤ 10 ∧ s ∈ t :: ts → s ∈ ts := by
            intro h
            rcases List.mem_cons.1 h.2 with h | h
            · exact absurd h.symm hts
            · exact h
          split
          · apply ih _ _ hval'
            rcases hinv with h | h
            · exact Or.inl ⟨h.1, hmem h⟩
            · exact Or.inr h
          · split
            · rcases hinv with h | h
              · exact ih _ _ hval' (Or.inl ⟨hp, hmem h⟩)
              · omega
            · apply ih _ _ hval'
              rcases hinv with h | h
              · exact Or.inl ⟨h.1, hmem h⟩
              · exact Or.inr h

theorem bbScan_readable {rd env} (slots : List Slot) (top : Nat) (best : Option Slot)
    (h : ∀ t ∈ slots, ∀ b, t.bootname = some b → bbGet rd env b ≠ none) :
    bbScan rd env slots top best ≠ none := by
  induction slots generalizing top best with
  | nil => simp [bbScan]
  | cons t ts ih =>
    have h' := fun u hu => h u (List.mem_cons_of_mem _ hu)
    simp only [bbScan]
    cases htb : t.bootname with
    | none => exact ih _ _ h'
    | some b =>
      simp only []
      cases hg : bbGet rd env b with
      | none => exact absurd hg (h t (by simp) b htb)
      | some pa =>
        simp only []
        split
        · exact ih _ _ h'
        · split <;> exact ih _ _ h'

/-- what `r_barebox_set_primary` stores for every boot slot -/
theorem bb_primary_env {cfg : Cfg} {rd slots env s bn ps} (hwf : SlotsWF slots) (hs : s ∈ slots)
    (hb : s.bootname = some bn) (hps : bbPrios rd env s slots = some ps) :
    ∀ t ∈ slots, ∀ b, t.bootname = some b → ∃ P A, env b = some (P, A) ∧
      bbApp env (ps ++ [⟨bn, .attempts, attemptsOr3 cfg.bootAttemptsPrimary⟩]) b =
        some (if t = s then (20, attemptsOr3 cfg.bootAttemptsPrimary) else (if P % 2 ^ 32 = 0 then 0 else 10, A)) := by
  intro t ht b hbt
  obtain ⟨p, a, hg, hm⟩ := bbPrios_mem hps t ht b hbt
  obtain ⟨_, P, A, hP, hp, _⟩ := bbGet_some hg
  refine ⟨P, A, hP, ?_⟩
  have hprio := bbApp_prio env ps b (if t = s then 20 else if p = 0 then 0 else 10) P A hP ⟨_, hm, rfl⟩ (by
    intro w hw hwb
    obtain ⟨u, hu, p1, a1, hub, hg1, hw1⟩ := bbPrios_only hps w hw
    rw [hwb] at hub hg1 hw1
    have hut : u = t := hwf.bootname_inj u hu t ht b hub hbt
    rw [hg] at hg1
    have hpe : p1 = p := by injection hg1 with h; injection h with h1 h2; exact h1.symm
    rw [hw1, hut, hpe])
  rw [bbApp_append]
  by_cases hts : t = s
  · subst hts
    rw [hb] at hbt; injection hbt with hbt; subst hbt
    simp only [if_true] at hprio ⊢
    simp [bbApp] at hprio ⊢
    simp [bbSet1, hprio]
  · have hne : bn ≠ b := fun e => hts (hwf.bootname_inj t ht s hs b hbt (e ▸ hb))
    rw [bbApp_other _ _ _ (by simpa using hne), hprio]
    simp [hts, hp]

theorem C02_barebox (cfg : Cfg) (hc : cfg.WF) : ActivateMakesPrimary (barebox cfg) anyEnv := by
  intro slots hwf s hs env rd ts _ hts
  obtain ⟨bn, ps, hb, hps, rfl⟩ := bbSetPrimary_cases hts
  have henv := bb_primary_env (cfg := cfg) hwf hs hb hps
  have h1 := attemptsOr3_pos cfg.bootAttemptsPrimary
  have h2 := attemptsOr3_lt _ hc.2
  obtain ⟨e, he⟩ : ∃ e : BbEnv, e = bbApp env (ps ++ [⟨bn, .attempts, attemptsOr3 cfg.bootAttemptsPrimary⟩]) := ⟨_, rfl⟩
  rw [← he] at henv
  have hval : ∀ rd', ∀ t ∈ slots, ∀ b p a, t.bootname = some b → bbGet rd' e b = some (p, a) →
      (t = s → p = 20 ∧ a ≠ 0) ∧ (t ≠ s → p ≤ 10) := by
    intro rd' t ht b p a htb hg
    obtain ⟨_, P', A', hP', hp', ha'⟩ := bbGet_some hg
    obtain ⟨P, A, _, hE⟩ := henv t ht b htb
    rw [hP'] at hE
    by_cases hts : t = s
    · simp [hts] at hE
      constructor
      · intro _; omega
      · intro h; exact absurd hts h
    · simp [hts] at hE
      constructor
      · intro h; exact absurd h hts
      · intro _
        obtain ⟨hE1, _⟩ := hE
        split at hE1 <;> omega
  have hfold : (barebox cfg).appAll env [ps ++ [⟨bn, .attempts, attemptsOr3 cfg.bootAttemptsPrimary⟩]] = e := by
    rw [he]; rfl
  rw [hfold]
  have hres : ∀ rd', bbGetPrimary rd' slots e = some s ∨ bbGetPrimary rd' slots e = none := by
    intro rd'
    rcases bbScan_winner s slots 0 none (hval rd') ⟨bn, hb⟩ (Or.inl ⟨by omega, hs⟩) with h | h
    · right; simp [bbGetPrimary, h]
    · left; simp [bbGetPrimary, h]
  refine ⟨?_, hres⟩
  show bbGetPrimary allRd slots e = some s
  rcases bbScan_winner s slots 0 none (hval allRd) ⟨bn, hb⟩ (Or.inl ⟨by omega, hs⟩) with h | h
  · exfalso
    refine bbScan_readable slots 0 none ?_ h
    intro t ht b htb
    obtain ⟨P, A, _, hE⟩ := henv t ht b htb
    simp [bbGet, allRd, hE]
  · simp [bbGetPrimary, h]

/-- EFI: entry numbers are unique and, in persistent mode, no BootNext override is pending -/
def EfiNoNext (cfg : Cfg) (_ : List Slot) (env : EfiEnv) (_ : Slot) : Prop :=
  EfiWF env ∧ (cfg.efiUseBootnext = false → env.next = none)

theorem efiGet_none_of_rd {rd env} (h : rd efiTool = false) : efiGet rd env = none := by
  simp [efiGet, h]

/-- C02 on EFI. Missing for the full property: persistent mode (efi-use-bootnext=false) while a BootNext
override is pending, see `C02_efi_violated`. -/
theorem C02_efi_partial (cfg : Cfg) (fresh : EfiEnv → Str) (hf : FreshOK fresh) :
    ActivateMakesPrimary (efi cfg fresh) (EfiNoNext cfg) := by
  intro slots hwf s hs env rd ts hP hts
  have main : ∃ e, e.name ∈ s.bootname ∧ (ts.foldl efiApp env).entries ≠ [] ∧ (ts.foldl efiApp env).order ≠ [] ∧
      (efiNx (ts.foldl efiApp env) = some e ∨
       (efiNx (ts.foldl efiApp env) = none ∧ ∃ r, efiBo (ts.foldl efiApp env) = e :: r)) := by
    simp only [] at hts
    split at hts
    · obtain ⟨bn, pre, e, all, hb, h1, h3, he, hpre, rfl⟩ := efiTemp_cases hf hts
      obtain ⟨hem, hen⟩ := efiByName_mem he
      refine ⟨e, by rw [hen]; exact hb, ?_⟩
      rcases hpre with ⟨rfl, rfl⟩ | ⟨rfl, rfl⟩
      · exact ⟨List.ne_nil_of_mem hem, h3, Or.inl (efiNx_setNext hP.1 hem)⟩
      · exact ⟨List.ne_nil_of_mem hem, h3, Or.inl (efiNx_setNext (efiWF_create hf env bn hP.1) hem)⟩
    · rename_i hcfg
      have hnext := hP.2 (by simpa using hcfg)
      obtain ⟨bn, pre, e, all, hb, h1, h3, he, hpre, rfl⟩ := efiModify_cases hf hts
      obtain ⟨hem, hen⟩ := efiByName_mem he
      refine ⟨e, by rw [hen]; exact hb, ?_⟩
      simp only [if_true, List.singleton_append] at *
      rcases hpre with ⟨rfl, rfl⟩ | ⟨rfl, rfl⟩
      · refine ⟨List.ne_nil_of_mem hem, by simp [efiApp], Or.inr ⟨by simp [efiNx, efiApp, hnext], _, efiBo_setOrder hP.1 _ ?_⟩⟩
        intro x hx
        rcases List.mem_cons.1 hx with rfl | hx
        · exact hem
        · exact efiBo_mem (eraseP_mem hx)
      · refine ⟨List.ne_nil_of_mem hem, by simp [efiApp], Or.inr ⟨by simp [efiNx, efiApp, hnext], _,
          efiBo_setOrder (efiWF_create hf env bn hP.1) _ ?_⟩⟩
        intro x hx
        rcases List.mem_cons.1 hx with rfl | hx
        · exact hem
        · exact List.mem_append_left _ (efiBo_mem (eraseP_mem hx))
  obtain ⟨e, hb, h2, h3, h4⟩ := main
  have hval : ∀ rd', efiGetPrimary rd' slots (ts.foldl efiApp env) = if rd' efiTool then some s else none := by
    intro rd'
    unfold efiGetPrimary
    by_cases hr : rd' efiTool = true
    · rw [efiGet_eq hr h2 h3]
      rcases h4 with h4 | ⟨h4, r, h5⟩
      · simp [h4, efiScan, hr, efiFind_eq hwf hs hb]
      · simp [h4, h5, efiScan, hr, efiFind_eq hwf hs hb]
    · rw [efiGet_none_of_rd (by simpa using hr)]
      simp [hr]
  refine ⟨(hval allRd).trans (by simp [allRd]), fun rd' => ?_⟩
  show efiGetPrimary rd' slots (ts.foldl efiApp env) = _ ∨ efiGetPrimary rd' slots (ts.foldl efiApp env) = _
  rw [hval rd']
  by_cases hr : rd' efiTool = true
  · left; simp [hr]
  · right; simp [hr]

/-- FINDING: with efi-use-bootnext=false a pending BootNext for another slot still wins after activation. -/
theorem C02_efi_violated :
    ¬ ActivateMakesPrimary (efi { efiUseBootnext := false } someFresh) (fun _ env _ => EfiWF env) := by
  intro h
  have := (h twoSlots twoSlots_wf slotA (by decide) { efiEx with next := some (c!"0001") } allRd _
    (by unfold EfiWF; decide) rfl).1
  revert this; decide

-- non-vacuity: activating the non-primary slot is a successful request
example : (uboot {}).getPrimary allRd twoSlots ubEx = some slotA ∧ ((uboot {}).setPrimary allRd twoSlots ubEx slotB).isSome ∧
    (barebox {}).getPrimary allRd twoSlots bbEx = some slotA ∧ ((barebox {}).setPrimary allRd twoSlots bbEx slotB).isSome ∧
    grub.getPrimary allRd twoSlots grEx = some slotA ∧ (grub.setPrimary allRd twoSlots grEx slotB).isSome ∧
    (efi {} someFresh).getPrimary allRd twoSlots efiEx = some slotA ∧
    ((efi {} someFresh).setPrimary allRd twoSlots efiEx slotB).isSome := by decide
example : Cfg.WF {} := by unfold Cfg.WF; decide

end Rauc.Boot
