import Verif.Props.BootActivate
import Verif.Lemmas.BootOrder

namespace Rauc.Boot

/-! ## C03 -/

theorem C03_barebox (cfg : Cfg) : CrashSafe (barebox cfg) anyEnv := by
  intro slots hwf env rd r ts hr _ hng htx n rd'
  have hone : ∃ t, ts = [t] := by
    cases r with
    | setState s g =>
      obtain ⟨_, _, h | h⟩ := bbSetState_cases htx
      · exact ⟨_, h.2⟩
      · exact ⟨_, h.2⟩
    | setPrimary s =>
      obtain ⟨_, _, _, _, h⟩ := bbSetPrimary_cases htx
      exact ⟨_, h⟩
  obtain ⟨t, rfl⟩ := hone
  have hp : (barebox cfg).appAll env ([t].take n) = env ∨
      (barebox cfg).appAll env ([t].take n) = (barebox cfg).appAll env [t] := foldl_take_single bbApp env t n
  rcases hp with h | h <;> rw [h]
  · exact ⟨Or.inl rfl, fun s _ hs => hs⟩
  · refine ⟨Or.inr rfl, fun s hs hgs => ?_⟩
    subst hs
    exact absurd hgs (C01_barebox cfg slots hwf s hr env rd [t] trivial htx [] (by simp) rd').1

theorem C03_grub : CrashSafe grub anyEnv := by
  intro slots hwf env rd r ts hr _ hng htx n rd'
  have hone : ∃ t, ts = [t] := by
    cases r with
    | setState s g =>
      obtain ⟨_, _, h⟩ := grubSetState_cases htx
      exact ⟨_, h⟩
    | setPrimary s =>
      obtain ⟨_, _, h⟩ := grubSetPrimary_cases htx
      exact ⟨_, h⟩
  obtain ⟨t, rfl⟩ := hone
  have hp : grub.appAll env ([t].take n) = env ∨
      grub.appAll env ([t].take n) = grub.appAll env [t] := foldl_take_single grubApp env t n
  rcases hp with h | h <;> rw [h]
  · exact ⟨Or.inl rfl, fun s _ hs => hs⟩
  · refine ⟨Or.inr rfl, fun s hs hgs => ?_⟩
    subst hs
    exact absurd hgs (C01_grub slots hwf s hr env rd [t] trivial htx [] (by simp) rd').1

/-- the only change is the attempts counter of `s`: the primary slot is the old one or `s` -/
theorem ubootScan_left_only {rd slots} {env env1 : KvEnv} (hwf : SlotsWF slots) {s} (hs : s ∈ slots) {bn}
    (hb : s.bootname = some bn) {v : Str} (hv : env1 (kLeft bn) = some v) (hpos : strtoull 16 (chomp v) ≠ 0)
    (hL : ∀ b, b ≠ bn → env1 (kLeft b) = env (kLeft b)) (T : List Str) :
    ubootScan rd env1 slots T = ubootScan rd env slots T ∨
    (ubootScan rd env1 slots T = some s ∧ rd (kLeft bn) = true) := by
  induction T with
  | nil => exact Or.inl rfl
  | cons x xs ih =>
    by_cases hx : x = bn
    · subst hx
      rw [ubootScan_first hwf hs hb xs v hv hpos]
      by_cases hr : rd (kLeft x) = true
      · right; simp [hr]
      · left
        simp only [hr]
        have : ubootTry rd env x slots = none := by
          rw [ubootTry_eq hwf s hs x hb]; simp [kvGet, hr]
        simp [ubootScan, this]
    · simp only [ubootScan]
      rw [ubootTry_congr x (hL x hx)]
      cases ubootTry rd env x slots with
      | none => exact Or.inl rfl
      | some r =>
        cases r with
        | none => exact ih
        | some t => exact Or.inl rfl

theorem C03_uboot (cfg : Cfg) (hc : cfg.WF) : CrashSafe (uboot cfg) anyEnv := by
  intro slots hwf env rd r ts hr _ hng htx n rd'
  have hbadOk : ∀ s, r = .setState s false → (uboot cfg).getState rd' ((uboot cfg).appAll env ts) s ≠ some true := by
    intro s hs; subst hs
    exact (C01_uboot cfg slots hwf s hr env rd ts trivial htx [] (by simp) rd').1
  -- trivial prefixes
  have h0 : n = 0 → (uboot cfg).appAll env (ts.take n) = env := by intro h; subst h; rfl
  have hfull : ts.length ≤ n → ts.take n = ts := List.take_of_length_le
  by_cases hn0 : n = 0
  · rw [h0 hn0]; exact ⟨Or.inl rfl, fun s _ h => h⟩
  by_cases hnf : ts.length ≤ n
  · rw [hfull hnf]; exact ⟨Or.inr rfl, fun s hs h => absurd h (hbadOk s hs)⟩
  -- strictly in between: two writes, one done
  cases r with
  | setPrimary s =>
    obtain ⟨bn, cur, hb, _, rfl⟩ := ubootSetPrimary_cases htx
    have hn1 : n = 1 := by simp at hnf; omega
    subst hn1
    refine ⟨?_, fun s h => by cases h⟩
    have hfin := C02_uboot cfg hc slots hwf s hr env rd _ trivial htx
    let env1 := ubootApp env (kLeft bn, toHex (attemptsOr3 cfg.bootAttemptsPrimary))
    have henv1 : env1 (kLeft bn) = some (toHex (attemptsOr3 cfg.bootAttemptsPrimary)) := by
      simp [env1, ubootApp, toHex_nil]
    have hpos : strtoull 16 (chomp (toHex (attemptsOr3 cfg.bootAttemptsPrimary))) ≠ 0 := by
      have h1 := attemptsOr3_pos cfg.bootAttemptsPrimary
      have h2 := attemptsOr3_lt _ hc.2
      rw [strtoull_chomp_toHex _ (by unfold u64max; omega)]; omega
    have hL : ∀ b, b ≠ bn → env1 (kLeft b) = env (kLeft b) :=
      fun b hb => ubootApp_ne _ _ (fun e => hb (kLeft_inj e))
    have hord : env1 kOrder = env kOrder := ubootApp_ne _ _ (Ne.symm (kLeft_ne_order bn))
    show ubootGetPrimary rd' slots env1 = ubootGetPrimary rd' slots env ∨ ubootGetPrimary rd' slots env1 = _
    unfold ubootGetPrimary
    have hk : kvGet rd' env1 kOrder = kvGet rd' env kOrder := by simp [kvGet, hord]
    rw [hk]
    cases ho : kvGet rd' env kOrder with
    | none => exact Or.inl rfl
    | some o =>
      simp only []
      rcases ubootScan_left_only (rd := rd') hwf hr hb henv1 hpos hL (split ' ' o) with h | ⟨h, hrd⟩
      · exact Or.inl h
      · right
        rw [h]
        have hro := (kvGet_some ho).1
        -- both variables are readable, so the completed request yields `s`
        rcases hfin.2 rd' with hf | hf
        · exact hf.symm
        · exfalso
          obtain ⟨hbn1, hbn2⟩ := hwf.bootname_ok s hr bn hb
          obtain ⟨q, hq⟩ := split_chomp_join_cons hbn1 hbn2 (orderWithout bn cur)
          have hj : join ' ' (bn :: orderWithout bn cur) ≠ [] := by
            cases orderWithout bn cur <;> simp [join, hbn1]
          have hf' : ubootGetPrimary rd' slots (ubootApp env1 (kOrder, join ' ' (bn :: orderWithout bn cur))) = none := hf
          have hg : kvGet rd' (ubootApp env1 (kOrder, join ' ' (bn :: orderWithout bn cur))) kOrder =
              some (chomp (join ' ' (bn :: orderWithout bn cur))) := by simp [kvGet, hro, ubootApp, hj]
          unfold ubootGetPrimary at hf'
          simp only [hg, hq] at hf'
          rw [ubootScan_first hwf hr hb q (toHex (attemptsOr3 cfg.bootAttemptsPrimary))
            (by rw [ubootApp_ne _ _ (kLeft_ne_order bn)]; exact henv1) hpos] at hf'
          simp [hrd] at hf'
  | setState s g =>
    obtain ⟨bn, hb, hcases⟩ := ubootSetState_cases htx
    rcases hcases with ⟨rfl, rfl⟩ | ⟨rfl, _, rfl⟩ | ⟨rfl, o, ho, rfl⟩
    · exact absurd rfl (hng s)
    · simp at hnf; omega
    · have hn1 : n = 1 := by simp at hnf; omega
      subst hn1
      obtain ⟨_, o', ho', rfl⟩ := kvGet_some ho
      let env1 := ubootApp env (kOrder, join ' ' (orderWithout bn (chomp o')))
      let env2 := ubootApp env1 (kLeft bn, toHex 0)
      have hL1 : env1 (kLeft bn) = env (kLeft bn) := ubootApp_ne _ _ (kLeft_ne_order bn)
      have hL : ∀ b, b ≠ bn → env1 (kLeft b) = env (kLeft b) ∧ env2 (kLeft b) = env (kLeft b) := by
        intro b hbn
        have e1 : env1 (kLeft b) = env (kLeft b) := ubootApp_ne _ _ (kLeft_ne_order b)
        exact ⟨e1, (ubootApp_ne _ _ (fun e => hbn (kLeft_inj e))).trans e1⟩
      have hord2 : env2 kOrder = env1 kOrder := ubootApp_ne _ _ (Ne.symm (kLeft_ne_order bn))
      have hk2 : kvGet rd' env2 kOrder = kvGet rd' env1 kOrder := by simp [kvGet, hord2]
      constructor
      · show ubootGetPrimary rd' slots env1 = ubootGetPrimary rd' slots env ∨
          ubootGetPrimary rd' slots env1 = ubootGetPrimary rd' slots env2
        unfold ubootGetPrimary
        rw [hk2]
        by_cases hrd : rd' kOrder = true
        · by_cases hj : join ' ' (orderWithout bn (chomp o')) = []
          · have : kvGet rd' env1 kOrder = none := by simp [kvGet, env1, ubootApp, hj]
            rw [this]; exact Or.inr rfl
          · have hg1 : kvGet rd' env1 kOrder = some (chomp (join ' ' (orderWithout bn (chomp o')))) := by
              simp [kvGet, hrd, env1, ubootApp, hj]
            have hg : kvGet rd' env kOrder = some (chomp o') := by simp [kvGet, hrd, ho']
            rw [hg1, hg]
            exact (uboot_bad_mid (rd := rd') (o := o') hwf hL1 hL).symm
        · have h1 : kvGet rd' env1 kOrder = none := by simp [kvGet, hrd]
          rw [h1]; exact Or.inr rfl
      · intro s' hs' hgs
        injection hs' with hs'; subst hs'
        have hgs' : ubootGetState rd' env1 s = some true := hgs
        show ubootGetState rd' env s = some true
        simp only [ubootGetState, hb] at hgs' ⊢
        by_cases hrd : rd' kOrder = true
        · by_cases hj : join ' ' (orderWithout bn (chomp o')) = []
          · have : kvGet rd' env1 kOrder = none := by simp [kvGet, env1, ubootApp, hj]
            simp [this] at hgs'
          · have hg1 : kvGet rd' env1 kOrder = some (chomp (join ' ' (orderWithout bn (chomp o')))) := by
              simp [kvGet, hrd, env1, ubootApp, hj]
            have hg : kvGet rd' env kOrder = some (chomp o') := by simp [kvGet, hrd, ho']
            have hl : kvGet rd' env1 (kLeft bn) = kvGet rd' env (kLeft bn) := by simp [kvGet, hL1]
            simp only [hg1, hg, hl] at hgs' ⊢
            split at hgs'
            · rename_i hm
              have hm' : bn ∈ split ' ' (chomp o') := mem_order_of_mem_new (by simpa using hm)
              simp only [List.contains_iff_mem, hm', if_true]
              exact hgs'
            · simp at hgs'
        · have h1 : kvGet rd' env1 kOrder = none := by simp [kvGet, hrd]
          simp [h1] at hgs'

theorem efiModify_entries {fresh rd env s g ts} (h : efiModify fresh rd env s g = some ts) : env.entries ≠ [] := by
  intro he
  unfold efiModify at h
  split at h
  · simp at h
  · simp [efiPrepare, efiGet, he] at h

theorem efiTemp_entries {fresh rd env s ts} (h : efiTemp fresh rd env s = some ts) : env.entries ≠ [] := by
  intro he
  unfold efiTemp at h
  split at h
  · simp at h
  · simp [efiPrepare, efiGet, he] at h

theorem efi_queries_congr {env env' : EfiEnv} (h1 : efiBo env' = efiBo env) (h2 : efiNx env' = efiNx env)
    (h3 : env'.entries ≠ []) (h4 : env.entries ≠ []) (h5 : env'.order = env.order) :
    (∀ rd slots, efiGetPrimary rd slots env' = efiGetPrimary rd slots env) ∧
    (∀ rd s, efiGetState rd env' s = efiGetState rd env s) := by
  have hg : ∀ rd, efiGet rd env' = none ∧ efiGet rd env = none ∨
      efiGet rd env' = some (efiBo env, env'.entries, efiNx env) ∧ efiGet rd env = some (efiBo env, env.entries, efiNx env) := by
    intro rd
    by_cases hr : rd efiTool = true
    · by_cases ho : env.order = []
      · left; simp [efiGet, ho, h5]
      · right; exact ⟨by rw [efiGet_eq hr h3 (by rw [h5]; exact ho), h1, h2], efiGet_eq hr h4 ho⟩
    · left
      have : rd efiTool = false := by simpa using hr
      exact ⟨efiGet_none_of_rd this, efiGet_none_of_rd this⟩
  constructor
  · intro rd slots
    unfold efiGetPrimary
    rcases hg rd with ⟨a, b⟩ | ⟨a, b⟩ <;> rw [a, b]
  · intro rd s
    unfold efiGetState
    rcases hg rd with ⟨a, b⟩ | ⟨a, b⟩ <;> rw [a, b]

/-- on EFI the entry numbers are unique -/
def efiWfOnly (_ : List Slot) (env : EfiEnv) (_ : Slot) : Prop := EfiWF env

theorem entries_ne_of {env env' : EfiEnv} {x} (h : env.entries ≠ [])
    (h' : env'.entries = env.entries ∨ env'.entries = env.entries ++ [x]) : env'.entries ≠ [] := by
  rcases h' with h' | h' <;> rw [h'] <;> simp [h]

theorem C03_efi (cfg : Cfg) (fresh : EfiEnv → Str) (hf : FreshOK fresh) :
    CrashSafe (efi cfg fresh) efiWfOnly := by
  intro slots hwf env rd r ts hr hP hng htx n rd'
  have modcase : ∀ s g, efiModify fresh rd env s g = some ts →
      (efiGetPrimary rd' slots ((ts.take n).foldl efiApp env) = efiGetPrimary rd' slots env ∨
       efiGetPrimary rd' slots ((ts.take n).foldl efiApp env) = efiGetPrimary rd' slots (ts.foldl efiApp env)) ∧
      (g = false → efiGetState rd' ((ts.take n).foldl efiApp env) s = some true → efiGetState rd' env s = some true) := by
    intro s g h
    have hne := efiModify_entries h
    obtain ⟨bn, pre, e0, all, hb0, hrd0, hord, _, _, _⟩ := efiModify_cases hf h
    obtain ⟨bn', e, hb, hen, hn⟩ := efi_mod_prefix hf hP h
    rw [hb0] at hb; injection hb with hb; subst hb
    obtain ⟨h1, h2, h3, h4⟩ := hn n
    rcases h3 with ⟨h3, h5⟩ | ⟨h3, h5⟩
    · obtain ⟨q1, q2⟩ := efi_queries_congr h3 h2 (entries_ne_of hne h4) hne h5
      exact ⟨Or.inl (q1 rd' slots), fun _ hg => by rw [← q2]; exact hg⟩
    · refine ⟨Or.inr (by rw [h5]), ?_⟩
      intro hg hst
      subst hg
      obtain ⟨bn2, hb2, x, hx, hxn⟩ := efi_getState_bo hst
      rw [h3] at hx
      simp at hx
      have hx' := eraseP_mem hx
      rw [efiGetState_eq hb2] at hst ⊢
      have hrd' : rd' efiTool = true := by
        by_cases hr : rd' efiTool = true
        · exact hr
        · rw [efiGet_none_of_rd (by simpa using hr)] at hst; simp at hst
      rw [efiGet_eq hrd' hne hord]
      simp only [Option.map_some, Option.some.injEq, List.any_eq_true]
      exact ⟨x, hx', by simp [hxn]⟩
  cases r with
  | setState s g =>
    obtain ⟨m1, m2⟩ := modcase s g htx
    refine ⟨m1, ?_⟩
    intro s' hs'
    injection hs' with h1 h2
    subst h1
    exact m2 h2
  | setPrimary s =>
    refine ⟨?_, fun s' h => by cases h⟩
    simp only [Backend.txns] at htx
    split at htx
    · have hne := efiTemp_entries htx
      obtain ⟨bn, e, hb, hen, hn⟩ := efi_temp_prefix hf hP htx
      obtain ⟨h1, h2, h5, h3, h4⟩ := hn n
      rcases h3 with h3 | ⟨h3, h6⟩
      · exact Or.inl ((efi_queries_congr h2 h3 (entries_ne_of hne h4) hne h5).1 rd' slots)
      · right
        show efiGetPrimary rd' slots ((ts.take n).foldl efiApp env) = _
        rw [h6]; rfl
    · exact (modcase s true htx).1

-- non-vacuity: requests with more than one transaction exist
example : ((uboot {}).txns allRd twoSlots ubEx (.setPrimary slotB)).map List.length = some 2 ∧
    ((uboot {}).txns allRd twoSlots ubEx (.setState slotA false)).map List.length = some 2 := by decide
example : ((efi {} someFresh).txns allRd twoSlots
    { entries := [⟨c!"0001", c!"B"⟩], order := [c!"0001"] }
    (.setPrimary { slotA with efiLoader := some (c!"l"), efiCmdline := some (c!"c") })).map List.length = some 2 := by decide

end Rauc.Boot
