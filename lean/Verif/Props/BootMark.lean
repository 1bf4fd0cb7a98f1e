import Verif.Props.BootCrash

namespace Rauc.Boot

/-! ## C04 -/

/-- environment with distinct entry numbers -/
abbrev efiNums : List Slot → EfiEnv → Slot → Prop := fun _ env _ => EfiWF env

theorem C04_efi (cfg : Cfg) (fresh : EfiEnv → Str) (hf : FreshOK fresh) : MarkGoodWorks (efi cfg fresh) efiNums := by
  intro slots hwf s hs env rd ts hP hts
  obtain ⟨bn, pre, e, all, hb, _, _, he, hpre, rfl⟩ := efiModify_cases hf hts
  obtain ⟨hem, hen⟩ := efiByName_mem he
  show efiGetState allRd ((pre ++ _).foldl efiApp env) s = some true
  rw [List.foldl_append]
  simp only [List.foldl_cons, List.foldl_nil, if_true]
  rw [efiGetState_eq hb]
  have hsub : ∀ x ∈ [e] ++ (efiBo env).eraseP (fun e => e.name == bn), x = e ∨ x ∈ env.entries := by
    intro x hx
    rcases List.mem_append.1 hx with hx | hx
    · simp at hx; exact Or.inl hx
    · exact Or.inr (efiBo_mem (eraseP_mem hx))
  obtain ⟨env1, hE1⟩ : ∃ env1, env1 = pre.foldl efiApp env := ⟨_, rfl⟩
  have hw : EfiWF env1 ∧ env1.entries = all := by
    rcases hpre with ⟨rfl, rfl⟩ | ⟨rfl, rfl⟩
    · subst hE1; exact ⟨hP, rfl⟩
    · subst hE1; exact ⟨efiWF_create hf env bn hP, rfl⟩
  have hall : ∀ x ∈ env.entries, x ∈ all := by
    rcases hpre with ⟨rfl, rfl⟩ | ⟨rfl, rfl⟩
    · exact fun x h => h
    · exact fun x h => List.mem_append_left _ h
  rw [← hE1]
  have hbo := efiBo_setOrder hw.1 _ (fun x hx => by
    rw [hw.2]
    rcases hsub x hx with rfl | h
    · exact hem
    · exact hall x h)
  rw [efiGet_eq (by rfl) ?_ ?_]
  · simp only [Option.map_some]
    rw [hbo]
    simp [hen]
  · show env1.entries ≠ []
    rw [hw.2]
    exact List.ne_nil_of_mem hem
  · simp [efiApp]

/-- the slot still has a boot priority -/
def bbPrioKept (_ : List Slot) (env : BbEnv) (s : Slot) : Prop :=
  ∀ bn, s.bootname = some bn → ∃ p a, env bn = some (p, a) ∧ p % 2 ^ 32 > 0

/-- C04 for barebox, restricted to slots with a non-zero priority. Missing: slots with priority 0, e.g. after
mark-bad (`C04_barebox_violated`). -/
theorem C04_barebox_partial (cfg : Cfg) (hc : cfg.WF) : MarkGoodWorks (barebox cfg) bbPrioKept := by
  intro slots hwf s hs env rd ts hP hts
  obtain ⟨bn, hb, h | h⟩ := bbSetState_cases hts
  · obtain ⟨_, rfl⟩ := h
    obtain ⟨p, a, he, hp⟩ := hP bn hb
    show bbGetState allRd (bbApp env _) s = some true
    have h1 := attemptsOr3_pos cfg.bootDefaultAttempts
    have h2 := attemptsOr3_lt _ hc.1
    have : attemptsOr3 cfg.bootDefaultAttempts % 2 ^ 32 = attemptsOr3 cfg.bootDefaultAttempts :=
      Nat.mod_eq_of_lt (by omega)
    simp [bbGetState, hb, bbGet, allRd, bbApp, bbSet1, he]
    omega
  · exact absurd h.1 (by simp)

/-- FINDING: on barebox a slot that was marked bad stays bad after a successful mark-good, because its priority
remains 0; only activation helps. -/
theorem C04_barebox_violated : ¬ MarkGoodWorks (barebox {}) anyEnv := by
  intro h
  have := h twoSlots twoSlots_wf slotA (by decide)
    ((barebox {}).run twoSlots bbEx [⟨.setState slotA false, allRd, 1⟩]) allRd _ trivial rfl
  exact absurd this (by decide)

/-- the slot is still listed in the boot order -/
def ubListed (_ : List Slot) (env : KvEnv) (s : Slot) : Prop :=
  ∀ bn, s.bootname = some bn → ∃ o, env kOrder = some o ∧ bn ∈ split ' ' (chomp o)

/-- C04 for U-Boot, restricted to slots listed in BOOT_ORDER. Missing: slots which are not listed, e.g.
after mark-bad (`C04_uboot_violated`). -/
theorem C04_uboot_partial (cfg : Cfg) (hc : cfg.WF) : MarkGoodWorks (uboot cfg) ubListed := by
  intro slots hwf s hs env rd ts hP hts
  obtain ⟨bn, hb, h | h | h⟩ := ubootSetState_cases hts
  · obtain ⟨_, rfl⟩ := h
    obtain ⟨o, he, hm⟩ := hP bn hb
    show ubootGetState allRd (ubootApp env _) s = some true
    have h1 := attemptsOr3_pos cfg.bootDefaultAttempts
    have h2 := attemptsOr3_lt _ hc.1
    have hg : kvGet allRd (ubootApp env (kLeft bn, toHex (attemptsOr3 cfg.bootDefaultAttempts))) kOrder = some (chomp o) := by
      unfold kvGet
      rw [ubootApp_ne _ _ (Ne.symm (kLeft_ne_order bn)), he]; rfl
    have hl : kvGet allRd (ubootApp env (kLeft bn, toHex (attemptsOr3 cfg.bootDefaultAttempts))) (kLeft bn) =
        some (chomp (toHex (attemptsOr3 cfg.bootDefaultAttempts))) := by
      simp [kvGet, allRd, ubootApp, toHex_nil]
    simp only [ubootGetState, hb, hg, hl, List.contains_iff_mem, hm, if_true]
    rw [strtoull_chomp_toHex _ (by unfold u64max; omega)]
    simpa using h1
  · exact absurd h.1 (by simp)
  · exact absurd h.1 (by simp)

/-- FINDING: on U-Boot a slot that was marked bad stays bad after a successful mark-good, because it is not
added to BOOT_ORDER again. -/
theorem C04_uboot_violated : ¬ MarkGoodWorks (uboot {}) anyEnv := by
  intro h
  have := h twoSlots twoSlots_wf slotA (by decide)
    ((uboot {}).run twoSlots ubEx [⟨.setState slotA false, allRd, 2⟩]) allRd _ trivial rfl
  exact absurd this (by decide)

def grListed (_ : List Slot) (env : KvEnv) (s : Slot) : Prop :=
  ∀ bn, s.bootname = some bn → ∃ o, env gOrder = some o ∧ bn ∈ split ' ' (chomp o)

/-- C04 for GRUB, restricted to slots listed in ORDER. Missing: slots not listed (`C04_grub_violated`).
RAUC itself never removes a slot from ORDER (`C04_grub_kept`). -/
theorem C04_grub_partial : MarkGoodWorks grub grListed := by
  intro slots hwf s hs env rd ts hP hts
  obtain ⟨bn, hb, rfl⟩ := grubSetState_cases hts
  obtain ⟨o, he, hm⟩ := hP bn hb
  show grubGetState allRd (grubApp env _) s = some true
  have hO : kvGet allRd (grubApp env [(gOk bn, c!"1"), (gTry bn, c!"0")]) gOrder = some (chomp o) := by
    simp [kvGet, allRd, grubApp, kvSet_ne _ _ _ _ (Ne.symm (gOk_ne_order bn)),
      kvSet_ne _ _ _ _ (Ne.symm (gTry_ne_order bn)), he]
  have hK : kvGet allRd (grubApp env [(gOk bn, c!"1"), (gTry bn, c!"0")]) (gOk bn) = some (c!"1") := by
    simp [kvGet, allRd, grubApp, kvSet_ne _ _ _ _ (gOk_ne_gTry bn bn)]
    decide
  have hT : kvGet allRd (grubApp env [(gOk bn, c!"1"), (gTry bn, c!"0")]) (gTry bn) = some (c!"0") := by
    simp [kvGet, allRd, grubApp]
    decide
  simp only [if_true]
  simp only [grubGetState, hb, hO, hK, hT, List.contains_iff_mem, hm, if_true]
  decide

theorem C04_grub_violated : ¬ MarkGoodWorks grub anyEnv := by
  intro h
  have := h twoSlots twoSlots_wf slotA (by decide) (kvSet grEx gOrder (some (c!"B"))) allRd _ trivial rfl
  exact absurd this (by decide)

example : ubListed twoSlots ubEx slotA ∧ grListed twoSlots grEx slotA ∧ bbPrioKept twoSlots bbEx slotA := by
  refine ⟨fun bn hb => ⟨c!"A B", rfl, ?_⟩, fun bn hb => ⟨c!"A B", rfl, ?_⟩, fun bn hb => ?_⟩ <;>
    (have : bn = c!"A" := by simpa [slotA] using hb.symm) <;> subst this
  · decide
  · decide
  · exact ⟨20, 3, rfl, by decide⟩

/-! ## order strings made of proper boot names -/

theorem normTail_clean (ts : List Str) (h : ∀ t ∈ ts, t ≠ [] ∧ chomp t = t) : normTail ts = ts := by
  induction ts with
  | nil => rfl
  | cons t us ih =>
    have ih' := ih (fun x hx => h x (List.mem_cons_of_mem _ hx))
    have ht := h t (by simp)
    simp only [normTail, ih']
    cases us with
    | nil => simp [ht.1, ht.2]
    | cons a as => rfl

theorem normTail_mem_iff (ts : List Str) (b : Str) (hb : b ≠ []) (hb' : chomp b = b) :
    b ∈ ts → b ∈ normTail ts := by
  intro h
  rcases normTail_shape ts with h0 | ⟨init, w, junk, h1, h2, h3, h4⟩
  · exfalso
    have : ∀ l : List Str, normTail l = [] → ∀ x ∈ l, chomp x = [] := by
      intro l
      induction l with
      | nil => simp
      | cons y ys ih =>
        intro hn x hx
        simp only [normTail] at hn
        cases hy : normTail ys with
        | nil =>
          rw [hy] at hn
          simp only [] at hn
          split at hn
          · rename_i hc
            rcases List.mem_cons.1 hx with rfl | hx
            · exact hc
            · exact ih hy x hx
          · simp at hn
        | cons a as => rw [hy] at hn; simp at hn
    have := this ts h0 b h
    rw [hb'] at this; exact hb this
  · rw [h1] at h
    rw [h2]
    rcases List.mem_append.1 h with h | h
    · exact List.mem_append_left _ h
    · rcases List.mem_cons.1 h with rfl | h
      · rw [hb']; simp
      · have := h4 b h
        rw [hb'] at this; exact absurd this hb

/-- In an order whose only white space is the blank, `b` is listed after removing `bn` iff it was listed before. -/
theorem ub_order_mem {b bn o : Str} (hb : b ≠ []) (hbs : ∀ c ∈ b, isSpace c = false) (hne : b ≠ bn) :
    b ∈ split ' ' (chomp o) → b ∈ split ' ' (chomp (join ' ' (orderWithout bn (chomp o)))) := by
  intro h
  have hfree : ∀ t ∈ orderWithout bn (chomp o), ' ' ∉ t := fun t ht =>
    split_fields ' ' _ t (List.mem_filter.1 ht).1
  rw [(split_chomp_join _ hfree).1]
  exact normTail_mem_iff _ b hb (chomp_nospace b hbs) (List.mem_filter.2 ⟨h, by simp [hne, hb]⟩)

/-- the only white space in the order variable is the blank -/
def CleanOrder (env : KvEnv) : Prop := ∀ o, env kOrder = some o → ∀ c ∈ o, isSpace c = true → c = ' '

theorem mem_split_subset (s : Str) : ∀ t ∈ split ' ' s, ∀ c ∈ t, c ∈ s := by
  intro t ht c hc
  have hj := join_split ' ' s
  rw [← hj]
  have : ∀ l : List Str, t ∈ l → c ∈ join ' ' l := by
    intro l
    induction l with
    | nil => simp
    | cons x xs ih =>
      intro hx
      cases xs with
      | nil => simp at hx; subst hx; simpa [join] using hc
      | cons y ys =>
        simp only [join]
        rcases List.mem_cons.1 hx with rfl | hx
        · exact List.mem_append_left _ hc
        · exact List.mem_append_right _ (List.mem_cons_of_mem _ (ih hx))
  exact this _ ht

theorem ub_order_mem_conv {b bn o : Str} (hclean : ∀ c ∈ o, isSpace c = true → c = ' ') (pre : List Str)
    (hpre : ∀ t ∈ pre, t ≠ [] ∧ ∀ c ∈ t, isSpace c = false) :
    b ∈ split ' ' (chomp (join ' ' (pre ++ orderWithout bn (chomp o)))) → b ∈ pre ∨ b ∈ split ' ' (chomp o) := by
  intro h
  have hfree : ∀ t ∈ pre ++ orderWithout bn (chomp o), ' ' ∉ t := by
    intro t ht
    rcases List.mem_append.1 ht with ht | ht
    · exact space_not_mem (hpre t ht).2
    · exact split_fields ' ' _ t (List.mem_filter.1 ht).1
  rw [(split_chomp_join _ hfree).1, normTail_clean] at h
  · rcases List.mem_append.1 h with h | h
    · exact Or.inl h
    · exact Or.inr (List.mem_filter.1 h).1
  · intro t ht
    rcases List.mem_append.1 ht with ht | ht
    · exact ⟨(hpre t ht).1, chomp_nospace t (hpre t ht).2⟩
    · have hm := List.mem_filter.1 ht
      refine ⟨by simpa using (by simpa using hm.2 : ¬ t = bn ∧ ¬ t = []).2, ?_⟩
      apply chomp_nospace
      intro c hc
      by_cases hsp : isSpace c = true
      · have := hclean c (chomp_subset o c (mem_split_subset _ t hm.1 c hc)) hsp
        exact absurd (this ▸ hc) (split_fields ' ' _ t hm.1)
      · simpa using hsp

/-! ## C05 -/

theorem C05_barebox (cfg : Cfg) : OthersUntouched (barebox cfg) (fun _ _ _ _ _ => True) := by
  intro slots hwf env rd r ts hr t ht hne _ htx n
  have same : ∀ e' : BbEnv, (∀ b, t.bootname = some b → ∀ P A, env b = some (P, A) →
      ∃ P', e' b = some (P', A) ∧ (P % 2^32 = 0 ↔ P' % 2^32 = 0)) →
      (bbGetState allRd env t = some true → bbGetState allRd e' t = some true) ∧
      (bbGetState allRd env t = some false → bbGetState allRd e' t ≠ some true) := by
    intro e' h
    unfold bbGetState
    cases hb : t.bootname with
    | none => simp
    | some b =>
      cases he : env b with
      | none => simp [bbGet, allRd, he]
      | some pa =>
        obtain ⟨P, A⟩ := pa
        obtain ⟨P', hE, hiff⟩ := h b hb P A he
        simp [bbGet, allRd, he, hE]
        omega
  show (bbGetState allRd env t = some true → bbGetState allRd ((ts.take n).foldl bbApp env) t = some true) ∧
      (bbGetState allRd env t = some false → bbGetState allRd ((ts.take n).foldl bbApp env) t ≠ some true)
  apply same
  intro b hb P A he
  cases r with
  | setState s g =>
    obtain ⟨bs, hbs, hc⟩ := bbSetState_cases htx
    have hbb : bs ≠ b := fun h => hne (hwf.bootname_inj t ht s hr b hb (h ▸ hbs))
    obtain ⟨tx, rfl, htx'⟩ : ∃ tx, ts = [tx] ∧ ∀ w ∈ tx, w.bn = bs := by
      rcases hc with ⟨_, rfl⟩ | ⟨_, rfl⟩
      · exact ⟨_, rfl, by simp⟩
      · exact ⟨_, rfl, by simp⟩
    rcases foldl_take_single bbApp env tx n with h | h
    · exact ⟨P, by rw [h, he], Iff.rfl⟩
    · refine ⟨P, ?_, Iff.rfl⟩
      rw [h, bbApp_other env tx b (fun w hw => by rw [htx' w hw]; exact hbb), he]
  | setPrimary s =>
    obtain ⟨bs, ps, hbs, hps, rfl⟩ := bbSetPrimary_cases htx
    obtain ⟨P1, A1, he1, hE⟩ := bb_primary_env (cfg := cfg) (s := s) hwf hr hbs hps t ht b hb
    rw [he] at he1
    injection he1 with he1
    injection he1 with e1 e2
    subst e1 e2
    rcases foldl_take_single bbApp env _ n with h | h
    · exact ⟨P, by rw [h, he], Iff.rfl⟩
    · have hts : t ≠ s := hne
      refine ⟨if P % 2 ^ 32 = 0 then 0 else 10, ?_, ?_⟩
      · rw [h]; simpa [hts] using hE
      · split <;> simp_all

/-- restriction for GRUB: activation of a slot when the other slot is listed in ORDER -/
def grOtherListed (_ : List Slot) (env : KvEnv) (_ : Str → Bool) (r : Req) (t : Slot) : Prop :=
  ∀ s, r = .setPrimary s → ∀ b, t.bootname = some b → ∀ o, env gOrder = some o → b ∈ split ' ' (chomp o)

/-- the new ORDER lists every boot slot -/
theorem gr_new_order {slots s bn t b} (hwf : SlotsWF slots) (hs : s ∈ slots) (hb : s.bootname = some bn)
    (ht : t ∈ slots) (hbt : t.bootname = some b) :
    b ∈ split ' ' (chomp (join ' ' (orderPrimaryNames slots s bn))) := by
  have hnames : ∀ x ∈ orderPrimaryNames slots s bn, x ≠ [] ∧ ∀ c ∈ x, isSpace c = false := by
    intro x hx
    unfold orderPrimaryNames at hx
    rcases List.mem_cons.1 hx with rfl | hx
    · exact hwf.bootname_ok s hs _ hb
    · obtain ⟨u, hu, hux⟩ := List.mem_filterMap.1 hx
      split at hux
      · simp at hux
      · exact hwf.bootname_ok u hu _ hux
  rw [(split_chomp_join _ (fun x hx => space_not_mem (hnames x hx).2)).1,
    normTail_clean _ (fun x hx => ⟨(hnames x hx).1, chomp_nospace x (hnames x hx).2⟩)]
  unfold orderPrimaryNames
  by_cases hts : t = s
  · subst hts; rw [hb] at hbt; injection hbt with h; simp [h]
  · refine List.mem_cons_of_mem _ (List.mem_filterMap.2 ⟨t, ht, by simp [hts, hbt]⟩)

/-- RAUC never removes a boot slot from GRUB's ORDER: a listed slot stays listed after any history. -/
theorem C04_grub_kept (slots : List Slot) (hwf : SlotsWF slots) (t : Slot) (ht : t ∈ slots) (env : KvEnv)
    (h : grListed slots env t) (hist : List Ev) (hh : ∀ e ∈ hist, e.req.slot ∈ slots) :
    grListed slots (grub.run slots env hist) t := by
  induction hist generalizing env with
  | nil => exact h
  | cons ev rest ih =>
    simp only [Backend.run, List.foldl_cons]
    apply ih
    · intro bn hb
      unfold Backend.ev
      cases htx : grub.txns ev.rd slots env ev.req with
      | none => exact h bn hb
      | some ts =>
        have hes := hh ev (by simp)
        show ∃ o, (ts.take ev.done).foldl grubApp env gOrder = some o ∧ _
        cases hr : ev.req with
        | setState s g =>
          rw [hr] at htx
          obtain ⟨bs, hbs, rfl⟩ := grubSetState_cases htx
          rcases foldl_take_single grubApp env _ ev.done with h' | h'
          · rw [h']; exact h bn hb
          · rw [h', grubApp_ne]
            · exact h bn hb
            · intro w hw
              simp at hw
              rcases hw with rfl | rfl
              · exact gOk_ne_order bs
              · exact gTry_ne_order bs
        | setPrimary s =>
          rw [hr] at htx hes
          obtain ⟨bs, hbs, rfl⟩ := grubSetPrimary_cases htx
          rcases foldl_take_single grubApp env _ ev.done with h' | h'
          · rw [h']; exact h bn hb
          · rw [h']
            refine ⟨join ' ' (orderPrimaryNames slots s bs), by simp [grubApp], ?_⟩
            exact gr_new_order hwf hes hbs ht hb
    · exact fun e he => hh e (List.mem_cons_of_mem _ he)

/-- C05 for GRUB. Missing: activation while the other slot is not listed in ORDER (`C05_grub_violated`). -/
theorem C05_grub_partial : OthersUntouched grub grOtherListed := by
  intro slots hwf env rd r ts hr t ht hne hP htx n
  show (grubGetState allRd env t = some true → grubGetState allRd ((ts.take n).foldl grubApp env) t = some true) ∧
      (grubGetState allRd env t = some false → grubGetState allRd ((ts.take n).foldl grubApp env) t ≠ some true)
  cases hb : t.bootname with
  | none => simp [grubGetState, hb]
  | some b =>
    have key : ∀ e' : KvEnv, e' (gOk b) = env (gOk b) → e' (gTry b) = env (gTry b) →
        (e' gOrder = env gOrder ∨ ((∀ o, env gOrder = some o → b ∈ split ' ' (chomp o)) ∧
          ∃ o', e' gOrder = some o' ∧ b ∈ split ' ' (chomp o'))) →
        (grubGetState allRd env t = some true → grubGetState allRd e' t = some true) ∧
        (grubGetState allRd env t = some false → grubGetState allRd e' t ≠ some true) := by
      intro e' h1 h2 h3
      rcases h3 with h3 | ⟨h3, o', h4, h5⟩
      · have : grubGetState allRd e' t = grubGetState allRd env t := by
          simp only [grubGetState, hb, kvGet, h1, h2, h3]
        rw [this]; simp_all
      · cases ho : env gOrder with
        | none => simp [grubGetState, hb, kvGet, ho]
        | some o =>
          have : grubGetState allRd e' t = grubGetState allRd env t := by
            simp only [grubGetState, hb, kvGet, h1, h2, h4, ho, allRd, if_true, Option.map_some,
              List.contains_iff_mem, h5, h3 o ho]
          rw [this]; simp_all
    cases r with
    | setState s g =>
      obtain ⟨bs, hbs, rfl⟩ := grubSetState_cases htx
      have hbb : b ≠ bs := fun h => hne (hwf.bootname_inj t ht s hr b hb (h ▸ hbs))
      rcases foldl_take_single grubApp env _ n with h | h
      · rw [h]; exact key env rfl rfl (Or.inl rfl)
      · rw [h]
        apply key
        · apply grubApp_ne; intro w hw; simp at hw
          rcases hw with rfl | rfl
          · exact fun h => hbb (gOk_inj h).symm
          · exact fun h => gOk_ne_gTry _ _ h.symm
        · apply grubApp_ne; intro w hw; simp at hw
          rcases hw with rfl | rfl
          · exact gOk_ne_gTry _ _
          · exact fun h => hbb (gTry_inj h).symm
        · left; apply grubApp_ne; intro w hw; simp at hw
          rcases hw with rfl | rfl
          · exact gOk_ne_order bs
          · exact gTry_ne_order bs
    | setPrimary s =>
      obtain ⟨bs, hbs, rfl⟩ := grubSetPrimary_cases htx
      have hbb : b ≠ bs := fun h => hne (hwf.bootname_inj t ht s hr b hb (h ▸ hbs))
      rcases foldl_take_single grubApp env _ n with h | h
      · rw [h]; exact key env rfl rfl (Or.inl rfl)
      · rw [h]
        apply key
        · apply grubApp_ne; intro w hw; simp at hw
          rcases hw with rfl | rfl | rfl
          · exact fun h => hbb (gOk_inj h).symm
          · exact fun h => gOk_ne_gTry _ _ h.symm
          · exact Ne.symm (gOk_ne_order b)
        · apply grubApp_ne; intro w hw; simp at hw
          rcases hw with rfl | rfl | rfl
          · exact gOk_ne_gTry _ _
          · exact fun h => hbb (gTry_inj h).symm
          · exact Ne.symm (gTry_ne_order b)
        · right
          exact ⟨hP s rfl b hb, join ' ' (orderPrimaryNames slots s bs), by simp [grubApp], gr_new_order hwf hr hbs ht hb⟩

/-- FINDING: activating a slot on GRUB lists all slots in ORDER again; a slot that was bad only because it had
been removed from ORDER (by an integrator) becomes good. -/
theorem C05_grub_violated : ¬ OthersUntouched grub (fun _ _ _ _ _ => True) := by
  intro h
  have := (h twoSlots twoSlots_wf (kvSet grEx gOrder (some (c!"B"))) allRd (.setPrimary slotB) _
    (by decide) slotA (by decide) (by decide) trivial rfl 1).2
  exact this (by decide) (by decide)

/-- restriction for U-Boot: the order is separated by blanks only, and it is readable when activating -/
def ubReadable (_ : List Slot) (env : KvEnv) (rd : Str → Bool) (r : Req) (_ : Slot) : Prop :=
  CleanOrder env ∧ ∀ s, r = .setPrimary s → rd kOrder = true

/-- C05 for U-Boot. Missing: activation while reading BOOT_ORDER fails (`C05_uboot_violated`), and order
variables containing white space other than blanks. -/
theorem C05_uboot_partial (cfg : Cfg) : OthersUntouched (uboot cfg) ubReadable := by
  intro slots hwf env rd r ts hr t ht hne hP htx n
  show (ubootGetState allRd env t = some true → ubootGetState allRd ((ts.take n).foldl ubootApp env) t = some true) ∧
      (ubootGetState allRd env t = some false → ubootGetState allRd ((ts.take n).foldl ubootApp env) t ≠ some true)
  cases hb : t.bootname with
  | none => simp [ubootGetState, hb]
  | some b =>
    obtain ⟨hb1, hb2⟩ := hwf.bootname_ok t ht b hb
    have key : ∀ e' : KvEnv, e' (kLeft b) = env (kLeft b) →
        (e' kOrder = env kOrder ∨ env kOrder = none ∨ ∃ o, env kOrder = some o ∧
          (e' kOrder = none ∧ ¬ b ∈ split ' ' (chomp o) ∨
           ∃ o', e' kOrder = some o' ∧ (b ∈ split ' ' (chomp o) ↔ b ∈ split ' ' (chomp o')))) →
        (ubootGetState allRd env t = some true → ubootGetState allRd e' t = some true) ∧
        (ubootGetState allRd env t = some false → ubootGetState allRd e' t ≠ some true) := by
      intro e' h1 h3
      rcases h3 with h3 | h3 | ⟨o, ho, h3 | ⟨o', h3, h4⟩⟩
      · have : ubootGetState allRd e' t = ubootGetState allRd env t := by
          simp only [ubootGetState, hb, kvGet, h1, h3]
        rw [this]; simp_all
      · simp [ubootGetState, hb, kvGet, h3]
      · simp [ubootGetState, hb, kvGet, h3.1, ho, allRd, h3.2]
      · have : ubootGetState allRd e' t = ubootGetState allRd env t := by
          simp only [ubootGetState, hb, kvGet, h1, h3, ho, allRd, if_true, Option.map_some,
              List.contains_iff_mem, h4]
        rw [this]; simp_all
    have hord : ∀ bs, b ≠ bs → bs ≠ [] ∧ (∀ c ∈ bs, isSpace c = false) → ∀ pre, (pre = [] ∨ pre = [bs]) → ∀ o, env kOrder = some o →
        (b ∈ split ' ' (chomp o) ↔ b ∈ split ' ' (chomp (join ' ' (pre ++ orderWithout bs (chomp o))))) := by
      intro bs hbb hbs pre hpre o ho
      constructor
      · intro h
        have hm : b ∈ orderWithout bs (chomp o) := List.mem_filter.2 ⟨h, by simp [hbb, hb1]⟩
        rw [(split_chomp_join _ ?_).1]
        · exact normTail_mem_iff _ b hb1 (chomp_nospace b hb2) (List.mem_append_right _ hm)
        · intro x hx
          rcases List.mem_append.1 hx with hx | hx
          · rcases hpre with rfl | rfl
            · simp at hx
            · simp at hx; subst hx; exact space_not_mem hbs.2
          · exact split_fields ' ' _ x (List.mem_filter.1 hx).1
      · intro h
        rcases ub_order_mem_conv (hP.1 o ho) pre (by
          intro x hx
          rcases hpre with rfl | rfl
          · simp at hx
          · simp at hx; subst hx; exact hbs) h with h | h
        · rcases hpre with rfl | rfl
          · simp at h
          · simp at h; exact absurd h hbb
        · exact h
    cases r with
    | setState s g =>
      obtain ⟨bs, hbs, hc⟩ := ubootSetState_cases htx
      have hbb : b ≠ bs := fun h => hne (hwf.bootname_inj t ht s hr b hb (h ▸ hbs))
      have hkk : kLeft b ≠ kLeft bs := fun h => hbb (kLeft_inj h)
      have hbsok := hwf.bootname_ok s hr bs hbs
      have hno : kOrder ≠ kLeft bs := Ne.symm (kLeft_ne_order bs)
      rcases hc with ⟨_, rfl⟩ | ⟨_, _, rfl⟩ | ⟨_, o, ho, rfl⟩
      · rcases foldl_take_single ubootApp env _ n with h | h
        · rw [h]; exact key env rfl (Or.inl rfl)
        · rw [h]; exact key _ (ubootApp_ne _ _ hkk) (Or.inl (ubootApp_ne _ _ hno))
      · rcases foldl_take_single ubootApp env _ n with h | h
        · rw [h]; exact key env rfl (Or.inl rfl)
        · rw [h]; exact key _ (ubootApp_ne _ _ hkk) (Or.inl (ubootApp_ne _ _ hno))
      · obtain ⟨_, v, hv, rfl⟩ := kvGet_some ho
        have h1 := hord bs hbb hbsok [] (Or.inl rfl) v hv
        simp only [List.nil_append] at h1
        have hw : ∀ e' : KvEnv, e' (kLeft b) = env (kLeft b) →
            e' kOrder = ubootApp env (kOrder, join ' ' (orderWithout bs (chomp v))) kOrder →
            (ubootGetState allRd env t = some true → ubootGetState allRd e' t = some true) ∧
            (ubootGetState allRd env t = some false → ubootGetState allRd e' t ≠ some true) := by
          intro e' hl ho'
          apply key e' hl
          right; right
          refine ⟨v, hv, ?_⟩
          rw [ho']
          by_cases hj : join ' ' (orderWithout bs (chomp v)) = []
          · left
            refine ⟨by simp [ubootApp, hj], ?_⟩
            rw [h1, hj]; simp [chomp, split]
          · right
            exact ⟨_, by simp [ubootApp, hj], h1⟩
        match n with
        | 0 => exact key env rfl (Or.inl rfl)
        | 1 =>
          simp only [List.take_succ_cons, List.take_zero, List.foldl_cons, List.foldl_nil]
          exact hw _ (ubootApp_ne _ _ (kLeft_ne_order b)) rfl
        | n + 2 =>
          simp only [List.take_succ_cons, List.take_nil, List.foldl_cons, List.foldl_nil]
          apply hw
          · rw [ubootApp_ne _ _ hkk, ubootApp_ne _ _ (kLeft_ne_order b)]
          · rw [ubootApp_ne _ _ hno]
    | setPrimary s =>
      obtain ⟨bs, cur, hbs, hcur, rfl⟩ := ubootSetPrimary_cases htx
      have hbb : b ≠ bs := fun h => hne (hwf.bootname_inj t ht s hr b hb (h ▸ hbs))
      have hkk : kLeft b ≠ kLeft bs := fun h => hbb (kLeft_inj h)
      have hbsok := hwf.bootname_ok s hr bs hbs
      have hno : kOrder ≠ kLeft bs := Ne.symm (kLeft_ne_order bs)
      match n with
      | 0 => exact key env rfl (Or.inl rfl)
      | 1 =>
        simp only [List.take_succ_cons, List.take_zero, List.foldl_cons, List.foldl_nil]
        exact key _ (ubootApp_ne _ _ hkk) (Or.inl (ubootApp_ne _ _ hno))
      | n + 2 =>
        simp only [List.take_succ_cons, List.take_nil, List.foldl_cons, List.foldl_nil]
        apply key
        · rw [ubootApp_ne _ _ (kLeft_ne_order b), ubootApp_ne _ _ hkk]
        · right
          cases ho : env kOrder with
          | none => exact Or.inl rfl
          | some v =>
            right
            have hg : kvGet rd env kOrder = some (chomp v) := by simp [kvGet, hP.2 s rfl, ho]
            rw [hg] at hcur
            simp only [] at hcur
            subst hcur
            have hj : join ' ' (bs :: orderWithout bs (chomp v)) ≠ [] := by
              cases orderWithout bs (chomp v) <;> simp [join, hbsok.1]
            refine ⟨v, rfl, Or.inr ⟨join ' ' (bs :: orderWithout bs (chomp v)), by simp [ubootApp, hj], ?_⟩⟩
            exact hord bs hbb hbsok [bs] (Or.inr rfl) v ho

/-- FINDING: if reading BOOT_ORDER fails while a slot is activated, RAUC writes an order listing all slots; a
slot that was not listed (e.g. interrupted mark-bad) but has attempts left becomes good. -/
theorem C05_uboot_violated : ¬ OthersUntouched (uboot {}) (fun _ env _ _ _ => CleanOrder env) := by
  intro h
  have := (h twoSlots twoSlots_wf (kvSet ubEx kOrder (some (c!"B"))) (fun _ => false) (.setPrimary slotB) _
    (by decide) slotA (by decide) (by decide) (by
      intro o ho c hc hs
      have : o = c!"B" := by simpa [kvSet] using ho.symm
      subst this
      have : c = 'B' := by simpa using hc
      subst this
      revert hs; decide) rfl 2).2
  exact this (by decide) (by decide)

theorem C05_efi (cfg : Cfg) (fresh : EfiEnv → Str) (hf : FreshOK fresh) :
    OthersUntouched (efi cfg fresh) (fun _ env _ _ _ => EfiWF env) := by
  intro slots hwf env rd r ts hr t ht hne hP htx n
  show (efiGetState allRd env t = some true → efiGetState allRd ((ts.take n).foldl efiApp env) t = some true) ∧
      (efiGetState allRd env t = some false → efiGetState allRd ((ts.take n).foldl efiApp env) t ≠ some true)
  cases hb : t.bootname with
  | none => simp [efiGetState, hb]
  | some b =>
    have key : ∀ e' : EfiEnv, (∃ l, e'.entries = env.entries ++ l) →
        ((efiBo e').any (fun e => e.name == b) = (efiBo env).any (fun e => e.name == b)) →
        (efiGetState allRd env t = some true → efiGetState allRd e' t = some true) ∧
        (efiGetState allRd env t = some false → efiGetState allRd e' t ≠ some true) := by
      intro e' ⟨l, hl⟩ hbo
      rw [efiGetState_eq hb, efiGetState_eq hb]
      cases hg : efiGet allRd env with
      | none => simp
      | some r =>
        obtain ⟨h1, h2, h3, rfl⟩ := efiGet_some hg
        cases hg' : efiGet allRd e' with
        | none =>
          simp only [Option.map_some, Option.map_none]
          refine ⟨?_, by simp⟩
          intro h
          exfalso
          simp only [Option.some.injEq] at h
          rw [← hbo] at h
          have hne' : efiBo e' ≠ [] := by intro h0; rw [h0] at h; simp at h
          have ho : e'.order ≠ [] := by intro h0; apply hne'; unfold efiBo; rw [h0]; rfl
          have := efiGet_eq (rd := allRd) (env := e') rfl (by rw [hl]; simp [h2]) ho
          rw [this] at hg'; cases hg'
        | some r' =>
          obtain ⟨_, _, _, rfl⟩ := efiGet_some hg'
          simp only [Option.map_some]
          rw [hbo]; simp_all
    have hmod : ∀ s g, s ∈ slots → t ≠ s → efiModify fresh rd env s g = some ts →
        (efiGetState allRd env t = some true → efiGetState allRd ((ts.take n).foldl efiApp env) t = some true) ∧
        (efiGetState allRd env t = some false → efiGetState allRd ((ts.take n).foldl efiApp env) t ≠ some true) := by
      intro s g hs hts hm
      obtain ⟨bs, e, hbs, hen, hn⟩ := efi_mod_prefix hf hP hm
      obtain ⟨_, _, h3, h4⟩ := hn n
      have hbb : bs ≠ b := fun h => hts (hwf.bootname_inj t ht s hs b hb (h ▸ hbs))
      apply key
      · rcases h4 with h4 | h4
        · exact ⟨[], by simp [h4]⟩
        · exact ⟨_, h4⟩
      · rcases h3 with ⟨h3, _⟩ | ⟨h3, _⟩
        · rw [h3]
        · rw [h3, List.any_append]
          have e1 : (if g then [e] else []).any (fun e => e.name == b) = false := by
            cases g <;> simp [hen, hbb]
          rw [e1, Bool.false_or]
          generalize efiBo env = L
          induction L with
          | nil => rfl
          | cons x xs ih =>
            rw [List.eraseP_cons]
            by_cases hx : x.name == bs
            · have : (x.name == b) = false := by
                have : x.name = bs := by simpa using hx
                simp [this, hbb]
              simp [hx, this]
            · simp [hx, ih]
    cases r with
    | setState s g => exact hmod s g hr hne htx
    | setPrimary s =>
      replace htx : (if cfg.efiUseBootnext then efiTemp fresh rd env s else efiModify fresh rd env s true) = some ts := htx
      split at htx
      · obtain ⟨bs, e, hbs, hen, hn⟩ := efi_temp_prefix hf hP htx
        obtain ⟨_, h2, h3, _, h4⟩ := hn n
        apply key
        · rcases h4 with h4 | h4
          · exact ⟨[], by simp [h4]⟩
          · exact ⟨_, h4⟩
        · rw [h2]
      · exact hmod s true hr hne htx

-- the hypotheses of C05 are met: activating B on an environment where A is good
example : ubReadable twoSlots ubEx allRd (.setPrimary slotB) slotA ∧
    (uboot {}).getState allRd ubEx slotA = some true ∧ ((uboot {}).txns allRd twoSlots ubEx (.setPrimary slotB)).isSome := by
  refine ⟨⟨?_, fun _ _ => rfl⟩, by decide, by decide⟩
  intro o ho c hc
  have : o = c!"A B" := by simpa [ubEx] using ho.symm
  subst this
  revert c; decide

end Rauc.Boot
