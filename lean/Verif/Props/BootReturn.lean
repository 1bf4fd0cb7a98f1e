import Verif.Props.BootConfirm
import Verif.Lemmas.BootOrder

/-!
# C115: an update that does not confirm itself ends in the system before it (U-Boot, GRUB)
-/

namespace Rauc.Boot

theorem find_normTail {p : Str → Bool} (hp : ∀ t, p t = true → chomp t = t ∧ t ≠ []) {ts : List Str} {u : Str} (h : ts.find? p = some u) : (normTail ts).find? p = some u := by
  induction ts with
  | nil => cases h
  | cons t ts ih =>
    rw [normTail]
    by_cases ht : p t = true
    · rw [List.find?_cons_of_pos ht, Option.some.injEq] at h
      subst h
      obtain ⟨h1, h2⟩ := hp t ht
      cases hn : normTail ts with
      | nil =>
        simp only [h1, h2, if_false]
        exact List.find?_cons_of_pos ht
      | cons a l => exact List.find?_cons_of_pos ht
    · rw [List.find?_cons_of_neg ht] at h
      have := ih h
      cases hn : normTail ts with
      | nil => rw [hn] at this; cases this
      | cons a l =>
        rw [hn] at this
        simp only
        rw [List.find?_cons_of_neg ht]
        exact this

theorem find_skip {l : List Str} {p q : Str → Bool} {r : Str} (h : l.find? p = some r) (hq : q r = true) (hqp : ∀ t, q t = true → p t = true) : l.find? q = some r := by
  induction l with
  | nil => cases h
  | cons a l ih =>
    by_cases ha : p a = true
    · rw [List.find?_cons_of_pos ha, Option.some.injEq] at h
      subst h
      exact List.find?_cons_of_pos hq
    · rw [List.find?_cons_of_neg ha] at h
      rw [List.find?_cons_of_neg (fun x => ha (hqp a x))]
      exact ih h

/-- the order was rewritten for `bn`: of the others, the same slot is first -/
theorem next_rewritten {names : List Str} (hnm : ∀ n ∈ names, n ≠ [] ∧ ∀ c ∈ n, isSpace c = false) {env env' : KvEnv} {o bn r : Str}
    (h : (split ' ' (chomp o)).find? (fun t => decide (t ∈ names ∧ 0 < shLeft env t)) = some r) (hr : r ≠ bn) {pre : List Str} (hpre : pre = [] ∨ pre = [bn]) (hb : ' ' ∉ bn)
    (ho' : env' kOrder = some (join ' ' (pre ++ orderWithout bn (chomp o)))) (hu : ∀ u, u ≠ bn → shLeft env' u = shLeft env u) : nextUboot names env' bn = some r := by
  have hfree : ∀ t ∈ pre ++ orderWithout bn (chomp o), ' ' ∉ t := by
    intro t ht
    rcases List.mem_append.1 ht with ht | ht
    · rcases hpre with rfl | rfl
      · cases ht
      · rw [List.mem_singleton.1 ht]
        exact hb
    · exact split_fields ' ' _ t (List.mem_filter.1 ht).1
  unfold nextUboot
  rw [ho', Option.getD_some, (split_chomp_join _ hfree).1]
  have hp := List.find?_some h
  simp only [decide_eq_true_eq] at hp
  refine find_normTail (fun t ht => ?_) ?_
  · simp only [decide_eq_true_eq] at ht
    obtain ⟨h1, h2⟩ := hnm t ht.1
    exact ⟨chomp_nospace t h2, h1⟩
  · have skip : (pre ++ orderWithout bn (chomp o)).find? (fun u => decide (u ∈ names ∧ u ≠ bn ∧ 0 < shLeft env' u)) = (orderWithout bn (chomp o)).find? (fun u => decide (u ∈ names ∧ u ≠ bn ∧ 0 < shLeft env' u)) := by
      rcases hpre with rfl | rfl
      · rfl
      · exact List.find?_cons_of_neg (by simp)
    rw [skip]
    unfold orderWithout
    rw [List.find?_filter]
    refine find_skip h ?_ ?_
    · simp only [Bool.and_eq_true, decide_eq_true_eq, hu r hr]
      simp only [Bool.not_eq_true', beq_eq_false_iff_ne]
      exact ⟨⟨hr, (hnm r hp.1).1⟩, hp.1, hr, hp.2⟩
    · intro t ht
      simp only [Bool.and_eq_true, decide_eq_true_eq] at ht ⊢
      obtain ⟨-, h1, h2, h3⟩ := ht
      rw [hu t h2] at h3
      exact ⟨h1, h3⟩

/-- **C115 for U-Boot.** The system `r` is booted next. `s` is marked bad (as an installation does at its start) and then activated: in between `r` is booted; afterwards `s` is booted for its attempts, and if it did not confirm itself then, `r` again. -/
theorem C115_uboot (cfg : Cfg) (hc : cfg.WF) {names : List Str} {slots : List Slot} (hwf : SlotsWF slots) (hn : ForSlots names slots) {env : KvEnv} (he : UbComplete names env) {s : Slot} (hs : s ∈ slots)
    {bn r : Str} (hb : s.bootname = some bn) (h : (ubootSh names env).1 = some r) (hr : r ≠ bn) {ts0 ts1 : List (Str × Str)} (h0 : (uboot cfg).setState allRd slots env s false = some ts0)
    (h1 : (uboot cfg).setPrimary allRd slots ((uboot cfg).appAll env ts0) s = some ts1) :
    (ubootSh names ((uboot cfg).appAll env ts0)).1 = some r ∧
    (∀ k < attemptsOr3 cfg.bootAttemptsPrimary, (ubootSh names (after (ubootSh names) k ((uboot cfg).appAll ((uboot cfg).appAll env ts0) ts1))).1 = some bn) ∧
      (ubootSh names (after (ubootSh names) (attemptsOr3 cfg.bootAttemptsPrimary) ((uboot cfg).appAll ((uboot cfg).appAll env ts0) ts1))).1 = some r := by
  have hnm : ∀ n ∈ names, n ≠ [] ∧ ∀ c ∈ n, isSpace c = false := by
    intro n hm
    obtain ⟨x, hx, hxb⟩ := (hn n).1 hm
    exact hwf.bootname_ok x hx n hxb
  obtain ⟨hbn1, hbn2⟩ := hwf.bootname_ok s hs bn hb
  have hsp : ' ' ∉ bn := space_not_mem hbn2
  have hfirst := (ubootSh_first he).symm.trans h
  obtain ⟨⟨o, ho, ho2⟩, hl⟩ := he
  rw [ho, Option.getD_some] at hfirst
  have hk : ∀ e : KvEnv, ∀ v, e kOrder = some v → kvGet allRd e kOrder = some (chomp v) := by
    intro e v hv
    simp [kvGet, allRd, hv]
  -- mark-bad
  have t0 : ts0 = [(kOrder, join ' ' (orderWithout bn (chomp o))), (kLeft bn, toHex 0)] := by
    change ubootSetState cfg allRd env s false = some ts0 at h0
    unfold ubootSetState at h0
    rw [hb] at h0
    simp only [Bool.false_eq_true, if_false] at h0
    rw [hk env o ho] at h0
    exact (Option.some.inj h0).symm
  have hrm : r ∈ orderWithout bn (chomp o) := by
    have hp := List.find?_some hfirst
    simp only [decide_eq_true_eq] at hp
    refine List.mem_filter.2 ⟨List.mem_of_find?_eq_some hfirst, ?_⟩
    simp [hr, (hnm r hp.1).1]
  have hrne : r ≠ [] := by
    have hp := List.find?_some hfirst
    simp only [decide_eq_true_eq] at hp
    exact (hnm r hp.1).1
  have hj0 : join ' ' (orderWithout bn (chomp o)) ≠ [] := by
    revert hrm
    cases orderWithout bn (chomp o) with
    | nil => intro h; cases h
    | cons a l =>
      cases l with
      | nil =>
        intro h
        rw [List.mem_singleton.1 h] at hrne
        simpa [join] using hrne
      | cons b l => intro _; simp [join]
  generalize hE0 : (uboot cfg).appAll env ts0 = e0 at h1 ⊢
  have hE0' : e0 = kvSet (kvSet env kOrder (some (join ' ' (orderWithout bn (chomp o))))) (kLeft bn) (some (toHex 0)) := by
    rw [← hE0, t0]
    change ubootApp (ubootApp env _) _ = _
    unfold ubootApp
    simp only [if_neg hj0, if_neg (toHex_nil 0)]
  have o0 : e0 kOrder = some (join ' ' (orderWithout bn (chomp o))) := by
    rw [hE0', kvSet_ne _ _ _ _ (fun e => kLeft_ne_order bn e.symm), kvSet_self]
  have u0' : ∀ u, u ≠ bn → e0 (kLeft u) = env (kLeft u) := by
    intro u hu
    rw [hE0', kvSet_ne _ _ _ _ (fun e => hu (kLeft_inj e)), kvSet_ne _ _ _ _ (kLeft_ne_order u)]
  have u0 : ∀ u, u ≠ bn → shLeft e0 u = shLeft env u := fun u hu => shLeft_congr (u0' u hu)
  have b0' : e0 (kLeft bn) = some (toHex 0) := by rw [hE0', kvSet_self]
  have b0 : shLeft e0 bn = 0 := by
    simp only [shLeft, b0']
    exact strtoull_chomp_toHex 0 (by decide)
  have c0 : UbComplete names e0 := by
    refine ⟨⟨_, o0, hj0⟩, fun u hu => ?_⟩
    by_cases e : u = bn
    · subst e
      exact ⟨_, b0', toHex_nil 0⟩
    · rw [u0' u e]
      exact hl u hu
  have n0 : nextUboot names e0 bn = some r := next_rewritten hnm hfirst hr (.inl rfl) hsp o0 u0
  have f0 : (ubootSh names e0).1 = some r := by
    rw [ubootSh_first c0, ← n0]
    refine find_congr (fun u => ?_)
    by_cases e : u = bn
    · subst e
      simp [b0]
    · simp [e]
  obtain ⟨a1, a2⟩ := C112_uboot_activated cfg hc hwf hn c0 hs hb h1
  refine ⟨f0, a1, a2.trans ?_⟩
  -- mark-active
  have hfirst0 := (ubootSh_first c0).symm.trans f0
  rw [o0, Option.getD_some] at hfirst0
  obtain ⟨bn', cur, hb', hcur, t1⟩ := ubootSetPrimary_cases h1
  have : bn' = bn := Option.some.inj (hb'.symm.trans hb)
  subst this
  rw [hk e0 _ o0] at hcur
  simp only at hcur
  subst hcur
  have hj1 : ∀ l : List Str, join ' ' (bn' :: l) ≠ [] := by
    intro l
    cases l <;> simp [join, hbn1]
  have e1 : (uboot cfg).appAll e0 ts1 = kvSet (kvSet e0 (kLeft bn') (some (toHex (attemptsOr3 cfg.bootAttemptsPrimary)))) kOrder (some (join ' ' (bn' :: orderWithout bn' (chomp (join ' ' (orderWithout bn' (chomp o))))))) := by
    have : (uboot cfg).appAll e0 ts1 = ubootApp (ubootApp e0 (kLeft bn', toHex (attemptsOr3 cfg.bootAttemptsPrimary))) (kOrder, join ' ' (bn' :: orderWithout bn' (chomp (join ' ' (orderWithout bn' (chomp o)))))) := by
      rw [t1]
      rfl
    rw [this]
    unfold ubootApp
    simp only [if_neg (hj1 _), if_neg (toHex_nil _)]
  refine next_rewritten (pre := [bn']) hnm hfirst0 hr (.inr rfl) hsp ?_ ?_
  · rw [e1, kvSet_self]
    rfl
  · intro u hu
    refine shLeft_congr ?_
    rw [e1, kvSet_ne _ _ _ _ (kLeft_ne_order u), kvSet_ne _ _ _ _ (fun e => hu (kLeft_inj e))]

/-- **C115 for GRUB with two systems.** As for U-Boot, with one start. Missing for the full property: more than two systems, see `C115_grub_three_violated`. -/
theorem C115_grub_partial {names : List Str} {slots : List Slot} (hwf : SlotsWF slots) (hn : ForSlots names slots) {env : KvEnv} (he : GrComplete names env) {s : Slot} (hs : s ∈ slots)
    {bn r : Str} (hb : s.bootname = some bn) (h : (grubSh names env).1 = some r) (hr : r ≠ bn) (htwo : ∀ n ∈ names, n = bn ∨ n = r) {ts0 ts1 : List (List (Str × Str))} (h0 : grub.setState allRd slots env s false = some ts0)
    (h1 : grub.setPrimary allRd slots (grub.appAll env ts0) s = some ts1) :
    (grubSh names (grub.appAll env ts0)).1 = some r ∧ (grubSh names (grub.appAll (grub.appAll env ts0) ts1)).1 = some bn ∧
      (grubSh names (after (grubSh names) 1 (grub.appAll (grub.appAll env ts0) ts1))).1 = some r := by
  have hfirst := (grubSh_first names env).symm.trans h
  have hp := List.find?_some hfirst
  simp only [Bool.and_eq_true, decide_eq_true_eq] at hp
  obtain ⟨hrn, hrok, hrtry⟩ := hp
  have hnm : ∀ n ∈ names, n ≠ [] ∧ ∀ c ∈ n, isSpace c = false := by
    intro n hm
    obtain ⟨x, hx, hxb⟩ := (hn n).1 hm
    exact hwf.bootname_ok x hx n hxb
  -- mark-bad
  have t0 : ts0 = [[(gOk bn, c!"0"), (gTry bn, c!"0")]] := by
    change grubSetState s false = some ts0 at h0
    unfold grubSetState at h0
    rw [hb] at h0
    exact (Option.some.inj h0).symm
  generalize hE0 : grub.appAll env ts0 = e0 at h1 ⊢
  have hE0' : e0 = kvSet (kvSet env (gOk bn) (some c!"0")) (gTry bn) (some c!"0") := by
    rw [← hE0, t0]
    rfl
  have k0 : ∀ k, k ≠ gOk bn → k ≠ gTry bn → e0 k = env k := by
    intro k h1 h2
    rw [hE0', kvSet_ne _ _ _ _ h2, kvSet_ne _ _ _ _ h1]
  have v0 : ∀ k, k ≠ gOk bn → k ≠ gTry bn → grubVars names e0 k = grubVars names env k := by
    intro k h1 h2
    simp only [grubVars, k0 k h1 h2]
  have b0 : grubVars names e0 (gOk bn) = c!"0" := by
    have : e0 (gOk bn) = some c!"0" := by rw [hE0', kvSet_ne _ _ _ _ (gOk_ne_gTry bn bn), kvSet_self]
    simp only [grubVars, this]
  have c0 : GrComplete names e0 := by
    refine ⟨?_, fun u hu => ?_⟩
    · rw [k0 gOrder (fun e => gOk_ne_order bn e.symm) (fun e => gTry_ne_order bn e.symm)]
      exact he.1
    · by_cases e : u = bn
      · subst e
        rw [hE0']
        exact ⟨⟨_, by rw [kvSet_ne _ _ _ _ (gOk_ne_gTry u u), kvSet_self]⟩, _, kvSet_self _ _ _⟩
      · rw [k0 (gOk u) (fun x => e (gOk_inj x)) (gOk_ne_gTry u bn), k0 (gTry u) (fun x => gOk_ne_gTry bn u x.symm) (fun x => e (gTry_inj x))]
        exact he.2 u hu
  have r0 : grubVars names e0 (gOk r) = grubVars names env (gOk r) ∧ grubVars names e0 (gTry r) = grubVars names env (gTry r) :=
    ⟨v0 _ (fun x => hr (gOk_inj x)) (gOk_ne_gTry r bn), v0 _ (fun x => gOk_ne_gTry bn r x.symm) (fun x => hr (gTry_inj x))⟩
  have f0 : (grubSh names e0).1 = some r := by
    rw [grubSh_first, v0 gOrder (fun e => gOk_ne_order bn e.symm) (fun e => gTry_ne_order bn e.symm)]
    refine find_skip hfirst ?_ ?_
    · rw [r0.1, r0.2]
      simp [hrn, hrok, hrtry]
    · intro t ht
      simp only [Bool.and_eq_true, decide_eq_true_eq] at ht ⊢
      obtain ⟨i1, i2, i3⟩ := ht
      rcases htwo t i1 with rfl | rfl
      · rw [b0] at i2
        exact absurd i2 (by decide)
      · exact ⟨i1, hrok, hrtry⟩
  obtain ⟨a1, a2⟩ := C112_grub_activated hwf hn c0 hs hb h1
  refine ⟨f0, a1, a2.trans ?_⟩
  -- mark-active
  obtain ⟨bn', hb', t1⟩ := grubSetPrimary_cases h1
  have : bn' = bn := Option.some.inj (hb'.symm.trans hb)
  subst this
  have hE1 : grub.appAll e0 ts1 = kvSet (kvSet (kvSet e0 (gOk bn') (some c!"1")) (gTry bn') (some c!"0")) gOrder (some (join ' ' (orderPrimaryNames slots s bn'))) := by
    rw [t1]
    rfl
  have k1 : ∀ k, k ≠ gOk bn' → k ≠ gTry bn' → k ≠ gOrder → grubVars names (grub.appAll e0 ts1) k = grubVars names e0 k := by
    intro k h1 h2 h3
    have : grub.appAll e0 ts1 k = e0 k := by
      rw [hE1, kvSet_ne _ _ _ _ h3, kvSet_ne _ _ _ _ h2, kvSet_ne _ _ _ _ h1]
    simp only [grubVars, this]
  have o1 : grubVars names (grub.appAll e0 ts1) gOrder = join ' ' (orderPrimaryNames slots s bn') := by
    have : grub.appAll e0 ts1 gOrder = some (join ' ' (orderPrimaryNames slots s bn')) := by rw [hE1, kvSet_self]
    simp only [grubVars, this]
  have hfree : ∀ t ∈ orderPrimaryNames slots s bn', ' ' ∉ t := by
    intro t ht
    rcases List.mem_cons.1 ht with rfl | ht
    · exact space_not_mem (hwf.bootname_ok s hs t hb).2
    · obtain ⟨x, hx, hxt⟩ := List.mem_filterMap.1 ht
      split at hxt
      · cases hxt
      · exact space_not_mem (hwf.bootname_ok x hx t hxt).2
  unfold nextGrub
  rw [o1, (split_chomp_join _ hfree).1]
  have pr : decide (r ∈ names ∧ r ≠ bn' ∧ shNum (grubVars names (grub.appAll e0 ts1) (gOk r)) = 1 ∧ shNum (grubVars names (grub.appAll e0 ts1) (gTry r)) = 0) = true := by
    rw [k1 _ (fun x => hr (gOk_inj x)) (gOk_ne_gTry r bn') (gOk_ne_order r), k1 _ (fun x => gOk_ne_gTry bn' r x.symm) (fun x => hr (gTry_inj x)) (gTry_ne_order r), r0.1, r0.2]
    simp [hrn, hr, hrok, hrtry]
  refine find_normTail (fun t ht => ?_) ?_
  · simp only [decide_eq_true_eq] at ht
    obtain ⟨h1, h2⟩ := hnm t ht.1
    exact ⟨chomp_nospace t h2, h1⟩
  · have hm : r ∈ orderPrimaryNames slots s bn' := by
      obtain ⟨x, hx, hxb⟩ := (hn r).1 hrn
      refine List.mem_cons_of_mem _ (List.mem_filterMap.2 ⟨x, hx, ?_⟩)
      rw [if_neg]
      · exact hxb
      · rintro rfl
        exact hr (Option.some.inj (hxb.symm.trans hb))
    generalize orderPrimaryNames slots s bn' = l at hm
    cases hf : l.find? (fun u => decide (u ∈ names ∧ u ≠ bn' ∧ shNum (grubVars names (grub.appAll e0 ts1) (gOk u)) = 1 ∧ shNum (grubVars names (grub.appAll e0 ts1) (gTry u)) = 0)) with
    | none => exact absurd pr (by simpa using List.find?_eq_none.1 hf r hm)
    | some u =>
      have := List.find?_some hf
      simp only [decide_eq_true_eq] at this
      rw [(htwo u this.1).resolve_left this.2.1]

/-- Finding: with three systems, GRUB does not return to the system before the update. `mark-active` rewrites `ORDER` in the order of the slot table, whatever it was before (bootchooser.c:22-45): `B` runs, `C` is updated and does not confirm itself; then `A` is booted. -/
theorem C115_grub_three_violated : ∃ (slots : List Slot) (env : KvEnv) (s : Slot), s ∈ slots ∧ GrComplete [c!"A", c!"B", c!"C"] env ∧ s.bootname = some c!"C" ∧ (grubSh [c!"A", c!"B", c!"C"] env).1 = some c!"B" ∧
    ∃ ts0 ts1, grub.setState allRd slots env s false = some ts0 ∧ grub.setPrimary allRd slots (grub.appAll env ts0) s = some ts1 ∧
      (grubSh [c!"A", c!"B", c!"C"] (grub.appAll (grub.appAll env ts0) ts1)).1 = some c!"C" ∧
      (grubSh [c!"A", c!"B", c!"C"] (after (grubSh [c!"A", c!"B", c!"C"]) 1 (grub.appAll (grub.appAll env ts0) ts1))).1 = some c!"A" := by
  refine ⟨[slotA, slotB, { name := c!"rootfs.2", sclass := c!"rootfs", bootname := some c!"C" }], fun k => if k = gOrder then some c!"B A C" else if k = gOk c!"A" ∨ k = gOk c!"B" ∨ k = gOk c!"C" then some c!"1" else some c!"0",
    { name := c!"rootfs.2", sclass := c!"rootfs", bootname := some c!"C" }, by decide, ⟨⟨_, if_pos rfl⟩, fun u _ => ⟨?_, ?_⟩⟩, rfl, by decide, _, _, rfl, rfl, by decide, by decide⟩
  · dsimp only
    split
    · exact ⟨_, rfl⟩
    · split <;> exact ⟨_, rfl⟩
  · dsimp only
    split
    · exact ⟨_, rfl⟩
    · split <;> exact ⟨_, rfl⟩

/-! ## The hypotheses are met -/

/-- `A` runs, `B` is updated and does not confirm itself -/
example : ∃ ts0 ts1, (uboot {}).setState allRd twoSlots ubEx slotB false = some ts0 ∧ (uboot {}).setPrimary allRd twoSlots ((uboot {}).appAll ubEx ts0) slotB = some ts1 ∧
    (ubootSh [c!"A", c!"B"] (after (ubootSh [c!"A", c!"B"]) 2 ((uboot {}).appAll ((uboot {}).appAll ubEx ts0) ts1))).1 = some c!"B" ∧
    (ubootSh [c!"A", c!"B"] (after (ubootSh [c!"A", c!"B"]) 3 ((uboot {}).appAll ((uboot {}).appAll ubEx ts0) ts1))).1 = some c!"A" := by
  obtain ⟨-, h1, h2⟩ := C115_uboot {} (by unfold Cfg.WF; decide) twoSlots_wf ex_forSlots ex_ubComplete (s := slotB) (by decide) rfl (r := c!"A") (by decide) (by decide) rfl rfl
  exact ⟨_, _, rfl, rfl, h1 2 (by decide), h2⟩

example : ∃ ts0 ts1, grub.setState allRd twoSlots grEx slotB false = some ts0 ∧ grub.setPrimary allRd twoSlots (grub.appAll grEx ts0) slotB = some ts1 ∧
    (grubSh [c!"A", c!"B"] (grub.appAll (grub.appAll grEx ts0) ts1)).1 = some c!"B" ∧ (grubSh [c!"A", c!"B"] (after (grubSh [c!"A", c!"B"]) 1 (grub.appAll (grub.appAll grEx ts0) ts1))).1 = some c!"A" := by
  obtain ⟨-, h1, h2⟩ := C115_grub_partial twoSlots_wf ex_forSlots ex_grComplete (s := slotB) (by decide) rfl (r := c!"A") (by decide) (by decide)
    (fun n hn => by
      rcases List.mem_cons.1 hn with rfl | hn
      · exact .inr rfl
      · exact .inl (by simpa using hn)) rfl rfl
  exact ⟨_, _, rfl, rfl, h1, h2⟩

end Rauc.Boot
