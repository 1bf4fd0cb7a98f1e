import Verif.Props.BootCrash
import Verif.Props.BootMark

/-!
# Marking a slot bad keeps another slot primary (used by C68)
-/

namespace Rauc.Boot

/-- Marking `s` bad does not take away the primary role from another slot. `P` restricts the prior environment. -/
def BadKeepsPrimary (B : Backend) (P : List Slot → B.Env → Slot → Prop) : Prop :=
  ∀ (slots : List Slot), SlotsWF slots → ∀ s ∈ slots, ∀ r : Slot, r ≠ s → ∀ (env : B.Env) (rd : Str → Bool) (ts : List B.Txn),
    P slots env s →
    B.setState rd slots env s false = some ts →
    ∀ rd', B.getPrimary rd' slots env = some r → B.getPrimary rd' slots (B.appAll env ts) = some r

/-! ## U-Boot -/

/-- the winner of the scan: the first name whose slot has attempts left -/
theorem ubootScan_iff {rd env slots r} (toks : List Str) :
    ubootScan rd env slots toks = some r ↔
      ∃ a tok b, toks = a ++ tok :: b ∧ (∀ t ∈ a, ubootTry rd env t slots = some none) ∧
        ubootTry rd env tok slots = some (some r) := by
  induction toks with
  | nil => simp [ubootScan]
  | cons x xs ih =>
    simp only [ubootScan]
    cases hx : ubootTry rd env x slots with
    | none =>
      simp only [reduceCtorEq, false_iff]
      rintro ⟨a, tok, b, h1, h2, h3⟩
      cases a with
      | nil => simp only [List.nil_append, List.cons.injEq] at h1; rw [← h1.1, hx] at h3; simp at h3
      | cons y ys =>
        simp only [List.cons_append, List.cons.injEq] at h1
        have := h2 y (by simp)
        rw [← h1.1, hx] at this; simp at this
    | some o =>
      cases o with
      | some s =>
        simp only [Option.some.injEq]
        constructor
        · rintro rfl
          exact ⟨[], x, xs, rfl, by simp, hx⟩
        · rintro ⟨a, tok, b, h1, h2, h3⟩
          cases a with
          | nil =>
            simp only [List.nil_append, List.cons.injEq] at h1
            rw [← h1.1, hx] at h3
            simpa using h3
          | cons y ys =>
            simp only [List.cons_append, List.cons.injEq] at h1
            have := h2 y (by simp)
            rw [← h1.1, hx] at this; simp at this
      | none =>
        simp only []
        rw [ih]
        constructor
        · rintro ⟨a, tok, b, rfl, h2, h3⟩
          refine ⟨x :: a, tok, b, rfl, ?_, h3⟩
          intro t ht
          rcases List.mem_cons.1 ht with rfl | ht
          · exact hx
          · exact h2 t ht
        · rintro ⟨a, tok, b, h1, h2, h3⟩
          cases a with
          | nil => simp only [List.nil_append, List.cons.injEq] at h1; rw [← h1.1, hx] at h3; simp at h3
          | cons y ys =>
            simp only [List.cons_append, List.cons.injEq] at h1
            exact ⟨ys, tok, b, h1.2, fun t ht => h2 t (by simp [ht]), h3⟩

theorem normTail_append_word (a b : List Str) (w : Str) (hw : w ≠ []) (hc : chomp w = w) :
    normTail (a ++ w :: b) = a ++ w :: normTail b := by
  induction a with
  | nil =>
    simp only [List.nil_append, normTail]
    cases normTail b with
    | nil => simp [hc, hw]
    | cons x xs => rfl
  | cons y ys ih =>
    simp only [List.cons_append, normTail, ih]
    cases h : ys ++ w :: normTail b with
    | nil => simp at h
    | cons p q => rfl

theorem keeps_uboot (cfg : Cfg) : BadKeepsPrimary (uboot cfg) anyEnv := by
  intro slots hwf s hs r hrs env rd ts _ hts rd' hp
  obtain ⟨bn, hb, hc⟩ := ubootSetState_cases hts
  change ubootGetPrimary rd' slots env = some r at hp
  show ubootGetPrimary rd' slots ((uboot cfg).appAll env ts) = some r
  unfold ubootGetPrimary at hp
  split at hp
  · simp at hp
  rename_i o' hgo
  obtain ⟨hro, o, heo, rfl⟩ := kvGet_some hgo
  obtain ⟨a, tok, b, hT, ha, htok⟩ := (ubootScan_iff _).1 hp
  have hr : r ∈ slots ∧ r.bootname = some tok := by
    have := ubootTry_some htok
    exact ⟨this.1, this.2.1⟩
  have htb : tok ≠ bn := fun e => hrs (hwf.bootname_inj r hr.1 s hs tok hr.2 (e ▸ hb))
  obtain ⟨htok1, htok2⟩ := hwf.bootname_ok r hr.1 tok hr.2
  have hchomp := chomp_nospace tok htok2
  have h0 : strtoull 16 (chomp (toHex 0)) = 0 := strtoull_chomp_toHex 0 (by decide)
  -- the attempts counters in the new environment
  have tryNew : ∀ e' : KvEnv, (∀ x, x ≠ bn → e' (kLeft x) = env (kLeft x)) → e' (kLeft bn) = some (toHex 0) →
      (∀ t ∈ a, ubootTry rd' e' t slots = some none) ∧ ubootTry rd' e' tok slots = some (some r) := by
    intro e' h1 h2
    constructor
    · intro t ht
      by_cases htt : t = bn
      · subst htt
        have hread : rd' (kLeft t) = true := by
          have := ha t ht
          rw [ubootTry_eq hwf s hs t hb] at this
          cases hg : kvGet rd' env (kLeft t) with
          | none => rw [hg] at this; simp at this
          | some v => exact (kvGet_some hg).1
        rw [ubootTry_eq hwf s hs t hb]
        simp [kvGet, hread, h2, h0]
      · rw [ubootTry_congr t (h1 t htt)]; exact ha t ht
    · rw [ubootTry_congr tok (h1 tok htb)]; exact htok
  rcases hc with ⟨h, _⟩ | ⟨_, _, rfl⟩ | ⟨_, o2, ho2, rfl⟩
  · cases h
  · have hord : ubootApp env (kLeft bn, toHex 0) kOrder = env kOrder := ubootApp_ne _ _ (Ne.symm (kLeft_ne_order bn))
    obtain ⟨t1, t2⟩ := tryNew (ubootApp env (kLeft bn, toHex 0))
      (fun x hx => ubootApp_ne _ _ (fun e => hx (kLeft_inj e))) (by simp [ubootApp, toHex_nil])
    show ubootGetPrimary rd' slots (ubootApp env (kLeft bn, toHex 0)) = some r
    unfold ubootGetPrimary
    have : kvGet rd' (ubootApp env (kLeft bn, toHex 0)) kOrder = some (chomp o) := by
      simp [kvGet, hord, hro, heo]
    rw [this]
    exact (ubootScan_iff _).2 ⟨a, tok, b, hT, t1, t2⟩
  · obtain ⟨_, o3, ho3, rfl⟩ := kvGet_some ho2
    rw [heo] at ho3
    injection ho3 with ho3
    subst ho3
    obtain ⟨e2, he2⟩ : ∃ e2, e2 = ubootApp (ubootApp env (kOrder, join ' ' (orderWithout bn (chomp o)))) (kLeft bn, toHex 0) :=
      ⟨_, rfl⟩
    show ubootGetPrimary rd' slots (ubootApp (ubootApp env (kOrder, join ' ' (orderWithout bn (chomp o)))) (kLeft bn, toHex 0)) = some r
    rw [← he2]
    obtain ⟨t1, t2⟩ := tryNew e2
      (fun x hx => by
        rw [he2, ubootApp_ne _ _ (fun e => hx (kLeft_inj e)), ubootApp_ne _ _ (kLeft_ne_order x)])
      (by rw [he2]; simp [ubootApp, toHex_nil])
    have hfree : ∀ t ∈ orderWithout bn (chomp o), ' ' ∉ t := fun t ht =>
      split_fields ' ' _ t (List.mem_filter.1 ht).1
    let f : Str → Bool := fun t => !(t == bn) && !(t == [])
    have hnew : orderWithout bn (chomp o) = a.filter f ++ tok :: b.filter f := by
      unfold orderWithout
      rw [hT, List.filter_append, List.filter_cons_of_pos (by simp [htb, htok1])]
    have hsplit := (split_chomp_join _ hfree).1
    rw [hnew, normTail_append_word _ _ _ htok1 hchomp, ← hnew] at hsplit
    have hne : join ' ' (orderWithout bn (chomp o)) ≠ [] := by
      intro h
      rw [h] at hsplit
      simp [chomp, split] at hsplit
    have hg : kvGet rd' e2 kOrder = some (chomp (join ' ' (orderWithout bn (chomp o)))) := by
      rw [he2]
      simp only [kvGet, hro, if_true]
      rw [ubootApp_ne _ _ (Ne.symm (kLeft_ne_order bn))]
      simp [ubootApp, hne]
    unfold ubootGetPrimary
    rw [hg]
    simp only []
    rw [hsplit]
    exact (ubootScan_iff _).2 ⟨a.filter f, tok, _, rfl, fun t ht => t1 t (List.mem_filter.1 ht).1, t2⟩

/-! ## GRUB -/

theorem grubTry_congr {rd env env' slots} (tok : Str) (h : env (gOk tok) = env' (gOk tok)) (h' : env (gTry tok) = env' (gTry tok)) :
    grubTry rd env tok slots = grubTry rd env' tok slots := by
  induction slots with
  | nil => rfl
  | cons s ss ih => simp only [grubTry, kvGet, h, h', ih]

/-- a name whose variables can be read, of a slot that is not ok, is passed over -/
theorem grubTry_bad {rd env slots} (tok o t : Str) (ho : kvGet rd env (gOk tok) = some o) (ht : kvGet rd env (gTry tok) = some t)
    (hbad : strtoull 0 o ≠ 1) : grubTry rd env tok slots = some none := by
  induction slots with
  | nil => rfl
  | cons s ss ih =>
    simp only [grubTry, ho, ht, ih]
    simp [hbad]

theorem grub_bad_scan {rd slots} {env env' : KvEnv} (hwf : SlotsWF slots) {s : Slot} (hs : s ∈ slots) {bn : Str}
    (hb : s.bootname = some bn) {r : Slot} (hrs : r ≠ s) (h1 : ∀ x, x ≠ bn → env' (gOk x) = env (gOk x) ∧ env' (gTry x) = env (gTry x))
    (h2 : env' (gOk bn) = some (c!"0")) (h3 : env' (gTry bn) = some (c!"0")) (T : List Str)
    (h : grubScan rd env slots T = some r) : grubScan rd env' slots T = some r := by
  induction T with
  | nil => simp [grubScan] at h
  | cons x xs ih =>
    by_cases hx : x = bn
    · subst hx
      -- the variables of the slot were readable
      have hread : rd (gOk x) = true ∧ rd (gTry x) = true := by
        by_cases hr : rd (gOk x) = true ∧ rd (gTry x) = true
        · exact hr
        · exfalso
          simp only [grubScan] at h
          rw [grubTry_err hs hb (by
            have : kvGet rd env (gOk x) = none ∨ kvGet rd env (gTry x) = none := by
              by_cases hq : rd (gOk x) = true
              · right
                have : ¬ rd (gTry x) = true := fun e => hr ⟨hq, e⟩
                simp [kvGet, this]
              · left; simp [kvGet, hq]
            exact this)] at h
          simp at h
      have hnew : grubTry rd env' x slots = some none := by
        apply grubTry_bad x (c!"0") (c!"0")
        · simp [kvGet, hread.1, h2]; decide
        · simp [kvGet, hread.2, h3]; decide
        · decide
      simp only [grubScan, hnew]
      apply ih
      simp only [grubScan] at h
      cases hg : grubTry rd env x slots with
      | none => rw [hg] at h; simp at h
      | some o =>
        cases o with
        | none => rw [hg] at h; exact h
        | some q =>
          exfalso
          rw [hg] at h
          simp only [Option.some.injEq] at h
          subst h
          have := grubTry_some hg
          exact hrs (hwf.bootname_inj q this.1 s hs x this.2.1 hb)
    · simp only [grubScan] at h ⊢
      rw [grubTry_congr x (h1 x hx).1 (h1 x hx).2]
      cases hg : grubTry rd env x slots with
      | none => rw [hg] at h; simp at h
      | some o =>
        rw [hg] at h
        cases o with
        | none => exact ih h
        | some q => exact h

theorem keeps_grub : BadKeepsPrimary grub anyEnv := by
  intro slots hwf s hs r hrs env rd ts _ hts rd' hp
  obtain ⟨bn, hb, rfl⟩ := grubSetState_cases hts
  change grubGetPrimary rd' slots env = some r at hp
  show grubGetPrimary rd' slots (grubApp env [(gOk bn, c!"0"), (gTry bn, c!"0")]) = some r
  have e : ∀ k, k ≠ gOk bn → k ≠ gTry bn → grubApp env [(gOk bn, c!"0"), (gTry bn, c!"0")] k = env k := by
    intro k h1 h2
    simp [grubApp, kvSet, h1, h2]
  have e1 : grubApp env [(gOk bn, c!"0"), (gTry bn, c!"0")] (gOk bn) = some (c!"0") := by
    simp [grubApp, kvSet, gOk_ne_gTry]
  have e2 : grubApp env [(gOk bn, c!"0"), (gTry bn, c!"0")] (gTry bn) = some (c!"0") := by
    simp [grubApp, kvSet]
  unfold grubGetPrimary at hp ⊢
  have hk : kvGet rd' (grubApp env [(gOk bn, c!"0"), (gTry bn, c!"0")]) gOrder = kvGet rd' env gOrder := by
    unfold kvGet
    rw [e gOrder (Ne.symm (gOk_ne_order bn)) (Ne.symm (gTry_ne_order bn))]
  rw [hk]
  split at hp
  · simp at hp
  · rename_i o ho
    exact grub_bad_scan hwf hs hb hrs (fun x hx => ⟨e _ (fun h => hx (gOk_inj h)) (gOk_ne_gTry x bn),
      e _ (fun h => gOk_ne_gTry bn x h.symm) (fun h => hx (gTry_inj h))⟩) e1 e2 _ hp

/-! ## barebox -/

theorem bb_bad_scan {rd} {env env' : BbEnv} {s : Slot} {bn : Str} (hb : s.bootname = some bn) {r : Slot} (hrs : r ≠ s)
    (h1 : ∀ x, x ≠ bn → env' x = env x) (h2 : env' bn = (env bn).map fun _ => (0, 0)) (slots : List Slot)
    (huniq : ∀ t ∈ slots, t.bootname = some bn → t = s) :
    ∀ (top top' : Nat) (best best' : Option Slot), ((top, best) = (top', best') ∨ (best = some s ∧ top' ≤ top)) →
      bbScan rd env slots top best = some (some r) → bbScan rd env' slots top' best' = some (some r) := by
  induction slots with
  | nil =>
    intro top top' best best' hq h
    simp only [bbScan, Option.some.injEq] at h ⊢
    rcases hq with hq | ⟨hq, _⟩
    · simp only [Prod.mk.injEq] at hq
      rw [← hq.2]; exact h
    · rw [hq] at h
      simp only [Option.some.injEq] at h
      exact absurd h.symm hrs
  | cons t ts ih =>
    intro top top' best best' hq h
    have ih' := ih (fun x hx => huniq x (List.mem_cons_of_mem _ hx))
    simp only [bbScan] at h ⊢
    cases htb : t.bootname with
    | none =>
      rw [htb] at h
      exact ih' _ _ _ _ hq h
    | some b =>
      rw [htb] at h
      simp only [] at h ⊢
      by_cases hbb : b = bn
      · subst hbb
        have hts := huniq t (by simp) htb
        subst hts
        cases hg : bbGet rd env b with
        | none => rw [hg] at h; simp at h
        | some pa =>
          obtain ⟨p, a⟩ := pa
          rw [hg] at h
          obtain ⟨hr, P, A, hPA, _, _⟩ := bbGet_some hg
          have hg' : bbGet rd env' b = some (0, 0) := by simp [bbGet, hr, h2, hPA]
          rw [hg']
          simp only [if_true] at h ⊢
          split at h
          · exact ih' _ _ _ _ hq h
          · split at h
            · rename_i hp
              refine ih' _ _ _ _ (Or.inr ⟨rfl, ?_⟩) h
              rcases hq with hq | ⟨_, hq⟩
              · simp only [Prod.mk.injEq] at hq; omega
              · omega
            · exact ih' _ _ _ _ hq h
      · have hg' : bbGet rd env' b = bbGet rd env b := by simp [bbGet, h1 b hbb]
        rw [hg']
        cases hg : bbGet rd env b with
        | none => rw [hg] at h; simp at h
        | some pa =>
          obtain ⟨p, a⟩ := pa
          rw [hg] at h
          simp only [] at h ⊢
          split at h
          · rename_i ha
            rw [if_pos ha]
            exact ih' _ _ _ _ hq h
          · rename_i ha
            rw [if_neg ha]
            split at h
            · rename_i hp
              have : p > top' := by
                rcases hq with hq | ⟨_, hq⟩
                · simp only [Prod.mk.injEq] at hq; omega
                · omega
              rw [if_pos this]
              exact ih' _ _ _ _ (Or.inl rfl) h
            · rename_i hp
              rcases hq with hq | ⟨hq1, hq2⟩
              · simp only [Prod.mk.injEq] at hq
                rw [← hq.1, if_neg hp, ← hq.2]
                exact ih' _ _ _ _ (Or.inl rfl) h
              · split
                · exact ih' _ _ _ _ (Or.inr ⟨hq1, by omega⟩) h
                · exact ih' _ _ _ _ (Or.inr ⟨hq1, hq2⟩) h

theorem keeps_barebox (cfg : Cfg) : BadKeepsPrimary (barebox cfg) anyEnv := by
  intro slots hwf s hs r hrs env rd ts _ hts rd' hp
  obtain ⟨bn, hb, hc⟩ := bbSetState_cases hts
  rcases hc with ⟨h, _⟩ | ⟨_, rfl⟩
  · cases h
  change bbGetPrimary rd' slots env = some r at hp
  show bbGetPrimary rd' slots (bbApp env [⟨bn, .prio, 0⟩, ⟨bn, .attempts, 0⟩]) = some r
  have hscan : bbScan rd' env slots 0 none = some (some r) := by
    unfold bbGetPrimary at hp
    split at hp
    · simp at hp
    · rename_i o ho; rw [ho, hp]
  have h2 : bbApp env [⟨bn, .prio, 0⟩, ⟨bn, .attempts, 0⟩] bn = (env bn).map fun _ => (0, 0) := by
    simp only [bbApp, List.foldl, bbSet1, if_true]
    cases env bn with
    | none => rfl
    | some pa => rfl
  have := bb_bad_scan (rd := rd') hb hrs (fun x hx => bbApp_other env _ x (by simp [Ne.symm hx])) h2 slots
    (fun t ht htb => hwf.bootname_inj t ht s hs bn htb hb) 0 0 none none (Or.inl rfl) hscan
  simp only [bbGetPrimary, this]

/-! ## EFI -/

/-- On EFI: entry numbers are unique, the slot occurs at most once in the boot order and not in BootNext, and the boot order
names something besides it; without `efi-use-bootnext` no BootNext is pending. -/
def EfiReady (cfg : Cfg) (slots : List Slot) (env : EfiEnv) (s : Slot) : Prop :=
  EfiOnce slots env s ∧ EfiNoNext cfg slots env s ∧ ∃ e ∈ efiBo env, s.bootname ≠ some e.name

theorem efiScan_erase {slots} (hwf : SlotsWF slots) {s r : Slot} (hs : s ∈ slots) {bn : Str} (hb : s.bootname = some bn) (hrs : r ≠ s)
    (l : List EfiEntry) (h : efiScan slots l = some r) : efiScan slots (l.eraseP (fun e => e.name == bn)) = some r := by
  induction l with
  | nil => simp [efiScan] at h
  | cons e es ih =>
    by_cases he : e.name = bn
    · exfalso
      simp only [efiScan] at h
      rw [he, efiFind_eq hwf hs hb] at h
      simp only [Option.some.injEq] at h
      exact hrs h.symm
    · rw [List.eraseP_cons_of_neg (by simpa using he)]
      simp only [efiScan] at h ⊢
      split at h
      · exact h
      · exact ih h

theorem keeps_efi (cfg : Cfg) (fresh : EfiEnv → Str) (hf : FreshOK fresh) : BadKeepsPrimary (efi cfg fresh) (EfiReady cfg) := by
  intro slots hwf s hs r hrs env rd ts hP hts rd' hp
  obtain ⟨⟨hw, honce⟩, -, x, hx, hxn⟩ := hP
  have hne := efiModify_entries hts
  obtain ⟨bn, e, hb, hen, hn⟩ := efi_mod_prefix hf hw hts
  obtain ⟨h1, h2, h3, h4⟩ := hn ts.length
  rw [List.take_length] at h1 h2 h3 h4
  change efiGetPrimary rd' slots env = some r at hp
  show efiGetPrimary rd' slots (ts.foldl efiApp env) = some r
  unfold efiGetPrimary at hp
  split at hp
  · simp at hp
  rename_i bo all nx hg
  obtain ⟨g1, g2, g3, g4⟩ := efiGet_some hg
  simp only [Prod.mk.injEq] at g4
  obtain ⟨rfl, rfl, rfl⟩ := g4
  have hE : (ts.foldl efiApp env).entries ≠ [] := entries_ne_of hne h4
  unfold efiGetPrimary
  rcases h3 with ⟨h3, h5⟩ | ⟨h3, -⟩
  · rw [efiGet_eq g1 hE (by rw [h5]; exact g3)]
    simp only [h2, h3]
    exact hp
  · simp only [Bool.false_eq_true, if_false, List.nil_append] at h3
    have hxm : x ∈ efiBo (ts.foldl efiApp env) := by
      rw [h3]
      rw [List.mem_eraseP_of_neg]
      · exact hx
      · intro hc
        apply hxn
        rw [hb]
        simp only [beq_iff_eq] at hc
        rw [hc]
    have hO : (ts.foldl efiApp env).order ≠ [] := by
      intro h
      simp [efiBo, h] at hxm
    rw [efiGet_eq g1 hE hO]
    simp only [h2, h3]
    cases hnx : efiNx env with
    | none =>
      rw [hnx] at hp
      exact efiScan_erase hwf hs hb hrs _ hp
    | some y =>
      rw [hnx] at hp
      have hy := (honce bn hb).2 y hnx
      have := efiScan_erase hwf hs hb hrs _ hp
      rw [List.eraseP_cons_of_neg (by simpa using hy)] at this
      exact this

end Rauc.Boot
