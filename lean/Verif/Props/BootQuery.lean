import Verif.Props.BootActivate
import Verif.Lemmas.BootEfi

/-!
# C55: the two boot queries agree

"rauc status" shows both the state of every slot and the primary slot. Stated through the two
queries only, for every environment (whoever wrote it) and every set of readable variables.
-/

namespace Rauc.Boot

/-- C55, part 1: the reported primary slot is one of the configured slots and is reported good -/
def PrimaryIsGood (B : Backend) (P : List Slot → B.Env → Prop) : Prop :=
  ∀ (slots : List Slot), SlotsWF slots → ∀ (env : B.Env) (rd : Str → Bool) (s : Slot), P slots env →
    B.getPrimary rd slots env = some s → s ∈ slots ∧ B.getState rd env s = some true

/-- C55, part 2: if the state of every boot slot can be determined and one of them is good, a primary is reported -/
def GoodGivesPrimary (B : Backend) : Prop :=
  ∀ (slots : List Slot), SlotsWF slots → ∀ (env : B.Env) (rd : Str → Bool),
    (∀ t ∈ slots, t.bootname ≠ none → B.getState rd env t ≠ none) →
    (∃ t ∈ slots, B.getState rd env t = some true) →
    ∃ s, B.getPrimary rd slots env = some s

/-! ## U-Boot -/

theorem ubootGetState_eq {rd env s bn} (hb : s.bootname = some bn) {order} (ho : kvGet rd env kOrder = some order)
    (hm : bn ∈ split ' ' order) :
    ubootGetState rd env s = (kvGet rd env (kLeft bn)).map (fun a => decide (strtoull 16 a > 0)) := by
  unfold ubootGetState
  simp only [hb, ho]
  rw [if_pos (by simpa using hm)]
  cases kvGet rd env (kLeft bn) <;> rfl

theorem ubootGetState_true {rd env s} (h : ubootGetState rd env s = some true) :
    ∃ bn order a, s.bootname = some bn ∧ kvGet rd env kOrder = some order ∧ bn ∈ split ' ' order ∧
      kvGet rd env (kLeft bn) = some a ∧ strtoull 16 a > 0 := by
  unfold ubootGetState at h
  cases hb : s.bootname with
  | none => simp [hb] at h
  | some bn =>
    simp only [hb] at h
    cases ho : kvGet rd env kOrder with
    | none => simp [ho] at h
    | some order =>
      simp only [ho] at h
      by_cases hc : bn ∈ split ' ' order
      · rw [if_pos (by simpa using hc)] at h
        cases ha : kvGet rd env (kLeft bn) with
        | none => simp [ha] at h
        | some a =>
          simp only [ha, Option.some.injEq, decide_eq_true_eq] at h
          exact ⟨bn, order, a, rfl, rfl, hc, ha, h⟩
      · rw [if_neg (by simpa using hc)] at h
        simp at h

/-- the scan stops at the first token naming a good slot -/
theorem ubootScan_pos {rd env slots toks s} (hwf : SlotsWF slots) (h : ubootScan rd env slots toks = some s) :
    ∃ pre bn post, toks = pre ++ bn :: post ∧ s ∈ slots ∧ s.bootname = some bn ∧
      (∃ a, kvGet rd env (kLeft bn) = some a ∧ strtoull 16 a > 0) ∧
      ∀ t ∈ slots, ∀ b ∈ pre, t.bootname = some b → ∃ a, kvGet rd env (kLeft b) = some a ∧ strtoull 16 a = 0 := by
  induction toks with
  | nil => simp [ubootScan] at h
  | cons tok toks ih =>
    simp only [ubootScan] at h
    cases ht : ubootTry rd env tok slots with
    | none => simp [ht] at h
    | some r =>
      cases r with
      | some x =>
        simp only [ht, Option.some.injEq] at h
        subst h
        obtain ⟨h1, h2, a, h3, h4⟩ := ubootTry_some ht
        exact ⟨[], tok, toks, rfl, h1, h2, ⟨a, h3, by omega⟩, by simp⟩
      | none =>
        simp only [ht] at h
        obtain ⟨pre, bn, post, e, h1, h2, h3, h4⟩ := ih h
        refine ⟨tok :: pre, bn, post, by rw [e]; rfl, h1, h2, h3, ?_⟩
        intro t htm b hbm htb
        rcases List.mem_cons.1 hbm with rfl | hbm
        · rw [ubootTry_eq hwf t htm _ htb] at ht
          cases hk : kvGet rd env (kLeft b) with
          | none => simp [hk] at ht
          | some a =>
            simp only [hk] at ht
            refine ⟨a, rfl, ?_⟩
            by_cases hz : strtoull 16 a = 0
            · exact hz
            · simp [hz] at ht
        · exact h4 t htm b hbm htb

theorem C55_uboot_sound (cfg : Cfg) : PrimaryIsGood (uboot cfg) (fun _ _ => True) := by
  intro slots hwf env rd s _ h
  change ubootGetPrimary rd slots env = some s at h
  unfold ubootGetPrimary at h
  cases ho : kvGet rd env kOrder with
  | none => simp [ho] at h
  | some order =>
    simp only [ho] at h
    obtain ⟨pre, bn, post, e, h1, h2, ⟨a, h3, h4⟩, _⟩ := ubootScan_pos hwf h
    refine ⟨h1, ?_⟩
    show ubootGetState rd env s = some true
    rw [ubootGetState_eq h2 ho (by rw [e]; simp), h3]
    simpa using h4

theorem C55_uboot_complete (cfg : Cfg) : GoodGivesPrimary (uboot cfg) := by
  intro slots hwf env rd hall ⟨g, hg, hgood⟩
  obtain ⟨bn, order, a, hb, ho, hm, ha, hpos⟩ := ubootGetState_true hgood
  show ∃ s, ubootGetPrimary rd slots env = some s
  unfold ubootGetPrimary
  simp only [ho]
  have key : ∀ toks : List Str, (∀ x ∈ toks, x ∈ split ' ' order) → bn ∈ toks →
      ∃ s, ubootScan rd env slots toks = some s := by
    intro toks
    induction toks with
    | nil => simp
    | cons tok toks ih =>
      intro hsub hmem
      have htok := hsub tok (by simp)
      simp only [ubootScan]
      by_cases hn : ∃ t ∈ slots, t.bootname = some tok
      · obtain ⟨t, ht, htb⟩ := hn
        have hst := hall t ht (by rw [htb]; simp)
        change ubootGetState rd env t ≠ none at hst
        rw [ubootGetState_eq htb ho htok] at hst
        rw [ubootTry_eq hwf t ht tok htb]
        cases hk : kvGet rd env (kLeft tok) with
        | none => simp [hk] at hst
        | some v =>
          simp only []
          by_cases hz : strtoull 16 v = 0
          · simp only [hz, if_true]
            apply ih (fun x hx => hsub x (List.mem_cons_of_mem _ hx))
            rcases List.mem_cons.1 hmem with rfl | h
            · rw [ha] at hk; cases hk; omega
            · exact h
          · simp [hz]
      · rw [ubootTry_nobody tok (fun s hs hsb => hn ⟨s, hs, hsb⟩)]
        apply ih (fun x hx => hsub x (List.mem_cons_of_mem _ hx))
        rcases List.mem_cons.1 hmem with rfl | h
        · exact absurd ⟨g, hg, hb⟩ hn
        · exact h
  exact key _ (fun _ h => h) hm

/-- C55, order: the primary is the first good slot of the order variable -/
theorem C55_uboot_first (slots : List Slot) (hwf : SlotsWF slots) (env : KvEnv) (rd : Str → Bool) (s : Slot) (order : Str)
    (ho : kvGet rd env kOrder = some order) (h : ubootGetPrimary rd slots env = some s) :
    ∃ pre bn post, split ' ' order = pre ++ bn :: post ∧ s.bootname = some bn ∧
      ∀ t ∈ slots, ∀ b ∈ pre, t.bootname = some b → ubootGetState rd env t = some false := by
  unfold ubootGetPrimary at h
  simp only [ho] at h
  obtain ⟨pre, bn, post, e, h1, h2, _, h4⟩ := ubootScan_pos hwf h
  refine ⟨pre, bn, post, e, h2, ?_⟩
  intro t ht b hb htb
  obtain ⟨a, ha, hz⟩ := h4 t ht b hb htb
  rw [ubootGetState_eq htb ho (by rw [e]; simp [hb]), ha]
  simp [hz]

/-! ## GRUB -/

/-- the GRUB notion of a good slot: OK is 1 and TRY is 0 -/
def grubVal (rd : Str → Bool) (env : KvEnv) (bn : Str) : Option Bool :=
  match kvGet rd env (gOk bn), kvGet rd env (gTry bn) with
  | some o, some t => some (strtoull 0 o == 1 && strtoull 0 t == 0)
  | _, _ => none

theorem grubGetState_eq {rd env s bn} (hb : s.bootname = some bn) {order} (ho : kvGet rd env gOrder = some order)
    (hm : bn ∈ split ' ' order) : grubGetState rd env s = grubVal rd env bn := by
  unfold grubGetState grubVal
  simp only [hb, ho]
  rw [if_pos (by simpa using hm)]
  rfl

theorem grubGetState_true {rd env s} (h : grubGetState rd env s = some true) :
    ∃ bn order, s.bootname = some bn ∧ kvGet rd env gOrder = some order ∧ bn ∈ split ' ' order ∧
      grubVal rd env bn = some true := by
  cases hb : s.bootname with
  | none => simp [grubGetState, hb] at h
  | some bn =>
    cases ho : kvGet rd env gOrder with
    | none => simp [grubGetState, hb, ho] at h
    | some order =>
      by_cases hc : bn ∈ split ' ' order
      · rw [grubGetState_eq hb ho hc] at h
        exact ⟨bn, order, rfl, rfl, hc, h⟩
      · unfold grubGetState at h
        simp only [hb, ho] at h
        rw [if_neg (by simpa using hc)] at h
        simp at h

theorem grubTry_nobody {rd env slots} (bn : Str) (h : ∀ s ∈ slots, s.bootname ≠ some bn) :
    grubTry rd env bn slots = some none := by
  induction slots with
  | nil => rfl
  | cons t ts ih =>
    simp only [grubTry]
    rw [if_neg (h t (by simp))]
    exact ih (fun s hs => h s (List.mem_cons_of_mem _ hs))

theorem grubTry_eq {rd env slots} (hwf : SlotsWF slots) (s : Slot) (hs : s ∈ slots) (bn : Str)
    (hb : s.bootname = some bn) :
    grubTry rd env bn slots =
      match grubVal rd env bn with
      | none => none
      | some g => some (if g then some s else none) := by
  have key : ∀ l : List Slot, (∀ x ∈ l, x ∈ slots) → l.Nodup → s ∈ l →
      grubTry rd env bn l = match grubVal rd env bn with
        | none => none
        | some g => some (if g then some s else none) := by
    intro l
    induction l with
    | nil => simp
    | cons t ts ih =>
      intro hsub hnd hmem
      simp only [grubTry]
      by_cases hts : t = s
      · subst hts
        rw [if_pos hb]
        have hrest : grubTry rd env bn ts = some none := by
          apply grubTry_nobody
          intro x hx hxb
          have := hwf.bootname_inj x (hsub x (by simp [hx])) t (hsub t (by simp)) bn hxb hb
          subst this
          exact (List.nodup_cons.1 hnd).1 hx
        unfold grubVal
        cases ho : kvGet rd env (gOk bn) with
        | none => rfl
        | some o =>
          cases ht : kvGet rd env (gTry bn) with
          | none => rfl
          | some v =>
            simp only []
            rw [hrest]
            by_cases h1 : strtoull 0 o = 1 <;> by_cases h2 : strtoull 0 v = 0
            · simp [h1, h2]
            · simp [h1, h2, Nat.pos_of_ne_zero h2]
            · simp [h1]
            · simp [h1]
      · have hne : t.bootname ≠ some bn := by
          intro hh
          exact hts (hwf.bootname_inj t (hsub t (by simp)) s hs bn hh hb)
        rw [if_neg hne]
        refine ih (fun x hx => hsub x (by simp [hx])) (List.nodup_cons.1 hnd).2 ?_
        rcases List.mem_cons.1 hmem with h | h
        · exact absurd h.symm hts
        · exact h
  exact key slots (fun _ h => h) hwf.nodup hs

theorem grubScan_pos {rd env slots toks s} (hwf : SlotsWF slots) (h : grubScan rd env slots toks = some s) :
    ∃ pre bn post, toks = pre ++ bn :: post ∧ s ∈ slots ∧ s.bootname = some bn ∧ grubVal rd env bn = some true ∧
      ∀ t ∈ slots, ∀ b ∈ pre, t.bootname = some b → grubVal rd env b = some false := by
  induction toks with
  | nil => simp [grubScan] at h
  | cons tok toks ih =>
    simp only [grubScan] at h
    cases ht : grubTry rd env tok slots with
    | none => simp [ht] at h
    | some r =>
      cases r with
      | some x =>
        simp only [ht, Option.some.injEq] at h
        subst h
        obtain ⟨h1, h2, _⟩ := grubTry_some ht
        refine ⟨[], tok, toks, rfl, h1, h2, ?_, by simp⟩
        rw [grubTry_eq hwf x h1 tok h2] at ht
        cases hv : grubVal rd env tok with
        | none => simp [hv] at ht
        | some g => cases g <;> simp [hv] at ht ⊢
      | none =>
        simp only [ht] at h
        obtain ⟨pre, bn, post, e, h1, h2, h3, h4⟩ := ih h
        refine ⟨tok :: pre, bn, post, by rw [e]; rfl, h1, h2, h3, ?_⟩
        intro t htm b hbm htb
        rcases List.mem_cons.1 hbm with rfl | hbm
        · rw [grubTry_eq hwf t htm _ htb] at ht
          cases hv : grubVal rd env b with
          | none => simp [hv] at ht
          | some g => cases g <;> simp [hv] at ht ⊢
        · exact h4 t htm b hbm htb

theorem C55_grub_sound : PrimaryIsGood grub (fun _ _ => True) := by
  intro slots hwf env rd s _ h
  change grubGetPrimary rd slots env = some s at h
  unfold grubGetPrimary at h
  cases ho : kvGet rd env gOrder with
  | none => simp [ho] at h
  | some order =>
    simp only [ho] at h
    obtain ⟨pre, bn, post, e, h1, h2, h3, _⟩ := grubScan_pos hwf h
    refine ⟨h1, ?_⟩
    show grubGetState rd env s = some true
    rw [grubGetState_eq h2 ho (by rw [e]; simp), h3]

theorem C55_grub_complete : GoodGivesPrimary grub := by
  intro slots hwf env rd hall ⟨g, hg, hgood⟩
  obtain ⟨bn, order, hb, ho, hm, hv⟩ := grubGetState_true hgood
  show ∃ s, grubGetPrimary rd slots env = some s
  unfold grubGetPrimary
  simp only [ho]
  have key : ∀ toks : List Str, (∀ x ∈ toks, x ∈ split ' ' order) → bn ∈ toks →
      ∃ s, grubScan rd env slots toks = some s := by
    intro toks
    induction toks with
    | nil => simp
    | cons tok toks ih =>
      intro hsub hmem
      have htok := hsub tok (by simp)
      simp only [grubScan]
      by_cases hn : ∃ t ∈ slots, t.bootname = some tok
      · obtain ⟨t, ht, htb⟩ := hn
        have hst := hall t ht (by rw [htb]; simp)
        change grubGetState rd env t ≠ none at hst
        rw [grubGetState_eq htb ho htok] at hst
        rw [grubTry_eq hwf t ht tok htb]
        cases hk : grubVal rd env tok with
        | none => exact absurd hk hst
        | some v =>
          cases v with
          | true => exact ⟨t, rfl⟩
          | false =>
            apply ih (fun x hx => hsub x (List.mem_cons_of_mem _ hx))
            rcases List.mem_cons.1 hmem with rfl | h
            · rw [hv] at hk; cases hk
            · exact h
      · rw [grubTry_nobody tok (fun s hs hsb => hn ⟨s, hs, hsb⟩)]
        apply ih (fun x hx => hsub x (List.mem_cons_of_mem _ hx))
        rcases List.mem_cons.1 hmem with rfl | h
        · exact absurd ⟨g, hg, hb⟩ hn
        · exact h
  exact key _ (fun _ h => h) hm

theorem C55_grub_first (slots : List Slot) (hwf : SlotsWF slots) (env : KvEnv) (rd : Str → Bool) (s : Slot) (order : Str)
    (ho : kvGet rd env gOrder = some order) (h : grubGetPrimary rd slots env = some s) :
    ∃ pre bn post, split ' ' order = pre ++ bn :: post ∧ s.bootname = some bn ∧
      ∀ t ∈ slots, ∀ b ∈ pre, t.bootname = some b → grubGetState rd env t = some false := by
  unfold grubGetPrimary at h
  simp only [ho] at h
  obtain ⟨pre, bn, post, e, h1, h2, _, h4⟩ := grubScan_pos hwf h
  refine ⟨pre, bn, post, e, h2, ?_⟩
  intro t ht b hb htb
  rw [grubGetState_eq htb ho (by rw [e]; simp [hb])]
  exact h4 t ht b hb htb

/-! ## barebox -/

theorem bbGetState_eq {rd env s bn} (hb : s.bootname = some bn) :
    bbGetState rd env s = (bbGet rd env bn).map (fun pa => decide (pa.1 > 0) && decide (pa.2 > 0)) := by
  unfold bbGetState
  simp only [hb]
  cases bbGet rd env bn <;> rfl

/-- the result of the scan is at least as good as every candidate -/
theorem bbScan_max {rd env} (slots : List Slot) (top : Nat) (best : Option Slot) {r}
    (h : bbScan rd env slots top best = some r) :
    ∃ top', top ≤ top' ∧
      ((r = best ∧ top' = top) ∨
       ∃ s ∈ slots, ∃ bn a, r = some s ∧ s.bootname = some bn ∧ bbGet rd env bn = some (top', a) ∧ a ≠ 0 ∧ top < top') ∧
      ∀ t ∈ slots, ∀ b p a, t.bootname = some b → bbGet rd env b = some (p, a) → a ≠ 0 → p ≤ top' := by
  induction slots generalizing top best with
  | nil =>
    simp only [bbScan, Option.some.injEq] at h
    exact ⟨top, Nat.le_refl _, Or.inl ⟨h.symm, rfl⟩, by simp⟩
  | cons t ts ih =>
    simp only [bbScan] at h
    have skip : bbScan rd env ts top best = some r →
        (∀ b p a, t.bootname = some b → bbGet rd env b = some (p, a) → a ≠ 0 → p ≤ top) →
        ∃ top', top ≤ top' ∧
          ((r = best ∧ top' = top) ∨
           ∃ s ∈ t :: ts, ∃ bn a, r = some s ∧ s.bootname = some bn ∧ bbGet rd env bn = some (top', a) ∧ a ≠ 0 ∧ top < top') ∧
          ∀ u ∈ t :: ts, ∀ b p a, u.bootname = some b → bbGet rd env b = some (p, a) → a ≠ 0 → p ≤ top' := by
      intro h' hle
      obtain ⟨top', h1, h2, h3⟩ := ih _ _ h'
      refine ⟨top', h1, ?_, ?_⟩
      · rcases h2 with h2 | ⟨s, hs, rest⟩
        · exact Or.inl h2
        · exact Or.inr ⟨s, List.mem_cons_of_mem _ hs, rest⟩
      · intro u hu b p a hub hg ha
        rcases List.mem_cons.1 hu with rfl | hu
        · exact Nat.le_trans (hle b p a hub hg ha) h1
        · exact h3 u hu b p a hub hg ha
    cases htb : t.bootname with
    | none =>
      simp only [htb] at h
      exact skip h (by intro b p a hb; rw [htb] at hb; cases hb)
    | some b =>
      simp only [htb] at h
      cases hg : bbGet rd env b with
      | none => simp [hg] at h
      | some pa =>
        obtain ⟨p, a⟩ := pa
        simp only [hg] at h
        by_cases ha : a = 0
        · rw [if_pos ha] at h
          refine skip h ?_
          intro b' p' a' hb' hg' ha'
          rw [htb] at hb'; cases hb'; rw [hg] at hg'; cases hg'
          exact absurd ha ha'
        · rw [if_neg ha] at h
          by_cases hp : p > top
          · rw [if_pos hp] at h
            obtain ⟨top', h1, h2, h3⟩ := ih _ _ h
            refine ⟨top', by omega, ?_, ?_⟩
            · right
              rcases h2 with ⟨h2, h2'⟩ | ⟨s, hs, bn, a', hr, hb', hg', ha', hlt⟩
              · exact ⟨t, by simp, b, a, h2, htb, by rw [h2']; exact hg, ha, by omega⟩
              · exact ⟨s, List.mem_cons_of_mem _ hs, bn, a', hr, hb', hg', ha', by omega⟩
            · intro u hu b' p' a' hub hg' ha'
              rcases List.mem_cons.1 hu with rfl | hu
              · rw [htb] at hub; cases hub; rw [hg] at hg'; cases hg'; exact h1
              · exact h3 u hu b' p' a' hub hg' ha'
          · rw [if_neg hp] at h
            refine skip h ?_
            intro b' p' a' hb' hg' _
            rw [htb] at hb'; cases hb'; rw [hg] at hg'; cases hg'
            omega

theorem C55_barebox_sound (cfg : Cfg) : PrimaryIsGood (barebox cfg) (fun _ _ => True) := by
  intro slots _ env rd s _ h
  change bbGetPrimary rd slots env = some s at h
  unfold bbGetPrimary at h
  cases hr : bbScan rd env slots 0 none with
  | none => simp [hr] at h
  | some r =>
    simp only [hr] at h
    subst h
    rcases bbScan_some hr with h | ⟨h1, bn, p, a, h2, h3, h4, h5⟩
    · cases h
    · refine ⟨h1, ?_⟩
      show bbGetState rd env s = some true
      rw [bbGetState_eq h2, h3]
      simp [h5, Nat.pos_of_ne_zero h4]

theorem C55_barebox_complete (cfg : Cfg) : GoodGivesPrimary (barebox cfg) := by
  intro slots hwf env rd hall ⟨g, hg, hgood⟩
  show ∃ s, bbGetPrimary rd slots env = some s
  unfold bbGetPrimary
  have hread : bbScan rd env slots 0 none ≠ none := by
    apply bbScan_readable
    intro t ht b hb hnone
    have := hall t ht (by rw [hb]; simp)
    change bbGetState rd env t ≠ none at this
    rw [bbGetState_eq hb, hnone] at this
    exact this rfl
  cases hr : bbScan rd env slots 0 none with
  | none => exact absurd hr hread
  | some r =>
    obtain ⟨top', _, h2, h3⟩ := bbScan_max slots 0 none hr
    rcases h2 with ⟨_, h2⟩ | ⟨s, _, _, _, h2, _⟩
    · change bbGetState rd env g = some true at hgood
      cases hb : g.bootname with
      | none => simp [bbGetState, hb] at hgood
      | some bn =>
        rw [bbGetState_eq hb] at hgood
        cases hv : bbGet rd env bn with
        | none => simp [hv] at hgood
        | some pa =>
          obtain ⟨p, a⟩ := pa
          simp only [hv, Option.map_some, Option.some.injEq, Bool.and_eq_true, decide_eq_true_eq] at hgood
          have := h3 g hg bn p a hb hv (by omega)
          omega
    · exact ⟨s, h2⟩

/-- C55, order: no good slot has a higher priority than the primary -/
theorem C55_barebox_first (slots : List Slot) (env : BbEnv) (rd : Str → Bool) (s : Slot)
    (h : bbGetPrimary rd slots env = some s) :
    ∃ bn p a, s.bootname = some bn ∧ bbGet rd env bn = some (p, a) ∧
      ∀ t ∈ slots, ∀ b q c, t.bootname = some b → bbGet rd env b = some (q, c) →
        bbGetState rd env t = some true → q ≤ p := by
  unfold bbGetPrimary at h
  cases hr : bbScan rd env slots 0 none with
  | none => simp [hr] at h
  | some r =>
    simp only [hr] at h
    subst h
    obtain ⟨top', _, h2, h3⟩ := bbScan_max slots 0 none hr
    rcases h2 with ⟨h2, _⟩ | ⟨x, _, bn, a, h2, hb, hg, ha, _⟩
    · cases h2
    · cases h2
      refine ⟨bn, top', a, hb, hg, ?_⟩
      intro t ht b q c htb hq hgood
      refine h3 t ht b q c htb hq ?_
      intro hc
      rw [bbGetState_eq htb, hq, hc] at hgood
      simp at hgood

/-! ## EFI -/

/-- no one-time boot target outside the persistent boot order -/
def NextListed (env : EfiEnv) : Prop := ∀ e, efiNx env = some e → e ∈ efiBo env

/-- Missing: slots which are the one-time target (`BootNext`) but not in `BootOrder`, see the finding below. -/
theorem C55_efi_sound_partial (cfg : Cfg) (fresh : EfiEnv → Str) :
    PrimaryIsGood (efi cfg fresh) (fun _ env => NextListed env) := by
  intro slots _ env rd s hn h
  change efiGetPrimary rd slots env = some s at h
  obtain ⟨h1, e, he, hb⟩ := efi_getPrimary_bo h
  refine ⟨h1, ?_⟩
  have hbo : e ∈ efiBo env := by
    rcases he with he | he
    · exact he
    · exact hn e he
  show efiGetState rd env s = some true
  rw [efiGetState_eq hb]
  cases hg : efiGet rd env with
  | none => simp [efiGetPrimary, hg] at h
  | some r =>
    obtain ⟨_, _, _, rfl⟩ := efiGet_some hg
    simp only [Option.map_some, Option.some.injEq, List.any_eq_true]
    exact ⟨e, hbo, by simp⟩

theorem C55_efi_complete (cfg : Cfg) (fresh : EfiEnv → Str) : GoodGivesPrimary (efi cfg fresh) := by
  intro slots hwf env rd _ ⟨g, hg, hgood⟩
  change efiGetState rd env g = some true at hgood
  obtain ⟨bn, hb, e, he, hen⟩ := efi_getState_bo hgood
  show ∃ s, efiGetPrimary rd slots env = some s
  unfold efiGetPrimary
  cases hgt : efiGet rd env with
  | none => simp [efiGetState, hb, hgt] at hgood
  | some r =>
    obtain ⟨_, _, _, rfl⟩ := efiGet_some hgt
    simp only []
    have key : ∀ l : List EfiEntry, e ∈ l → ∃ s, efiScan slots l = some s := by
      intro l
      induction l with
      | nil => simp
      | cons x xs ih =>
        intro hm
        simp only [efiScan]
        cases hf : slots.find? (fun s => s.bootname == some x.name) with
        | some s => exact ⟨s, rfl⟩
        | none =>
          rcases List.mem_cons.1 hm with rfl | hm
          · rw [hen, efiFind_eq hwf hg hb] at hf
            cases hf
          · exact ih hm
    apply key
    split
    · exact List.mem_cons_of_mem _ he
    · exact he

/-- the environment of the finding: slot A is only the one-time target, slot B is in the boot order -/
def nextOnly : EfiEnv := ⟨[⟨c!"0001", c!"A"⟩, ⟨c!"0002", c!"B"⟩], [c!"0002"], some c!"0001"⟩

/-- Finding: with EFI, a slot selected for the next boot only (as an installation with `efi-use-bootnext`
does for a slot marked bad before) is reported primary and bad at the same time. -/
theorem C55_efi_violated : ¬ PrimaryIsGood (efi {} someFresh) (fun _ env => EfiWF env) := by
  intro h
  have := h twoSlots twoSlots_wf nextOnly allRd slotA (by unfold EfiWF; decide) (by decide)
  exact absurd this.2 (by decide)

-- non-vacuity: a primary slot, further good and bad slots, for every backend
example : (uboot {}).getPrimary allRd twoSlots ubEx = some slotA ∧ (uboot {}).getState allRd ubEx slotB = some true ∧
    (∀ t ∈ twoSlots, t.bootname ≠ none → (uboot {}).getState allRd ubEx t ≠ none) := by decide

example : NextListed { efiEx with next := some (c!"0001") } ∧
    (efi {} someFresh).getPrimary allRd twoSlots { efiEx with next := some (c!"0001") } = some slotB ∧
    (efi {} someFresh).getState allRd { efiEx with next := some (c!"0001") } slotA = some true := by
  refine ⟨?_, by decide, by decide⟩
  intro e he
  have h : efiNx { efiEx with next := some (c!"0001") } = some ⟨c!"0001", c!"B"⟩ := by decide
  rw [h] at he
  cases he
  decide

end Rauc.Boot
