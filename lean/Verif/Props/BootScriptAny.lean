import Verif.Props.BootScriptReset

/-!
# C111 for variables that are missing or cannot be read
-/

namespace Rauc.Boot

/-- U-Boot stores no empty variables: setting one to nothing deletes it -/
def NoEmpty (env : KvEnv) : Prop := ∀ k, env k ≠ some []

theorem kvGet_any {rd : Str → Bool} {env : KvEnv} {k a : Str} (h : kvGet rd env k = some a) : ∃ v, env k = some v ∧ a = chomp v := by
  unfold kvGet at h
  split at h
  · cases hv : env k with
    | none => simp [hv] at h
    | some v =>
      rw [hv] at h
      simp only [Option.map_some, Option.some.injEq] at h
      exact ⟨v, rfl, h.symm⟩
  · cases h

theorem ubootTry_any {rd : Str → Bool} {env : KvEnv} {tok : Str} {slots : List Slot} {r : Option Slot} (h : ubootTry rd env tok slots = some r) :
    ((∃ s ∈ slots, s.bootname = some tok) → ∃ v, env (kLeft tok) = some v) ∧ ubootTry allRd env tok slots = some r := by
  induction slots with
  | nil =>
    refine ⟨fun ⟨_, hs, _⟩ => (nomatch hs), ?_⟩
    simpa [ubootTry] using h
  | cons s ss ih =>
    unfold ubootTry at h ⊢
    by_cases hb : s.bootname = some tok
    · rw [if_pos hb] at h ⊢
      cases hk : kvGet rd env (kLeft tok) with
      | none => simp [hk] at h
      | some a =>
        obtain ⟨v, hv, rfl⟩ := kvGet_any hk
        rw [hk] at h
        have hk' : kvGet allRd env (kLeft tok) = some (chomp v) := by simp [kvGet, allRd, hv]
        rw [hk']
        simp only at h ⊢
        refine ⟨fun _ => ⟨v, hv⟩, ?_⟩
        split at h
        · rename_i hz
          rw [if_pos hz]
          exact (ih h).2
        · rename_i hz
          rw [if_neg hz]
          exact h
    · rw [if_neg hb] at h ⊢
      obtain ⟨i1, i2⟩ := ih h
      refine ⟨fun ⟨x, hx, hxb⟩ => ?_, i2⟩
      rcases List.mem_cons.1 hx with rfl | hx
      · exact absurd hxb hb
      · exact i1 ⟨x, hx, hxb⟩

theorem ubootScan_any {names : List Str} {slots : List Slot} (hn : ForSlots names slots) {rd : Str → Bool} {env e : KvEnv} (he : ∀ t, (∃ v, env (kLeft t) = some v) → e (kLeft t) = env (kLeft t)) {toks : List Str} {s : Slot}
    (h : ubootScan rd env slots toks = some s) : toks.find? (fun t => decide (t ∈ names) && decide (0 < shLeft e t)) = s.bootname := by
  induction toks with
  | nil => simp [ubootScan] at h
  | cons t ts ih =>
    unfold ubootScan at h
    cases ht : ubootTry rd env t slots with
    | none => simp [ht] at h
    | some r =>
      obtain ⟨h1, h2⟩ := ubootTry_any ht
      rw [ubootTry_all h1, Option.some.injEq] at h2
      rw [ht] at h
      cases r with
      | some s' =>
        simp only [Option.some.injEq] at h
        subst h
        split at h2
        · rename_i hz
          have hb : s'.bootname = some t := by simpa using List.find?_some h2
          have hm : ∃ s ∈ slots, s.bootname = some t := ⟨s', List.mem_of_find?_eq_some h2, hb⟩
          rw [List.find?_cons_of_pos, hb]
          rw [shLeft_congr (he t (h1 hm))]
          simp [(hn t).2 hm, hz]
        · cases h2
      | none =>
        simp only at h
        rw [List.find?_cons_of_neg]
        · exact ih h
        · simp only [Bool.and_eq_true, decide_eq_true_eq]
          rintro ⟨hm, hz⟩
          rw [shLeft_congr (he t (h1 ((hn t).1 hm)))] at hz
          rw [if_pos hz] at h2
          obtain ⟨x, hx, _⟩ := find_named ((hn t).1 hm)
          rw [hx] at h2
          cases h2

theorem shDefaults_keep (names : List Str) (env : KvEnv) (k v : Str) (h : env k = some v) (hv : v ≠ []) : names.foldl (fun e bn => shDefault (kLeft bn) c!"3" e) env k = some v := by
  induction names generalizing env with
  | nil => exact h
  | cons n l ih =>
    rw [List.foldl_cons]
    refine ih _ ?_
    by_cases e : k = kLeft n
    · subst e
      rw [shDefault_id h hv]
      exact h
    · rw [shDefault_other e]
      exact h

/-- **C111 for U-Boot, whatever is there and can be read.** If RAUC names a primary slot, the script boots it. -/
theorem C111_uboot_any (cfg : Cfg) {names : List Str} {slots : List Slot} (hn : ForSlots names slots) {env : KvEnv} (hne : NoEmpty env) {rd : Str → Bool} {s : Slot} (h : (uboot cfg).getPrimary rd slots env = some s) :
    (ubootSh names env).1 = s.bootname := by
  change ubootGetPrimary rd slots env = some s at h
  unfold ubootGetPrimary at h
  cases hk : kvGet rd env kOrder with
  | none => simp [hk] at h
  | some a =>
    obtain ⟨o, ho, rfl⟩ := kvGet_any hk
    rw [hk] at h
    simp only at h
    have ho2 : o ≠ [] := fun e => hne kOrder (e ▸ ho)
    have hs := ubootScan_any hn (e := names.foldl (fun e bn => shDefault (kLeft bn) c!"3" e) env) (fun t ⟨v, hv⟩ => by
      rw [hv]
      exact shDefaults_keep names env _ v hv (fun e => hne _ (e ▸ hv))) h
    unfold ubootSh
    simp only
    rw [shDefault_id ho ho2, shDefaults_order, ho]
    simp only [Option.getD_some]
    split <;> (rename_i hf; rw [hf] at hs; exact hs)

theorem grubTry_any {rd : Str → Bool} {env : KvEnv} {tok : Str} {slots : List Slot} {r : Option Slot} (h : grubTry rd env tok slots = some r) :
    ((∃ s ∈ slots, s.bootname = some tok) → (∃ v, env (gOk tok) = some v) ∧ ∃ v, env (gTry tok) = some v) ∧ grubTry allRd env tok slots = some r := by
  induction slots with
  | nil =>
    refine ⟨fun ⟨_, hs, _⟩ => (nomatch hs), ?_⟩
    simpa [grubTry] using h
  | cons s ss ih =>
    unfold grubTry at h ⊢
    by_cases hb : s.bootname = some tok
    · rw [if_pos hb] at h ⊢
      cases hk : kvGet rd env (gOk tok) with
      | none => simp [hk] at h
      | some a =>
        cases hk2 : kvGet rd env (gTry tok) with
        | none => simp [hk, hk2] at h
        | some b =>
          obtain ⟨v, hv, rfl⟩ := kvGet_any hk
          obtain ⟨u, hu, rfl⟩ := kvGet_any hk2
          rw [hk, hk2] at h
          have hk' : kvGet allRd env (gOk tok) = some (chomp v) := by simp [kvGet, allRd, hv]
          have hk2' : kvGet allRd env (gTry tok) = some (chomp u) := by simp [kvGet, allRd, hu]
          rw [hk', hk2']
          simp only at h ⊢
          refine ⟨fun _ => ⟨⟨v, hv⟩, u, hu⟩, ?_⟩
          split at h
          · rename_i hz
            rw [if_pos hz]
            exact (ih h).2
          · rename_i hz
            rw [if_neg hz]
            exact h
    · rw [if_neg hb] at h ⊢
      obtain ⟨i1, i2⟩ := ih h
      refine ⟨fun ⟨x, hx, hxb⟩ => ?_, i2⟩
      rcases List.mem_cons.1 hx with rfl | hx
      · exact absurd hxb hb
      · exact i1 ⟨x, hx, hxb⟩

theorem grubScan_any {names : List Str} {slots : List Slot} (hn : ForSlots names slots) {rd : Str → Bool} {env : KvEnv} {toks : List Str} {s : Slot} (h : grubScan rd env slots toks = some s) :
    toks.find? (fun t => decide (t ∈ names) && decide (shNum (grubVars names env (gOk t)) = 1 ∧ shNum (grubVars names env (gTry t)) = 0)) = s.bootname := by
  induction toks with
  | nil => simp [grubScan] at h
  | cons t ts ih =>
    unfold grubScan at h
    cases ht : grubTry rd env t slots with
    | none => simp [ht] at h
    | some r =>
      obtain ⟨h1, h2⟩ := grubTry_any ht
      rw [grubTry_all (names := names) h1, Option.some.injEq] at h2
      rw [ht] at h
      cases r with
      | some s' =>
        simp only [Option.some.injEq] at h
        subst h
        split at h2
        · rename_i hz
          have hb : s'.bootname = some t := by simpa using List.find?_some h2
          have hm : ∃ s ∈ slots, s.bootname = some t := ⟨s', List.mem_of_find?_eq_some h2, hb⟩
          rw [List.find?_cons_of_pos, hb]
          simp [(hn t).2 hm, hz]
        · cases h2
      | none =>
        simp only at h
        rw [List.find?_cons_of_neg]
        · exact ih h
        · simp only [Bool.and_eq_true, decide_eq_true_eq]
          rintro ⟨hm, hz⟩
          rw [if_pos hz] at h2
          obtain ⟨x, hx, _⟩ := find_named ((hn t).1 hm)
          rw [hx] at h2
          cases h2

/-- **C111 for GRUB, whatever is there and can be read.** If RAUC names a primary slot, the script boots it. -/
theorem C111_grub_any {names : List Str} {slots : List Slot} (hn : ForSlots names slots) {env : KvEnv} {rd : Str → Bool} {s : Slot} (h : grub.getPrimary rd slots env = some s) : (grubSh names env).1 = s.bootname := by
  change grubGetPrimary rd slots env = some s at h
  unfold grubGetPrimary at h
  cases hk : kvGet rd env gOrder with
  | none => simp [hk] at h
  | some a =>
    obtain ⟨o, ho, rfl⟩ := kvGet_any hk
    rw [hk] at h
    simp only at h
    rw [grubSh_first, show grubVars names env gOrder = o by simp [grubVars, ho]]
    exact grubScan_any hn h

/-- **Slots that are not ok.** Whatever the variables contain, also missing ones: GRUB's script boots only slots whose variable says that they are ok. -/
theorem C111_grub_only_ok {names : List Str} {env : KvEnv} {t : Str} (h : (grubSh names env).1 = some t) : t ∈ names ∧ ∃ v, env (gOk t) = some v ∧ shNum v = 1 := by
  rw [grubSh_first] at h
  have hp := List.find?_some h
  simp only [Bool.and_eq_true, decide_eq_true_eq] at hp
  obtain ⟨h1, h2, -⟩ := hp
  refine ⟨h1, ?_⟩
  cases hv : env (gOk t) with
  | some v =>
    refine ⟨v, rfl, ?_⟩
    simpa [grubVars, hv] using h2
  | none =>
    exfalso
    simp only [grubVars, hv] at h2
    rw [if_neg (gOk_ne_order t)] at h2
    revert h2
    decide

/-! ## The hypotheses are met -/

/-- `BOOT_B_LEFT` is missing and the rest of the list cannot be read; A is primary and A is booted -/
example : let env : KvEnv := fun k => if k = kOrder then some c!"X A B" else if k = kLeft c!"A" then some c!"2" else none
    (uboot {}).getPrimary allRd twoSlots env = some slotA ∧ (ubootSh [c!"A", c!"B"] env).1 = some c!"A" := by
  intro env
  have h : (uboot {}).getPrimary allRd twoSlots env = some slotA := by decide
  refine ⟨h, C111_uboot_any {} ex_forSlots (fun k => ?_) h⟩
  show (if k = kOrder then some c!"X A B" else if k = kLeft c!"A" then some c!"2" else none) ≠ some []
  split
  · decide
  · split <;> decide

/-- GRUB: B's variables are missing; A is primary and A is booted -/
example : let env : KvEnv := fun k => if k = gOrder then some c!"X A B" else if k = gOk c!"A" then some c!"1" else if k = gTry c!"A" then some c!"0" else none
    grub.getPrimary allRd twoSlots env = some slotA ∧ (grubSh [c!"A", c!"B"] env).1 = some c!"A" := by
  intro env
  have h : grub.getPrimary allRd twoSlots env = some slotA := by decide
  exact ⟨h, C111_grub_any ex_forSlots h⟩

end Rauc.Boot
