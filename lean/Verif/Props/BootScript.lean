import Verif.Model.BootScript
import Verif.Props.BootActivate

/-!
# C111: what RAUC calls primary is what the boot loader's script starts
-/

namespace Rauc.Boot

/-! ## Specification -/

/-- the script is made for these slots -/
def ForSlots (names : List Str) (slots : List Slot) : Prop := ∀ bn, bn ∈ names ↔ ∃ s ∈ slots, s.bootname = some bn

/-- U-Boot's variables are there (an empty variable is none) -/
def UbComplete (names : List Str) (env : KvEnv) : Prop := (∃ o, env kOrder = some o ∧ o ≠ []) ∧ ∀ bn ∈ names, ∃ v, env (kLeft bn) = some v ∧ v ≠ []

/-- GRUB's variables are there -/
def GrComplete (names : List Str) (env : KvEnv) : Prop := (∃ o, env gOrder = some o) ∧ ∀ bn ∈ names, (∃ v, env (gOk bn) = some v) ∧ ∃ v, env (gTry bn) = some v

/-! ## Proofs -/

theorem shDefault_id {k d v : Str} {env : KvEnv} (h : env k = some v) (hv : v ≠ []) : shDefault k d env = env := by
  unfold shDefault
  rw [h]
  exact if_neg hv

theorem shDefaults_id {names : List Str} {env : KvEnv} (h : ∀ bn ∈ names, ∃ v, env (kLeft bn) = some v ∧ v ≠ []) : names.foldl (fun e bn => shDefault (kLeft bn) c!"3" e) env = env := by
  induction names with
  | nil => rfl
  | cons n l ih =>
    obtain ⟨v, h1, h2⟩ := h n (by simp)
    rw [List.foldl_cons, shDefault_id h1 h2]
    exact ih (fun b hb => h b (List.mem_cons_of_mem _ hb))

theorem find_named {slots : List Slot} {tok : Str} (h : ∃ s ∈ slots, s.bootname = some tok) : ∃ s, slots.find? (fun s => decide (s.bootname = some tok)) = some s ∧ s.bootname = some tok := by
  obtain ⟨s, hs, hb⟩ := h
  cases hf : slots.find? (fun s => decide (s.bootname = some tok)) with
  | none => exact absurd hb (by simpa using List.find?_eq_none.1 hf s hs)
  | some s' => exact ⟨s', rfl, by simpa using List.find?_some hf⟩

theorem ubootTry_all {env : KvEnv} {tok : Str} {slots : List Slot} (h : (∃ s ∈ slots, s.bootname = some tok) → ∃ v, env (kLeft tok) = some v) :
    ubootTry allRd env tok slots = some (if 0 < shLeft env tok then slots.find? (fun s => decide (s.bootname = some tok)) else none) := by
  induction slots with
  | nil => simp [ubootTry]
  | cons s ss ih =>
    have ih := ih (fun ⟨x, hx, hb⟩ => h ⟨x, List.mem_cons_of_mem _ hx, hb⟩)
    unfold ubootTry
    by_cases hb : s.bootname = some tok
    · obtain ⟨v, hv⟩ := h ⟨s, by simp, hb⟩
      have e1 : kvGet allRd env (kLeft tok) = some (chomp v) := by simp [kvGet, allRd, hv]
      have e2 : shLeft env tok = strtoull 16 (chomp v) := by simp [shLeft, hv]
      rw [if_pos hb, e1]
      simp only
      rw [ih, e2]
      by_cases hz : strtoull 16 (chomp v) = 0
      · simp [hz]
      · rw [if_neg hz, if_pos (by omega), List.find?_cons_of_pos (by simpa using hb)]
    · rw [if_neg hb, ih, List.find?_cons_of_neg (by simpa using hb)]

theorem ubootScan_all {names : List Str} {slots : List Slot} (hn : ForSlots names slots) {env : KvEnv} (hl : ∀ bn ∈ names, ∃ v, env (kLeft bn) = some v ∧ v ≠ []) (toks : List Str) :
    (ubootScan allRd env slots toks).bind (·.bootname) = toks.find? (fun t => decide (t ∈ names) && decide (0 < shLeft env t)) := by
  induction toks with
  | nil => rfl
  | cons t ts ih =>
    unfold ubootScan
    rw [ubootTry_all (fun h => (hl t ((hn t).2 h)).imp fun _ h => h.1)]
    by_cases hz : 0 < shLeft env t
    · rw [if_pos hz]
      by_cases hm : t ∈ names
      · obtain ⟨s, h1, h2⟩ := find_named ((hn t).1 hm)
        rw [h1, List.find?_cons_of_pos (by simp [hm, hz])]
        exact h2
      · have : slots.find? (fun s => decide (s.bootname = some t)) = none := by
          rw [List.find?_eq_none]
          intro s hs hb
          exact hm ((hn t).2 ⟨s, hs, by simpa using hb⟩)
        rw [this, List.find?_cons_of_neg (by simp [hm])]
        exact ih
    · rw [if_neg hz, List.find?_cons_of_neg (by simp [hz])]
      exact ih

/-- **C111 for U-Boot.** If its variables are there (and can be read), the script boots the slot that RAUC calls primary; if RAUC finds none, it boots none. -/
theorem C111_uboot (cfg : Cfg) {names : List Str} {slots : List Slot} (hn : ForSlots names slots) {env : KvEnv} (he : UbComplete names env) :
    ((uboot cfg).getPrimary allRd slots env).bind (·.bootname) = (ubootSh names env).1 := by
  obtain ⟨⟨o, h1, h2⟩, h3⟩ := he
  have e : ubootGetPrimary allRd slots env = ubootScan allRd env slots (split ' ' (chomp o)) := by
    unfold ubootGetPrimary
    rw [show kvGet allRd env kOrder = some (chomp o) by simp [kvGet, allRd, h1]]
  change (ubootGetPrimary allRd slots env).bind _ = _
  rw [e, ubootScan_all hn h3]
  unfold ubootSh
  simp only
  rw [shDefault_id h1 h2, shDefaults_id h3, h1]
  simp only [Option.getD_some]
  split <;> (rename_i hf; rw [hf])

theorem grubTry_all {env : KvEnv} {tok : Str} {slots : List Slot} (h : (∃ s ∈ slots, s.bootname = some tok) → (∃ v, env (gOk tok) = some v) ∧ ∃ v, env (gTry tok) = some v) {names : List Str} :
    grubTry allRd env tok slots = some (if shNum (grubVars names env (gOk tok)) = 1 ∧ shNum (grubVars names env (gTry tok)) = 0 then slots.find? (fun s => decide (s.bootname = some tok)) else none) := by
  induction slots with
  | nil => simp [grubTry]
  | cons s ss ih =>
    have ih := ih (fun ⟨x, hx, hb⟩ => h ⟨x, List.mem_cons_of_mem _ hx, hb⟩)
    unfold grubTry
    by_cases hb : s.bootname = some tok
    · obtain ⟨⟨v, hv⟩, u, hu⟩ := h ⟨s, by simp, hb⟩
      have e1 : kvGet allRd env (gOk tok) = some (chomp v) := by simp [kvGet, allRd, hv]
      have e2 : kvGet allRd env (gTry tok) = some (chomp u) := by simp [kvGet, allRd, hu]
      have e3 : grubVars names env (gOk tok) = v := by simp [grubVars, hv]
      have e4 : grubVars names env (gTry tok) = u := by simp [grubVars, hu]
      rw [if_pos hb, e1, e2]
      simp only
      rw [ih, e3, e4]
      rw [show strtoull 0 (chomp v) = shNum v from rfl, show strtoull 0 (chomp u) = shNum u from rfl]
      by_cases hz : shNum v = 1 ∧ shNum u = 0
      · rw [if_pos hz, if_pos hz, if_neg (by omega), List.find?_cons_of_pos (by simpa using hb)]
      · rw [if_neg hz, if_neg hz, if_pos (by omega)]
    · rw [if_neg hb, ih, List.find?_cons_of_neg (by simpa using hb)]

theorem grubScan_all {names : List Str} {slots : List Slot} (hn : ForSlots names slots) {env : KvEnv} (hl : ∀ bn ∈ names, (∃ v, env (gOk bn) = some v) ∧ ∃ v, env (gTry bn) = some v) (toks : List Str) :
    (grubScan allRd env slots toks).bind (·.bootname) =
      toks.find? (fun t => decide (t ∈ names) && decide (shNum (grubVars names env (gOk t)) = 1 ∧ shNum (grubVars names env (gTry t)) = 0)) := by
  induction toks with
  | nil => rfl
  | cons t ts ih =>
    unfold grubScan
    rw [grubTry_all (names := names) (fun h => hl t ((hn t).2 h))]
    by_cases hz : shNum (grubVars names env (gOk t)) = 1 ∧ shNum (grubVars names env (gTry t)) = 0
    · rw [if_pos hz]
      by_cases hm : t ∈ names
      · obtain ⟨s, h1, h2⟩ := find_named ((hn t).1 hm)
        rw [h1, List.find?_cons_of_pos (by simp [hm, hz])]
        exact h2
      · have : slots.find? (fun s => decide (s.bootname = some t)) = none := by
          rw [List.find?_eq_none]
          intro s hs hb
          exact hm ((hn t).2 ⟨s, hs, by simpa using hb⟩)
        rw [this, List.find?_cons_of_neg (by simp [hm])]
        exact ih
    · rw [if_neg hz, List.find?_cons_of_neg (by simp [hz])]
      exact ih

/-- while the script looks for a slot, only `_TRY` of slots changes that it will not boot any more -/
theorem grubShScan_find (names : List Str) (v0 : Str → Str) (toks : List Str) (v : Str → Str) (hv : ∀ t, v (gOk t) = v0 (gOk t) ∧ (v (gTry t) = v0 (gTry t) ∨ (shNum (v (gTry t)) = 1 ∧ ¬ (shNum (v0 (gOk t)) = 1 ∧ shNum (v0 (gTry t)) = 0)))) :
    (grubShScan names toks v).1 = toks.find? (fun t => decide (t ∈ names) && decide (shNum (v0 (gOk t)) = 1 ∧ shNum (v0 (gTry t)) = 0)) := by
  have iff : ∀ v : Str → Str, (∀ t, v (gOk t) = v0 (gOk t) ∧ (v (gTry t) = v0 (gTry t) ∨ (shNum (v (gTry t)) = 1 ∧ ¬ (shNum (v0 (gOk t)) = 1 ∧ shNum (v0 (gTry t)) = 0)))) →
      ∀ t, (shNum (v (gOk t)) = 1 ∧ shNum (v (gTry t)) = 0) ↔ (shNum (v0 (gOk t)) = 1 ∧ shNum (v0 (gTry t)) = 0) := by
    intro v hv t
    obtain ⟨h1, h2⟩ := hv t
    rw [h1]
    rcases h2 with h2 | ⟨h2, h3⟩
    · rw [h2]
    · constructor
      · rintro ⟨-, h⟩
        omega
      · exact fun h => absurd h h3
  induction toks generalizing v with
  | nil => rfl
  | cons t ts ih =>
    unfold grubShScan
    by_cases hm : t ∈ names
    · rw [if_pos hm]
      by_cases hz : shNum (v0 (gOk t)) = 1 ∧ shNum (v0 (gTry t)) = 0
      · rw [if_pos ((iff v hv t).2 hz), List.find?_cons_of_pos (by simp [hm, hz])]
      · rw [if_neg (fun h => hz ((iff v hv t).1 h)), List.find?_cons_of_neg (by simp [hz])]
        refine ih _ (fun t' => ⟨?_, ?_⟩)
        · unfold setVar
          rw [if_neg (gOk_ne_gTry t' t)]
          exact (hv t').1
        · unfold setVar
          split
          · rename_i he
            have : t' = t := by simpa [gTry] using he
            subst this
            exact .inr ⟨by decide, hz⟩
          · exact (hv t').2
    · rw [if_neg hm, List.find?_cons_of_neg (by simp [hm])]
      exact ih v hv

/-- **C111 for GRUB.** If its variables are there (and can be read), the script boots the slot that RAUC calls primary; if RAUC finds none, it boots the rescue system. -/
theorem C111_grub {names : List Str} {slots : List Slot} (hn : ForSlots names slots) {env : KvEnv} (he : GrComplete names env) : (grub.getPrimary allRd slots env).bind (·.bootname) = (grubSh names env).1 := by
  obtain ⟨⟨o, h1⟩, h3⟩ := he
  have e : grubGetPrimary allRd slots env = grubScan allRd env slots (split ' ' (chomp o)) := by
    unfold grubGetPrimary
    rw [show kvGet allRd env gOrder = some (chomp o) by simp [kvGet, allRd, h1]]
  change (grubGetPrimary allRd slots env).bind _ = _
  rw [e, grubScan_all hn h3]
  rw [← grubShScan_find names (grubVars names env) _ (grubVars names env) (fun t => ⟨rfl, .inl rfl⟩)]
  have ho : grubVars names env gOrder = o := by simp [grubVars, h1]
  unfold grubSh
  rw [ho]
  split <;> (rename_i hf; rw [hf])

/-! ## Attempts -/

/-- the script has run `k` times, and nothing else happened -/
def after (sh : KvEnv → Option Str × KvEnv) : Nat → KvEnv → KvEnv
  | 0, env => env
  | k + 1, env => after sh k (sh env).2

/-- the first other slot that can be booted, in the order of the variable -/
def nextUboot (names : List Str) (env : KvEnv) (t : Str) : Option Str :=
  (split ' ' (chomp ((env kOrder).getD []))).find? (fun u => decide (u ∈ names ∧ u ≠ t ∧ 0 < shLeft env u))

def nextGrub (names : List Str) (env : KvEnv) (t : Str) : Option Str :=
  (split ' ' (chomp (grubVars names env gOrder))).find? (fun u => decide (u ∈ names ∧ u ≠ t ∧ shNum (grubVars names env (gOk u)) = 1 ∧ shNum (grubVars names env (gTry u)) = 0))

theorem strtoull_le (b : Nat) (s : Str) : strtoull b s ≤ u64max := by
  unfold strtoull
  split
  · dsimp only
    split
    · exact Nat.le_refl _
    · exact Nat.le_of_lt_succ (Nat.mod_lt _ (by omega))
  · exact Nat.min_le_right _ _
  · exact Nat.min_le_right _ _

theorem shLeft_le (env : KvEnv) (t : Str) : shLeft env t ≤ u64max := by
  unfold shLeft
  split
  · omega
  · exact strtoull_le _ _

theorem shLeft_congr {e e' : KvEnv} {u : Str} (h : e (kLeft u) = e' (kLeft u)) : shLeft e u = shLeft e' u := by
  unfold shLeft
  rw [h]

theorem find_congr {l : List Str} {p q : Str → Bool} (h : ∀ x, p x = q x) : l.find? p = l.find? q := by rw [funext h]

theorem ubootSh_first {names : List Str} {env : KvEnv} (he : UbComplete names env) :
    (ubootSh names env).1 = (split ' ' (chomp ((env kOrder).getD []))).find? (fun t => decide (t ∈ names ∧ 0 < shLeft env t)) := by
  obtain ⟨⟨o, h1, h2⟩, h3⟩ := he
  unfold ubootSh
  simp only
  rw [shDefault_id h1 h2, shDefaults_id h3]
  simp only [Bool.decide_and]
  split <;> (rename_i hf; rw [hf])

/-- one start: the counter of the booted slot is decremented, and nothing else changes -/
theorem ubootSh_step {names : List Str} {env : KvEnv} (he : UbComplete names env) {t : Str} (h : (ubootSh names env).1 = some t) :
    t ∈ names ∧ 0 < shLeft env t ∧ UbComplete names (ubootSh names env).2 ∧ (ubootSh names env).2 kOrder = env kOrder ∧ shLeft (ubootSh names env).2 t = shLeft env t - 1 ∧
      ∀ u, u ≠ t → shLeft (ubootSh names env).2 u = shLeft env u := by
  have hf := (ubootSh_first he).symm.trans h
  have hp := List.find?_some hf
  simp only [decide_eq_true_eq] at hp
  obtain ⟨⟨o, h1, h2⟩, h3⟩ := he
  have e2 : (ubootSh names env).2 = kvSet env (kLeft t) (some (toHex (shLeft env t - 1))) := by
    unfold ubootSh
    simp only
    rw [shDefault_id h1 h2, shDefaults_id h3]
    simp only [Bool.decide_and] at hf
    rw [hf]
  rw [e2]
  have ho : kvSet env (kLeft t) (some (toHex (shLeft env t - 1))) kOrder = env kOrder := kvSet_ne _ _ _ _ (fun e => kLeft_ne_order t e.symm)
  have hother : ∀ u, u ≠ t → kvSet env (kLeft t) (some (toHex (shLeft env t - 1))) (kLeft u) = env (kLeft u) := fun u hu => kvSet_ne _ _ _ _ (fun e => hu (kLeft_inj e))
  refine ⟨hp.1, hp.2, ⟨⟨o, by rw [ho, h1], h2⟩, ?_⟩, ho, ?_, ?_⟩
  · intro u hu
    by_cases e : u = t
    · subst e
      exact ⟨_, kvSet_self _ _ _, toHex_nil _⟩
    · rw [hother u e]
      exact h3 u hu
  · simp only [shLeft, kvSet_self]
    exact strtoull_chomp_toHex _ (Nat.le_trans (Nat.sub_le _ _) (shLeft_le env t))
  · intro u hu
    exact shLeft_congr (hother u hu)

/-- **C112 for U-Boot.** The slot that is booted next is booted as many times as it has attempts left, if it does not confirm itself; then the first other slot in the order with attempts left is booted. -/
theorem C112_uboot {names : List Str} {env : KvEnv} (he : UbComplete names env) {t : Str} (h : (ubootSh names env).1 = some t) :
    (∀ k < shLeft env t, (ubootSh names (after (ubootSh names) k env)).1 = some t) ∧ (ubootSh names (after (ubootSh names) (shLeft env t) env)).1 = nextUboot names env t := by
  generalize hn : shLeft env t = n
  induction n generalizing env with
  | zero =>
    have := (ubootSh_step he h).2.1
    omega
  | succ n ih =>
    obtain ⟨k1, -, k3, k4, k5, k6⟩ := ubootSh_step he h
    rw [hn] at k5
    have hnext : nextUboot names (ubootSh names env).2 t = nextUboot names env t := by
      unfold nextUboot
      rw [k4]
      refine find_congr (fun u => ?_)
      by_cases e : u = t
      · simp [e]
      · rw [k6 u e]
    by_cases hz : n = 0
    · subst hz
      constructor
      · intro k hk
        have : k = 0 := by omega
        subst this
        exact h
      · change (ubootSh names (ubootSh names env).2).1 = _
        rw [ubootSh_first k3, ← hnext]
        refine find_congr (fun u => ?_)
        by_cases e : u = t
        · subst e
          simp [k5]
        · simp [e]
    · have h' : (ubootSh names (ubootSh names env).2).1 = some t := by
        rw [ubootSh_first k3, k4, ← (ubootSh_first he).symm.trans h]
        refine find_congr (fun u => ?_)
        by_cases e : u = t
        · subst e
          rw [k5, hn]
          simp [k1]
          omega
        · rw [k6 u e]
      obtain ⟨i1, i2⟩ := ih k3 h' k5
      constructor
      · intro k hk
        cases k with
        | zero => exact h
        | succ k => exact i1 k (by omega)
      · exact i2.trans hnext

theorem grubSh_first (names : List Str) (env : KvEnv) :
    (grubSh names env).1 = (split ' ' (chomp (grubVars names env gOrder))).find? (fun t => decide (t ∈ names) && decide (shNum (grubVars names env (gOk t)) = 1 ∧ shNum (grubVars names env (gTry t)) = 0)) := by
  rw [← grubShScan_find names (grubVars names env) _ (grubVars names env) (fun t => ⟨rfl, .inl rfl⟩)]
  unfold grubSh
  split <;> (rename_i hf; rw [hf])

/-- after the script found `t`, the same slots can be booted but for `t` -/
theorem grubShScan_after {names toks : List Str} {v v' : Str → Str} {t : Str} (h : grubShScan names toks v = (some t, v')) :
    v' gOrder = v gOrder ∧ ∀ u, (shNum (v' (gOk u)) = 1 ∧ shNum (v' (gTry u)) = 0) ↔ (u ≠ t ∧ shNum (v (gOk u)) = 1 ∧ shNum (v (gTry u)) = 0) := by
  have set : ∀ (v : Str → Str) (n u : Str), setVar v (gTry n) c!"1" (gOk u) = v (gOk u) ∧ setVar v (gTry n) c!"1" gOrder = v gOrder ∧ (u ≠ n → setVar v (gTry n) c!"1" (gTry u) = v (gTry u)) ∧
      shNum (setVar v (gTry n) c!"1" (gTry n)) = 1 := by
    intro v n u
    unfold setVar
    refine ⟨if_neg (gOk_ne_gTry u n), if_neg (fun e => gTry_ne_order n e.symm), fun hu => if_neg (fun e => hu (gTry_inj e)), ?_⟩
    rw [if_pos rfl]
    decide
  induction toks generalizing v with
  | nil => simp [grubShScan] at h
  | cons x xs ih =>
    unfold grubShScan at h
    split at h
    · split at h
      · rename_i hk
        simp only [Prod.mk.injEq, Option.some.injEq] at h
        obtain ⟨rfl, rfl⟩ := h
        refine ⟨(set v x x).2.1, fun u => ?_⟩
        rw [(set v x u).1]
        by_cases e : u = x
        · subst e
          rw [(set v u u).2.2.2]
          simp
        · rw [(set v x u).2.2.1 e]
          simp [e]
      · rename_i hk
        obtain ⟨i1, i2⟩ := ih h
        refine ⟨i1.trans (set v x x).2.1, fun u => (i2 u).trans ?_⟩
        rw [(set v x u).1]
        by_cases e : u = x
        · subst e
          rw [(set v u u).2.2.2]
          constructor
          · rintro ⟨-, -, h⟩
            omega
          · rintro ⟨-, h⟩
            exact absurd h hk
        · rw [(set v x u).2.2.1 e]
    · exact ih h

/-- **C112 for GRUB.** The slot that is booted next is booted once, if it does not confirm itself; then the first other slot in the order that is ok and was not tried is booted. -/
theorem C112_grub {names : List Str} {env : KvEnv} {t : Str} (h : (grubSh names env).1 = some t) : (grubSh names (after (grubSh names) 1 env)).1 = nextGrub names env t := by
  change (grubSh names (grubSh names env).2).1 = _
  cases hsc : grubShScan names (split ' ' (chomp (grubVars names env gOrder))) (grubVars names env) with
  | mk y v =>
    have e : grubSh names env = (match ((y, v) : Option Str × (Str → Str)) with | (some t, v) => (some t, grubSave names v env) | (none, v) => (none, grubSave names (grubReset names v) env)) := by
      unfold grubSh
      rw [hsc]
      rfl
    cases y with
    | none => rw [e] at h; cases h
    | some t' =>
      have ht : t' = t := by rw [e] at h; simpa using h
      subst ht
      have e2 : (grubSh names env).2 = grubSave names v env := by rw [e]
      obtain ⟨k1, k2⟩ := grubShScan_after hsc
      rw [e2, grubSh_first]
      have ho : grubVars names (grubSave names v env) gOrder = grubVars names env gOrder := by
        rw [← k1]
        simp [grubVars, grubSave]
      rw [ho]
      refine find_congr (fun u => ?_)
      by_cases hu : u ∈ names
      · have v1 : grubVars names (grubSave names v env) (gOk u) = v (gOk u) := by
          have : grubSave names v env (gOk u) = some (v (gOk u)) := if_pos (.inr ⟨u, hu, .inl rfl⟩)
          simp [grubVars, this]
        have v2 : grubVars names (grubSave names v env) (gTry u) = v (gTry u) := by
          have : grubSave names v env (gTry u) = some (v (gTry u)) := if_pos (.inr ⟨u, hu, .inr rfl⟩)
          simp [grubVars, this]
        rw [v1, v2]
        simp only [hu, true_and, decide_true, Bool.true_and]
        exact decide_eq_decide.2 (k2 u)
      · simp [hu]

/-- **C112 after an activation (U-Boot).** After `s` was activated completely, the script boots `s` as often as the configuration says, if `s` does not confirm itself; then the first other slot in the order with attempts left. -/
theorem C112_uboot_activated (cfg : Cfg) (hc : cfg.WF) {names : List Str} {slots : List Slot} (hwf : SlotsWF slots) (hn : ForSlots names slots) {env : KvEnv} (he : UbComplete names env) {s : Slot} (hs : s ∈ slots)
    {bn : Str} (hb : s.bootname = some bn) {rd : Str → Bool} {ts : List (Str × Str)} (hts : (uboot cfg).setPrimary rd slots env s = some ts) :
    (∀ k < attemptsOr3 cfg.bootAttemptsPrimary, (ubootSh names (after (ubootSh names) k ((uboot cfg).appAll env ts))).1 = some bn) ∧
      (ubootSh names (after (ubootSh names) (attemptsOr3 cfg.bootAttemptsPrimary) ((uboot cfg).appAll env ts))).1 = nextUboot names ((uboot cfg).appAll env ts) bn := by
  have hprim := (C02_uboot cfg hc slots hwf s hs env rd ts trivial hts).1
  obtain ⟨bn', cur, hb', _, rfl⟩ := ubootSetPrimary_cases hts
  have : bn' = bn := Option.some.inj (hb'.symm.trans hb)
  subst this
  obtain ⟨hbn1, hbn2⟩ := hwf.bootname_ok s hs bn' hb
  have a1 := attemptsOr3_pos cfg.bootAttemptsPrimary
  have hj : join ' ' (bn' :: orderWithout bn' cur) ≠ [] := by
    cases orderWithout bn' cur <;> simp [join, hbn1]
  have hex : toHex (attemptsOr3 cfg.bootAttemptsPrimary) ≠ [] := toHex_nil _
  generalize hE : (uboot cfg).appAll env [(kLeft bn', toHex (attemptsOr3 cfg.bootAttemptsPrimary)), (kOrder, join ' ' (bn' :: orderWithout bn' cur))] = e at hprim ⊢
  have hE' : e = ubootApp (ubootApp env (kLeft bn', toHex (attemptsOr3 cfg.bootAttemptsPrimary))) (kOrder, join ' ' (bn' :: orderWithout bn' cur)) := hE.symm
  have hO : e kOrder = some (join ' ' (bn' :: orderWithout bn' cur)) := by
    rw [hE']
    simp [ubootApp, hj]
  have hL : e (kLeft bn') = some (toHex (attemptsOr3 cfg.bootAttemptsPrimary)) := by
    rw [hE']
    simp [ubootApp, hex, kvSet_ne _ _ _ _ (kLeft_ne_order bn')]
  have hcmp : UbComplete names e := by
    refine ⟨⟨_, hO, hj⟩, fun u hu => ?_⟩
    by_cases eq : u = bn'
    · subst eq
      exact ⟨_, hL, hex⟩
    · have : e (kLeft u) = env (kLeft u) := by
        rw [hE']
        simp only [ubootApp]
        rw [kvSet_ne _ _ _ _ (kLeft_ne_order u), kvSet_ne _ _ _ _ (fun h => eq (kLeft_inj h))]
      rw [this]
      exact he.2 u hu
  have hleft : shLeft e bn' = attemptsOr3 cfg.bootAttemptsPrimary := by
    simp only [shLeft, hL]
    exact strtoull_chomp_toHex _ (Nat.le_trans (Nat.le_of_lt (attemptsOr3_lt _ hc.2)) (by decide))
  have h1 := C111_uboot cfg hn hcmp
  rw [hprim] at h1
  have := C112_uboot hcmp (h1.symm.trans hb)
  rwa [hleft] at this

/-- **C112 after an activation (GRUB).** After `s` was activated completely, the script boots `s` once, if `s` does not confirm itself; then the first other slot in the new order that is ok and was not tried. -/
theorem C112_grub_activated {names : List Str} {slots : List Slot} (hwf : SlotsWF slots) (hn : ForSlots names slots) {env : KvEnv} (he : GrComplete names env) {s : Slot} (hs : s ∈ slots)
    {bn : Str} (hb : s.bootname = some bn) {rd : Str → Bool} {ts : List (List (Str × Str))} (hts : grub.setPrimary rd slots env s = some ts) :
    (grubSh names (grub.appAll env ts)).1 = some bn ∧ (grubSh names (after (grubSh names) 1 (grub.appAll env ts))).1 = nextGrub names (grub.appAll env ts) bn := by
  have hprim := (C02_grub slots hwf s hs env rd ts trivial hts).1
  obtain ⟨bn', hb', rfl⟩ := grubSetPrimary_cases hts
  have : bn' = bn := Option.some.inj (hb'.symm.trans hb)
  subst this
  have mono : ∀ (ws : List (Str × Str)) (e : KvEnv) (k : Str), (∃ v, e k = some v) → ∃ v, grubApp e ws k = some v := by
    intro ws
    induction ws with
    | nil => exact fun _ _ h => h
    | cons w l ih =>
      intro e k h
      refine ih (kvSet e w.1 (some w.2)) k ?_
      by_cases eq : k = w.1
      · subst eq
        exact ⟨_, kvSet_self _ _ _⟩
      · rw [kvSet_ne _ _ _ _ eq]
        exact h
  generalize hE : grub.appAll env [[(gOk bn', c!"1"), (gTry bn', c!"0"), (gOrder, join ' ' (orderPrimaryNames slots s bn'))]] = e at hprim ⊢
  have hcmp : GrComplete names e := by
    rw [← hE]
    exact ⟨mono _ _ _ he.1, fun u hu => ⟨mono _ _ _ (he.2 u hu).1, mono _ _ _ (he.2 u hu).2⟩⟩
  have h1 := C111_grub hn hcmp
  rw [hprim] at h1
  have h2 : (grubSh names e).1 = some bn' := h1.symm.trans hb
  exact ⟨h2, C112_grub h2⟩

/-! ## The hypotheses are met -/

theorem ex_forSlots : ForSlots [c!"A", c!"B"] twoSlots := by
  intro bn
  simp only [twoSlots, slotA, slotB, slotD, List.mem_cons, List.not_mem_nil, or_false, exists_eq_or_imp, exists_eq_left, Option.some.injEq, reduceCtorEq, false_or]
  constructor <;> (rintro (rfl | rfl) <;> simp)

theorem ex_ubComplete : UbComplete [c!"A", c!"B"] ubEx := ⟨⟨c!"A B", by decide, by decide⟩, by
  intro bn h
  rcases List.mem_cons.1 h with rfl | h
  · exact ⟨c!"3", by decide, by decide⟩
  · obtain rfl : bn = c!"B" := by simpa using h
    exact ⟨c!"3", by decide, by decide⟩⟩

theorem ex_grComplete : GrComplete [c!"A", c!"B"] grEx := ⟨⟨c!"A B", by decide⟩, by
  intro bn h
  rcases List.mem_cons.1 h with rfl | h
  · exact ⟨⟨c!"1", by decide⟩, c!"0", by decide⟩
  · obtain rfl : bn = c!"B" := by simpa using h
    exact ⟨⟨c!"1", by decide⟩, c!"0", by decide⟩⟩

/-- A is primary, A is booted; it has three attempts; the fourth start is B -/
example : ((uboot {}).getPrimary allRd twoSlots ubEx).bind (·.bootname) = some c!"A" ∧ (ubootSh [c!"A", c!"B"] ubEx).1 = some c!"A" ∧ shLeft ubEx c!"A" = 3 ∧
    (ubootSh [c!"A", c!"B"] (after (ubootSh [c!"A", c!"B"]) 3 ubEx)).1 = some c!"B" := by
  have h1 : ((uboot {}).getPrimary allRd twoSlots ubEx).bind (·.bootname) = some c!"A" := by decide
  have h2 := (C111_uboot {} ex_forSlots ex_ubComplete).symm.trans h1
  have h3 : shLeft ubEx c!"A" = 3 := by decide
  have h4 := (C112_uboot ex_ubComplete h2).2
  rw [h3] at h4
  exact ⟨h1, h2, h3, h4.trans (by decide)⟩

/-- after `mark-active B`: B is booted three times, then A -/
example : ∃ ts, (uboot {}).setPrimary allRd twoSlots ubEx slotB = some ts ∧ (ubootSh [c!"A", c!"B"] (after (ubootSh [c!"A", c!"B"]) 2 ((uboot {}).appAll ubEx ts))).1 = some c!"B" ∧
    (ubootSh [c!"A", c!"B"] (after (ubootSh [c!"A", c!"B"]) 3 ((uboot {}).appAll ubEx ts))).1 = some c!"A" := by
  obtain ⟨h1, h2⟩ := C112_uboot_activated {} (by unfold Cfg.WF; decide) twoSlots_wf ex_forSlots ex_ubComplete (s := slotB) (by decide) rfl (rd := allRd) rfl
  exact ⟨_, rfl, h1 2 (by decide), h2.trans (by decide)⟩

/-- GRUB: A is primary, A is booted, then B -/
example : (grub.getPrimary allRd twoSlots grEx).bind (·.bootname) = some c!"A" ∧ (grubSh [c!"A", c!"B"] grEx).1 = some c!"A" ∧ (grubSh [c!"A", c!"B"] (after (grubSh [c!"A", c!"B"]) 1 grEx)).1 = some c!"B" := by
  have h1 : (grub.getPrimary allRd twoSlots grEx).bind (·.bootname) = some c!"A" := by decide
  have h2 := (C111_grub ex_forSlots ex_grComplete).symm.trans h1
  exact ⟨h1, h2, (C112_grub h2).trans (by decide)⟩

/-- after `mark-active B`: B is booted, then A -/
example : ∃ ts, grub.setPrimary allRd twoSlots grEx slotB = some ts ∧ (grubSh [c!"A", c!"B"] (grub.appAll grEx ts)).1 = some c!"B" ∧
    (grubSh [c!"A", c!"B"] (after (grubSh [c!"A", c!"B"]) 1 (grub.appAll grEx ts))).1 = some c!"A" := by
  obtain ⟨h1, h2⟩ := C112_grub_activated twoSlots_wf ex_forSlots ex_grComplete (s := slotB) (by decide) rfl (rd := allRd) rfl
  exact ⟨_, rfl, h1, h2.trans (by decide)⟩

end Rauc.Boot
