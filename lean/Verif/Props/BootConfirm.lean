import Verif.Props.BootScriptAny

/-!
# C114: a system that confirms itself is booted every time
-/

namespace Rauc.Boot

/-! ## Specification -/

/-- a start by the script `sh`, and then, if `g`, a complete `mark-good` of the slot -/
def day (B : Backend) (sh : B.Env → Option Str × B.Env) (rd : Str → Bool) (slots : List Slot) (s : Slot) (g : Bool) (env : B.Env) : B.Env :=
  if g then (match B.setState rd slots (sh env).2 s true with | some ts => B.appAll (sh env).2 ts | none => (sh env).2) else (sh env).2

/-- starts in a row; the list says after which of them the system confirmed itself -/
def days (B : Backend) (sh : B.Env → Option Str × B.Env) (rd : Str → Bool) (slots : List Slot) (s : Slot) : List Bool → B.Env → B.Env
  | [], env => env
  | g :: l, env => days B sh rd slots s l (day B sh rd slots s g env)

/-- attempts left: `full` after a confirmation, one less after another start -/
def left (full : Nat) : Nat → List Bool → Nat
  | n, [] => n
  | _, true :: l => left full full l
  | n, false :: l => left full (n - 1) l

/-! ## Proofs -/

theorem ubootSh_same {names : List Str} {env env' : KvEnv} (he : UbComplete names env) (he' : UbComplete names env') {t : Str} (h : (ubootSh names env).1 = some t) (ho : env' kOrder = env kOrder)
    (hl : 0 < shLeft env' t) (hu : ∀ u, u ≠ t → shLeft env' u = shLeft env u) : (ubootSh names env').1 = some t := by
  obtain ⟨k1, k2, -⟩ := ubootSh_step he h
  rw [ubootSh_first he', ho, ← (ubootSh_first he).symm.trans h]
  refine find_congr (fun u => ?_)
  by_cases e : u = t
  · subst e
    simp [hl, k2]
  · rw [hu u e]

theorem day_uboot (cfg : Cfg) (hc : cfg.WF) {names : List Str} {slots : List Slot} {env : KvEnv} (he : UbComplete names env) {s : Slot} {bn : Str} (hb : s.bootname = some bn) (h : (ubootSh names env).1 = some bn)
    (rd : Str → Bool) (g : Bool) : UbComplete names (day (uboot cfg) (ubootSh names) rd slots s g env) ∧ day (uboot cfg) (ubootSh names) rd slots s g env kOrder = env kOrder ∧
      shLeft (day (uboot cfg) (ubootSh names) rd slots s g env) bn = (if g then attemptsOr3 cfg.bootDefaultAttempts else shLeft env bn - 1) ∧
      ∀ u, u ≠ bn → shLeft (day (uboot cfg) (ubootSh names) rd slots s g env) u = shLeft env u := by
  obtain ⟨k1, k2, k3, k4, k5, k6⟩ := ubootSh_step he h
  cases g with
  | false => exact ⟨k3, k4, k5, k6⟩
  | true =>
    have e : day (uboot cfg) (ubootSh names) rd slots s true env = kvSet (ubootSh names env).2 (kLeft bn) (some (toHex (attemptsOr3 cfg.bootDefaultAttempts))) := by
      have : (uboot cfg).setState rd slots (ubootSh names env).2 s true = some [(kLeft bn, toHex (attemptsOr3 cfg.bootDefaultAttempts))] := by
        change ubootSetState cfg rd (ubootSh names env).2 s true = _
        unfold ubootSetState
        rw [hb]
        rfl
      unfold day
      rw [this]
      change ubootApp _ _ = _
      unfold ubootApp
      simp only [if_neg (toHex_nil _)]
    rw [e]
    have hother : ∀ k, k ≠ kLeft bn → kvSet (ubootSh names env).2 (kLeft bn) (some (toHex (attemptsOr3 cfg.bootDefaultAttempts))) k = (ubootSh names env).2 k := fun k hk => kvSet_ne _ _ _ _ hk
    have ho := hother kOrder (fun e => kLeft_ne_order bn e.symm)
    refine ⟨⟨?_, fun u hu => ?_⟩, ho.trans k4, ?_, fun u hu => ?_⟩
    · rw [ho]
      exact k3.1
    · by_cases e : u = bn
      · subst e
        exact ⟨_, kvSet_self _ _ _, toHex_nil _⟩
      · rw [hother _ (fun x => e (kLeft_inj x))]
        exact k3.2 u hu
    · simp only [shLeft, kvSet_self, if_true]
      exact strtoull_chomp_toHex _ (Nat.le_trans (Nat.le_of_lt (attemptsOr3_lt _ hc.1)) (by decide))
    · exact (shLeft_congr (hother _ (fun x => hu (kLeft_inj x)))).trans (k6 u hu)

/-- **C114 for U-Boot.** A system is booted every time, as long as it confirms itself before its attempts are used up. -/
theorem C114_uboot (cfg : Cfg) (hc : cfg.WF) {names : List Str} {slots : List Slot} {env : KvEnv} (he : UbComplete names env) {s : Slot} {bn : Str} (hb : s.bootname = some bn) (h : (ubootSh names env).1 = some bn)
    (rd : Str → Bool) (l : List Bool) (hl : ∀ p, p <+: l → 0 < left (attemptsOr3 cfg.bootDefaultAttempts) (shLeft env bn) p) :
    (ubootSh names (days (uboot cfg) (ubootSh names) rd slots s l env)).1 = some bn := by
  induction l generalizing env with
  | nil => exact h
  | cons g l ih =>
    obtain ⟨k1, k2, k3, k4⟩ := day_uboot cfg hc (slots := slots) he hb h rd g
    have hp : ∀ p, p <+: l → 0 < left (attemptsOr3 cfg.bootDefaultAttempts) (shLeft (day (uboot cfg) (ubootSh names) rd slots s g env) bn) p := by
      intro p hp
      have := hl (g :: p) (by simpa using hp)
      rw [k3]
      cases g <;> simpa [left] using this
    have h0 := hp [] (List.nil_prefix)
    exact ih k1 (ubootSh_same he k1 h k2 h0 k4) hp

/-- **C114 for GRUB.** A system is booted every time, if it confirms itself after each start. -/
theorem C114_grub {names : List Str} {slots : List Slot} {env : KvEnv} {s : Slot} {bn : Str} (hb : s.bootname = some bn) (h : (grubSh names env).1 = some bn) (rd : Str → Bool) (n : Nat) :
    (grubSh names (days grub (grubSh names) rd slots s (List.replicate n true) env)).1 = some bn := by
  induction n generalizing env with
  | zero => exact h
  | succ n ih =>
    rw [List.replicate_succ]
    refine ih ?_
    have e : day grub (grubSh names) rd slots s true env = grubApp (grubSh names env).2 [(gOk bn, c!"1"), (gTry bn, c!"0")] := by
      have : grub.setState rd slots (grubSh names env).2 s true = some [[(gOk bn, c!"1"), (gTry bn, c!"0")]] := by
        change grubSetState s true = _
        unfold grubSetState
        rw [hb]
        rfl
      unfold day
      rw [this]
      rfl
    rw [e]
    have hn : bn ∈ names := (C111_grub_only_ok h).1
    cases hsc : grubShScan names (split ' ' (chomp (grubVars names env gOrder))) (grubVars names env) with
    | mk y v =>
      have e1 : grubSh names env = (match ((y, v) : Option Str × (Str → Str)) with | (some t, v) => (some t, grubSave names v env) | (none, v) => (none, grubSave names (grubReset names v) env)) := by
        unfold grubSh
        simp only [hsc]
        try rfl
      cases y with
      | none => rw [e1] at h; cases h
      | some t' =>
        have ht : t' = bn := by rw [e1] at h; simpa using h
        subst ht
        have e2 : (grubSh names env).2 = grubSave names v env := by rw [e1]
        obtain ⟨k1, k2⟩ := grubShScan_after hsc
        have hf := (grubSh_first names env).symm.trans h
        rw [e2, grubSh_first]
        have set : ∀ k, k ≠ gOk t' → k ≠ gTry t' → grubApp (grubSave names v env) [(gOk t', c!"1"), (gTry t', c!"0")] k = grubSave names v env k := by
          intro k h1 h2
          simp only [grubApp, List.foldl_cons, List.foldl_nil]
          rw [kvSet_ne _ _ _ _ h2, kvSet_ne _ _ _ _ h1]
        have ho : grubVars names (grubApp (grubSave names v env) [(gOk t', c!"1"), (gTry t', c!"0")]) gOrder = grubVars names env gOrder := by
          rw [← k1]
          have := set gOrder (fun e => gOk_ne_order t' e.symm) (fun e => gTry_ne_order t' e.symm)
          simp [grubVars, this, grubSave]
        rw [ho, ← hf]
        refine find_congr (fun u => ?_)
        by_cases hu : u ∈ names
        · simp only [hu, decide_true, Bool.true_and]
          by_cases eq : u = t'
          · subst eq
            have a1 : grubApp (grubSave names v env) [(gOk u, c!"1"), (gTry u, c!"0")] (gOk u) = some c!"1" := by
              simp only [grubApp, List.foldl_cons, List.foldl_nil]
              rw [kvSet_ne _ _ _ _ (gOk_ne_gTry u u), kvSet_self]
            have a2 : grubApp (grubSave names v env) [(gOk u, c!"1"), (gTry u, c!"0")] (gTry u) = some c!"0" := by
              simp only [grubApp, List.foldl_cons, List.foldl_nil]
              rw [kvSet_self]
            have hp := List.find?_some hf
            simp only [Bool.and_eq_true, decide_eq_true_eq] at hp
            rw [decide_eq_decide]
            refine ⟨fun _ => hp.2, fun _ => ?_⟩
            simp only [grubVars, a1, a2]
            decide
          · have v1 : grubVars names (grubApp (grubSave names v env) [(gOk t', c!"1"), (gTry t', c!"0")]) (gOk u) = v (gOk u) := by
              have : grubSave names v env (gOk u) = some (v (gOk u)) := if_pos (.inr ⟨u, hu, .inl rfl⟩)
              simp [grubVars, set (gOk u) (fun e => eq (gOk_inj e)) (gOk_ne_gTry u t'), this]
            have v2 : grubVars names (grubApp (grubSave names v env) [(gOk t', c!"1"), (gTry t', c!"0")]) (gTry u) = v (gTry u) := by
              have : grubSave names v env (gTry u) = some (v (gTry u)) := if_pos (.inr ⟨u, hu, .inr rfl⟩)
              simp [grubVars, set (gTry u) (fun e => gOk_ne_gTry t' u e.symm) (fun e => eq (gTry_inj e)), this]
            rw [v1, v2, decide_eq_decide]
            exact (k2 u).trans (by simp [eq])
        · simp [hu]

/-! ## The hypotheses are met -/

/-- `A` has three attempts and confirms itself only at each third start -/
example : (ubootSh [c!"A", c!"B"] (days (uboot {}) (ubootSh [c!"A", c!"B"]) allRd twoSlots slotA [false, false, true, false, false, true, true, false] ubEx)).1 = some c!"A" := by
  refine C114_uboot {} (by unfold Cfg.WF; decide) ex_ubComplete (s := slotA) rfl (by decide) allRd _ (fun p hp => ?_)
  have : ∀ n < 9, 0 < left (attemptsOr3 ({} : Cfg).bootDefaultAttempts) (shLeft ubEx c!"A") ([false, false, true, false, false, true, true, false].take n) := by decide
  rw [List.prefix_iff_eq_take.1 hp]
  exact this _ (Nat.lt_succ_of_le hp.length_le)

example (n : Nat) : (grubSh [c!"A", c!"B"] (days grub (grubSh [c!"A", c!"B"]) allRd twoSlots slotA (List.replicate n true) grEx)).1 = some c!"A" :=
  C114_grub rfl (by decide) allRd n

end Rauc.Boot
