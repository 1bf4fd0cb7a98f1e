import Verif.Lemmas.BootEfi
import Verif.Props.BootSpec

namespace Rauc.Boot

/-! ## C01 -/

/-- generic induction: an invariant which excludes "good" and "primary" -/
theorem sticks_of_inv (B : Backend) (P : List Slot → B.Env → Slot → Prop) (Inv : List Slot → Slot → B.Env → Prop)
    (h0 : ∀ slots, SlotsWF slots → ∀ s ∈ slots, ∀ env rd ts, P slots env s → B.setState rd slots env s false = some ts →
      Inv slots s (B.appAll env ts))
    (hstep : ∀ slots, SlotsWF slots → ∀ s ∈ slots, ∀ env (e : Ev), Inv slots s env → e.req.slot ∈ slots →
      ¬ e.req.revives s → Inv slots s (B.ev slots env e))
    (hg : ∀ slots, SlotsWF slots → ∀ s ∈ slots, ∀ env rd, Inv slots s env → B.getState rd env s ≠ some true ∧
      B.getPrimary rd slots env ≠ some s) :
    MarkBadSticks B P := by
  intro slots hwf s hs env rd ts hP hts hist hh rd'
  have hi := h0 slots hwf s hs env rd ts hP hts
  apply hg slots hwf s hs
  generalize B.appAll env ts = env0 at hi
  induction hist generalizing env0 with
  | nil => exact hi
  | cons e es ih =>
    exact ih (fun x hx => hh x (List.mem_cons_of_mem _ hx)) _
      (hstep slots hwf s hs env0 e hi (hh e (by simp)).1 (hh e (by simp)).2)

/-- What it means for `Bad` to say that a slot is marked bad, for a boot loader: marking it bad makes it so (for data that satisfies `P`), requests for other slots
and further requests to mark it bad leave it so, whichever part of them is carried out, and while it is so the slot is neither good nor primary. -/
structure Marked (B : Backend) (P : List Slot → B.Env → Slot → Prop) (Bad : List Slot → Slot → B.Env → Prop) : Prop where
  mark : ∀ slots, SlotsWF slots → ∀ s ∈ slots, ∀ env rd ts, P slots env s → B.setState rd slots env s false = some ts → Bad slots s (B.appAll env ts)
  keep : ∀ slots, SlotsWF slots → ∀ s ∈ slots, ∀ env (e : Ev), Bad slots s env → e.req.slot ∈ slots → ¬ e.req.revives s → Bad slots s (B.ev slots env e)
  off : ∀ slots, SlotsWF slots → ∀ s ∈ slots, ∀ env rd, Bad slots s env → B.getState rd env s ≠ some true ∧ B.getPrimary rd slots env ≠ some s

theorem Marked.sticks {B : Backend} {P : List Slot → B.Env → Slot → Prop} {Bad : List Slot → Slot → B.Env → Prop} (h : Marked B P Bad) : MarkBadSticks B P :=
  sticks_of_inv B P Bad h.mark h.keep h.off

/-- attempts counter of the slot reads as zero (or not at all) -/
def UbInv (_ : List Slot) (s : Slot) (env : KvEnv) : Prop :=
  ∀ bn, s.bootname = some bn → ∀ v, env (kLeft bn) = some v → strtoull 16 (chomp v) = 0

theorem marked_uboot (cfg : Cfg) : Marked (uboot cfg) anyEnv UbInv := by
  refine ⟨?_, ?_, ?_⟩
  · intro slots hwf s hs env rd ts _ hts bn hbn v hv
    have h0 : strtoull 16 (chomp (toHex 0)) = 0 := strtoull_chomp_toHex 0 (by decide)
    have hfin : ∀ e : KvEnv, ubootApp e (kLeft bn, toHex 0) (kLeft bn) = some v → strtoull 16 (chomp v) = 0 := by
      intro e he
      simp only [ubootApp, kvSet_self, toHex_nil, if_false] at he
      injection he with he; subst he; exact h0
    obtain ⟨bt, hbt, hc⟩ := ubootSetState_cases hts
    rw [hbn] at hbt; injection hbt with hbt; subst hbt
    rcases hc with ⟨h, _⟩ | ⟨_, _, rfl⟩ | ⟨_, o, _, rfl⟩
    · cases h
    · exact hfin env hv
    · exact hfin _ hv
  · intro slots hwf s hs env e hi hes hnr bn hbn v hv
    have h0 : strtoull 16 (chomp (toHex 0)) = 0 := strtoull_chomp_toHex 0 (by decide)
    unfold Backend.ev at hv
    cases htx : (uboot cfg).txns e.rd slots env e.req with
    | none => rw [htx] at hv; exact hi bn hbn v hv
    | some ts =>
      rw [htx] at hv
      rcases uboot_ev_left cfg hwf hs hbn env e.req e.rd hes hnr ts htx e.done with h | h
      · exact hi bn hbn v (h ▸ hv)
      · have : some (toHex 0) = some v := h ▸ hv
        injection this with this; subst this; exact h0
  · intro slots hwf s hs env rd hi
    constructor
    · intro h
      simp only [ubootGetState] at h
      cases hb : s.bootname with
      | none => simp [hb] at h
      | some bn =>
        simp only [hb] at h
        cases ho : kvGet rd env kOrder with
        | none => simp [ho] at h
        | some o =>
          simp only [ho] at h
          split at h
          · cases hl : kvGet rd env (kLeft bn) with
            | none => simp [hl] at h
            | some a =>
              obtain ⟨_, v, hv, rfl⟩ := kvGet_some hl
              simp [hl, hi bn hb v hv] at h
          · simp at h
    · intro h
      simp only [ubootGetPrimary] at h
      cases ho : kvGet rd env kOrder with
      | none => simp [ho] at h
      | some o =>
        simp only [ho] at h
        obtain ⟨_, tok, _, hb, a, ha, hz⟩ := ubootScan_some h
        obtain ⟨_, v, hv, rfl⟩ := kvGet_some ha
        exact hz (hi tok hb v hv)

theorem C01_uboot (cfg : Cfg) : MarkBadSticks (uboot cfg) anyEnv := (marked_uboot cfg).sticks

/-- the OK flag of the slot does not read as 1 -/
def GrInv (_ : List Slot) (s : Slot) (env : KvEnv) : Prop :=
  ∀ bn, s.bootname = some bn → ∀ v, env (gOk bn) = some v → strtoull 0 (chomp v) ≠ 1

theorem grubApp_ne (env : KvEnv) (ws : List (Str × Str)) (k : Str) (h : ∀ w ∈ ws, w.1 ≠ k) :
    grubApp env ws k = env k := by
  induction ws generalizing env with
  | nil => rfl
  | cons w ws ih =>
    have : grubApp env (w :: ws) = grubApp (kvSet env w.1 (some w.2)) ws := rfl
    rw [this, ih _ (fun x hx => h x (List.mem_cons_of_mem _ hx)), kvSet_ne _ _ _ _ (Ne.symm (h w (by simp)))]

theorem grub_set_bad_ok (env : KvEnv) (bn : Str) :
    grubApp env [(gOk bn, c!"0"), (gTry bn, c!"0")] (gOk bn) = some (c!"0") := by
  simp [grubApp, kvSet_ne _ _ _ _ (gOk_ne_gTry bn bn)]

/-- a prefix of a single-transaction request -/
theorem foldl_take_single {α β : Type} (f : β → α → β) (e : β) (t : α) (n : Nat) :
    ([t].take n).foldl f e = e ∨ ([t].take n).foldl f e = f e t := by
  cases n with
  | zero => exact Or.inl rfl
  | succ n => exact Or.inr (by simp)

theorem marked_grub : Marked grub anyEnv GrInv := by
  refine ⟨?_, ?_, ?_⟩
  · intro slots hwf s hs env rd ts _ hts bn hbn v hv
    obtain ⟨bt, hbt, rfl⟩ := grubSetState_cases hts
    rw [hbn] at hbt; injection hbt with hbt; subst hbt
    have : some (c!"0") = some v := (grub_set_bad_ok env bn) ▸ hv
    injection this with this; subst this; decide
  · intro slots hwf s hs env e hi hes hnr bn hbn v hv
    unfold Backend.ev at hv
    cases htx : grub.txns e.rd slots env e.req with
    | none => rw [htx] at hv; exact hi bn hbn v hv
    | some ts =>
      rw [htx] at hv
      obtain ⟨r, erd, n⟩ := e
      replace hv : (ts.take n).foldl grubApp env (gOk bn) = some v := hv
      cases r with
      | setState t g =>
        obtain ⟨bt, htb, rfl⟩ := grubSetState_cases htx
        rcases foldl_take_single grubApp env _ n with h | h
        · exact hi bn hbn v (h ▸ hv)
        · rw [h] at hv
          by_cases hts : t = s
          · subst hts
            rw [hbn] at htb; injection htb with htb; subst htb
            cases g with
            | true => exact absurd (Or.inl rfl) hnr
            | false =>
              have : some (c!"0") = some v := (grub_set_bad_ok env bn) ▸ hv
              injection this with this; subst this; decide
          · have hne : bt ≠ bn := fun hb => hts (hwf.bootname_inj t hes s hs bn (hb ▸ htb) hbn)
            refine hi bn hbn v ?_
            rw [← hv]
            symm
            apply grubApp_ne
            intro w hw
            simp at hw
            rcases hw with rfl | rfl
            · exact fun h => hne (gOk_inj h)
            · exact fun h => gOk_ne_gTry _ _ h.symm
      | setPrimary t =>
        obtain ⟨bt, htb, rfl⟩ := grubSetPrimary_cases htx
        rcases foldl_take_single grubApp env _ n with h | h
        · exact hi bn hbn v (h ▸ hv)
        · rw [h] at hv
          have hts : t ≠ s := fun h => hnr (Or.inr (by simp [h]))
          have hne : bt ≠ bn := fun hb => hts (hwf.bootname_inj t hes s hs bn (hb ▸ htb) hbn)
          refine hi bn hbn v ?_
          rw [← hv]
          symm
          apply grubApp_ne
          intro w hw
          simp at hw
          rcases hw with rfl | rfl | rfl
          · exact fun h => hne (gOk_inj h)
          · exact fun h => gOk_ne_gTry _ _ h.symm
          · exact fun h => gOk_ne_order _ h.symm
  · intro slots hwf s hs env rd hi
    constructor
    · intro h
      simp only [grubGetState] at h
      cases hb : s.bootname with
      | none => simp [hb] at h
      | some bn =>
        simp only [hb] at h
        cases ho : kvGet rd env gOrder with
        | none => simp [ho] at h
        | some o =>
          simp only [ho] at h
          split at h
          · cases hl : kvGet rd env (gOk bn) with
            | none => simp [hl] at h
            | some a =>
              obtain ⟨_, v, hv, rfl⟩ := kvGet_some hl
              have := hi bn hb v hv
              cases ht : kvGet rd env (gTry bn) with
              | none => simp [hl, ht] at h
              | some b => simp [hl, ht, this] at h
          · simp at h
    · intro h
      simp only [grubGetPrimary] at h
      cases ho : kvGet rd env gOrder with
      | none => simp [ho] at h
      | some o =>
        simp only [ho] at h
        obtain ⟨_, tok, _, hb, a, ha, hz⟩ := grubScan_some h
        obtain ⟨_, v, hv, rfl⟩ := kvGet_some ha
        exact hi tok hb v hv hz

theorem C01_grub : MarkBadSticks grub anyEnv := (marked_grub).sticks

/-- the slot's priority reads as zero -/
def BbInv (_ : List Slot) (s : Slot) (env : BbEnv) : Prop :=
  ∀ bn, s.bootname = some bn → ∀ p a, env bn = some (p, a) → p % 2 ^ 32 = 0

theorem bb_set_bad (env : BbEnv) (bn : Str) (p a : Nat)
    (h : bbApp env [⟨bn, .prio, 0⟩, ⟨bn, .attempts, 0⟩] bn = some (p, a)) : p = 0 ∧ a = 0 := by
  simp only [bbApp, List.foldl_cons, List.foldl_nil, bbSet1, if_true] at h
  cases he : env bn with
  | none => simp [he] at h
  | some x => simp [he] at h; omega

theorem marked_barebox (cfg : Cfg) : Marked (barebox cfg) anyEnv BbInv := by
  refine ⟨?_, ?_, ?_⟩
  · intro slots hwf s hs env rd ts _ hts bn hbn p a hv
    obtain ⟨bt, hbt, hc⟩ := bbSetState_cases hts
    rw [hbn] at hbt; injection hbt with hbt; subst hbt
    rcases hc with ⟨h, _⟩ | ⟨_, rfl⟩
    · cases h
    · rw [(bb_set_bad env bn p a hv).1]
  · intro slots hwf s hs env e hi hes hnr bn hbn p a hv
    unfold Backend.ev at hv
    cases htx : (barebox cfg).txns e.rd slots env e.req with
    | none => rw [htx] at hv; exact hi bn hbn p a hv
    | some ts =>
      rw [htx] at hv
      obtain ⟨r, erd, n⟩ := e
      replace hv : (ts.take n).foldl bbApp env bn = some (p, a) := hv
      cases r with
      | setState t g =>
        obtain ⟨bt, htb, hc⟩ := bbSetState_cases htx
        by_cases hts : t = s
        · subst hts
          rw [hbn] at htb; injection htb with htb; subst htb
          rcases hc with ⟨rfl, _⟩ | ⟨rfl, rfl⟩
          · exact absurd (Or.inl rfl) hnr
          · rcases foldl_take_single bbApp env _ n with h | h
            · exact hi bn hbn p a (h ▸ hv)
            · rw [h] at hv
              rw [(bb_set_bad env bn p a hv).1]
        · have hne : bt ≠ bn := fun hb => hts (hwf.bootname_inj t hes s hs bn (hb ▸ htb) hbn)
          have : ∃ t, ts = [t] ∧ ∀ w ∈ t, w.bn = bt := by
            rcases hc with ⟨_, rfl⟩ | ⟨_, rfl⟩
            · exact ⟨_, rfl, by simp⟩
            · exact ⟨_, rfl, by simp⟩
          obtain ⟨tx, rfl, htx'⟩ := this
          rcases foldl_take_single bbApp env tx n with h | h
          · exact hi bn hbn p a (h ▸ hv)
          · rw [h] at hv
            refine hi bn hbn p a ?_
            rw [← hv]; symm
            exact bbApp_other env tx bn (fun w hw => by rw [htx' w hw]; exact hne)
      | setPrimary t =>
        obtain ⟨bt, ps, htb, hps, rfl⟩ := bbSetPrimary_cases htx
        have hts : t ≠ s := fun h => hnr (Or.inr (by simp [h]))
        have hne : bt ≠ bn := fun hb => hts (hwf.bootname_inj t hes s hs bn (hb ▸ htb) hbn)
        rcases foldl_take_single bbApp env _ n with h | h
        · exact hi bn hbn p a (h ▸ hv)
        · rw [h] at hv
          have hv' : bbApp env (ps ++ [⟨bt, .attempts, attemptsOr3 cfg.bootAttemptsPrimary⟩]) bn = some (p, a) := hv
          rw [bbApp_append, bbApp_other _ _ _ (by simpa using hne)] at hv'
          obtain ⟨p0, a0, hg, hm⟩ := bbPrios_mem hps s hs bn hbn
          obtain ⟨_, P, A, hP, hp0, _⟩ := bbGet_some hg
          have hz : p0 = 0 := by rw [hp0]; exact hi bn hbn P A hP
          have := bbApp_prio env ps bn 0 P A hP ⟨_, hm, rfl⟩ (by
            intro w hw hwb
            obtain ⟨u, hu, p1, a1, hub, hg1, hw1⟩ := bbPrios_only hps w hw
            rw [hwb] at hub hg1 hw1
            have hus : u = s := hwf.bootname_inj u hu s hs bn hub hbn
            have hust : u ≠ t := fun h => hts (by rw [← h, hus])
            rw [hg] at hg1
            have : p1 = 0 := by injection hg1 with h; injection h with h1 h2; rw [← h1]; exact hz
            rw [hw1]; simp [hust, this])
          rw [this] at hv'
          injection hv' with hv'; injection hv' with h1 h2
          rw [← h1]
  · intro slots hwf s hs env rd hi
    constructor
    · intro h
      simp only [bbGetState] at h
      cases hb : s.bootname with
      | none => simp [hb] at h
      | some bn =>
        simp only [hb] at h
        cases ho : bbGet rd env bn with
        | none => simp [ho] at h
        | some pa =>
          obtain ⟨p, a⟩ := pa
          obtain ⟨_, P, A, hP, hp, _⟩ := bbGet_some ho
          have := hi bn hb P A hP
          rw [ho] at h
          simp at h
          omega
    · intro h
      simp only [bbGetPrimary] at h
      split at h
      · simp at h
      · rename_i r hr
        subst h
        rcases bbScan_some hr with h | ⟨_, bn, p, a, hb, hg, _, hp⟩
        · simp at h
        · obtain ⟨_, P, A, hP, hpp, _⟩ := bbGet_some hg
          have := hi bn hb P A hP
          omega

theorem C01_barebox (cfg : Cfg) : MarkBadSticks (barebox cfg) anyEnv := (marked_barebox cfg).sticks

/-- no boot order entry and no BootNext entry carries the slot's name -/
def EfiInv (_ : List Slot) (s : Slot) (env : EfiEnv) : Prop :=
  EfiWF env ∧ ∀ bn, s.bootname = some bn →
    (∀ e ∈ efiBo env, e.name ≠ bn) ∧ (∀ e, efiNx env = some e → e.name ≠ bn)

/-- restriction needed on EFI: the slot's name occurs at most once in the boot order, and BootNext does not
name the slot -/
def EfiOnce (_ : List Slot) (env : EfiEnv) (s : Slot) : Prop :=
  EfiWF env ∧ ∀ bn, s.bootname = some bn →
    ((efiBo env).filter (fun e => e.name == bn)).length ≤ 1 ∧ (∀ e, efiNx env = some e → e.name ≠ bn)

theorem not_mem_eraseP_once {α : Type} {p : α → Bool} {l : List α} (h : (l.filter p).length ≤ 1) :
    ∀ a ∈ l.eraseP p, p a = false := by
  induction l with
  | nil => simp
  | cons x xs ih =>
    intro a ha
    by_cases hx : p x = true
    · rw [List.filter_cons_of_pos hx] at h
      simp only [List.length_cons] at h
      have h0 : xs.filter p = [] := List.length_eq_zero_iff.1 (by omega)
      rw [List.eraseP_cons_of_pos hx] at ha
      have := List.filter_eq_nil_iff.1 h0 a ha
      simpa using this
    · rw [List.filter_cons_of_neg hx] at h
      rw [List.eraseP_cons_of_neg hx] at ha
      rcases List.mem_cons.1 ha with rfl | ha
      · simpa using hx
      · exact ih h a ha

/-- C01 on EFI. Missing for the full property: environments in which the slot's name occurs more than once in the
boot order, and environments in which BootNext selects the slot (see `C01_efi_violated_bootnext`,
`C01_efi_violated_duplicate`). -/
theorem marked_efi (cfg : Cfg) (fresh : EfiEnv → Str) (hf : FreshOK fresh) :
    Marked (efi cfg fresh) EfiOnce EfiInv := by
  refine ⟨?_, ?_, ?_⟩
  · intro slots hwf s hs env rd ts hP hts
    obtain ⟨bn, e, hb, hen, hn⟩ := efi_mod_prefix hf hP.1 hts
    obtain ⟨h1, h2, h3, _⟩ := hn ts.length
    rw [List.take_length] at h1 h2 h3
    refine ⟨h1, ?_⟩
    intro bn' hb'
    rw [hb] at hb'; injection hb' with hb'; subst hb'
    obtain ⟨hp1, hp2⟩ := hP.2 bn hb
    have hnx : ∀ x, efiNx (ts.foldl efiApp env) = some x → x.name ≠ bn := by
      intro x hx; rw [h2] at hx; exact hp2 x hx
    refine ⟨?_, hnx⟩
    -- the completed operation did set the order
    obtain ⟨bn2, pre, e2, all, hb2, _, _, he2, hpre, hts2⟩ := efiModify_cases hf hts
    rw [hb] at hb2; injection hb2 with hb2; subst hb2
    have hbo : efiBo (ts.foldl efiApp env) = (efiBo env).eraseP (fun e => e.name == bn) := by
      rw [hts2, List.foldl_append]
      simp only [List.foldl_cons, List.foldl_nil, Bool.false_eq_true, if_false, List.nil_append]
      rcases hpre with ⟨rfl, _⟩ | ⟨rfl, _⟩
      · exact efiBo_setOrder hP.1 _ (fun x hx => efiBo_mem (eraseP_mem hx))
      · exact efiBo_setOrder (efiWF_create hf env bn hP.1) _
          (fun x hx => List.mem_append_left _ (efiBo_mem (eraseP_mem hx)))
    intro x hx
    have hx' : x ∈ (efiBo env).eraseP (fun e => e.name == bn) := hbo ▸ hx
    have := not_mem_eraseP_once hp1 x hx'
    simpa using this
  · intro slots hwf s hs env ev hi hes hnr
    unfold Backend.ev
    cases htx : (efi cfg fresh).txns ev.rd slots env ev.req with
    | none => exact hi
    | some ts =>
      obtain ⟨r, erd, n⟩ := ev
      show EfiInv slots s ((ts.take n).foldl efiApp env)
      -- a request on another slot has another boot name
      have hother : ∀ t bt bn, t ∈ slots → t ≠ s → t.bootname = some bt → s.bootname = some bn → bt ≠ bn :=
        fun t bt bn ht hne h1 h2 hb => hne (hwf.bootname_inj t ht s hs bn (hb ▸ h1) h2)
      have modcase : ∀ t g, t ∈ slots → (t = s → g = false) → efiModify fresh erd env t g = some ts →
          EfiInv slots s ((ts.take n).foldl efiApp env) := by
        intro t g ht hg hm
        obtain ⟨bt, e, hbt, hen, hn⟩ := efi_mod_prefix hf hi.1 hm
        obtain ⟨h1, h2, h3, _⟩ := hn n
        refine ⟨h1, ?_⟩
        intro bn hb
        obtain ⟨hi1, hi2⟩ := hi.2 bn hb
        refine ⟨?_, fun x hx => hi2 x (h2 ▸ hx)⟩
        rcases h3 with ⟨h3, _⟩ | ⟨h3, _⟩
        · intro x hx; exact hi1 x (h3 ▸ hx)
        · intro x hx
          rw [h3] at hx
          rcases List.mem_append.1 hx with hx | hx
          · cases g with
            | false => simp at hx
            | true =>
              simp at hx; subst hx
              have hts : t ≠ s := fun h => by have := hg h; cases this
              rw [hen]; exact hother t bt bn ht hts hbt hb
          · exact hi1 x (eraseP_mem hx)
      cases r with
      | setState t g =>
        exact modcase t g hes (fun h => by
          subst h
          cases g with
          | false => rfl
          | true => exact absurd (Or.inl rfl) hnr) htx
      | setPrimary t =>
        have hts : t ≠ s := fun h => hnr (Or.inr (by simp [h]))
        simp only [Backend.txns] at htx
        split at htx
        · obtain ⟨bt, e, hbt, hen, hn⟩ := efi_temp_prefix hf hi.1 htx
          obtain ⟨h1, h2, _, h3, _⟩ := hn n
          refine ⟨h1, ?_⟩
          intro bn hb
          obtain ⟨hi1, hi2⟩ := hi.2 bn hb
          refine ⟨fun x hx => hi1 x (h2 ▸ hx), ?_⟩
          intro x hx
          rcases h3 with h3 | ⟨h3, _⟩
          · exact hi2 x (h3 ▸ hx)
          · rw [h3] at hx; injection hx with hx; subst hx
            rw [hen]; exact hother t bt bn hes hts hbt hb
        · exact modcase t true hes (fun h => absurd h hts) htx
  · intro slots hwf s hs env rd hi
    constructor
    · intro h
      obtain ⟨bn, hb, e, he, hen⟩ := efi_getState_bo h
      exact (hi.2 bn hb).1 e he hen
    · intro h
      obtain ⟨_, e, he, hb⟩ := efi_getPrimary_bo h
      rcases he with he | he
      · exact (hi.2 _ hb).1 e he rfl
      · exact (hi.2 _ hb).2 e he rfl

theorem C01_efi_partial (cfg : Cfg) (fresh : EfiEnv → Str) (hf : FreshOK fresh) :
    MarkBadSticks (efi cfg fresh) EfiOnce := (marked_efi cfg fresh hf).sticks

/-! ### concrete configurations used for examples and counterexamples -/

def slotA : Slot := { name := c!"rootfs.0", sclass := c!"rootfs", bootname := some (c!"A") }
def slotB : Slot := { name := c!"rootfs.1", sclass := c!"rootfs", bootname := some (c!"B") }
def slotD : Slot := { name := c!"data.0", sclass := c!"data" }
def twoSlots : List Slot := [slotB, slotD, slotA]

theorem twoSlots_wf : SlotsWF twoSlots where
  nodup := by decide
  name_inj := by decide
  bootname_inj := by
    intro s hs t ht b h1 h2
    have : ∀ s ∈ twoSlots, ∀ t ∈ twoSlots, s.bootname = t.bootname → s.bootname ≠ none → s = t := by decide
    exact this s hs t ht (by rw [h1, h2]) (by rw [h1]; simp)
  bootname_ok := by
    intro s hs b hb
    have : ∀ s ∈ twoSlots, ∀ b ∈ s.bootname, b ≠ [] ∧ ∀ c ∈ b, isSpace c = false := by decide
    exact this s hs b hb

/-- an entry number that is longer than, hence different from, all numbers in use -/
def someFresh (env : EfiEnv) : Str :=
  let used := env.entries.map EfiEntry.num ++ env.order ++ env.next.toList
  List.replicate ((used.map List.length).foldl max 0 + 1) '0'

theorem foldl_max_le (l : List Nat) (a : Nat) : a ≤ l.foldl max a ∧ ∀ x ∈ l, x ≤ l.foldl max a := by
  induction l generalizing a with
  | nil => simp
  | cons y ys ih =>
    simp only [List.foldl_cons]
    obtain ⟨h1, h2⟩ := ih (max a y)
    refine ⟨by omega, ?_⟩
    intro x hx
    rcases List.mem_cons.1 hx with rfl | hx
    · omega
    · exact h2 x hx

/-- the assumption about fresh entry numbers is satisfiable -/
theorem someFresh_ok : FreshOK someFresh := by
  intro env
  have key : ∀ x ∈ env.entries.map EfiEntry.num ++ env.order ++ env.next.toList, x ≠ someFresh env := by
    intro x hx he
    have h1 := (foldl_max_le ((env.entries.map EfiEntry.num ++ env.order ++ env.next.toList).map List.length) 0).2
      x.length (List.mem_map_of_mem hx)
    have h2 : x.length = ((env.entries.map EfiEntry.num ++ env.order ++ env.next.toList).map List.length).foldl max 0 + 1 := by
      rw [he]; simp [someFresh]
    omega
  refine ⟨fun h => key _ (by simp only [List.mem_append]; exact Or.inl (Or.inl h)) rfl,
    fun h => key _ (by simp [h]) rfl, fun h => key _ (by simp [h]) rfl⟩

def efiEx : EfiEnv :=
  { entries := [⟨c!"0000", c!"A"⟩, ⟨c!"0001", c!"B"⟩, ⟨c!"0002", c!"Setup"⟩], order := [c!"0000", c!"0001", c!"0002"] }

-- non-vacuity of C01: a mark-bad request succeeds in a state where the slot is good and primary
example : EfiOnce twoSlots efiEx slotA ∧ (efi {} someFresh).getState allRd efiEx slotA = some true ∧
    (efi {} someFresh).getPrimary allRd twoSlots efiEx = some slotA ∧
    (efi {} someFresh).setState allRd twoSlots efiEx slotA false = some [.setOrder [c!"0001", c!"0002"]] := by
  refine ⟨⟨by unfold EfiWF; decide, ?_⟩, by decide, by decide, by decide⟩
  intro bn hb
  have : bn = c!"A" := by simpa [slotA] using hb.symm
  subst this
  exact ⟨by decide, by decide⟩

def ubEx : KvEnv := fun k =>
  if k = kOrder then some (c!"A B") else if k = kLeft (c!"A") then some (c!"3")
  else if k = kLeft (c!"B") then some (c!"3") else none

example : (uboot {}).getState allRd ubEx slotA = some true ∧ (uboot {}).getPrimary allRd twoSlots ubEx = some slotA ∧
    (uboot {}).setState allRd twoSlots ubEx slotA false = some [(kOrder, c!"B"), (kLeft (c!"A"), c!"0")] := by decide

def grEx : KvEnv := fun k =>
  if k = gOrder then some (c!"A B") else if k = gOk (c!"A") ∨ k = gOk (c!"B") then some (c!"1")
  else if k = gTry (c!"A") ∨ k = gTry (c!"B") then some (c!"0") else none

example : grub.getState allRd grEx slotA = some true ∧ grub.getPrimary allRd twoSlots grEx = some slotA ∧
    (grub.setState allRd twoSlots grEx slotA false).isSome := by decide

def bbEx : BbEnv := fun b => if b = c!"A" then some (20, 3) else if b = c!"B" then some (10, 3) else none

example : (barebox {}).getState allRd bbEx slotA = some true ∧ (barebox {}).getPrimary allRd twoSlots bbEx = some slotA ∧
    ((barebox {}).setState allRd twoSlots bbEx slotA false).isSome := by decide

/-- FINDING: on EFI, marking bad a slot that was activated through BootNext leaves it the primary slot. -/
theorem C01_efi_violated_bootnext : ¬ MarkBadSticks (efi {} someFresh) (fun _ env _ => EfiWF env) := by
  intro h
  have := (h twoSlots twoSlots_wf slotA (by decide)
    { efiEx with next := some (c!"0000") } allRd _ (by unfold EfiWF; decide) rfl [] (by simp) allRd).2
  exact this (by decide)

/-- FINDING: on EFI, marking bad a slot whose name occurs twice in the boot order leaves it good. -/
theorem C01_efi_violated_duplicate :
    ¬ MarkBadSticks (efi {} someFresh) (fun _ env _ => EfiWF env ∧ env.next = none) := by
  intro h
  have := (h twoSlots twoSlots_wf slotA (by decide)
    { entries := [⟨c!"0000", c!"A"⟩, ⟨c!"0001", c!"A"⟩], order := [c!"0000", c!"0001"] } allRd _
    ⟨by unfold EfiWF; decide, rfl⟩ rfl [] (by simp) allRd).1
  exact this (by decide)

end Rauc.Boot
