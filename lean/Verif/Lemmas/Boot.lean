import Verif.Model.Boot

namespace Rauc.Boot

theorem toHex_nil (n : Nat) : toHex n ≠ [] := toBase_ne_nil 16 n

theorem kLeft_inj {a b : Str} (h : kLeft a = kLeft b) : a = b := by
  unfold kLeft at h
  exact List.append_cancel_left (List.append_cancel_right h)

theorem kLeft_ne_order (b : Str) : kLeft b ≠ kOrder := by
  intro h
  have := congrArg List.reverse h
  simp [kLeft, kOrder] at this

theorem gOk_inj {a b : Str} (h : gOk a = gOk b) : a = b := List.append_cancel_right h
theorem gTry_inj {a b : Str} (h : gTry a = gTry b) : a = b := List.append_cancel_right h
theorem gOk_ne_gTry (a b : Str) : gOk a ≠ gTry b := by
  intro h
  have := congrArg List.reverse h
  simp [gOk, gTry] at this
theorem gOk_ne_order (a : Str) : gOk a ≠ gOrder := by
  intro h
  have := congrArg List.reverse h
  simp [gOk, gOrder] at this
theorem gTry_ne_order (a : Str) : gTry a ≠ gOrder := by
  intro h
  have := congrArg List.reverse h
  simp [gTry, gOrder] at this

@[simp] theorem kvSet_self (env : KvEnv) (k : Str) (v) : kvSet env k v k = v := by simp [kvSet]
theorem kvSet_ne (env : KvEnv) (k k' : Str) (v) (h : k' ≠ k) : kvSet env k v k' = env k' := by
  simp [kvSet, h]

theorem kvGet_some {rd env k a} (h : kvGet rd env k = some a) :
    rd k = true ∧ ∃ v, env k = some v ∧ a = chomp v := by
  unfold kvGet at h
  split at h
  · rename_i hr
    cases he : env k with
    | none => simp [he] at h
    | some v => simp [he] at h; exact ⟨hr, v, rfl, h.symm⟩
  · simp at h

/-! ### what the set operations issue -/

theorem ubootSetState_cases {cfg rd env s g ts} (h : ubootSetState cfg rd env s g = some ts) :
    ∃ bn, s.bootname = some bn ∧
      ((g = true ∧ ts = [(kLeft bn, toHex (attemptsOr3 cfg.bootDefaultAttempts))]) ∨
       (g = false ∧ kvGet rd env kOrder = none ∧ ts = [(kLeft bn, toHex 0)]) ∨
       (g = false ∧ ∃ o, kvGet rd env kOrder = some o ∧
          ts = [(kOrder, join ' ' (orderWithout bn o)), (kLeft bn, toHex 0)])) := by
  unfold ubootSetState at h
  split at h
  · simp at h
  · rename_i bn hb
    refine ⟨bn, hb, ?_⟩
    cases g with
    | true => simp at h; simp [h]
    | false =>
      cases ho : kvGet rd env kOrder with
      | none => simp [ho] at h; simp [h]
      | some o => simp [ho] at h; simp [h]

theorem ubootSetPrimary_cases {cfg rd slots env s ts} (h : ubootSetPrimary cfg rd slots env s = some ts) :
    ∃ bn cur, s.bootname = some bn ∧
      (cur = match kvGet rd env kOrder with
        | none => join ' ' (orderPrimaryNames slots s bn)
        | some order => order) ∧
      ts = [(kLeft bn, toHex (attemptsOr3 cfg.bootAttemptsPrimary)), (kOrder, join ' ' (bn :: orderWithout bn cur))] := by
  unfold ubootSetPrimary at h
  split at h
  · simp at h
  · rename_i bn hb
    exact ⟨bn, _, hb, rfl, (Option.some.inj h).symm⟩

theorem grubSetState_cases {s g ts} (h : grubSetState s g = some ts) :
    ∃ bn, s.bootname = some bn ∧ ts = [[(gOk bn, if g then c!"1" else c!"0"), (gTry bn, c!"0")]] := by
  unfold grubSetState at h
  split at h
  · simp at h
  · rename_i bn hb
    refine ⟨bn, hb, ?_⟩
    cases g <;> simp at h <;> simp [h]

theorem grubSetPrimary_cases {slots s ts} (h : grubSetPrimary slots s = some ts) :
    ∃ bn, s.bootname = some bn ∧
      ts = [[(gOk bn, c!"1"), (gTry bn, c!"0"), (gOrder, join ' ' (orderPrimaryNames slots s bn))]] := by
  unfold grubSetPrimary at h
  split at h
  · simp at h
  · rename_i bn hb
    exact ⟨bn, hb, (Option.some.inj h).symm⟩

theorem bbSetState_cases {cfg s g ts} (h : bbSetState cfg s g = some ts) :
    ∃ bn, s.bootname = some bn ∧
      ((g = true ∧ ts = [[⟨bn, .attempts, attemptsOr3 cfg.bootDefaultAttempts⟩]]) ∨
       (g = false ∧ ts = [[⟨bn, .prio, 0⟩, ⟨bn, .attempts, 0⟩]])) := by
  unfold bbSetState at h
  split at h
  · simp at h
  · rename_i bn hb
    refine ⟨bn, hb, ?_⟩
    cases g <;> simp at h <;> simp [h]

theorem bbSetPrimary_cases {cfg rd slots env s ts} (h : bbSetPrimary cfg rd slots env s = some ts) :
    ∃ bn ps, s.bootname = some bn ∧ bbPrios rd env s slots = some ps ∧
      ts = [ps ++ [⟨bn, .attempts, attemptsOr3 cfg.bootAttemptsPrimary⟩]] := by
  unfold bbSetPrimary at h
  split at h
  · simp at h
  · rename_i bn hb
    split at h
    · simp at h
    · rename_i ps hps
      exact ⟨bn, ps, hb, hps, (Option.some.inj h).symm⟩

theorem ubootApp_ne (en : KvEnv) {k kw : Str} (v : Str) (hw : k ≠ kw) : ubootApp en (kw, v) k = en k := by
  simp [ubootApp, kvSet_ne _ _ _ _ hw]

/-- the attempts counter of a slot after an event for another slot, or a mark-bad event -/
theorem uboot_ev_left (cfg : Cfg) {slots} (hwf : SlotsWF slots) {s} (hs : s ∈ slots) {bn}
    (hbn : s.bootname = some bn) (env : KvEnv) (r : Req) (rd) (hes : r.slot ∈ slots) (hnr : ¬ r.revives s)
    (ts : List (Str × Str)) (htx : (uboot cfg).txns rd slots env r = some ts) (n : Nat) :
    (ts.take n).foldl ubootApp env (kLeft bn) = env (kLeft bn) ∨
    (ts.take n).foldl ubootApp env (kLeft bn) = some (toHex 0) := by
  have ordne : kLeft bn ≠ kOrder := kLeft_ne_order bn
  have step0 : ∀ en : KvEnv, ubootApp en (kLeft bn, toHex 0) (kLeft bn) = some (toHex 0) := by
    intro en; simp [ubootApp, toHex_nil]
  cases r with
  | setState t g =>
    obtain ⟨bt, htb, hc⟩ := ubootSetState_cases htx
    by_cases hts : t = s
    · subst hts
      rw [hbn] at htb; injection htb with htb; subst htb
      rcases hc with ⟨rfl, rfl⟩ | ⟨rfl, _, rfl⟩ | ⟨rfl, o, _, rfl⟩
      · exact absurd (Or.inl rfl) hnr
      · cases n with
        | zero => exact Or.inl rfl
        | succ n => right; simp [step0]
      · match n with
        | 0 => exact Or.inl rfl
        | 1 => left; simp [ubootApp_ne _ _ ordne]
        | n + 2 => right; simp [step0]
    · have hne : kLeft bn ≠ kLeft bt := fun hb =>
        hts (hwf.bootname_inj t hes s hs bn ((kLeft_inj hb) ▸ htb) hbn)
      left
      rcases hc with ⟨rfl, rfl⟩ | ⟨rfl, _, rfl⟩ | ⟨rfl, o, _, rfl⟩
      · cases n <;> simp [ubootApp_ne _ _ hne]
      · cases n <;> simp [ubootApp_ne _ _ hne]
      · match n with
        | 0 => rfl
        | 1 => simp [ubootApp_ne _ _ ordne]
        | n + 2 =>
          simp only [List.take_succ_cons, List.take_nil, List.foldl_cons, List.foldl_nil]
          rw [ubootApp_ne _ _ hne, ubootApp_ne _ _ ordne]
  | setPrimary t =>
    obtain ⟨bt, cur, htb, _, rfl⟩ := ubootSetPrimary_cases htx
    have hts : t ≠ s := fun h => hnr (Or.inr (by simp [h]))
    have hne : kLeft bn ≠ kLeft bt := fun hb =>
        hts (hwf.bootname_inj t hes s hs bn ((kLeft_inj hb) ▸ htb) hbn)
    left
    match n with
    | 0 => rfl
    | 1 => simp [ubootApp_ne _ _ hne]
    | n + 2 =>
      simp only [List.take_succ_cons, List.take_nil, List.foldl_cons, List.foldl_nil]
      rw [ubootApp_ne _ _ ordne, ubootApp_ne _ _ hne]

/-! ### scanning the U-Boot order -/

theorem ubootTry_some {rd env tok slots s} (h : ubootTry rd env tok slots = some (some s)) :
    s ∈ slots ∧ s.bootname = some tok ∧ ∃ a, kvGet rd env (kLeft tok) = some a ∧ strtoull 16 a ≠ 0 := by
  induction slots with
  | nil => simp [ubootTry] at h
  | cons t ts ih =>
    simp only [ubootTry] at h
    split at h
    · rename_i hb
      split at h
      · simp at h
      · rename_i a ha
        split at h
        · have := ih h; exact ⟨List.mem_cons_of_mem _ this.1, this.2⟩
        · simp at h; subst h; exact ⟨by simp, hb, a, ha, by assumption⟩
    · have := ih h; exact ⟨List.mem_cons_of_mem _ this.1, this.2⟩

theorem ubootScan_some {rd env slots toks s} (h : ubootScan rd env slots toks = some s) :
    s ∈ slots ∧ ∃ tok ∈ toks, s.bootname = some tok ∧
      ∃ a, kvGet rd env (kLeft tok) = some a ∧ strtoull 16 a ≠ 0 := by
  induction toks with
  | nil => simp [ubootScan] at h
  | cons t ts ih =>
    simp only [ubootScan] at h
    split at h
    · simp at h
    · rename_i s' hs
      simp at h; subst h
      have := ubootTry_some hs
      exact ⟨this.1, t, by simp, this.2⟩
    · obtain ⟨h1, tok, h2, h3⟩ := ih h
      exact ⟨h1, tok, List.mem_cons_of_mem _ h2, h3⟩

/-- with unique boot names, the inner loop looks at exactly the slot with this boot name -/
theorem ubootTry_eq {rd env slots} (hwf : SlotsWF slots) (s : Slot) (hs : s ∈ slots) (bn : Str)
    (hb : s.bootname = some bn) :
    ubootTry rd env bn slots =
      match kvGet rd env (kLeft bn) with
      | none => none
      | some a => if strtoull 16 a = 0 then some none else some (some s) := by
  have key : ∀ l : List Slot, (∀ t ∈ l, t ∈ slots) → l.Nodup →
      ubootTry rd env bn l = if s ∈ l then
        (match kvGet rd env (kLeft bn) with
        | none => none
        | some a => if strtoull 16 a = 0 then some none else some (some s)) else some none := by
    intro l
    induction l with
    | nil => intro _ _; simp [ubootTry]
    | cons t ts ih =>
      intro hl hn
      have ih' := ih (fun x hx => hl x (List.mem_cons_of_mem _ hx)) (List.nodup_cons.1 hn).2
      simp only [ubootTry]
      by_cases ht : t.bootname = some bn
      · have : t = s := hwf.bootname_inj t (hl t (by simp)) s hs bn ht hb
        subst this
        have hnot : t ∉ ts := (List.nodup_cons.1 hn).1
        simp only [ht, if_true, List.mem_cons, true_or]
        rw [ih', if_neg hnot]
        cases kvGet rd env (kLeft bn) <;> rfl
      · have hne : s ≠ t := fun e => ht (by rw [← e]; exact hb)
        simp only [ht, if_false, List.mem_cons, hne, false_or]
        exact ih'
  rw [key slots (fun _ h => h) hwf.nodup]
  simp [hs]

theorem ubootTry_nobody {rd env slots} (bn : Str) (h : ∀ s ∈ slots, s.bootname ≠ some bn) :
    ubootTry rd env bn slots = some none := by
  induction slots with
  | nil => rfl
  | cons t ts ih =>
    simp only [ubootTry, h t (by simp), if_false]
    exact ih (fun s hs => h s (List.mem_cons_of_mem _ hs))

/-- the inner loop only depends on the attempts variable of its token -/
theorem ubootTry_congr {rd env env' slots} (tok : Str) (h : env (kLeft tok) = env' (kLeft tok)) :
    ubootTry rd env tok slots = ubootTry rd env' tok slots := by
  have hk : kvGet rd env (kLeft tok) = kvGet rd env' (kLeft tok) := by simp [kvGet, h]
  induction slots with
  | nil => rfl
  | cons t ts ih => simp only [ubootTry, hk, ih]

theorem ubootScan_congr {rd env env' slots} (toks : List Str)
    (h : ∀ t ∈ toks, env (kLeft t) = env' (kLeft t)) :
    ubootScan rd env slots toks = ubootScan rd env' slots toks := by
  induction toks with
  | nil => rfl
  | cons t ts ih =>
    simp only [ubootScan]
    rw [ubootTry_congr t (h t (by simp)), ih (fun x hx => h x (List.mem_cons_of_mem _ hx))]

/-! ### scanning the GRUB order -/

theorem grubTry_some {rd env tok slots s} (h : grubTry rd env tok slots = some (some s)) :
    s ∈ slots ∧ s.bootname = some tok ∧ ∃ o, kvGet rd env (gOk tok) = some o ∧ strtoull 0 o = 1 := by
  induction slots with
  | nil => simp [grubTry] at h
  | cons t ts ih =>
    simp only [grubTry] at h
    split at h
    · rename_i hb
      split at h
      · rename_i o tr ho htr
        split at h
        · have := ih h; exact ⟨List.mem_cons_of_mem _ this.1, this.2⟩
        · rename_i hc
          simp at h; subst h
          exact ⟨by simp, hb, o, ho, by by_cases h1 : strtoull 0 o = 1; exact h1; exact absurd (Or.inl h1) hc⟩
      · simp at h
    · have := ih h; exact ⟨List.mem_cons_of_mem _ this.1, this.2⟩

theorem grubScan_some {rd env slots toks s} (h : grubScan rd env slots toks = some s) :
    s ∈ slots ∧ ∃ tok ∈ toks, s.bootname = some tok ∧
      ∃ o, kvGet rd env (gOk tok) = some o ∧ strtoull 0 o = 1 := by
  induction toks with
  | nil => simp [grubScan] at h
  | cons t ts ih =>
    simp only [grubScan] at h
    split at h
    · simp at h
    · rename_i s' hs
      simp at h; subst h
      have := grubTry_some hs
      exact ⟨this.1, t, by simp, this.2⟩
    · obtain ⟨h1, tok, h2, h3⟩ := ih h
      exact ⟨h1, tok, List.mem_cons_of_mem _ h2, h3⟩

theorem grubTry_good {rd env slots} (hwf : SlotsWF slots) (s : Slot) (hs : s ∈ slots) (bn : Str)
    (hb : s.bootname = some bn) (o t : Str) (ho : kvGet rd env (gOk bn) = some o)
    (ht : kvGet rd env (gTry bn) = some t) (h1 : strtoull 0 o = 1) (h0 : strtoull 0 t = 0) :
    grubTry rd env bn slots = some (some s) := by
  have key : ∀ l : List Slot, (∀ x ∈ l, x ∈ slots) → s ∈ l → grubTry rd env bn l = some (some s) := by
    intro l
    induction l with
    | nil => intro _ h; simp at h
    | cons x xs ih =>
      intro hl hm
      simp only [grubTry]
      by_cases hx : x.bootname = some bn
      · have : x = s := hwf.bootname_inj x (hl x (by simp)) s hs bn hx hb
        subst this
        simp [hx, ho, ht, h1, h0]
      · have hne : s ≠ x := fun e => hx (by rw [← e]; exact hb)
        simp only [hx, if_false]
        exact ih (fun y hy => hl y (List.mem_cons_of_mem _ hy)) (by simpa [hne] using hm)
  exact key slots (fun _ h => h) hs

/-! ### order strings -/

theorem isSpace_space : isSpace ' ' = true := by decide

theorem space_not_mem {bn : Str} (h : ∀ c ∈ bn, isSpace c = false) : ' ' ∉ bn := by
  intro hm; have := h _ hm; rw [isSpace_space] at this; cases this

/-- an order string starting with a proper boot name is read back with that name first -/
theorem split_chomp_join_cons {bn : Str} (hne : bn ≠ []) (hsp : ∀ c ∈ bn, isSpace c = false)
    (ts : List Str) : ∃ r, split ' ' (chomp (join ' ' (bn :: ts))) = bn :: r := by
  have hbn := space_not_mem hsp
  have hself : chomp bn = bn := chomp_nospace bn hsp
  have fin : ∀ r : Str, ∃ q, split ' ' (bn ++ ' ' :: r) = bn :: q := by
    intro r
    refine ⟨splitAux ' ' [] r, ?_⟩
    rw [split_eq _ _ (by simp)]
    simpa using splitAux_delim ' ' bn [] r hbn
  cases ts with
  | nil =>
    refine ⟨[], ?_⟩
    simp only [join, hself]
    rw [split_eq _ _ hne]
    simpa using splitAux_nodelim ' ' bn [] hbn
  | cons t ts =>
    simp only [join]
    by_cases hr : chomp (' ' :: join ' ' (t :: ts)) = []
    · rw [chomp_append_of_nil _ _ hr, hself]
      refine ⟨[], ?_⟩
      rw [split_eq _ _ hne]
      simpa using splitAux_nodelim ' ' bn [] hbn
    · rw [chomp_append_nonspace _ _ hr]
      simp only [chomp] at hr ⊢
      split at hr
      · rename_i hc; simp [isSpace_space] at hr
      · rename_i hc
        obtain ⟨q, hq⟩ := fin (chomp (join ' ' (t :: ts)))
        refine ⟨q, ?_⟩
        rw [← hq]


theorem strtoull_chomp_toHex (n : Nat) (h : n ≤ u64max) : strtoull 16 (chomp (toHex n)) = n := by
  unfold toHex
  rw [chomp_nospace _ (toBase_nospace 16 (by omega) (by omega) n)]
  exact strtoull_toBase 16 (Or.inr rfl) n h

theorem attemptsOr3_pos (a : Int) : 0 < attemptsOr3 a := by
  unfold attemptsOr3; split <;> omega

theorem attemptsOr3_lt (a : Int) (h : a < 2 ^ 31) : attemptsOr3 a < 2 ^ 31 := by
  unfold attemptsOr3; split <;> omega

/-! ### barebox -/

theorem bbSet1_other (env : BbEnv) (w : BbSet) (b : Str) (h : b ≠ w.bn) : bbSet1 env w b = env b := by
  simp [bbSet1, h]

theorem bbApp_other (env : BbEnv) (ws : List BbSet) (b : Str) (h : ∀ w ∈ ws, w.bn ≠ b) :
    bbApp env ws b = env b := by
  induction ws generalizing env with
  | nil => rfl
  | cons w ws ih =>
    simp only [bbApp, List.foldl_cons]
    have := ih (bbSet1 env w) (fun x hx => h x (List.mem_cons_of_mem _ hx))
    simp only [bbApp] at this
    rw [this, bbSet1_other _ _ _ (Ne.symm (h w (by simp)))]

/-- `bbScan` picks a slot of positive priority with attempts left -/
theorem bbScan_some {rd env slots top best s} (h : bbScan rd env slots top best = some (some s)) :
    best = some s ∨ (s ∈ slots ∧ ∃ bn p a, s.bootname = some bn ∧ bbGet rd env bn = some (p, a) ∧ a ≠ 0 ∧ p > top) := by
  induction slots generalizing top best with
  | nil => simp [bbScan] at h; exact Or.inl h
  | cons t ts ih =>
    simp only [bbScan] at h
    split at h
    · rcases ih h with h | ⟨h1, h2⟩
      · exact Or.inl h
      · exact Or.inr ⟨List.mem_cons_of_mem _ h1, h2⟩
    · rename_i bn hb
      split at h
      · simp at h
      · rename_i p a hg
        split at h
        · rcases ih h with h | ⟨h1, h2⟩
          · exact Or.inl h
          · exact Or.inr ⟨List.mem_cons_of_mem _ h1, h2⟩
        · split at h
          · rcases ih h with h | ⟨h1, bn', p', a', h2, h3, h4, h5⟩
            · simp at h; subst h
              exact Or.inr ⟨by simp, bn, p, a, hb, hg, by assumption, by assumption⟩
            · exact Or.inr ⟨List.mem_cons_of_mem _ h1, bn', p', a', h2, h3, h4, by omega⟩
          · rcases ih h with h | ⟨h1, h2⟩
            · exact Or.inl h
            · exact Or.inr ⟨List.mem_cons_of_mem _ h1, h2⟩

theorem bbPrios_mem {rd env s slots ps} (h : bbPrios rd env s slots = some ps) :
    ∀ t ∈ slots, ∀ b, t.bootname = some b → ∃ p a, bbGet rd env b = some (p, a) ∧
      (⟨b, .prio, if t = s then 20 else if p = 0 then 0 else 10⟩ : BbSet) ∈ ps := by
  induction slots generalizing ps with
  | nil => simp
  | cons x xs ih =>
    simp only [bbPrios] at h
    intro t ht b hb
    split at h
    · rename_i hx
      rcases List.mem_cons.1 ht with rfl | ht
      · rw [hb] at hx; simp at hx
      · exact ih h t ht b hb
    · rename_i bx hx
      split at h
      · simp at h
      · rename_i p a hg
        split at h
        · simp at h
        · rename_i r hr
          simp at h; subst h
          rcases List.mem_cons.1 ht with rfl | ht
          · rw [hb] at hx; simp at hx; subst hx
            exact ⟨p, a, hg, by simp⟩
          · obtain ⟨p', a', h1, h2⟩ := ih hr t ht b hb
            exact ⟨p', a', h1, List.mem_cons_of_mem _ h2⟩

theorem bbPrios_only {rd env s slots ps} (h : bbPrios rd env s slots = some ps) :
    ∀ w ∈ ps, ∃ t ∈ slots, ∃ p a, t.bootname = some w.bn ∧ bbGet rd env w.bn = some (p, a) ∧
      w = ⟨w.bn, .prio, if t = s then 20 else if p = 0 then 0 else 10⟩ := by
  induction slots generalizing ps with
  | nil => simp [bbPrios] at h; subst h; simp
  | cons x xs ih =>
    simp only [bbPrios] at h
    intro w hw
    split at h
    · obtain ⟨t, ht, r⟩ := ih h w hw
      exact ⟨t, List.mem_cons_of_mem _ ht, r⟩
    · rename_i bx hx
      split at h
      · simp at h
      · rename_i p a hg
        split at h
        · simp at h
        · rename_i r hr
          simp at h; subst h
          rcases List.mem_cons.1 hw with rfl | hw
          · exact ⟨x, by simp, p, a, hx, hg, rfl⟩
          · obtain ⟨t, ht, r⟩ := ih hr w hw
            exact ⟨t, List.mem_cons_of_mem _ ht, r⟩

/-- assigning the same priority one or more times -/
theorem bbApp_prio (env : BbEnv) (ws : List BbSet) (b : Str) (v : Nat) (p a : Nat) (he : env b = some (p, a))
    (hex : ∃ w ∈ ws, w.bn = b) (h : ∀ w ∈ ws, w.bn = b → w = ⟨b, .prio, v⟩) :
    bbApp env ws b = some (v, a) := by
  have gen : ∀ (ws : List BbSet) (env : BbEnv) (p : Nat), env b = some (p, a) →
      (∀ w ∈ ws, w.bn = b → w = ⟨b, .prio, v⟩) →
      bbApp env ws b = some ((if ∃ w ∈ ws, w.bn = b then v else p), a) := by
    intro ws
    induction ws with
    | nil => intro env p he _; simp [bbApp, he]
    | cons w ws ih =>
      intro env p he h
      have step : bbApp env (w :: ws) = bbApp (bbSet1 env w) ws := rfl
      rw [step]
      by_cases hw : w.bn = b
      · have hwe := h w (by simp) hw
        have : bbSet1 env w b = some (v, a) := by simp [bbSet1, hwe, he]
        rw [ih _ v this (fun x hx => h x (List.mem_cons_of_mem _ hx))]
        simp [hw]
      · have : bbSet1 env w b = some (p, a) := by rw [bbSet1_other _ _ _ (Ne.symm hw)]; exact he
        rw [ih _ p this (fun x hx => h x (List.mem_cons_of_mem _ hx))]
        simp [hw]
  have := gen ws env p he h
  rw [this]
  simp only [hex, if_true]

theorem bbApp_append (env : BbEnv) (a b : List BbSet) : bbApp env (a ++ b) = bbApp (bbApp env a) b := by
  simp [bbApp]

theorem bbGet_some {rd env bn p a} (h : bbGet rd env bn = some (p, a)) :
    rd bn = true ∧ ∃ P A, env bn = some (P, A) ∧ p = P % 2 ^ 32 ∧ a = A % 2 ^ 32 := by
  unfold bbGet at h
  split at h
  · rename_i hr
    cases he : env bn with
    | none => simp [he] at h
    | some x => simp [he] at h; exact ⟨hr, x.1, x.2, rfl, h.1.symm, h.2.symm⟩
  · simp at h


/-! ### EFI -/

/-- what EFI guarantees: entry numbers are variable names, hence unique -/
def EfiWF (env : EfiEnv) : Prop := (env.entries.map EfiEntry.num).Nodup

/-- the number efibootmgr picks for a new entry is not in use and not referenced -/
def FreshOK (fresh : EfiEnv → Str) : Prop :=
  ∀ env, fresh env ∉ env.entries.map EfiEntry.num ∧ fresh env ∉ env.order ∧ env.next ≠ some (fresh env)

theorem efiByNum_mem {es n e} (h : efiByNum es n = some e) : e ∈ es ∧ e.num = n := by
  unfold efiByNum at h
  exact ⟨List.mem_of_find?_eq_some h, by have := List.find?_some h; simpa using this⟩

theorem efiByName_mem {es n e} (h : efiByName es n = some e) : e ∈ es ∧ e.name = n := by
  unfold efiByName at h
  exact ⟨List.mem_of_find?_eq_some h, by have := List.find?_some h; simpa using this⟩

theorem efiByNum_self {es : List EfiEntry} (hn : (es.map EfiEntry.num).Nodup) {e} (he : e ∈ es) :
    efiByNum es e.num = some e := by
  induction es with
  | nil => simp at he
  | cons x xs ih =>
    simp only [List.map_cons, List.nodup_cons] at hn
    unfold efiByNum
    rcases List.mem_cons.1 he with rfl | he
    · simp
    · have : x.num ≠ e.num := fun h => hn.1 (h ▸ List.mem_map_of_mem he)
      rw [List.find?_cons_of_neg (by simp [this])]
      exact ih hn.2 he

theorem efi_resolve {es : List EfiEntry} (hn : (es.map EfiEntry.num).Nodup) (l : List EfiEntry)
    (hl : ∀ e ∈ l, e ∈ es) : (l.map EfiEntry.num).filterMap (efiByNum es) = l := by
  induction l with
  | nil => rfl
  | cons x xs ih =>
    simp [efiByNum_self hn (hl x (by simp)), ih (fun e he => hl e (List.mem_cons_of_mem _ he))]

theorem efiByNum_append {es : List EfiEntry} {n : Str} (x : EfiEntry) (h : n ≠ x.num) :
    efiByNum (es ++ [x]) n = efiByNum es n := by
  unfold efiByNum
  rw [List.find?_append]
  simp [Ne.symm h]

theorem filterMap_congr' {α β : Type} {f g : α → Option β} {l : List α} (h : ∀ x ∈ l, f x = g x) :
    l.filterMap f = l.filterMap g := by
  induction l with
  | nil => rfl
  | cons x xs ih => simp [List.filterMap_cons, h x (by simp), ih (fun y hy => h y (List.mem_cons_of_mem _ hy))]

/-- the boot order as entries -/
def efiBo (env : EfiEnv) : List EfiEntry := env.order.filterMap (efiByNum env.entries)
def efiNx (env : EfiEnv) : Option EfiEntry := env.next.bind (efiByNum env.entries)

theorem efiGet_some {rd env r} (h : efiGet rd env = some r) :
    rd efiTool = true ∧ env.entries ≠ [] ∧ env.order ≠ [] ∧ r = (efiBo env, env.entries, efiNx env) := by
  unfold efiGet at h
  split at h
  · rename_i hc
    simp at hc
    exact ⟨hc.1.1, hc.1.2, hc.2, (Option.some.inj h).symm⟩
  · simp at h

theorem efiGet_eq {rd env} (h1 : rd efiTool = true) (h2 : env.entries ≠ []) (h3 : env.order ≠ []) :
    efiGet rd env = some (efiBo env, env.entries, efiNx env) := by
  unfold efiGet
  simp [h1, h2, h3, efiBo, efiNx]

theorem efiBo_create {fresh} (hf : FreshOK fresh) (env : EfiEnv) (bn : Str) :
    efiBo (efiApp env (.create ⟨fresh env, bn⟩)) = efiBo env ∧
    efiNx (efiApp env (.create ⟨fresh env, bn⟩)) = efiNx env := by
  constructor
  · unfold efiBo efiApp
    apply filterMap_congr'
    intro n hn
    exact efiByNum_append _ (fun e => (hf env).2.1 (by have e' : n = fresh env := e; rw [← e']; exact hn))
  · unfold efiNx efiApp
    cases hx : env.next with
    | none => rfl
    | some n =>
      simp only [Option.bind]
      exact efiByNum_append _ (fun e => (hf env).2.2 (by rw [hx, e]))

theorem efiWF_create {fresh} (hf : FreshOK fresh) (env : EfiEnv) (bn : Str) (h : EfiWF env) :
    EfiWF (efiApp env (.create ⟨fresh env, bn⟩)) := by
  unfold EfiWF efiApp at *
  simp only [List.map_append, List.map_cons, List.map_nil]
  rw [List.nodup_append]
  refine ⟨h, by simp, ?_⟩
  intro a ha b hb
  simp at hb; subst hb
  intro e; subst e
  exact (hf env).1 ha

/-- what `efi_bootorder_prepare` achieves -/
theorem efiPrepare_cases {fresh rd env s bn ts bo all} (hf : FreshOK fresh)
    (h : efiPrepare fresh rd env s bn = some (ts, bo, all)) :
    rd efiTool = true ∧ bo = efiBo env ∧ env.order ≠ [] ∧ (∃ e, efiByName all bn = some e) ∧
    ((ts = [] ∧ all = env.entries) ∨
     (ts = [.create ⟨fresh env, bn⟩] ∧ all = env.entries ++ [⟨fresh env, bn⟩])) := by
  unfold efiPrepare at h
  split at h
  · simp at h
  · rename_i bo' all' nx hg
    obtain ⟨h1, h2, h3, h4⟩ := efiGet_some hg
    simp at h4
    obtain ⟨rfl, rfl, rfl⟩ := h4
    split at h
    · rename_i e he
      simp at h
      obtain ⟨rfl, rfl, rfl⟩ := h
      exact ⟨h1, rfl, h3, ⟨e, he⟩, Or.inl ⟨rfl, rfl⟩⟩
    · rename_i hno
      split at h
      · simp at h
      · simp only [] at h
        split at h
        · simp at h
        · rename_i bo2 all2 nx2 hg2
          obtain ⟨_, _, _, h5⟩ := efiGet_some hg2
          simp only [Prod.mk.injEq] at h5
          obtain ⟨rfl, rfl, rfl⟩ := h5
          simp only [Option.some.injEq, Prod.mk.injEq] at h
          obtain ⟨rfl, rfl, rfl⟩ := h
          refine ⟨h1, (efiBo_create hf env bn).1, h3, ⟨⟨fresh env, bn⟩, ?_⟩, Or.inr ⟨rfl, rfl⟩⟩
          unfold efiByName efiApp
          unfold efiByName at hno
          rw [List.find?_append, hno]
          simp

theorem efiModify_cases {fresh rd env s g ts} (hf : FreshOK fresh) (h : efiModify fresh rd env s g = some ts) :
    ∃ bn pre e all, s.bootname = some bn ∧ rd efiTool = true ∧ env.order ≠ [] ∧ efiByName all bn = some e ∧
      ((pre = [] ∧ all = env.entries) ∨
       (pre = [EfiTxn.create ⟨fresh env, bn⟩] ∧ all = env.entries ++ [⟨fresh env, bn⟩])) ∧
      ts = pre ++ [.setOrder (((if g then [e] else []) ++ (efiBo env).eraseP (fun e => e.name == bn)).map EfiEntry.num)] := by
  unfold efiModify at h
  split at h
  · simp at h
  · rename_i bn hb
    split at h
    · simp at h
    · rename_i pre bo all hp
      obtain ⟨h1, rfl, h3, ⟨e, he⟩, h5⟩ := efiPrepare_cases hf hp
      refine ⟨bn, pre, e, all, hb, h1, h3, he, h5, ?_⟩
      simp only [Option.some.injEq] at h
      rw [← h]
      cases g <;> simp [he]

theorem efiTemp_cases {fresh rd env s ts} (hf : FreshOK fresh) (h : efiTemp fresh rd env s = some ts) :
    ∃ bn pre e all, s.bootname = some bn ∧ rd efiTool = true ∧ env.order ≠ [] ∧ efiByName all bn = some e ∧
      ((pre = [] ∧ all = env.entries) ∨
       (pre = [EfiTxn.create ⟨fresh env, bn⟩] ∧ all = env.entries ++ [⟨fresh env, bn⟩])) ∧
      ts = pre ++ [.setNext e.num] := by
  unfold efiTemp at h
  split at h
  · simp at h
  · rename_i bn hb
    split at h
    · simp at h
    · rename_i pre bo all hp
      obtain ⟨h1, rfl, h3, ⟨e, he⟩, h5⟩ := efiPrepare_cases hf hp
      refine ⟨bn, pre, e, all, hb, h1, h3, he, h5, ?_⟩
      simp only [he, Option.some.injEq] at h
      exact h.symm

theorem efiBo_mem {env e} (h : e ∈ efiBo env) : e ∈ env.entries := by
  unfold efiBo at h
  obtain ⟨n, _, hn⟩ := List.mem_filterMap.1 h
  exact (efiByNum_mem hn).1

theorem efiScan_some {slots es s} (h : efiScan slots es = some s) :
    s ∈ slots ∧ ∃ e ∈ es, s.bootname = some e.name := by
  induction es with
  | nil => simp [efiScan] at h
  | cons x xs ih =>
    simp only [efiScan] at h
    split at h
    · rename_i t ht
      simp at h; subst h
      exact ⟨List.mem_of_find?_eq_some ht, x, by simp, by have := List.find?_some ht; simpa using this⟩
    · obtain ⟨h1, e, he, h2⟩ := ih h
      exact ⟨h1, e, List.mem_cons_of_mem _ he, h2⟩

theorem efiFind_eq {slots} (hwf : SlotsWF slots) {s} (hs : s ∈ slots) {bn} (hb : s.bootname = some bn) :
    slots.find? (fun t => t.bootname == some bn) = some s := by
  cases hf : slots.find? (fun t => t.bootname == some bn) with
  | none =>
    have := List.find?_eq_none.1 hf s hs
    simp [hb] at this
  | some t =>
    have h1 := List.mem_of_find?_eq_some hf
    have h2 := List.find?_some hf
    simp at h2
    rw [hwf.bootname_inj t h1 s hs bn h2 hb]

end Rauc.Boot
