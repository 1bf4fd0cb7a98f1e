import Verif.Props.BootText
import Verif.Props.HandlerEnv

/-!
# C64: command lines and output of `barebox-state`
-/

namespace Rauc.BootText
open Rauc.Boot

theorem splitEq_append (k v : Str) (h : '=' ∉ k) : splitEq (k ++ c!"=" ++ v) = some (k, v) := splitEq_pair (k, v) h

/-- the variable an assignment is for -/
def bbName (w : BbSet) : Str := match w.var with | .prio => bbPrio w.bn | .attempts => bbAtt w.bn

theorem bbPair_eq (w : BbSet) : bbPair w = bbName w ++ c!"=" ++ toDec w.val := by cases w with | mk b v n => cases v <;> rfl

theorem noeq_infix {a b c : Str} (ha : '=' ∉ a) (hb : '=' ∉ b) (hc : '=' ∉ c) : '=' ∉ a ++ b ++ c := by
  simp [ha, hb, hc]

theorem bbPrio_noeq {b : Str} (h : '=' ∉ b) : '=' ∉ bbPrio b := noeq_infix (by decide) h (by decide)
theorem bbAtt_noeq {b : Str} (h : '=' ∉ b) : '=' ∉ bbAtt b := noeq_infix (by decide) h (by decide)

theorem bbName_noeq {w : BbSet} (h : '=' ∉ w.bn) : '=' ∉ bbName w := by
  cases w with | mk b v n => cases v with
    | prio => exact bbPrio_noeq h
    | attempts => exact bbAtt_noeq h

/-- variables of different boot targets, or different variables, have different names -/
theorem bbPrio_inj {a b : Str} (h : bbPrio a = bbPrio b) : a = b := by
  unfold bbPrio at h
  exact List.append_cancel_left (List.append_cancel_right h)

theorem bbAtt_inj {a b : Str} (h : bbAtt a = bbAtt b) : a = b := by
  unfold bbAtt at h
  exact List.append_cancel_left (List.append_cancel_right h)

theorem bbPrio_ne_att (a b : Str) : bbPrio a ≠ bbAtt b := by
  intro h
  have h1 : (bbPrio a).getLast? = some 'y' := by unfold bbPrio; rw [List.getLast?_append]; rfl
  have h2 : (bbAtt b).getLast? = some 's' := by unfold bbAtt; rw [List.getLast?_append]; rfl
  rw [h, h2] at h1
  exact absurd h1 (by decide)

theorem options_opt {flag : Str} (hf : flag = c!"-n" ∨ flag = c!"-i") (o : Option Str) (r : List Str) :
    bbOptions (optArgs flag o ++ r) = bbOptions r := by
  cases o with
  | none => rfl
  | some v =>
    simp only [optArgs, List.cons_append, List.nil_append, bbOptions]
    cases bbOptions r with
    | none => rfl
    | some gs =>
      rcases hf with rfl | rfl <;> rfl

theorem options_get (o : BbOpts) (bn : Str) : bbOptions ((bbGetArgv o bn).drop 1) = some ([bbPrio bn, bbAtt bn], []) := by
  unfold bbGetArgv
  simp only [List.cons_append, List.nil_append, List.append_assoc, List.drop_succ_cons, List.drop_zero]
  rw [options_opt (Or.inl rfl)]
  have := options_opt (flag := c!"-i") (Or.inr rfl) o.dtbpath []
  rw [List.append_nil] at this
  simp only [bbOptions, this]
  rfl

theorem strtoull_toDec {n : Nat} (h : n < 2 ^ 32) : strtoull 10 (toDec n) = n :=
  strtoull_toBase 10 (Or.inl rfl) n (by unfold u64max; omega)

/-- an assignment which the tool can take -/
def SetOk (w : BbSet) : Prop := '=' ∉ w.bn ∧ w.val < 2 ^ 32

theorem options_sets (ws : List BbSet) (h : ∀ w ∈ ws, SetOk w) (r : List Str) :
    bbOptions ((ws.map (fun w => [c!"-s", bbPair w])).flatten ++ r) =
      (bbOptions r).map (fun gs => (gs.1, ws.map (fun w => (bbName w, w.val)) ++ gs.2)) := by
  induction ws with
  | nil => simp
  | cons w ws ih =>
    have hw := h w (by simp)
    have ih' := ih (fun x hx => h x (List.mem_cons_of_mem _ hx))
    simp only [List.map_cons, List.flatten_cons, List.cons_append, List.nil_append, bbOptions]
    rw [ih']
    cases bbOptions r with
    | none => rfl
    | some gs =>
      simp only [Option.map_some]
      rw [if_neg (by decide), if_pos trivial, bbPair_eq, splitEq_append _ _ (bbName_noeq hw.1)]
      simp only [strtoull_toDec hw.2, hw.2, if_true]

theorem options_set (o : BbOpts) (ws : List BbSet) (h : ∀ w ∈ ws, SetOk w) :
    bbOptions ((bbSetArgv o ws).drop 1) = some ([], ws.map (fun w => (bbName w, w.val))) := by
  unfold bbSetArgv
  simp only [List.cons_append, List.nil_append, List.append_assoc, List.drop_succ_cons, List.drop_zero]
  rw [options_opt (Or.inl rfl), options_sets ws h]
  have := options_opt (flag := c!"-i") (Or.inr rfl) o.dtbpath []
  rw [List.append_nil] at this
  rw [this]
  simp [bbOptions]

/-- the slot states of the declared variables -/
def bbAbs (vars : BbVars) : BbEnv := fun bn =>
  match vars (bbPrio bn), vars (bbAtt bn) with
  | some p, some a => some (p, a)
  | _, _ => none

theorem bbNumber_toDec {n : Nat} (h : n < 2 ^ 32) : bbNumber (toDec n) = some n := by
  have hs := strtoull_toDec h
  unfold bbNumber
  rw [hs]
  by_cases h0 : n = 0
  · subst h0; decide
  · rw [if_neg (fun hh => h0 hh.1), if_neg (by unfold u64max; omega)]

theorem toDec_nonl (n : Nat) : '\n' ∉ toDec n := by
  intro h
  have := toBase_nospace 10 (by omega) (by omega) n _ h
  exact absurd this (by decide)

/-- both variables exist or the tool fails -/
theorem bbEnvGet_tool (o : BbOpts) (vars : BbVars) (hv : ∀ k n, vars k = some n → n < 2 ^ 32) (bn : Str) :
    bbEnvGet (bbToolGet vars (bbGetArgv o bn)) = bbAbs vars bn := by
  unfold bbToolGet bbAbs
  rw [options_get]
  simp only [bbPrint]
  cases hp : vars (bbPrio bn) with
  | none => simp [bbEnvGet]
  | some p =>
    cases ha : vars (bbAtt bn) with
    | none => simp [bbEnvGet]
    | some a =>
      have h1 := hv _ _ hp
      have h2 := hv _ _ ha
      simp only [bbEnvGet, ne_eq, not_true_eq_false, if_false]
      have hsp : split '\n' (toDec p ++ c!"\n" ++ (toDec a ++ c!"\n" ++ [])) = [toDec p, toDec a, []] := by
        rw [split_eq _ _ (by simp)]
        simp only [List.append_assoc, List.cons_append, List.nil_append]
        rw [splitAux_delim '\n' _ [] _ (toDec_nonl p), splitAux_delim '\n' _ [] _ (toDec_nonl a)]
        rfl
      rw [hsp]
      simp only [bbNumber_toDec h1, bbNumber_toDec h2, Nat.mod_eq_of_lt h1, Nat.mod_eq_of_lt h2]

/-- reading through the tool is reading the variables -/
theorem bb_bbGet (o : BbOpts) (rd : Str → Bool) (vars : BbVars) (hv : ∀ k n, vars k = some n → n < 2 ^ 32) :
    bbGet (fun _ => true) (bbRead o rd vars) = bbGet rd (bbAbs vars) := by
  funext bn
  unfold bbGet bbRead runIf
  cases rd bn with
  | false => rfl
  | true =>
    simp only [if_true]
    rw [bbEnvGet_tool o vars hv]

theorem bbGetState_congr {rd rd' : Str → Bool} {e e' : BbEnv} (h : bbGet rd e = bbGet rd' e') (s : Slot) :
    bbGetState rd e s = bbGetState rd' e' s := by
  simp only [bbGetState, h]

theorem bbScan_congr {rd rd' : Str → Bool} {e e' : BbEnv} (h : bbGet rd e = bbGet rd' e') (slots : List Slot) (top : Nat) (best : Option Slot) :
    bbScan rd e slots top best = bbScan rd' e' slots top best := by
  induction slots generalizing top best with
  | nil => rfl
  | cons s ss ih => simp only [bbScan, h, ih]

theorem bbGetPrimary_congr {rd rd' : Str → Bool} {e e' : BbEnv} (h : bbGet rd e = bbGet rd' e') (slots : List Slot) :
    bbGetPrimary rd slots e = bbGetPrimary rd' slots e' := by
  simp only [bbGetPrimary, bbScan_congr h]

theorem bbPrios_congr {rd rd' : Str → Bool} {e e' : BbEnv} (h : bbGet rd e = bbGet rd' e') (s : Slot) (slots : List Slot) :
    bbPrios rd e s slots = bbPrios rd' e' s slots := by
  induction slots with
  | nil => rfl
  | cons t ts ih => simp only [bbPrios, h, ih]

theorem bbSetPrimary_congr {rd rd' : Str → Bool} {e e' : BbEnv} (h : bbGet rd e = bbGet rd' e') (cfg : Cfg) (slots : List Slot) (s : Slot) :
    bbSetPrimary cfg rd slots e s = bbSetPrimary cfg rd' slots e' s := by
  simp only [bbSetPrimary, bbPrios_congr h]

theorem bareboxT_txns (cfg : Cfg) (o : BbOpts) (slots : List Slot) (vars : BbVars) (hv : ∀ k n, vars k = some n → n < 2 ^ 32)
    (rd : Str → Bool) (r : Req) :
    (bareboxT cfg o).txns rd slots vars r = ((barebox cfg).txns rd slots (bbAbs vars) r).map (List.map (bbSetArgv o)) := by
  cases r with
  | setState s g => rfl
  | setPrimary s => simp only [Backend.txns]; rw [bbSetPrimary_congr (bb_bbGet o rd vars hv)]

/-- the new priorities are for slots whose state was read -/
theorem bbPrios_mem {rd : Str → Bool} {e : BbEnv} {s : Slot} (slots : List Slot) {ps : List BbSet} (h : bbPrios rd e s slots = some ps) :
    (∀ w ∈ ps, w.val ≤ 20 ∧ ∃ t ∈ slots, t.bootname = some w.bn) ∧
    ∀ t ∈ slots, ∀ b, t.bootname = some b → bbGet rd e b ≠ none := by
  induction slots generalizing ps with
  | nil => simp only [bbPrios, Option.some.injEq] at h; subst h; simp
  | cons t ts ih =>
    simp only [bbPrios] at h
    cases hb : t.bootname with
    | none =>
      simp only [hb] at h
      obtain ⟨h1, h2⟩ := ih h
      refine ⟨fun w hw => ⟨(h1 w hw).1, ?_⟩, ?_⟩
      · obtain ⟨u, hu, hub⟩ := (h1 w hw).2
        exact ⟨u, List.mem_cons_of_mem _ hu, hub⟩
      · intro u hu b hub
        rcases List.mem_cons.1 hu with rfl | hu
        · rw [hb] at hub; cases hub
        · exact h2 u hu b hub
    | some b =>
      simp only [hb] at h
      cases hg : bbGet rd e b with
      | none => simp [hg] at h
      | some pa =>
        simp only [hg] at h
        cases hr : bbPrios rd e s ts with
        | none => simp [hr] at h
        | some r =>
          simp only [hr, Option.some.injEq] at h
          obtain ⟨h1, h2⟩ := ih hr
          subst h
          constructor
          · intro w hw
            rcases List.mem_cons.1 hw with rfl | hw
            · refine ⟨?_, t, by simp, hb⟩
              dsimp only
              split
              · omega
              · split <;> omega
            · obtain ⟨u, hu, hub⟩ := (h1 w hw).2
              exact ⟨(h1 w hw).1, u, List.mem_cons_of_mem _ hu, hub⟩
          · intro u hu b' hub
            rcases List.mem_cons.1 hu with rfl | hu
            · rw [hb] at hub
              cases hub
              rw [hg]; simp
            · exact h2 u hu b' hub

theorem attempts_lt {a : Int} (h : a < 2 ^ 31) : attemptsOr3 a < 2 ^ 32 := by
  unfold attemptsOr3
  split <;> omega

/-- a call is for one slot, or for slots all of whose variables exist -/
theorem bbTxns_shape {cfg : Cfg} (hc : cfg.WF) {slots rd} {e : BbEnv} {r : Req} {ts} (h : (barebox cfg).txns rd slots e r = some ts)
    (hn : NoEq slots) (hr : r.slot ∈ slots) :
    ∃ ws, ts = [ws] ∧ (∀ w ∈ ws, SetOk w) ∧
      ((∃ bn, ∀ w ∈ ws, w.bn = bn) ∨ ∀ w ∈ ws, e w.bn ≠ none) := by
  cases r with
  | setState s g =>
    simp only [Backend.txns, bbSetState] at h
    cases hb : s.bootname with
    | none => simp [hb] at h
    | some b =>
      have hnb := hn s hr b hb
      simp only [hb] at h
      cases g with
      | true =>
        simp only [if_true, Option.some.injEq] at h
        subst h
        refine ⟨_, rfl, ?_, Or.inl ⟨b, ?_⟩⟩
        · simp only [List.mem_singleton, forall_eq]
          exact ⟨hnb, attempts_lt hc.1⟩
        · simp
      | false =>
        simp only [Bool.false_eq_true, if_false, Option.some.injEq] at h
        subst h
        refine ⟨_, rfl, ?_, Or.inl ⟨b, ?_⟩⟩
        · simp only [List.mem_cons, List.not_mem_nil, or_false, forall_eq_or_imp, forall_eq]
          exact ⟨⟨hnb, by show 0 < 2 ^ 32; decide⟩, ⟨hnb, by show 0 < 2 ^ 32; decide⟩⟩
        · simp
  | setPrimary s =>
    simp only [Backend.txns, bbSetPrimary] at h
    cases hb : s.bootname with
    | none => simp [hb] at h
    | some b =>
      simp only [hb] at h
      cases hp : bbPrios rd e s slots with
      | none => simp [hp] at h
      | some ps =>
        simp only [hp, Option.some.injEq] at h
        obtain ⟨h1, h2⟩ := bbPrios_mem slots hp
        have hex : ∀ t ∈ slots, ∀ b, t.bootname = some b → e b ≠ none := by
          intro t ht b' hb' he
          apply h2 t ht b' hb'
          simp [bbGet, he]
        subst h
        refine ⟨_, rfl, ?_, Or.inr ?_⟩
        · intro w hw
          rcases List.mem_append.1 hw with hw | hw
          · obtain ⟨hv, t, ht, htb⟩ := h1 w hw
            exact ⟨hn t ht _ htb, by omega⟩
          · simp only [List.mem_singleton] at hw
            subst hw
            exact ⟨hn s hr b hb, attempts_lt hc.2⟩
        · intro w hw
          rcases List.mem_append.1 hw with hw | hw
          · obtain ⟨_, t, ht, htb⟩ := h1 w hw
            exact hex t ht _ htb
          · simp only [List.mem_singleton] at hw
            subst hw
            exact hex s hr b hb

theorem bbAbs_put (vars : BbVars) (w : BbSet) (h : (vars (bbName w)).isSome) :
    bbAbs (bbPut vars (bbName w, w.val)) = bbSet1 (bbAbs vars) w := by
  obtain ⟨x, hx⟩ := Option.isSome_iff_exists.1 h
  funext b
  cases w with
  | mk bn v n =>
    cases v with
    | prio =>
      simp only [bbName] at hx ⊢
      unfold bbAbs bbSet1 bbPut
      simp only
      by_cases hb : b = bn
      · subst hb
        simp only [if_true, hx, if_neg (bbPrio_ne_att b b).symm]
        cases vars (bbAtt b) <;> rfl
      · simp only [if_neg (fun hh => hb (bbPrio_inj hh)), if_neg (bbPrio_ne_att bn b).symm, if_neg hb]
    | attempts =>
      simp only [bbName] at hx ⊢
      unfold bbAbs bbSet1 bbPut
      simp only
      by_cases hb : b = bn
      · subst hb
        simp only [if_true, hx, if_neg (bbPrio_ne_att b b)]
        cases vars (bbPrio b) <;> rfl
      · simp only [if_neg (fun hh => hb (bbAtt_inj hh)), if_neg (bbPrio_ne_att b bn), if_neg hb]

theorem bbAbs_puts (vars : BbVars) (ws : List BbSet) (h : ∀ w ∈ ws, (vars (bbName w)).isSome) :
    bbAbs ((ws.map (fun w => (bbName w, w.val))).foldl bbPut vars) = ws.foldl bbSet1 (bbAbs vars) := by
  induction ws generalizing vars with
  | nil => rfl
  | cons w ws ih =>
    simp only [List.map_cons, List.foldl_cons]
    rw [ih _ ?_, bbAbs_put vars w (h w (by simp))]
    intro x hx
    have := h x (List.mem_cons_of_mem _ hx)
    unfold bbPut
    split
    · rfl
    · exact this

theorem bbSet1_missing (e : BbEnv) (bn : Str) (h : e bn = none) (ws : List BbSet) (hw : ∀ w ∈ ws, w.bn = bn) : ws.foldl bbSet1 e = e := by
  induction ws with
  | nil => rfl
  | cons w ws ih =>
    have h1 : bbSet1 e w = e := by
      funext b
      unfold bbSet1
      have := hw w (by simp)
      by_cases hb : b = w.bn
      · rw [if_pos hb]
        rw [this] at hb
        rw [hb, h]
      · rw [if_neg hb]
    simp only [List.foldl_cons, h1]
    exact ih (fun x hx => hw x (List.mem_cons_of_mem _ hx))

theorem put_lt {vars : BbVars} (hv : ∀ k n, vars k = some n → n < 2 ^ 32) (ws : List BbSet) (hw : ∀ w ∈ ws, SetOk w) :
    ∀ k n, (ws.map (fun w => (bbName w, w.val))).foldl bbPut vars k = some n → n < 2 ^ 32 := by
  induction ws generalizing vars with
  | nil => exact hv
  | cons w ws ih =>
    simp only [List.map_cons, List.foldl_cons]
    apply ih
    · intro k n hk
      unfold bbPut at hk
      split at hk
      · simp only [Option.some.injEq] at hk
        rw [← hk]; exact (hw w (by simp)).2
      · exact hv k n hk
    · exact fun x hx => hw x (List.mem_cons_of_mem _ hx)

theorem bbName_missing {vars : BbVars} {w : BbSet} (h : ¬ (vars (bbName w)).isSome) : bbAbs vars w.bn = none := by
  have hn : vars (bbName w) = none := by simpa using h
  unfold bbAbs
  cases w with
  | mk b v n =>
    cases v with
    | prio => simp only [bbName] at hn; simp only [hn]
    | attempts => simp only [bbName] at hn; simp only [hn]; cases vars (bbPrio b) <;> rfl

theorem bbTool_eq (o : BbOpts) (vars : BbVars) (ws : List BbSet) (hok : ∀ w ∈ ws, SetOk w)
    (hsh : (∃ bn, ∀ w ∈ ws, w.bn = bn) ∨ ∀ w ∈ ws, bbAbs vars w.bn ≠ none) (hv : ∀ k n, vars k = some n → n < 2 ^ 32) :
    (∀ k n, bbTool vars (bbSetArgv o ws) k = some n → n < 2 ^ 32) ∧
    bbAbs (bbTool vars (bbSetArgv o ws)) = bbApp (bbAbs vars) ws := by
  unfold bbTool bbApp
  rw [options_set o ws hok]
  simp only
  split
  · rename_i hall
    refine ⟨put_lt hv ws hok, bbAbs_puts vars ws ?_⟩
    intro w hw
    exact List.all_eq_true.1 hall (bbName w, w.val) (List.mem_map_of_mem hw)
  · rename_i hall
    refine ⟨hv, ?_⟩
    have hex : ∃ w ∈ ws, ¬ (vars (bbName w)).isSome := by
      apply Decidable.not_not.1
      intro hno
      apply hall
      rw [List.all_eq_true]
      intro x hx
      obtain ⟨w, hw, rfl⟩ := List.mem_map.1 hx
      exact Decidable.not_not.1 (fun hh => hno ⟨w, hw, hh⟩)
    obtain ⟨w, hw, hm⟩ := hex
    have hmiss := bbName_missing hm
    rcases hsh with ⟨bn, hbn⟩ | hsh
    · rw [hbn w hw] at hmiss
      rw [bbSet1_missing _ bn hmiss ws hbn]
    · exact absurd hmiss (hsh w hw)

/-- the boot names contain no `=` and the variables are 32 bit numbers -/
def BbWf (slots : List Slot) (vars : BbVars) : Prop := NoEq slots ∧ ∀ k n, vars k = some n → n < 2 ^ 32

/-- the name behind a variable of the device tree -/
def bbUnname (k : Str) (n : Nat) : BbSet :=
  if c!".priority".isSuffixOf k then ⟨(k.drop 10).take (k.length - 19), .prio, n⟩
  else ⟨(k.drop 10).take (k.length - 29), .attempts, n⟩

theorem bbUnname_name (w : BbSet) : bbUnname (bbName w) w.val = w := by
  cases w with
  | mk b v n =>
    cases v with
    | prio =>
      have h1 : (c!".priority").isSuffixOf (bbPrio b) = true := by
        rw [List.isSuffixOf_iff_suffix]; exact ⟨c!"bootstate." ++ b, rfl⟩
      simp only [bbName, bbUnname, h1, if_true, BbSet.mk.injEq, and_true]
      have hl : (bbPrio b).length = b.length + 19 := by simp [bbPrio]
      rw [hl]
      unfold bbPrio
      rw [List.append_assoc, List.drop_left' (by rfl)]
      exact List.take_left' (by omega)
    | attempts =>
      have h1 : (c!".priority").isSuffixOf (bbAtt b) = false := by
        apply Bool.eq_false_iff.2
        rw [ne_eq, List.isSuffixOf_iff_suffix]
        rintro ⟨t, ht⟩
        have := congrArg List.getLast? ht
        unfold bbAtt at this
        rw [List.getLast?_append, List.getLast?_append] at this
        simp at this
      simp only [bbName, bbUnname, h1, Bool.false_eq_true, if_false, BbSet.mk.injEq, and_true]
      have hl : (bbAtt b).length = b.length + 29 := by simp [bbAtt]
      rw [hl]
      unfold bbAtt
      rw [List.append_assoc, List.drop_left' (by rfl)]
      exact List.take_left' (by omega)

/-- the assignments of an argument vector of `barebox-state` -/
def bbTx (argv : List Str) : List BbSet :=
  match bbOptions (argv.drop 1) with
  | some (_, s) => s.map (fun w => bbUnname w.1 w.2)
  | none => []

theorem bbTx_argv (o : BbOpts) (ws : List BbSet) (h : ∀ w ∈ ws, SetOk w) : bbTx (bbSetArgv o ws) = ws := by
  unfold bbTx
  rw [options_set o ws h]
  simp only [List.map_map]
  conv => rhs; rw [← List.map_id ws]
  exact List.map_congr_left (fun w _ => bbUnname_name w)

/-- barebox with its tool behaves as the abstract backend -/
def bareboxSim (cfg : Cfg) (hc : cfg.WF) (o : BbOpts) : Sim (bareboxT cfg o) (barebox cfg) where
  abs := bbAbs
  tx := fun _ => bbTx
  wf := BbWf
  getState := fun _ vars rd s hw _ => bbGetState_congr (bb_bbGet o rd vars hw.2) s
  getPrimary := fun slots vars rd hw => bbGetPrimary_congr (bb_bbGet o rd vars hw.2) slots
  txns := by
    intro slots _ vars rd r ts hw hr h
    rw [bareboxT_txns cfg o slots vars hw.2, Option.map_eq_some_iff] at h
    obtain ⟨ws, hws, rfl⟩ := h
    obtain ⟨w, rfl, hok, _⟩ := bbTxns_shape hc hws hw.1 hr
    simp only [List.map_cons, List.map_nil]
    rw [bbTx_argv o w hok]
    exact hws
  step := by
    intro slots _ vars rd r ts n hw hr h
    rw [bareboxT_txns cfg o slots vars hw.2, Option.map_eq_some_iff] at h
    obtain ⟨ws, hws, rfl⟩ := h
    obtain ⟨w, rfl, hok, hsh⟩ := bbTxns_shape hc hws hw.1 hr
    simp only [List.map_cons, List.map_nil]
    rw [bbTx_argv o w hok]
    cases n with
    | zero => exact ⟨hw, rfl⟩
    | succ n =>
      obtain ⟨h1, h2⟩ := bbTool_eq o vars w hok hsh hw.2
      exact ⟨⟨hw.1, by simpa [Backend.appAll] using h1⟩, by simpa [Backend.appAll] using h2⟩

end Rauc.BootText
