import Verif.Model.BootText
import Verif.Props.BootSim
import Verif.Props.BootCustom
import Verif.Props.BootCrash
import Verif.Props.BootMark

/-!
# C64: command lines and output of the boot loader tools (U-Boot, GRUB)
-/

namespace Rauc.BootText
open Rauc.Boot

theorem isPrefixOf_append (p r : Str) : p.isPrefixOf (p ++ r) = true := by simp

theorem kvGet_all (e : KvEnv) (h : ∀ k v, e k = some v → chomp v = v) : kvGet (fun _ => true) e = e := by
  funext k
  unfold kvGet
  simp only [if_true]
  cases hk : e k with
  | none => rfl
  | some v => simp [h k v hk]

/-! ## U-Boot -/

/-- `uboot_env_get` succeeds exactly if the tool does and its output starts with `KEY=` -/
theorem ubootEnvGet_iff (key v : Str) (r : Run) :
    ubootEnvGet key r = some v ↔ ∃ body, r = .exited 0 (key ++ c!"=" ++ body) ∧ v = chomp body := by
  cases r with
  | failed => simp [ubootEnvGet]
  | exited code out =>
    simp only [ubootEnvGet]
    split
    · rename_i h
      simp only [reduceCtorEq, Run.exited.injEq, false_iff, not_exists]
      rintro b ⟨⟨h', _⟩, _⟩
      exact h h'
    · rename_i h
      have h0 : code = 0 := by omega
      subst h0
      split
      · rename_i hp
        rw [List.isPrefixOf_iff_prefix] at hp
        obtain ⟨b, rfl⟩ := hp
        simp only [List.drop_left', Option.some.injEq, Run.exited.injEq, true_and]
        constructor
        · intro e; exact ⟨b, rfl, e.symm⟩
        · rintro ⟨b', hb, rfl⟩; rw [List.append_cancel_left hb]
      · rename_i hp
        simp only [reduceCtorEq, Run.exited.injEq, true_and, false_iff, not_exists]
        rintro b ⟨rfl, _⟩
        exact hp (isPrefixOf_append _ _)

theorem ubootRead_eq (rd : Str → Bool) (env : KvEnv) : ubootRead rd env = kvGet rd env := by
  funext k
  unfold ubootRead kvGet runIf
  cases rd k with
  | false => rfl
  | true =>
    simp only [if_true, fwPrintenv, ubootGetArgv]
    cases hv : env k with
    | none => simp [ubootEnvGet]
    | some v =>
      simp only [Option.map_some]
      rw [ubootEnvGet_iff]
      exact ⟨v ++ c!"\n", by simp, (BootCustom.chomp_newline v).symm⟩

theorem kvGet_chomped (rd : Str → Bool) (env : KvEnv) (k v : Str) (h : kvGet rd env k = some v) : chomp v = v := by
  unfold kvGet at h
  split at h
  · cases hk : env k with
    | none => simp [hk] at h
    | some x => simp only [hk, Option.map_some, Option.some.injEq] at h; rw [← h, chomp_idem]
  · cases h

/-- reading through the tool is reading the variables -/
theorem uboot_kvGet (rd : Str → Bool) (env : KvEnv) : kvGet (fun _ => true) (ubootRead rd env) = kvGet rd env := by
  rw [kvGet_all _ (fun k v h => kvGet_chomped rd env k v (by rwa [ubootRead_eq] at h)), ubootRead_eq]

theorem ubootTry_congr {rd rd' : Str → Bool} {e e' : KvEnv} (h : kvGet rd e = kvGet rd' e') (tok : Str) (slots : List Slot) :
    ubootTry rd e tok slots = ubootTry rd' e' tok slots := by
  induction slots with
  | nil => rfl
  | cons s ss ih => simp only [ubootTry, h, ih]

theorem ubootScan_congr {rd rd' : Str → Bool} {e e' : KvEnv} (h : kvGet rd e = kvGet rd' e') (slots : List Slot) (toks : List Str) :
    ubootScan rd e slots toks = ubootScan rd' e' slots toks := by
  induction toks with
  | nil => rfl
  | cons t ts ih => simp only [ubootScan, ubootTry_congr h, ih]

theorem ubootGetState_congr {rd rd' : Str → Bool} {e e' : KvEnv} (h : kvGet rd e = kvGet rd' e') (s : Slot) :
    ubootGetState rd e s = ubootGetState rd' e' s := by
  simp only [ubootGetState, h]

theorem ubootGetPrimary_congr {rd rd' : Str → Bool} {e e' : KvEnv} (h : kvGet rd e = kvGet rd' e') (slots : List Slot) :
    ubootGetPrimary rd slots e = ubootGetPrimary rd' slots e' := by
  simp only [ubootGetPrimary, h, ubootScan_congr h]

theorem ubootSetState_congr {rd rd' : Str → Bool} {e e' : KvEnv} (h : kvGet rd e = kvGet rd' e') (cfg : Cfg) (s : Slot) (g : Bool) :
    ubootSetState cfg rd e s g = ubootSetState cfg rd' e' s g := by
  simp only [ubootSetState, h]

theorem ubootSetPrimary_congr {rd rd' : Str → Bool} {e e' : KvEnv} (h : kvGet rd e = kvGet rd' e') (cfg : Cfg) (slots : List Slot)
    (s : Slot) : ubootSetPrimary cfg rd slots e s = ubootSetPrimary cfg rd' slots e' s := by
  simp only [ubootSetPrimary, h]

/-- no boot name contains `=` -/
def NoEq (slots : List Slot) : Prop := ∀ s ∈ slots, ∀ b, s.bootname = some b → '=' ∉ b

/-- the variable named by an argument vector of `fw_setenv` -/
def ubootTx : List Str → Str × Str
  | [_, k, v] => (k, v)
  | _ => ([], [])

/-- the vectors are those of U-Boot environment writes to variables without `=` -/
theorem ubootTxns_keys {cfg slots rd env r ts} (h : (uboot cfg).txns rd slots env r = some ts)
    (hn : NoEq slots) (hr : r.slot ∈ slots) : ∀ w ∈ ts, '=' ∉ w.1 := by
  have hleft : ∀ b, '=' ∉ b → '=' ∉ kLeft b := by
    intro b hb
    unfold kLeft
    simp [hb]
  cases r with
  | setState s g =>
    simp only [Backend.txns, ubootSetState] at h
    cases hb : s.bootname with
    | none => simp [hb] at h
    | some b =>
      have hlb := hleft b (hn s hr b hb)
      simp only [hb] at h
      cases g with
      | true =>
        simp only [if_true, Option.some.injEq] at h
        subst h; simpa using hlb
      | false =>
        simp only [Bool.false_eq_true, if_false] at h
        split at h
        all_goals
          simp only [Option.some.injEq] at h
          subst h
        · simpa using hlb
        · intro w hw
          simp only [List.mem_cons, List.not_mem_nil, or_false] at hw
          rcases hw with rfl | rfl
          · show '=' ∉ kOrder
            decide
          · exact hlb
  | setPrimary s =>
    simp only [Backend.txns, ubootSetPrimary] at h
    cases hb : s.bootname with
    | none => simp [hb] at h
    | some b =>
      have hlb := hleft b (hn s hr b hb)
      simp only [hb, Option.some.injEq] at h
      subst h
      intro w hw
      simp only [List.mem_cons, List.not_mem_nil, or_false] at hw
      rcases hw with rfl | rfl
      · exact hlb
      · show '=' ∉ kOrder
        decide

theorem ubootT_txns (cfg : Cfg) (slots : List Slot) (env : KvEnv) (rd : Str → Bool) (r : Req) :
    (ubootT cfg).txns rd slots env r = ((uboot cfg).txns rd slots env r).map (List.map ubootSetArgv) := by
  cases r with
  | setState s g => simp only [Backend.txns]; rw [ubootSetState_congr (uboot_kvGet rd env)]
  | setPrimary s => simp only [Backend.txns]; rw [ubootSetPrimary_congr (uboot_kvGet rd env)]

theorem map_ubootTx (ws : List (Str × Str)) : (ws.map ubootSetArgv).map ubootTx = ws := by
  rw [List.map_map]
  conv => rhs; rw [← List.map_id ws]
  exact List.map_congr_left (fun w _ => rfl)

theorem fwSetenv_all (env : KvEnv) (ws : List (Str × Str)) (h : ∀ w ∈ ws, '=' ∉ w.1) :
    (ws.map ubootSetArgv).foldl fwSetenv env = ws.foldl ubootApp env := by
  induction ws generalizing env with
  | nil => rfl
  | cons w ws ih =>
    simp only [List.map_cons, List.foldl_cons]
    rw [← ih _ (fun x hx => h x (List.mem_cons_of_mem _ hx))]
    congr 1
    simp [fwSetenv, ubootSetArgv, h w (by simp)]

/-- U-Boot with its tools behaves as the abstract backend -/
def ubootSim (cfg : Cfg) : Sim (ubootT cfg) (uboot cfg) where
  abs := id
  tx := fun _ => ubootTx
  wf := fun slots _ => NoEq slots
  getState := fun _ env rd s _ _ => ubootGetState_congr (uboot_kvGet rd env) s
  getPrimary := fun slots env rd _ => ubootGetPrimary_congr (uboot_kvGet rd env) slots
  txns := by
    intro slots _ env rd r ts _ _ h
    rw [ubootT_txns, Option.map_eq_some_iff] at h
    obtain ⟨ws, hws, rfl⟩ := h
    rw [map_ubootTx]
    exact hws
  step := by
    intro slots _ env rd r ts n hw hr h
    rw [ubootT_txns, Option.map_eq_some_iff] at h
    obtain ⟨ws, hws, rfl⟩ := h
    refine ⟨hw, ?_⟩
    rw [map_ubootTx]
    show (((ws.map ubootSetArgv).take n).foldl fwSetenv env) = (ws.take n).foldl ubootApp env
    rw [← List.map_take, fwSetenv_all]
    exact fun w hm => ubootTxns_keys hws hw hr w (List.mem_of_mem_take hm)

/-! ## GRUB -/

theorem splitEq_pair (w : Str × Str) (h : '=' ∉ w.1) : splitEq (grubPair w) = some w := by
  obtain ⟨k, v⟩ := w
  unfold grubPair
  induction k with
  | nil => simp [splitEq]
  | cons c cs ih =>
    have hc : c ≠ '=' := fun e => h (by simp [e])
    have := ih (fun hm => h (List.mem_cons_of_mem _ hm))
    simp only [List.cons_append, splitEq, if_neg hc] at this ⊢
    rw [this]

theorem mapM_splitEq (ws : List (Str × Str)) (h : ∀ w ∈ ws, '=' ∉ w.1) : (ws.map grubPair).mapM splitEq = some ws := by
  induction ws with
  | nil => rfl
  | cons w ws ih =>
    simp only [List.map_cons, List.mapM_cons, splitEq_pair w (h w (by simp)), ih (fun x hx => h x (List.mem_cons_of_mem _ hx))]
    rfl

theorem grubTool_argv (path : Str) (vars : GrubVars) (ws : List (Str × Str)) (h : ∀ w ∈ ws, '=' ∉ w.1) :
    grubTool vars (grubSetArgv path ws) = ws.foldl grubPut vars := by
  simp only [grubTool, grubSetArgv, List.cons_append, List.nil_append, mapM_splitEq ws h]

theorem lookup_put (vars : GrubVars) (w : Str × Str) : grubLookup (grubPut vars w) = kvSet (grubLookup vars) w.1 (some w.2) := by
  funext k
  induction vars with
  | nil =>
    unfold grubLookup kvSet
    by_cases h : k = w.1
    · subst h; simp [grubPut]
    · simp [grubPut, h, Ne.symm h]
  | cons x xs ih =>
    unfold grubLookup kvSet at ih ⊢
    by_cases hx : x.1 = w.1
    · by_cases h : k = w.1
      · subst h; simp [grubPut, hx]
      · simp [grubPut, hx, h, Ne.symm h]
    · by_cases hk : x.1 = k
      · subst hk; simp [grubPut, hx]
      · simp only [grubPut, if_neg hx, List.find?_cons] at ih ⊢
        have hb : (x.1 == k) = false := by simpa using hk
        simp only [hb]
        exact ih

theorem lookup_tool (vars : GrubVars) (ws : List (Str × Str)) : grubLookup (ws.foldl grubPut vars) = grubApp (grubLookup vars) ws := by
  induction ws generalizing vars with
  | nil => rfl
  | cons w ws ih =>
    simp only [List.foldl_cons, ih]
    rw [lookup_put]
    simp [grubApp]

/-- a variable as GRUB tools store it: no `=` in the name, no line feed -/
def VarOk (w : Str × Str) : Prop := '=' ∉ w.1 ∧ '\n' ∉ w.1 ∧ '\n' ∉ w.2

theorem put_mem {vars : GrubVars} {w x : Str × Str} (h : x ∈ grubPut vars w) : x = w ∨ x ∈ vars := by
  induction vars with
  | nil => simp only [grubPut, List.mem_singleton] at h; exact Or.inl h
  | cons y ys ih =>
    simp only [grubPut] at h
    split at h
    · rcases List.mem_cons.1 h with rfl | h
      · exact Or.inl rfl
      · exact Or.inr (List.mem_cons_of_mem _ h)
    · rcases List.mem_cons.1 h with rfl | h
      · exact Or.inr (by simp)
      · rcases ih h with h | h
        · exact Or.inl h
        · exact Or.inr (List.mem_cons_of_mem _ h)

theorem tool_ok {vars : GrubVars} {ws : List (Str × Str)} (hv : ∀ x ∈ vars, VarOk x) (hw : ∀ w ∈ ws, VarOk w) :
    ∀ x ∈ ws.foldl grubPut vars, VarOk x := by
  induction ws generalizing vars with
  | nil => exact hv
  | cons w ws ih =>
    apply ih
    · intro x hx
      rcases put_mem hx with rfl | hx
      · exact hw _ (by simp)
      · exact hv x hx
    · exact fun x hx => hw x (List.mem_cons_of_mem _ hx)

/-- the lines of `grub-editenv list` -/
theorem list_lines (vars : GrubVars) (h : ∀ x ∈ vars, VarOk x) :
    splitAux '\n' [] ((vars.map (fun w => grubPair w ++ c!"\n")).flatten) = vars.map grubPair ++ [[]] := by
  induction vars with
  | nil => rfl
  | cons w ws ih =>
    have hw := h w (by simp)
    have hp : '\n' ∉ grubPair w := by
      unfold grubPair
      simp only [List.mem_append, List.mem_singleton, not_or]
      exact ⟨⟨hw.2.1, by decide⟩, hw.2.2⟩
    simp only [List.map_cons, List.flatten_cons, List.append_assoc, List.cons_append, List.nil_append]
    rw [splitAux_delim '\n' _ [] _ hp, ih (fun x hx => h x (List.mem_cons_of_mem _ hx))]
    simp

theorem prefix_pair {k : Str} {w : Str × Str} (hk : '=' ∉ k) (hw : '=' ∉ w.1) :
    (k ++ c!"=").isPrefixOf (grubPair w) = true ↔ w.1 = k := by
  rw [List.isPrefixOf_iff_prefix]
  constructor
  · rintro ⟨b, hb⟩
    unfold grubPair at hb
    have h1 := splitEq_pair (k, b) hk
    have h2 := splitEq_pair w hw
    unfold grubPair at h1 h2
    rw [← hb, h1] at h2
    simp only [Option.some.injEq] at h2
    rw [← h2]
  · rintro rfl
    exact ⟨w.2, rfl⟩

theorem grubFind_vars (k : Str) (hk : '=' ∉ k) (vars : GrubVars) (h : ∀ x ∈ vars, VarOk x) (tail : List Str) (ht : ∀ l ∈ tail, l = []) :
    grubFind k (vars.map grubPair ++ tail) = (grubLookup vars k).map chomp := by
  induction vars with
  | nil =>
    simp only [List.map_nil, List.nil_append, grubLookup, List.find?_nil, Option.map_none]
    induction tail with
    | nil => rfl
    | cons l ls ih =>
      have := ht l (by simp)
      subst this
      rw [grubFind, if_neg, ih (fun x hx => ht x (List.mem_cons_of_mem _ hx))]
      cases k <;> simp [List.isPrefixOf]
  | cons w ws ih =>
    have hw := h w (by simp)
    have ih' := ih (fun x hx => h x (List.mem_cons_of_mem _ hx))
    simp only [List.map_cons, List.cons_append, grubFind]
    by_cases he : w.1 = k
    · rw [if_pos ((prefix_pair hk hw.1).2 he)]
      subst he
      simp [grubLookup, grubPair]
    · rw [if_neg (fun hp => he ((prefix_pair hk hw.1).1 hp)), ih']
      simp [grubLookup, he]

/-- reading through the tool is reading the variables -/
theorem grubRead_eq (rd : Str → Bool) (vars : GrubVars) (h : ∀ x ∈ vars, VarOk x) (k : Str) (hk : '=' ∉ k) :
    grubRead rd vars k = kvGet rd (grubLookup vars) k := by
  unfold grubRead runIf kvGet
  cases rd k with
  | false => rfl
  | true =>
    simp only [if_true, grubList, grubEnvGet, ne_eq, not_true_eq_false, if_false]
    cases vars with
    | nil => simp [split, grubFind, grubLookup]
    | cons w ws =>
      rw [split_eq _ _ (by simp [grubPair]), list_lines _ h]
      exact grubFind_vars k hk _ h _ (by simp)

/-- `grub_env_get` succeeds exactly if the tool does and prints a line starting with `KEY=`; the first one counts -/
theorem grubEnvGet_iff (key v : Str) (r : Run) :
    grubEnvGet key r = some v ↔ ∃ out pre body post, r = .exited 0 out ∧ split '\n' out = pre ++ (key ++ c!"=" ++ body) :: post ∧
      (∀ l ∈ pre, ¬ (key ++ c!"=") <+: l) ∧ v = chomp body := by
  have hf : ∀ ls, grubFind key ls = some v ↔ ∃ pre body post, ls = pre ++ (key ++ c!"=" ++ body) :: post ∧
      (∀ l ∈ pre, ¬ (key ++ c!"=") <+: l) ∧ v = chomp body := by
    intro ls
    induction ls with
    | nil => simp [grubFind]
    | cons l ls ih =>
      rw [grubFind]
      split
      · rename_i hp
        rw [List.isPrefixOf_iff_prefix] at hp
        obtain ⟨b, rfl⟩ := hp
        simp only [List.drop_left', Option.some.injEq]
        constructor
        · rintro rfl; exact ⟨[], b, ls, rfl, by simp, rfl⟩
        · rintro ⟨pre, b', post, he, hn, rfl⟩
          cases pre with
          | nil =>
            simp only [List.nil_append, List.cons.injEq] at he
            rw [List.append_cancel_left he.1]
          | cons p ps =>
            simp only [List.cons_append, List.cons.injEq] at he
            exact absurd ⟨b, he.1⟩ (hn p (by simp))
      · rename_i hp
        rw [List.isPrefixOf_iff_prefix] at hp
        rw [ih]
        constructor
        · rintro ⟨pre, b, post, rfl, hn, hv⟩
          exact ⟨l :: pre, b, post, rfl, by simpa using ⟨by simpa using hp, by simpa using hn⟩, hv⟩
        · rintro ⟨pre, b, post, he, hn, hv⟩
          cases pre with
          | nil =>
            simp only [List.nil_append, List.cons.injEq] at he
            exact absurd ⟨b, he.1.symm⟩ hp
          | cons p ps =>
            simp only [List.cons_append, List.cons.injEq] at he
            exact ⟨ps, b, post, he.2, fun x hx => hn x (List.mem_cons_of_mem _ hx), hv⟩
  cases r with
  | failed => simp [grubEnvGet]
  | exited code out =>
    unfold grubEnvGet
    by_cases hc : code = 0
    · subst hc
      simp only [ne_eq, not_true_eq_false, if_false]
      rw [hf]
      constructor
      · rintro ⟨pre, b, post, h⟩; exact ⟨out, pre, b, post, rfl, h⟩
      · rintro ⟨out', pre, b, post, he, h⟩
        simp only [Run.exited.injEq, true_and] at he
        subst he
        exact ⟨pre, b, post, h⟩
    · simp only [ne_eq, hc, not_false_eq_true, if_true, reduceCtorEq, Run.exited.injEq, false_and, exists_const]

theorem grub_kvGet (rd : Str → Bool) (vars : GrubVars) (h : ∀ x ∈ vars, VarOk x) (k : Str) (hk : '=' ∉ k) :
    kvGet (fun _ => true) (grubRead rd vars) k = kvGet rd (grubLookup vars) k := by
  have := grubRead_eq rd vars h k hk
  conv => lhs; unfold kvGet
  simp only [if_true, this]
  cases hv : kvGet rd (grubLookup vars) k with
  | none => rfl
  | some v => simp [kvGet_chomped _ _ _ _ hv]

/-- two environments which look the same through names without `=` -/
def Agree (rd rd' : Str → Bool) (e e' : KvEnv) : Prop := ∀ k, '=' ∉ k → kvGet rd e k = kvGet rd' e' k

theorem gOk_noeq {b : Str} (h : '=' ∉ b) : '=' ∉ gOk b := by unfold gOk; simp [h]
theorem gTry_noeq {b : Str} (h : '=' ∉ b) : '=' ∉ gTry b := by unfold gTry; simp [h]

theorem grubTry_congr {rd rd' : Str → Bool} {e e' : KvEnv} (h : Agree rd rd' e e') (tok : Str) (slots : List Slot) (hn : NoEq slots) :
    grubTry rd e tok slots = grubTry rd' e' tok slots := by
  induction slots with
  | nil => rfl
  | cons s ss ih =>
    have ih' := ih (fun t ht => hn t (List.mem_cons_of_mem _ ht))
    simp only [grubTry]
    by_cases hb : s.bootname = some tok
    · have ht := hn s (by simp) tok hb
      simp only [hb, if_true, h _ (gOk_noeq ht), h _ (gTry_noeq ht), ih']
    · simp only [hb, if_false, ih']

theorem grubScan_congr {rd rd' : Str → Bool} {e e' : KvEnv} (h : Agree rd rd' e e') (slots : List Slot) (hn : NoEq slots) (toks : List Str) :
    grubScan rd e slots toks = grubScan rd' e' slots toks := by
  induction toks with
  | nil => rfl
  | cons t ts ih => simp only [grubScan, grubTry_congr h t slots hn, ih]

theorem grubGetPrimary_congr {rd rd' : Str → Bool} {e e' : KvEnv} (h : Agree rd rd' e e') (slots : List Slot) (hn : NoEq slots) :
    grubGetPrimary rd slots e = grubGetPrimary rd' slots e' := by
  simp only [grubGetPrimary, h gOrder (by decide), grubScan_congr h slots hn]

theorem grubGetState_congr {rd rd' : Str → Bool} {e e' : KvEnv} (h : Agree rd rd' e e') (s : Slot) (hn : ∀ b, s.bootname = some b → '=' ∉ b) :
    grubGetState rd e s = grubGetState rd' e' s := by
  unfold grubGetState
  cases hb : s.bootname with
  | none => rfl
  | some b => simp only [h gOrder (by decide), h _ (gOk_noeq (hn b hb)), h _ (gTry_noeq (hn b hb))]

/-- the assignments of an argument vector of `grub-editenv` -/
def grubTx (argv : List Str) : List (Str × Str) := ((argv.drop 3).mapM splitEq).getD []

theorem join_no {d c : Char} (hd : c ≠ d) (ts : List Str) (h : ∀ t ∈ ts, c ∉ t) : c ∉ join d ts := by
  induction ts with
  | nil => simp [join]
  | cons t ts ih =>
    cases ts with
    | nil => simpa [join] using h t (by simp)
    | cons u us =>
      simp only [join, List.mem_append, List.mem_cons, not_or]
      refine ⟨h t (by simp), hd, ih (fun x hx => h x (List.mem_cons_of_mem _ hx))⟩

/-- the variables RAUC writes can be stored -/
theorem grubTxns_ok {slots rd env r ts} (h : grub.txns rd slots env r = some ts) (hwf : SlotsWF slots)
    (hn : NoEq slots) (hr : r.slot ∈ slots) : ∀ ws ∈ ts, ∀ w ∈ ws, VarOk w := by
  have hnl : ∀ t ∈ slots, ∀ b, t.bootname = some b → '\n' ∉ b := by
    intro t ht b hb hm
    have := (hwf.bootname_ok t ht b hb).2 _ hm
    exact absurd this (by decide)
  have hok : ∀ t ∈ slots, ∀ b, t.bootname = some b → VarOk (gOk b, c!"1") ∧ VarOk (gOk b, c!"0") ∧ VarOk (gTry b, c!"0") := by
    intro t ht b hb
    have h1 := hn t ht b hb
    have h2 := hnl t ht b hb
    have h3 : '\n' ∉ gOk b := by unfold gOk; simp [h2]
    have h4 : '\n' ∉ gTry b := by unfold gTry; simp [h2]
    exact ⟨⟨gOk_noeq h1, h3, by simp⟩, ⟨gOk_noeq h1, h3, by simp⟩, ⟨gTry_noeq h1, h4, by simp⟩⟩
  cases r with
  | setState s g =>
    simp only [Backend.txns, grubSetState] at h
    cases hb : s.bootname with
    | none => simp [hb] at h
    | some b =>
      obtain ⟨o1, o2, o3⟩ := hok s hr b hb
      simp only [hb] at h
      cases g
      all_goals
        simp only [if_true, Bool.false_eq_true, if_false, Option.some.injEq] at h
        subst h
        simp only [List.mem_cons, List.not_mem_nil, or_false, forall_eq_or_imp, forall_eq]
      · exact ⟨o2, o3⟩
      · exact ⟨o1, o3⟩
  | setPrimary s =>
    simp only [Backend.txns, grubSetPrimary] at h
    cases hb : s.bootname with
    | none => simp [hb] at h
    | some b =>
      obtain ⟨o1, o2, o3⟩ := hok s hr b hb
      simp only [hb, Option.some.injEq] at h
      subst h
      simp only [List.mem_cons, List.not_mem_nil, or_false, forall_eq_or_imp, forall_eq]
      refine ⟨o1, o3, (show '=' ∉ gOrder by decide), (show '\n' ∉ gOrder by decide), ?_⟩
      apply join_no (by decide)
      intro t ht
      unfold orderPrimaryNames at ht
      rcases List.mem_cons.1 ht with rfl | ht
      · exact hnl s hr _ hb
      · obtain ⟨u, hu, hub⟩ := List.mem_filterMap.1 ht
        split at hub
        · cases hub
        · exact hnl u hu _ hub

theorem grubT_txns (path : Str) (slots : List Slot) (vars : GrubVars) (rd : Str → Bool) (r : Req) :
    (grubT path).txns rd slots vars r = (grub.txns rd slots (grubLookup vars) r).map (List.map (grubSetArgv path)) := by
  cases r <;> rfl

theorem grubTx_argv (path : Str) (ws : List (Str × Str)) (h : ∀ w ∈ ws, '=' ∉ w.1) : grubTx (grubSetArgv path ws) = ws := by
  simp only [grubTx, grubSetArgv, List.cons_append, List.nil_append, List.drop_succ_cons, List.drop_zero, mapM_splitEq ws h, Option.getD_some]

theorem map_grubTx (path : Str) (ts : List (List (Str × Str))) (h : ∀ ws ∈ ts, ∀ w ∈ ws, '=' ∉ w.1) :
    (ts.map (grubSetArgv path)).map grubTx = ts := by
  rw [List.map_map]
  conv => rhs; rw [← List.map_id ts]
  exact List.map_congr_left (fun ws hw => grubTx_argv path ws (h ws hw))

theorem grubTool_all (path : Str) (vars : GrubVars) (ts : List (List (Str × Str))) (h : ∀ ws ∈ ts, ∀ w ∈ ws, VarOk w)
    (hv : ∀ x ∈ vars, VarOk x) :
    (∀ x ∈ (ts.map (grubSetArgv path)).foldl grubTool vars, VarOk x) ∧
    grubLookup ((ts.map (grubSetArgv path)).foldl grubTool vars) = ts.foldl grubApp (grubLookup vars) := by
  induction ts generalizing vars with
  | nil => exact ⟨hv, rfl⟩
  | cons ws ts ih =>
    have hw := h ws (by simp)
    simp only [List.map_cons, List.foldl_cons]
    rw [grubTool_argv path vars ws (fun w hm => (hw w hm).1)]
    obtain ⟨h1, h2⟩ := ih (ws.foldl grubPut vars) (fun x hx => h x (List.mem_cons_of_mem _ hx)) (tool_ok hv hw)
    refine ⟨h1, ?_⟩
    rw [h2, lookup_tool]

/-- the boot names contain no `=` and the environment block holds variables which can be listed -/
def GrubWf (slots : List Slot) (vars : GrubVars) : Prop := NoEq slots ∧ ∀ x ∈ vars, VarOk x

/-- GRUB with its tool behaves as the abstract backend -/
def grubSim (path : Str) : Sim (grubT path) grub where
  abs := grubLookup
  tx := fun _ => grubTx
  wf := GrubWf
  getState := fun _ vars rd s hw hs => grubGetState_congr (fun k hk => grub_kvGet rd vars hw.2 k hk) s (hw.1 s hs)
  getPrimary := fun slots vars rd hw => grubGetPrimary_congr (fun k hk => grub_kvGet rd vars hw.2 k hk) slots hw.1
  txns := by
    intro slots hwf vars rd r ts hw hr h
    rw [grubT_txns, Option.map_eq_some_iff] at h
    obtain ⟨ws, hws, rfl⟩ := h
    rw [map_grubTx path ws (fun x hx w hm => (grubTxns_ok hws hwf hw.1 hr x hx w hm).1)]
    exact hws
  step := by
    intro slots hwf vars rd r ts n hw hr h
    rw [grubT_txns, Option.map_eq_some_iff] at h
    obtain ⟨ws, hws, rfl⟩ := h
    have hok := grubTxns_ok hws hwf hw.1 hr
    rw [map_grubTx path ws (fun x hx w hm => (hok x hx w hm).1), ← List.map_take]
    obtain ⟨h1, h2⟩ := grubTool_all path vars (ws.take n) (fun x hx => hok x (List.mem_of_mem_take hx)) hw.2
    exact ⟨⟨hw.1, h1⟩, h2⟩

end Rauc.BootText
