import Verif.Props.BootTextBb
import Verif.Props.BootTextEfi
import Verif.Props.BootName

/-!
# C64: RAUC and the boot loader agree on the boot state

The specifications C01 - C05 and C55, stated for backends whose requests are command lines of the boot
loader's tool and whose queries parse its output.
-/

namespace Rauc.BootText
open Rauc.Boot

/-- the guarantees about boot selection which do not depend on the previous state of the slot -/
structure Guarantees (B : Backend) (P : List Slot → B.Env → Prop) : Prop where
  /-- C01 -/
  bad : MarkBadSticks B (fun slots env _ => P slots env)
  /-- C02 -/
  primary : ActivateMakesPrimary B (fun slots env _ => P slots env)
  /-- C03 -/
  crash : CrashSafe B (fun slots env _ => P slots env)
  /-- C55 -/
  agree : PrimaryIsGood B P

/-! ## U-Boot -/

/-- C64, U-Boot: for every environment; boot names without `=` -/
theorem C64_uboot_partial (cfg : Cfg) (hc : cfg.WF) : Guarantees (ubootT cfg) (fun slots _ => NoEq slots) where
  bad := fun slots hwf s hs env rd ts hP => (ubootSim cfg).markBadSticks (C01_uboot cfg) slots hwf s hs env rd ts ⟨hP, trivial⟩
  primary := fun slots hwf s hs env rd ts hP => (ubootSim cfg).activateMakesPrimary (C02_uboot cfg hc) slots hwf s hs env rd ts ⟨hP, trivial⟩
  crash := fun slots hwf env rd r ts hr hP => (ubootSim cfg).crashSafe (C03_uboot cfg hc) slots hwf env rd r ts hr ⟨hP, trivial⟩
  agree := fun slots hwf env rd s hP => (ubootSim cfg).primaryIsGood (C55_uboot_sound cfg) slots hwf env rd s ⟨hP, trivial⟩

/-- C64: mark good and the other slots (C04, C05) -/
theorem C64_uboot_marks_partial (cfg : Cfg) (hc : cfg.WF) :
    MarkGoodWorks (ubootT cfg) (fun slots env s => NoEq slots ∧ ubListed slots env s) ∧
    OthersUntouched (ubootT cfg) (fun slots env rd r t => NoEq slots ∧ ubReadable slots env rd r t) :=
  ⟨(ubootSim cfg).markGoodWorks (C04_uboot_partial cfg hc), (ubootSim cfg).othersUntouched (C05_uboot_partial cfg)⟩

/-- C64: a value is taken from the output of `fw_printenv` only if the tool succeeded and printed this very variable -/
theorem C64_uboot_output (key v : Str) (r : Run) :
    ubootEnvGet key r = some v ↔ ∃ body, r = .exited 0 (key ++ c!"=" ++ body) ∧ v = chomp body := ubootEnvGet_iff key v r

/-! ## GRUB -/

/-- C64, GRUB: boot names without `=`, environment blocks whose variables contain no line feed -/
theorem C64_grub_partial (path : Str) : Guarantees (grubT path) GrubWf where
  bad := fun slots hwf s hs env rd ts hP => (grubSim path).markBadSticks C01_grub slots hwf s hs env rd ts ⟨hP, trivial⟩
  primary := fun slots hwf s hs env rd ts hP => (grubSim path).activateMakesPrimary C02_grub slots hwf s hs env rd ts ⟨hP, trivial⟩
  crash := fun slots hwf env rd r ts hr hP => (grubSim path).crashSafe C03_grub slots hwf env rd r ts hr ⟨hP, trivial⟩
  agree := fun slots hwf env rd s hP => (grubSim path).primaryIsGood C55_grub_sound slots hwf env rd s ⟨hP, trivial⟩

theorem C64_grub_marks_partial (path : Str) :
    MarkGoodWorks (grubT path) (fun slots env s => GrubWf slots env ∧ grListed slots (grubLookup env) s) ∧
    OthersUntouched (grubT path) (fun slots env rd r t => GrubWf slots env ∧ grOtherListed slots (grubLookup env) rd r t) :=
  ⟨(grubSim path).markGoodWorks C04_grub_partial, (grubSim path).othersUntouched C05_grub_partial⟩

/-- C64: a value is taken from the output of `grub-editenv list` only if the tool succeeded, and from the first line for this variable -/
theorem C64_grub_output (key v : Str) (r : Run) :
    grubEnvGet key r = some v ↔ ∃ out pre body post, r = .exited 0 out ∧ split '\n' out = pre ++ (key ++ c!"=" ++ body) :: post ∧
      (∀ l ∈ pre, ¬ (key ++ c!"=") <+: l) ∧ v = chomp body := grubEnvGet_iff key v r

/-! ## barebox -/

/-- C64, barebox: boot names without `=`, 32 bit variables -/
theorem C64_barebox_partial (cfg : Cfg) (hc : cfg.WF) (o : BbOpts) : Guarantees (bareboxT cfg o) BbWf where
  bad := fun slots hwf s hs env rd ts hP => (bareboxSim cfg hc o).markBadSticks (C01_barebox cfg) slots hwf s hs env rd ts ⟨hP, trivial⟩
  primary := fun slots hwf s hs env rd ts hP => (bareboxSim cfg hc o).activateMakesPrimary (C02_barebox cfg hc) slots hwf s hs env rd ts ⟨hP, trivial⟩
  crash := fun slots hwf env rd r ts hr hP => (bareboxSim cfg hc o).crashSafe (C03_barebox cfg) slots hwf env rd r ts hr ⟨hP, trivial⟩
  agree := fun slots hwf env rd s hP => (bareboxSim cfg hc o).primaryIsGood (C55_barebox_sound cfg) slots hwf env rd s ⟨hP, trivial⟩

theorem C64_barebox_marks_partial (cfg : Cfg) (hc : cfg.WF) (o : BbOpts) :
    MarkGoodWorks (bareboxT cfg o) (fun slots env s => BbWf slots env ∧ bbPrioKept slots (bbAbs env) s) ∧
    OthersUntouched (bareboxT cfg o) (fun slots env _ _ _ => BbWf slots env) :=
  ⟨(bareboxSim cfg hc o).markGoodWorks (C04_barebox_partial cfg hc),
   fun slots hwf env rd r ts hr t ht hne hP => (bareboxSim cfg hc o).othersUntouched (C05_barebox cfg) slots hwf env rd r ts hr t ht hne ⟨hP, trivial⟩⟩

/-- C64: the state of a slot is taken from the output of `barebox-state` only if the tool succeeded and the first two lines are numbers -/
theorem C64_barebox_output (r : Run) (p a : Nat) :
    bbEnvGet r = some (p, a) ↔ ∃ out l1 l2 rest x y, r = .exited 0 out ∧ split '\n' out = l1 :: l2 :: rest ∧
      bbNumber l1 = some x ∧ bbNumber l2 = some y ∧ p = x % 2 ^ 32 ∧ a = y % 2 ^ 32 := by
  cases r with
  | failed => simp [bbEnvGet]
  | exited code out =>
    simp only [bbEnvGet]
    by_cases hc : code = 0
    · subst hc
      simp only [ne_eq, not_true_eq_false, if_false, Run.exited.injEq, true_and]
      constructor
      · intro h
        split at h
        · rename_i l1 l2 rest hs
          cases h1 : bbNumber l1 with
          | none => simp [h1] at h
          | some x =>
            cases h2 : bbNumber l2 with
            | none => simp [h1, h2] at h
            | some y =>
              simp only [h1, h2, Option.some.injEq, Prod.mk.injEq] at h
              exact ⟨out, l1, l2, rest, x, y, rfl, hs, h1, h2, h.1.symm, h.2.symm⟩
        · cases h
      · rintro ⟨out', l1, l2, rest, x, y, rfl, hs, h1, h2, rfl, rfl⟩
        simp only [hs, h1, h2]
    · simp only [ne_eq, hc, not_false_eq_true, if_true, reduceCtorEq, Run.exited.injEq, false_and, exists_const]

/-- a line without digits at its beginning is refused -/
theorem C64_barebox_number (l : Str) (h : (digitsAux 10 0 0 (Config.skipSign (chug l))).2 = 0) : bbNumber l = none := by
  have hr : Config.strtoullRest l = l := by unfold Config.strtoullRest; simp [h]
  have hd : ∀ s : Str, (digitsAux 10 0 0 s).2 = 0 → (digitsAux 10 0 0 s).1 = 0 := by
    intro s hs
    have grow : ∀ (t : Str) (acc n : Nat), n ≤ (digitsAux 10 acc n t).2 := by
      intro t
      induction t with
      | nil => intro acc n; exact Nat.le_refl _
      | cons c cs ih =>
        intro acc n
        simp only [digitsAux]
        split
        · split
          · exact Nat.le_trans (Nat.le_succ n) (ih _ _)
          · exact Nat.le_refl _
        · exact Nat.le_refl _
    cases s with
    | nil => rfl
    | cons c cs =>
      simp only [digitsAux] at hs ⊢
      split at hs
      · split at hs
        · have := grow cs (0 * 10 + ‹Nat›) (0 + 1)
          omega
        · rename_i hv; simp only [hv, if_false]
      · rfl
  have hz : strtoull 10 l = 0 := by
    have hb : ∀ s : Str, (digitsAux 10 0 0 s).2 = 0 → strtoullBody 10 s = 0 := by
      intro s hs
      unfold strtoullBody
      rw [if_neg (by simp), if_neg (by decide)]
      exact hd s hs
    unfold strtoull
    unfold Config.skipSign at h
    split at h
    · rename_i r he
      rw [he]
      simp only [hb r h]
      decide
    · rename_i r he
      rw [he]
      simp only [hb r h]
      decide
    · rename_i h1 h2
      split
      · rename_i r he; exact absurd he (h1 r)
      · rename_i r he; exact absurd he (h2 r)
      · rw [hb _ h]; decide
  unfold bbNumber
  rw [if_pos ⟨hz, hr⟩]

/-! ## EFI -/

/-- C64, EFI: entry names without tab and line end, one entry with the slot's name -/
theorem C64_efi_partial (cfg : Cfg) (w : EfiWorld) (hf : FreshOK w.fresh) (hw : WorldOk w) :
    MarkBadSticks (efiT cfg w) (fun slots v s => EfiWfT slots v ∧ EfiOnce slots v.abs s) ∧
    ActivateMakesPrimary (efiT cfg w) (fun slots v s => EfiWfT slots v ∧ EfiNoNext cfg slots v.abs s) ∧
    CrashSafe (efiT cfg w) (fun slots v _ => EfiWfT slots v ∧ EfiWF v.abs) ∧
    MarkGoodWorks (efiT cfg w) (fun slots v s => EfiWfT slots v ∧ efiNums slots v.abs s) ∧
    OthersUntouched (efiT cfg w) (fun slots v _ _ _ => EfiWfT slots v ∧ EfiWF v.abs) ∧
    PrimaryIsGood (efiT cfg w) (fun slots v => EfiWfT slots v ∧ NextListed v.abs) :=
  ⟨(efiSim cfg w hw).markBadSticks (C01_efi_partial cfg w.fresh hf), (efiSim cfg w hw).activateMakesPrimary (C02_efi_partial cfg w.fresh hf),
   (efiSim cfg w hw).crashSafe (C03_efi cfg w.fresh hf), (efiSim cfg w hw).markGoodWorks (C04_efi cfg w.fresh hf),
   (efiSim cfg w hw).othersUntouched (C05_efi cfg w.fresh hf), (efiSim cfg w hw).primaryIsGood (C55_efi_sound_partial cfg w.fresh)⟩

/-- C64: what RAUC understands of the output of `efibootmgr` is what the variables say; without entries or without
order it reports an error -/
theorem C64_efi_output_partial (v : EfiVars) (h : EfiOk v) :
    efiTables (efibootmgr v) =
      if v.entries = [] ∨ v.order = [] then none
      else some { order := v.order.filterMap (efiByNum v.abs.entries)
                  all := v.abs.entries
                  next := v.next.bind (efiByNum v.abs.entries)
                  current := v.current.bind (efiByNum v.abs.entries) } := efiParse_print h

theorem efiTables_cases {r : Run} {t : EfiTables} (h : efiTables r = some t) :
    ∃ out o, r = .exited 0 out ∧ t.all = (linesAux [] out).filterMap entryLine ∧
      (linesAux [] out).findSome? orderLine = some o ∧
      t.order = (split ',' o).filterMap (efiByNum t.all) ∧
      t.next = ((linesAux [] out).findSome? (hex4Line (c!"BootNext: "))).bind (efiByNum t.all) ∧
      t.current = ((linesAux [] out).findSome? (hex4Line (c!"BootCurrent: "))).bind (efiByNum t.all) := by
  cases r with
  | failed => cases h
  | exited code out =>
    simp only [efiTables] at h
    split at h
    · cases h
    · rename_i hc
      have : code = 0 := by omega
      subst this
      unfold efiParse at h
      split at h
      · cases h
      · cases ho : (linesAux [] out).findSome? orderLine with
        | none => simp [ho] at h
        | some o =>
          simp only [ho, Option.some.injEq] at h
          subst h
          exact ⟨out, o, rfl, rfl, ho, rfl, rfl, rfl⟩

theorem entryLine_some {l : Str} {e : EfiEntry} (h : entryLine l = some e) :
    ∃ s n, l = c!"Boot" ++ e.num ++ [s, ' '] ++ n ∧ Hex4 e.num ∧ (s = '*' ∨ s = ' ') ∧ n ≠ [] ∧ e.name = n.takeWhile (fun x => !(x == '\t')) := by
  unfold entryLine at h
  split at h
  · rename_i a b c d s n
    split at h
    · rename_i hc
      simp only [Option.some.injEq] at h
      subst h
      simp only [Bool.and_eq_true, Bool.or_eq_true, beq_iff_eq, Bool.not_eq_true', List.isEmpty_eq_false_iff] at hc
      obtain ⟨⟨⟨⟨⟨ha, hb⟩, hc'⟩, hd⟩, hs⟩, hn⟩ := hc
      refine ⟨s, n, rfl, ⟨rfl, ?_⟩, hs, hn, rfl⟩
      intro x hx
      simp only [List.mem_cons, List.not_mem_nil, or_false] at hx
      rcases hx with rfl | rfl | rfl | rfl <;> exact (isHex_iff _).1 ‹_›
    · cases h
  · cases h

/-- C64: for any output, every entry RAUC sees is printed as a line `BootNNNN* NAME`, and order, next and current entry are among them -/
theorem C64_efi_lines (r : Run) (t : EfiTables) (h : efiTables r = some t) :
    t.all ≠ [] ∧
    (∀ e ∈ t.all, ∃ out s n, r = .exited 0 out ∧ (c!"Boot" ++ e.num ++ [s, ' '] ++ n) ∈ linesAux [] out ∧ Hex4 e.num ∧ (s = '*' ∨ s = ' ') ∧
      n ≠ [] ∧ e.name = n.takeWhile (fun x => !(x == '\t'))) ∧
    (∀ e ∈ t.order, e ∈ t.all) ∧ (∀ e, t.next = some e → e ∈ t.all) ∧ (∀ e, t.current = some e → e ∈ t.all) := by
  have h0 := h
  obtain ⟨out, o, rfl, hall, ho, hord, hnext, hcur⟩ := efiTables_cases h
  refine ⟨?_, ?_, ?_, ?_, ?_⟩
  · simp only [efiTables, ne_eq, not_true_eq_false, if_false] at h0
    unfold efiParse at h0
    split at h0
    · cases h0
    · rename_i hne
      rw [hall]
      simpa using hne
  · intro e he
    rw [hall] at he
    obtain ⟨l, hl, hle⟩ := List.mem_filterMap.1 he
    obtain ⟨s, n, rfl, h4, hs, hn, hname⟩ := entryLine_some hle
    exact ⟨out, s, n, rfl, hl, h4, hs, hn, hname⟩
  · intro e he
    rw [hord] at he
    obtain ⟨n, _, hn⟩ := List.mem_filterMap.1 he
    exact List.mem_of_find?_eq_some hn
  · intro e he
    rw [hnext] at he
    obtain ⟨n, _, hn⟩ := Option.bind_eq_some_iff.1 he
    exact List.mem_of_find?_eq_some hn
  · intro e he
    rw [hcur] at he
    obtain ⟨n, _, hn⟩ := Option.bind_eq_some_iff.1 he
    exact List.mem_of_find?_eq_some hn

/-- C64: the current boot entry names the running slot -/
theorem C64_efi_current_partial (v : EfiVars) (h : EfiOk v) (e : EfiVar) (he : e ∈ v.entries) (hu : (v.entries.map EfiVar.num).Nodup)
    (hc : v.current = some e.num) (ho : v.order ≠ []) : efiCurrentName (fun _ => true) v = some e.name := by
  unfold efiCurrentName efiQuery runIf
  have hne : v.entries ≠ [] := fun hh => by rw [hh] at he; cases he
  simp only [if_true, efiParse_print h, hne, ho, or_self, if_false, hc, Option.bind_some]
  have hn : (v.abs.entries.map EfiEntry.num).Nodup := by
    simpa [EfiVars.abs, List.map_map, Function.comp_def] using hu
  have hm : (⟨e.num, e.name⟩ : EfiEntry) ∈ v.abs.entries := List.mem_map.2 ⟨e, he, rfl⟩
  have := efiByNum_self hn hm
  simp only at this
  rw [this]
  rfl

/-- C64: a missing boot entry is created for the slot's partition: disk, partition number as printed in sysfs (with a line feed) and label -/
theorem C64_efi_create (bn loader cmdline disk num : Str) (h : ∀ c ∈ num, isSpace c = false) :
    efiCreateArgv bn loader cmdline (disk, num ++ c!"\n") =
      [c!"efibootmgr", c!"--create-only", c!"--disk", disk, c!"--part", num, c!"--label", bn, c!"--loader", loader, c!"--unicode", cmdline] := by
  unfold efiCreateArgv
  simp only [chomp_append_of_nil num (c!"\n") (by decide), chomp_nospace num h]

/-! ## Examples and findings -/

theorem twoSlots_noeq : NoEq twoSlots := by
  intro s hs b hb
  have : ∀ s ∈ twoSlots, ∀ b ∈ s.bootname, '=' ∉ b := by decide
  exact this s hs b hb

/-- U-Boot: the hypotheses hold, the command lines of a mark-bad request -/
example : NoEq twoSlots ∧ (ubootT {}).getState allRd ubEx slotA = some true ∧
    (ubootT {}).setState allRd twoSlots ubEx slotA false =
      some [[c!"fw_setenv", c!"BOOT_ORDER", c!"B"], [c!"fw_setenv", c!"BOOT_A_LEFT", c!"0"]] :=
  ⟨twoSlots_noeq, by decide, by decide⟩

def grubVarsEx : GrubVars :=
  [(c!"saved_entry", c!"0"), (c!"ORDER", c!"A B"), (c!"A_OK", c!"1"), (c!"A_TRY", c!"0"), (c!"B_OK", c!"1"), (c!"B_TRY", c!"1")]

theorem grubVarsEx_wf : GrubWf twoSlots grubVarsEx := by
  refine ⟨twoSlots_noeq, ?_⟩
  intro x hx
  have : ∀ x ∈ grubVarsEx, '=' ∉ x.1 ∧ '\n' ∉ x.1 ∧ '\n' ∉ x.2 := by decide
  exact this x hx

/-- GRUB: A is good and primary; marking it bad makes nothing primary (B was tried) -/
example : (grubT (c!"/boot/grubenv")).getState allRd grubVarsEx slotA = some true ∧
    (grubT (c!"/boot/grubenv")).getPrimary allRd twoSlots grubVarsEx = some slotA ∧
    (grubT (c!"/boot/grubenv")).setState allRd twoSlots grubVarsEx slotA false =
      some [[c!"grub-editenv", c!"/boot/grubenv", c!"set", c!"A_OK=0", c!"A_TRY=0"]] ∧
    (grubT (c!"/boot/grubenv")).getPrimary allRd twoSlots
      ((grubT (c!"/boot/grubenv")).appAll grubVarsEx [[c!"grub-editenv", c!"/boot/grubenv", c!"set", c!"A_OK=0", c!"A_TRY=0"]]) = none := by
  decide

def bbVarsEx : BbVars := fun k =>
  if k = c!"bootstate.A.priority" then some 20 else if k = c!"bootstate.A.remaining_attempts" then some 3
  else if k = c!"bootstate.B.priority" then some 10 else if k = c!"bootstate.B.remaining_attempts" then some 0 else none

theorem bbVarsEx_wf : BbWf twoSlots bbVarsEx := by
  refine ⟨twoSlots_noeq, ?_⟩
  intro k n h
  unfold bbVarsEx at h
  repeat' split at h
  all_goals first | (cases h; decide) | cases h

example : (bareboxT {} { statename := some (c!"st") }).getState allRd bbVarsEx slotA = some true ∧
    (bareboxT {} { statename := some (c!"st") }).getState allRd bbVarsEx slotB = some false ∧
    (bareboxT {} { statename := some (c!"st") }).setPrimary allRd twoSlots bbVarsEx slotB =
      some [[c!"barebox-state", c!"-n", c!"st", c!"-s", c!"bootstate.B.priority=20", c!"-s", c!"bootstate.A.priority=10",
        c!"-s", c!"bootstate.B.remaining_attempts=3"]] := by decide

/-- numbers for new entries: the first free one of sixteen -/
def exNums : List Str := (c!"0123456789ABCDEF").map (fun c => [c!"0", c!"0", c!"0", [c]].flatten)

def exFree (e : EfiEnv) : Option Str :=
  exNums.find? (fun n => !(e.entries.map EfiEntry.num ++ e.order ++ e.next.toList).contains n)

def exWorld : EfiWorld where
  fresh := fun e => (exFree e).getD (someFresh e)
  dev := fun e _ => if (exFree e).isSome then some (c!"/dev/sda2", c!"2\n") else none

theorem exWorld_fresh : FreshOK exWorld.fresh := by
  intro e
  unfold exWorld
  simp only
  cases h : exFree e with
  | none => exact someFresh_ok e
  | some n =>
    have := List.find?_some h
    simp only [Bool.not_eq_true', List.contains_eq_mem, decide_eq_false_iff_not, List.mem_append, not_or] at this
    refine ⟨this.1.1, this.1.2, fun hh => this.2 (by rw [hh]; simp)⟩

theorem exWorld_ok : WorldOk exWorld where
  fresh := by
    intro e d x h
    unfold exWorld at h ⊢
    simp only at h ⊢
    cases hf : exFree e with
    | none => simp [hf] at h
    | some n =>
      have hm := List.mem_of_find?_eq_some hf
      have : ∀ n ∈ exNums, n.length = 4 ∧ ∀ c ∈ n, c ∈ c!"0123456789abcdefABCDEF" := by decide
      exact this n hm
  path := by intro a p h; cases h

def efiVarsEx : EfiVars :=
  { entries := [{ num := c!"0000", name := c!"A", path := some (c!"HD(2,GPT)") }, { num := c!"0003", name := c!"B", active := false },
                { num := c!"00aF", name := c!"UEFI Shell" }]
    order := [c!"00aF", c!"0000", c!"0003"], next := some (c!"0003"), current := some (c!"0000"), extra := [c!"Timeout: 3 seconds"] }

theorem efiVarsEx_wf : EfiWfT twoSlots efiVarsEx := by
  have hx : ∀ n : Str, n ∈ [c!"0000", c!"0003", c!"00aF"] → Hex4 n := by
    intro n hn
    have : ∀ n ∈ [c!"0000", c!"0003", c!"00aF"], n.length = 4 ∧ ∀ c ∈ n, c ∈ c!"0123456789abcdefABCDEF" := by decide
    exact this n hn
  refine ⟨?_, ?_, ?_, ?_, ?_, ?_⟩
  · intro s hs b hb
    have : ∀ s ∈ twoSlots, ∀ b ∈ s.bootname, Char.ofNat 11 ∉ b := by decide
    exact this s hs b hb
  · intro e he
    simp only [efiVarsEx, List.mem_cons, List.not_mem_nil, or_false] at he
    rcases he with rfl | rfl | rfl
    · exact ⟨hx _ (by decide), by decide, nonl_of (by decide), (fun p hp => by cases hp; exact nonl_of (by decide)), Or.inr (by decide)⟩
    · exact ⟨hx _ (by decide), by decide, nonl_of (by decide), (fun p hp => by cases hp), Or.inl (by decide)⟩
    · exact ⟨hx _ (by decide), by decide, nonl_of (by decide), (fun p hp => by cases hp), Or.inl (by decide)⟩
  · intro n hn; exact hx n (by simp only [efiVarsEx, List.mem_cons, List.not_mem_nil, or_false] at hn ⊢; rcases hn with h | h | h <;> simp [h])
  · intro n hn; cases hn; exact hx _ (by decide)
  · intro n hn; cases hn; exact hx _ (by decide)
  · intro l hl
    simp only [efiVarsEx, List.mem_singleton] at hl
    subst hl
    exact ⟨nonl_of (by decide), by decide⟩

/-- EFI: the hypotheses hold; the output, the queries and the command line of mark-bad -/
example : EfiWfT twoSlots efiVarsEx ∧ EfiWF efiVarsEx.abs ∧
    efibootmgr efiVarsEx = .exited 0 c!"BootNext: 0003\nBootCurrent: 0000\nTimeout: 3 seconds\nBootOrder: 00aF,0000,0003\nBoot0000* A\tHD(2,GPT)\nBoot0003  B\nBoot00aF* UEFI Shell\n" ∧
    (efiT {} exWorld).getPrimary allRd twoSlots efiVarsEx = some slotB ∧
    (efiT {} exWorld).setState allRd twoSlots efiVarsEx slotA false = some [[c!"efibootmgr", c!"--bootorder", c!"00aF,0003"]] ∧
    efiCurrentName allRd efiVarsEx = some (c!"A") := by
  refine ⟨efiVarsEx_wf, ?_, by decide, by decide, by decide, by decide⟩
  unfold EfiWF
  decide

/-- a missing entry is created -/
example : (efiT {} exWorld).setPrimary allRd twoSlots { efiVarsEx with entries := efiVarsEx.entries.drop 1 }
      { slotA with efiLoader := some (c!"\\vmlinuz"), efiCmdline := some (c!"root=/dev/sda2") } =
    some [[c!"efibootmgr", c!"--create-only", c!"--disk", c!"/dev/sda2", c!"--part", c!"2", c!"--label", c!"A", c!"--loader", c!"\\vmlinuz",
           c!"--unicode", c!"root=/dev/sda2"], [c!"efibootmgr", c!"--bootnext", c!"0001"]] := by
  decide

/-- Finding (C64): with a `=` in its boot name a slot can never become good with GRUB. Both variables of the slot are
written under the name before the `=`, the second overwrites the first: after a successful mark-good the state cannot be read. -/
theorem C64_finding_grub_equals :
    ∃ (slots : List Slot) (s : Slot) (vars : GrubVars) (ts : List (List Str)), SlotsWF slots ∧ s ∈ slots ∧
      (grubT (c!"/boot/grubenv")).setState allRd slots vars s true = some ts ∧
      (grubT (c!"/boot/grubenv")).getState allRd ((grubT (c!"/boot/grubenv")).appAll vars ts) s = none ∧
      (grubT (c!"/boot/grubenv")).setPrimary allRd slots vars s ≠ none ∧
      ∀ ts', (grubT (c!"/boot/grubenv")).setPrimary allRd slots vars s = some ts' →
        (grubT (c!"/boot/grubenv")).getPrimary allRd slots ((grubT (c!"/boot/grubenv")).appAll vars ts') = none := by
  refine ⟨[{ slotA with bootname := some (c!"v=1") }], { slotA with bootname := some (c!"v=1") }, [(c!"ORDER", c!"v=1")], _, ?_, by simp, rfl,
    by decide, by decide, ?_⟩
  · refine ⟨by simp, by simp, by simp, ?_⟩
    intro s hs b hb
    simp only [List.mem_singleton] at hs
    subst hs
    simp only [Option.some.injEq] at hb
    subst hb
    decide
  · intro ts' h
    have : ts' = [[c!"grub-editenv", c!"/boot/grubenv", c!"set", c!"v=1_OK=1", c!"v=1_TRY=0", c!"ORDER=v=1"]] := by
      have he : (grubT (c!"/boot/grubenv")).setPrimary allRd [{ slotA with bootname := some (c!"v=1") }] [(c!"ORDER", c!"v=1")]
        { slotA with bootname := some (c!"v=1") } =
          some [[c!"grub-editenv", c!"/boot/grubenv", c!"set", c!"v=1_OK=1", c!"v=1_TRY=0", c!"ORDER=v=1"]] := by decide
      rw [he] at h
      exact (Option.some.inj h).symm
    subst this
    decide

/-- Finding (C64): the label of a foreign boot entry is printed as it is. With a line end in it the label forges further lines: here `BootNext`
was not set, yet slot B is reported as primary, although A is first. A tab ends the name: an entry `A<tab>old` counts as A. -/
theorem C64_finding_efi_label :
    ∃ v : EfiVars, v.next = none ∧ EfiWF v.abs ∧
      efiGetPrimary allRd twoSlots v.abs = some slotA ∧ (efiT {} exWorld).getPrimary allRd twoSlots v = some slotB :=
  ⟨{ entries := [{ num := c!"0000", name := c!"A" }, { num := c!"0001", name := c!"B" }, { num := c!"0002", name := c!"x\nBootNext: 0001" }]
     order := [c!"0000", c!"0001", c!"0002"] }, rfl, by unfold EfiWF; decide, by decide, by decide⟩

theorem C64_finding_efi_tab :
    ∃ v : EfiVars, EfiWF v.abs ∧ (∀ e ∈ v.entries, e.name ≠ c!"A") ∧ (efiT {} exWorld).getState allRd v slotA = some true :=
  ⟨{ entries := [{ num := c!"0000", name := c!"A\told" }], order := [c!"0000"] }, by unfold EfiWF; decide, by decide, by decide⟩

end Rauc.BootText
