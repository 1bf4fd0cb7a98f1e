import Verif.Model.BootName
import Verif.Props.Select

/-!
# C56: the running slot is recognised

The kernel command line is a sequence of parameters, each followed by white space (`/proc/cmdline` ends with a newline).
-/

namespace Rauc.BootName
open Rauc.Select

/-- the text of a command line: every parameter followed by its separator -/
def line (ws : List (Str × Char)) : Str := ws.flatMap (fun w => w.1 ++ [w.2])

/-- parameters contain no white space, separators are white space -/
def LineOk (ws : List (Str × Char)) : Prop := ∀ w ∈ ws, (∀ c ∈ w.1, isSp c = false) ∧ isSp w.2 = true

/-- the parameter contains the text `p` (anywhere in it) -/
def Has (p : Str) (w : Str × Char) : Prop := p <:+: w.1

/-! ## Text search on command lines -/

theorem hasInfix_iff (p s : Str) : hasInfix p s = true ↔ p <:+: s := by
  induction s with
  | nil => simp [hasInfix]
  | cons c cs ih =>
    simp only [hasInfix, Bool.or_eq_true, ih, List.isPrefixOf_iff_prefix, List.infix_cons_iff]

theorem isPrefixOf_word {p : Str} (hp : ∀ c ∈ p, isSp c = false) (w : Str) (sp : Char) (hs : isSp sp = true) (rest : Str) :
    p.isPrefixOf (w ++ sp :: rest) = p.isPrefixOf w := by
  induction p generalizing w with
  | nil => simp
  | cons c p ih =>
    cases w with
    | nil =>
      have : c ≠ sp := by rintro rfl; rw [hp c (by simp)] at hs; cases hs
      simp [List.isPrefixOf, this]
    | cons d w =>
      simp only [List.cons_append, List.isPrefixOf]
      rw [ih (fun x hx => hp x (List.mem_cons_of_mem _ hx))]

theorem takeWhile_word (w : Str) (hw : ∀ c ∈ w, isSp c = false) (sp : Char) (hs : isSp sp = true) (rest : Str) :
    (w ++ sp :: rest).takeWhile (fun c => !isSp c) = w.takeWhile (fun c => !isSp c) := by
  induction w with
  | nil => simp [hs]
  | cons d w ih =>
    simp only [List.cons_append, List.takeWhile_cons, hw d (by simp), Bool.not_false, if_true]
    rw [ih (fun x hx => hw x (List.mem_cons_of_mem _ hx))]

theorem takeWhile_all (w : Str) (hw : ∀ c ∈ w, isSp c = false) : w.takeWhile (fun c => !isSp c) = w := by
  induction w with
  | nil => rfl
  | cons d w ih =>
    simp only [List.takeWhile_cons, hw d (by simp), Bool.not_false, if_true]
    rw [ih (fun x hx => hw x (List.mem_cons_of_mem _ hx))]

theorem findSome_congr {α β : Type} {f g : α → Option β} {l : List α} (h : ∀ x ∈ l, f x = g x) :
    l.findSome? f = l.findSome? g := by
  induction l with
  | nil => rfl
  | cons x xs ih =>
    simp only [List.findSome?_cons, h x (by simp)]
    rw [ih (fun y hy => h y (List.mem_cons_of_mem _ hy))]

theorem matchAt_word {pats : List Str} (hp : ∀ p ∈ pats, ∀ c ∈ p, isSp c = false) (w : Str) (hw : ∀ c ∈ w, isSp c = false)
    (sp : Char) (hs : isSp sp = true) (rest : Str) : matchAt pats (w ++ sp :: rest) = matchAt pats w := by
  unfold matchAt
  apply findSome_congr
  intro p hpm
  rw [isPrefixOf_word (hp p hpm) w sp hs rest]
  by_cases hpre : p.isPrefixOf w = true
  · simp only [hpre, if_true]
    have hle : p.length ≤ w.length := (List.isPrefixOf_iff_prefix.1 hpre).length_le
    rw [List.drop_append_of_le_length hle,
      takeWhile_word (w.drop p.length) (fun c hc => hw c (List.mem_of_mem_drop hc)) sp hs rest]
  · simp only [hpre]
    rfl

theorem matchAt_space {pats : List Str} (hp : ∀ p ∈ pats, p ≠ [] ∧ ∀ c ∈ p, isSp c = false)
    (sp : Char) (hs : isSp sp = true) (rest : Str) : matchAt pats (sp :: rest) = none := by
  unfold matchAt
  rw [List.findSome?_eq_none_iff]
  intro p hpm
  obtain ⟨hne, hc⟩ := hp p hpm
  cases p with
  | nil => exact absurd rfl hne
  | cons c p =>
    have : c ≠ sp := by rintro rfl; rw [hc c (by simp)] at hs; cases hs
    simp [List.isPrefixOf, this]

/-- a pattern without white space is found in the first parameter which contains it -/
theorem capture_line {pats : List Str} (hp : ∀ p ∈ pats, p ≠ [] ∧ ∀ c ∈ p, isSp c = false) (ws : List (Str × Char))
    (hw : LineOk ws) : capture pats (line ws) = ws.findSome? (fun w => capture pats w.1) := by
  induction ws with
  | nil => rfl
  | cons w ws ih =>
    have ih := ih (fun x hx => hw x (List.mem_cons_of_mem _ hx))
    obtain ⟨h1, h2⟩ := hw w (by simp)
    have hl : line (w :: ws) = w.1 ++ w.2 :: line ws := by simp [line]
    rw [hl, List.findSome?_cons, ← ih]
    generalize w.1 = v at h1
    induction v with
    | nil =>
      simp only [List.nil_append, capture]
      rw [matchAt_space hp w.2 h2]
    | cons c v ihv =>
      have hv : ∀ x ∈ v, isSp x = false := fun x hx => h1 x (List.mem_cons_of_mem _ hx)
      have := matchAt_word (fun p hpm => (hp p hpm).2) (c :: v) h1 w.2 h2 (line ws)
      simp only [List.cons_append, capture] at this ⊢
      rw [this]
      cases matchAt pats (c :: v) with
      | some r => rfl
      | none => exact ihv hv

theorem infix_line {p : Str} (hne : p ≠ []) (hp : ∀ c ∈ p, isSp c = false) (ws : List (Str × Char))
    (hw : LineOk ws) : hasInfix p (line ws) = ws.any (fun w => hasInfix p w.1) := by
  induction ws with
  | nil => cases p with
    | nil => exact absurd rfl hne
    | cons => rfl
  | cons w ws ih =>
    have ih := ih (fun x hx => hw x (List.mem_cons_of_mem _ hx))
    obtain ⟨h1, h2⟩ := hw w (by simp)
    have hl : line (w :: ws) = w.1 ++ w.2 :: line ws := by simp [line]
    rw [hl, List.any_cons, ← ih]
    generalize w.1 = v at h1
    induction v with
    | nil =>
      cases p with
      | nil => exact absurd rfl hne
      | cons d p =>
        have : d ≠ w.2 := by intro e; rw [← e, hp d (by simp)] at h2; cases h2
        simp [hasInfix, List.isPrefixOf, this]
    | cons c v ihv =>
      have := isPrefixOf_word hp (c :: v) w.2 h2 (line ws)
      simp only [List.cons_append, hasInfix] at this ⊢
      rw [this, ihv (fun x hx => h1 x (List.mem_cons_of_mem _ hx)), Bool.or_assoc]

theorem matchAt_none {pats : List Str} {s : Str} (h : ∀ p ∈ pats, ¬ p <+: s) : matchAt pats s = none := by
  unfold matchAt
  rw [List.findSome?_eq_none_iff]
  intro p hp
  have := h p hp
  rw [← List.isPrefixOf_iff_prefix] at this
  simp [this]

theorem capture_none {pats : List Str} {s : Str} (h : ∀ p ∈ pats, ¬ p <:+: s) : capture pats s = none := by
  induction s with
  | nil => rfl
  | cons c cs ih =>
    simp only [capture]
    rw [matchAt_none (fun p hp hpre => h p hp hpre.isInfix)]
    exact ih (fun p hp hi => h p hp (List.infix_cons_iff.2 (Or.inr hi)))

/-- a parameter `p ++ v` gives the value `v` -/
theorem capture_param {pats : List Str} {p v : Str} (hpm : p ∈ pats) (hfst : ∀ q ∈ pats, q <+: p ++ v → q = p)
    (hp : p ≠ []) (hv : v ≠ []) (hvs : ∀ c ∈ v, isSp c = false) : capture pats (p ++ v) = some v := by
  have hm : matchAt pats (p ++ v) = some v := by
    unfold matchAt
    have : ∀ qs : List Str, p ∈ qs → (∀ q ∈ qs, q <+: p ++ v → q = p) →
        qs.findSome? (fun q => if q.isPrefixOf (p ++ v) then
          match ((p ++ v).drop q.length).takeWhile (fun c => !isSp c) with
          | [] => none
          | v => some v
        else none) = some v := by
      intro qs
      induction qs with
      | nil => simp
      | cons q qs ih =>
        intro hmem hf
        rw [List.findSome?_cons]
        by_cases hq : q <+: p ++ v
        · have := hf q (by simp) hq
          subst this
          have h1 : q.isPrefixOf (q ++ v) = true := List.isPrefixOf_iff_prefix.2 (List.prefix_append _ _)
          simp only [h1, if_true, List.drop_left]
          rw [takeWhile_all v hvs]
          cases v with
          | nil => exact absurd rfl hv
          | cons a b => rfl
        · have h1 : ¬ q.isPrefixOf (p ++ v) = true := fun h => hq (List.isPrefixOf_iff_prefix.1 h)
          simp only [h1]
          apply ih
          · rcases List.mem_cons.1 hmem with rfl | h
            · exact absurd (List.prefix_append _ _) hq
            · exact h
          · exact fun x hx => hf x (List.mem_cons_of_mem _ hx)
    exact this pats hpm hfst
  cases p with
  | nil => exact absurd rfl hp
  | cons c p =>
    simp only [List.cons_append, capture] at hm ⊢
    rw [hm]

/-- the first parameter of the form `p=value` decides -/
theorem capture_first {p v : Str} (hp : p ≠ []) (hps : ∀ c ∈ p, isSp c = false) (pre post : List (Str × Char)) (sep : Char)
    (hw : LineOk (pre ++ (p ++ v, sep) :: post)) (hv : v ≠ []) (hpre : ∀ w ∈ pre, ¬ Has p w) :
    capture [p] (line (pre ++ (p ++ v, sep) :: post)) = some v := by
  rw [capture_line (by simpa using ⟨hp, hps⟩) _ hw, List.findSome?_append,
    List.findSome?_eq_none_iff.2 (fun w hwm => capture_none (by simpa [Has] using hpre w hwm)), Option.none_or,
    List.findSome?_cons]
  have hvs : ∀ c ∈ v, isSp c = false := fun c hc => (hw (p ++ v, sep) (by simp)).1 c (by simp [hc])
  rw [capture_param (List.mem_singleton.2 rfl) (by intro q hq _; simpa using hq) hp hv hvs]

theorem capture_absent {pats : List Str} (hp : ∀ p ∈ pats, p ≠ [] ∧ ∀ c ∈ p, isSp c = false) (ws : List (Str × Char))
    (hw : LineOk ws) (h : ∀ p ∈ pats, ∀ w ∈ ws, ¬ Has p w) : capture pats (line ws) = none := by
  rw [capture_line hp _ hw]
  exact List.findSome?_eq_none_iff.2 (fun w hwm => capture_none (fun p hpm => h p hpm w hwm))

/-! ## The explicit parameters -/

/-- the system is declared to run from elsewhere -/
def SaysExternal (ws : List (Str × Char)) : Prop := ∃ w ∈ ws, Has (c!"rauc.external") w ∨ Has (c!"root=/dev/nfs") w

theorem explicit_eq (ws : List (Str × Char)) (hw : LineOk ws) :
    (SaysExternal ws → explicitName (some (line ws)) = some external) ∧
    (¬ SaysExternal ws → explicitName (some (line ws)) = capture [c!"rauc.slot="] (line ws)) := by
  unfold explicitName
  simp only []
  rw [infix_line (by decide) (by decide) ws hw, infix_line (by decide) (by decide) ws hw]
  constructor
  · rintro ⟨w, hm, h | h⟩
    · rw [if_pos (List.any_eq_true.2 ⟨w, hm, (hasInfix_iff _ _).2 h⟩)]
    · split
      · rfl
      · rw [if_pos (List.any_eq_true.2 ⟨w, hm, (hasInfix_iff _ _).2 h⟩)]
  · intro h
    rw [if_neg, if_neg]
    · intro hc
      obtain ⟨w, hm, hi⟩ := List.any_eq_true.1 hc
      exact h ⟨w, hm, Or.inr ((hasInfix_iff _ _).1 hi)⟩
    · intro hc
      obtain ⟨w, hm, hi⟩ := List.any_eq_true.1 hc
      exact h ⟨w, hm, Or.inl ((hasInfix_iff _ _).1 hi)⟩

/-- `b` is the only slot of the table which `n` can mean: its boot name, its name or its (resolved) device -/
structure OnlySlot (realpath : Str → Option Str) (n : Str) (b : Slot) (slots : List Slot) : Prop where
  mem : b ∈ slots
  hit : b.bootname = some n ∨ b.name = n ∨ (realpath b.device).getD b.device = n
  only : ∀ s ∈ slots, (s.bootname = some n ∨ s.name = n ∨ (realpath s.device).getD s.device = n) → s = b

theorem findBooted_only {realpath n b slots} (h : OnlySlot realpath n b slots) : findBooted realpath n slots = some b := by
  have iff : ∀ s, isBooted realpath n s = true ↔
      (s.bootname = some n ∨ s.name = n ∨ (realpath s.device).getD s.device = n) := by
    intro s; simp [isBooted, or_assoc]
  unfold findBooted
  cases hf : slots.find? (isBooted realpath n) with
  | none => exact absurd ((iff b).2 h.hit) (by simpa using List.find?_eq_none.1 hf b h.mem)
  | some x =>
    rw [h.only x (List.mem_of_find?_eq_some hf) ((iff x).1 (List.find?_some hf))]

/-- the result of the recognition: `b` is booted, its children are active, everything else is inactive -/
def RunsFrom (realpath : Str → Option Str) (be : Backends) (slots : List Slot) (cmdline : Str) (b : Slot) : Prop :=
  ∃ state, runningStates realpath be slots (some cmdline) = some state ∧
    ∀ s ∈ slots, state s = if s = b then .booted else if s.parent = some b.name then .active else .inactive

theorem runsFrom_of {realpath be slots cmdline n b} (hn : bootName realpath be slots (some cmdline) = some n)
    (h : OnlySlot realpath n b slots) : RunsFrom realpath be slots cmdline b := by
  refine ⟨stateOf b, ?_, fun s _ => rfl⟩
  unfold runningStates slotStates
  simp only [hn, findBooted_only h]

/-- C56: `rauc.slot=NAME` decides, whatever else is on the command line (except the external declarations) and
whatever the boot loader says -/
theorem C56_slot_parameter (realpath : Str → Option Str) (be : Backends) (slots : List Slot) (pre post : List (Str × Char))
    (n : Str) (sep : Char) (b : Slot) (hn : n ≠ [])
    (hw : LineOk (pre ++ (c!"rauc.slot=" ++ n, sep) :: post))
    (hext : ¬ SaysExternal (pre ++ (c!"rauc.slot=" ++ n, sep) :: post))
    (hpre : ∀ w ∈ pre, ¬ Has (c!"rauc.slot=") w)
    (h : OnlySlot realpath n b slots) :
    RunsFrom realpath be slots (line (pre ++ (c!"rauc.slot=" ++ n, sep) :: post)) b := by
  apply runsFrom_of _ h
  unfold bootName
  rw [(explicit_eq _ hw).2 hext, capture_first (by decide) (by decide) pre post sep hw hn hpre]

/-- C56: declared external (or NFS root): no slot is in use -/
theorem C56_external (realpath : Str → Option Str) (be : Backends) (slots : List Slot) (ws : List (Str × Char)) (hw : LineOk ws)
    (hext : SaysExternal ws)
    (hno : ∀ s ∈ slots, ¬ (s.bootname = some external ∨ s.name = external ∨ (realpath s.device).getD s.device = external)) :
    ∃ state, runningStates realpath be slots (some (line ws)) = some state ∧ ∀ s ∈ slots, state s = .inactive := by
  refine ⟨fun _ => .inactive, ?_, fun _ _ => rfl⟩
  have hf : findBooted realpath external slots = none := by
    unfold findBooted
    rw [List.find?_eq_none]
    intro s hs hb
    apply hno s hs
    simpa [isBooted, or_assoc] using hb
  unfold runningStates bootName slotStates
  simp only [(explicit_eq _ hw).1 hext, hf]
  rfl

/-! ## The boot loader and the root parameter -/

/-- neither external nor a `rauc.slot=` parameter -/
def NotExplicit (ws : List (Str × Char)) : Prop := ¬ SaysExternal ws ∧ ∀ w ∈ ws, ¬ Has (c!"rauc.slot=") w

theorem explicit_none {ws} (hw : LineOk ws) (h : NotExplicit ws) : explicitName (some (line ws)) = none := by
  rw [(explicit_eq _ hw).2 h.1]
  exact capture_absent (by decide) ws hw (by intro p hp w hwm; rw [List.mem_singleton.1 hp]; exact h.2 w hwm)

/-- C56: the custom backend's first output line -/
theorem C56_custom (realpath : Str → Option Str) (be : Backends) (slots : List Slot) (ws : List (Str × Char)) (hw : LineOk ws)
    (hex : NotExplicit ws) (hl : be.loader = c!"custom") (hok : be.customOk = true) (n : Str) (hn : n ≠ [])
    (hline : be.customLine = some n) (b : Slot) (h : OnlySlot realpath n b slots) :
    RunsFrom realpath be slots (line ws) b := by
  apply runsFrom_of _ h
  unfold bootName backendName
  simp only [explicit_none hw hex, hl, hok, hline, if_true]
  cases n with
  | nil => exact absurd rfl hn
  | cons c cs => rfl

/-- C56: the name of the EFI entry that was booted -/
theorem C56_efi (realpath : Str → Option Str) (be : Backends) (slots : List Slot) (ws : List (Str × Char)) (hw : LineOk ws)
    (hex : NotExplicit ws) (hl : be.loader = c!"efi") (n : Str) (hcur : be.efiCurrent = some n) (b : Slot)
    (hb : b.bootname = some n) (h : OnlySlot realpath n b slots) :
    RunsFrom realpath be slots (line ws) b := by
  apply runsFrom_of _ h
  have hfind : (slots.find? (fun s => s.bootname == some n)) = some b := by
    cases hf : slots.find? (fun s => s.bootname == some n) with
    | none => exact absurd hb (by simpa using List.find?_eq_none.1 hf b h.mem)
    | some x =>
      rw [h.only x (List.mem_of_find?_eq_some hf) (Or.inl (by simpa using List.find?_some hf))]
  unfold bootName backendName
  have h1 : ¬ (c!"efi" = c!"custom") := by decide
  simp only [explicit_none hw hex, hl, hcur, h1, if_false, if_true, hfind]
  simp [hb]

/-- C56: barebox passes the boot target as `bootstate.active=` or `bootchooser.active=` -/
theorem C56_barebox (realpath : Str → Option Str) (be : Backends) (slots : List Slot) (pre post : List (Str × Char)) (sep : Char)
    (p n : Str) (hp : p = c!"bootstate.active=" ∨ p = c!"bootchooser.active=") (hn : n ≠ [])
    (hw : LineOk (pre ++ (p ++ n, sep) :: post)) (hex : NotExplicit (pre ++ (p ++ n, sep) :: post))
    (hl : be.loader = c!"barebox")
    (hpre : ∀ w ∈ pre, ¬ Has (c!"bootstate.active=") w ∧ ¬ Has (c!"bootchooser.active=") w)
    (b : Slot) (h : OnlySlot realpath n b slots) :
    RunsFrom realpath be slots (line (pre ++ (p ++ n, sep) :: post)) b := by
  apply runsFrom_of _ h
  have hpats : ∀ q ∈ [c!"bootstate.active=", c!"bootchooser.active="], q ≠ [] ∧ ∀ c ∈ q, isSp c = false := by decide
  have hmem : p ∈ [c!"bootstate.active=", c!"bootchooser.active="] := by
    rcases hp with rfl | rfl <;> simp
  have hvs : ∀ c ∈ n, isSp c = false := fun c hc => (hw (p ++ n, sep) (by simp)).1 c (by simp [hc])
  have hcap : capture [c!"bootstate.active=", c!"bootchooser.active="] (line (pre ++ (p ++ n, sep) :: post)) = some n := by
    rw [capture_line hpats _ hw, List.findSome?_append,
      List.findSome?_eq_none_iff.2 (fun w hwm => capture_none (by
        intro q hq
        rcases List.mem_cons.1 hq with rfl | hq
        · exact (hpre w hwm).1
        · rw [List.mem_singleton.1 hq]; exact (hpre w hwm).2)), Option.none_or,
      List.findSome?_cons]
    rw [capture_param hmem ?_ (hpats p hmem).1 hn hvs]
    intro q hq hpre
    rcases hp with rfl | rfl <;> rcases List.mem_cons.1 hq with rfl | hq
    · rfl
    · rw [List.mem_singleton.1 hq] at hpre
      simp at hpre
    · simp at hpre
    · exact List.mem_singleton.1 hq
  unfold bootName backendName
  have h1 : ¬ (c!"barebox" = c!"custom") := by decide
  have h2 : ¬ (c!"barebox" = c!"efi") := by decide
  simp only [explicit_none hw hex, hl, h1, h2, if_false, if_true, hcap]

/-- the device a `root=` value refers to -/
inductive RootDevice : Str → Str → Prop
  | partlabel (x : Str) (h : x.head? ≠ some '/') : RootDevice (c!"PARTLABEL=" ++ x) (c!"/dev/disk/by-partlabel/" ++ x)
  | partuuid (x : Str) (h : x.head? ≠ some '/') : RootDevice (c!"PARTUUID=" ++ x) (c!"/dev/disk/by-partuuid/" ++ x)
  | uuid (x : Str) (h : x.head? ≠ some '/') : RootDevice (c!"UUID=" ++ x) (c!"/dev/disk/by-uuid/" ++ x)
  | path (x : Str) : RootDevice (c!"/" ++ x) (c!"/" ++ x)

theorem dropWhile_slash {x : Str} (h : x.head? ≠ some '/') : x.dropWhile (· == '/') = x := by
  cases x with
  | nil => rfl
  | cons c cs =>
    have : c ≠ '/' := by rintro rfl; exact h rfl
    simp [this]

theorem RootDevice.translated {v d : Str} (h : RootDevice v d) : byUuid (byPartuuid (byPartlabel v)) = d := by
  cases h with
  | partlabel x hx =>
    have e : byPartlabel (c!"PARTLABEL=" ++ x) = c!"/dev/disk/by-partlabel/" ++ x := by
      simp [byPartlabel, translate, underDir, dropWhile_slash hx, List.isPrefixOf]
    rw [e]; simp [byPartuuid, byUuid, translate, List.isPrefixOf]
  | partuuid x hx =>
    have e : byPartuuid (byPartlabel (c!"PARTUUID=" ++ x)) = c!"/dev/disk/by-partuuid/" ++ x := by
      simp [byPartuuid, byPartlabel, translate, underDir, dropWhile_slash hx, List.isPrefixOf]
    rw [e]; simp [byUuid, translate, List.isPrefixOf]
  | uuid x hx =>
    simp [byPartuuid, byPartlabel, byUuid, translate, underDir, dropWhile_slash hx, List.isPrefixOf]
  | path x =>
    simp [byPartuuid, byPartlabel, byUuid, translate, List.isPrefixOf]

/-- the boot loader backend does not know the booted slot: a custom backend that fails or prints nothing, an EFI boot entry that is not one of the configured ones, barebox without its
parameter on the command line -/
structure Silent (be : Backends) (slots : List Slot) (ws : List (Str × Char)) : Prop where
  custom : be.loader = c!"custom" → be.customOk = false ∨ be.customLine = none ∨ be.customLine = some []
  efi : be.loader = c!"efi" → ∀ n, be.efiCurrent = some n → ∀ s ∈ slots, s.bootname ≠ some n
  barebox : be.loader = c!"barebox" → ∀ w ∈ ws, ¬ Has (c!"bootstate.active=") w ∧ ¬ Has (c!"bootchooser.active=") w

theorem silent_none {be : Backends} {slots : List Slot} {ws : List (Str × Char)} (h : Silent be slots ws) (hw : LineOk ws) :
    backendName be slots (some (line ws)) = none := by
  unfold backendName
  split
  · rename_i hl
    rcases h.custom hl with e | e | e
    · simp [e]
    · simp [e]
    · simp [e]
  · split
    · rename_i hl
      cases hc : be.efiCurrent with
      | none => rfl
      | some n =>
        have : slots.find? (fun s => s.bootname == some n) = none := by
          rw [List.find?_eq_none]
          intro s hs he
          exact h.efi hl n hc s hs (by simpa using he)
        simp [this]
    · split
      · rename_i hl
        exact capture_absent (by decide) _ hw (by
          intro p hp w hwm
          rcases List.mem_cons.1 hp with rfl | hp
          · exact (h.barebox hl w hwm).1
          · rw [List.mem_singleton.1 hp]; exact (h.barebox hl w hwm).2)
      · rfl

/-- C56: otherwise the root device, in all supported notations, decides. `hpre` asks that no earlier
parameter contains the text `root=` (see the finding below). -/
theorem C56_root_parameter (realpath : Str → Option Str) (be : Backends) (slots : List Slot) (pre post : List (Str × Char)) (sep : Char)
    (v d : Str) (hd : RootDevice v d) (hw : LineOk (pre ++ (c!"root=" ++ v, sep) :: post))
    (hex : NotExplicit (pre ++ (c!"root=" ++ v, sep) :: post))
    (hsil : Silent be slots (pre ++ (c!"root=" ++ v, sep) :: post))
    (hpre : ∀ w ∈ pre, ¬ Has (c!"root=") w)
    (b : Slot) (h : OnlySlot realpath ((realpath d).getD d) b slots) :
    RunsFrom realpath be slots (line (pre ++ (c!"root=" ++ v, sep) :: post)) b := by
  have hbe := silent_none hsil hw
  apply runsFrom_of _ h
  have hv : v ≠ [] := by cases hd <;> simp
  unfold bootName rootName
  simp only [explicit_none hw hex, hbe, capture_first (by decide : c!"root=" ≠ []) (by decide) pre post sep hw hv hpre,
    hd.translated]

/-- C56: with a verity root, the data device decides -/
theorem C56_verity_parameter (realpath : Str → Option Str) (be : Backends) (slots : List Slot) (pre post : List (Str × Char)) (sep : Char)
    (v d : Str) (hd : RootDevice v d) (hw : LineOk (pre ++ (c!"systemd.verity_root_data=" ++ v, sep) :: post))
    (hex : NotExplicit (pre ++ (c!"systemd.verity_root_data=" ++ v, sep) :: post))
    (hsil : Silent be slots (pre ++ (c!"systemd.verity_root_data=" ++ v, sep) :: post))
    (hroot : ∀ w ∈ pre ++ (c!"systemd.verity_root_data=" ++ v, sep) :: post, ¬ Has (c!"root=") w)
    (hpre : ∀ w ∈ pre, ¬ Has (c!"systemd.verity_root_data=") w)
    (b : Slot) (h : OnlySlot realpath ((realpath d).getD d) b slots) :
    RunsFrom realpath be slots (line (pre ++ (c!"systemd.verity_root_data=" ++ v, sep) :: post)) b := by
  have hbe := silent_none hsil hw
  apply runsFrom_of _ h
  have hv : v ≠ [] := by cases hd <;> simp
  have h0 := capture_absent (pats := [c!"root="]) (by decide) _ hw
    (by intro p hp w hwm; rw [List.mem_singleton.1 hp]; exact hroot w hwm)
  unfold bootName rootName
  simp only [explicit_none hw hex, hbe, h0,
    capture_first (by decide : c!"systemd.verity_root_data=" ≠ []) (by decide) pre post sep hw hv hpre, hd.translated]

/-- C56: nothing on the command line and no answer from the boot loader: states cannot be determined (an
installation stops with an error before it touches anything) -/
theorem C56_unknown_refused (realpath : Str → Option Str) (be : Backends) (slots : List Slot) (ws : List (Str × Char)) (hw : LineOk ws)
    (hex : NotExplicit ws) (hsil : Silent be slots ws)
    (h1 : ∀ w ∈ ws, ¬ Has (c!"root=") w ∧ ¬ Has (c!"systemd.verity_root_data=") w) :
    runningStates realpath be slots (some (line ws)) = none := by
  have hbe := silent_none hsil hw
  unfold runningStates bootName rootName
  simp only [explicit_none hw hex, hbe,
    capture_absent (pats := [c!"root="]) (by decide) _ hw (by intro p hp w hwm; rw [List.mem_singleton.1 hp]; exact (h1 w hwm).1),
    capture_absent (pats := [c!"systemd.verity_root_data="]) (by decide) _ hw
      (by intro p hp w hwm; rw [List.mem_singleton.1 hp]; exact (h1 w hwm).2)]
  rfl

/-- C56 with C09: once a root slot is recognised as running, no installation target lies in its group -/
theorem C56_running_not_targeted (realpath : Str → Option Str) (be : Backends) (slots : List Slot) (hu : UniqueNames slots)
    (hf : FlatParents slots) (cmdline n : Str) (hn : bootName realpath be slots (some cmdline) = some n) (b : Slot)
    (h : OnlySlot realpath n b slots) (hroot : b.parent = none)
    (perSlot : Bool) (status : Slot → SlotStatus) (state : Slot → State)
    (hst : runningStates realpath be slots (some cmdline) = some state) (cls : Str) (t : Slot)
    (ht : targetGroup perSlot state status slots cls = some t) : ¬ InBootedGroup slots b t := by
  unfold runningStates at hst
  rw [hn] at hst
  exact C09_partial realpath n perSlot status slots hu hf state hst b (findBooted_only h) hroot cls t ht

/-! ## Concrete cases and findings -/
namespace Ex
def a : Slot := { name := c!"rootfs.0", sclass := c!"rootfs", device := c!"/dev/sda2", bootname := some (c!"A") }
def b : Slot := { name := c!"rootfs.1", sclass := c!"rootfs", device := c!"/dev/sda3", bootname := some (c!"B") }
def app : Slot := { name := c!"app.0", sclass := c!"app", device := c!"/dev/sda4", parent := some (c!"rootfs.0") }
def slots : List Slot := [b, app, a]
def grubB : Backends := { loader := c!"grub" }

theorem onlyA : OnlySlot some (c!"A") a slots := ⟨by decide, by decide, by decide⟩
theorem onlyDevA : OnlySlot some ((some (c!"/dev/sda2")).getD (c!"/dev/sda2")) a slots := ⟨by decide, by decide, by decide⟩

/-- the hypotheses of the theorems for `quiet root=/dev/sda3 rauc.slot=A` -/
example : RunsFrom some grubB slots (c!"quiet root=/dev/sda3 rauc.slot=A\n") a :=
  C56_slot_parameter some grubB slots [(c!"quiet", ' '), (c!"root=/dev/sda3", ' ')] [] (c!"A") '\n' a (by decide) (by unfold LineOk; decide)
    (by unfold SaysExternal Has; decide) (by unfold Has; decide) onlyA

example : RunsFrom some grubB slots (c!"quiet root=/dev/sda2 ro\n") a :=
  C56_root_parameter some grubB slots [(c!"quiet", ' ')] [(c!"ro", '\n')] ' ' _ _ (.path (c!"dev/sda2")) (by unfold LineOk; decide)
    (by unfold NotExplicit SaysExternal Has; decide) ⟨fun h => absurd h (by decide), fun h => absurd h (by decide), fun h => absurd h (by decide)⟩
    (by unfold Has; decide) a onlyDevA

example : RunsFrom some { loader := c!"barebox" } slots (c!"bootchooser.active=A quiet\n") a :=
  C56_barebox some { loader := c!"barebox" } slots [] [(c!"quiet", '\n')] ' ' (c!"bootchooser.active=") (c!"A") (Or.inr rfl) (by decide)
    (by unfold LineOk; decide) (by unfold NotExplicit SaysExternal Has; decide) rfl (by simp) a onlyA
end Ex

/-- Finding: the search for `root=` is not anchored at the start of a parameter: another parameter ending in `root=`
hides the real one, and the running slot is not recognised (an installation is refused). -/
theorem C56_finding_unanchored :
    runningStates some Ex.grubB Ex.slots (some (c!"overlayroot=tmpfs root=/dev/sda2\n")) = none := by
  have : bootName some Ex.grubB Ex.slots (some (c!"overlayroot=tmpfs root=/dev/sda2\n")) = some (c!"tmpfs") := by decide
  unfold runningStates
  rw [this]
  have h : findBooted some (c!"tmpfs") Ex.slots = none := by decide
  simp [slotStates, h]

/-- Finding: the text `rauc.external` anywhere, for example as `rauc.external=0`, declares all slots unused, and the
running slot may be overwritten. -/
theorem C56_finding_external_value :
    ∃ state, runningStates some Ex.grubB Ex.slots (some (c!"root=/dev/sda2 rauc.external=0\n")) = some state ∧
      state Ex.a = .inactive := by
  obtain ⟨st, h1, h2⟩ := C56_external some Ex.grubB Ex.slots [(c!"root=/dev/sda2", ' '), (c!"rauc.external=0", '\n')]
    (by unfold LineOk; decide) (by unfold SaysExternal Has; decide) (by decide)
  exact ⟨st, h1, h2 Ex.a (by decide)⟩

/-- Finding: nothing prevents a boot name which is the name of another slot; which slot counts as booted then depends
on the iteration order of the slot table. -/
theorem C56_finding_ambiguous :
    ∃ (x y : Slot), SlotsWF [x, y] ∧ SlotsWF [y, x] ∧
      findBooted some (c!"rootfs.1") [x, y] = some x ∧ findBooted some (c!"rootfs.1") [y, x] = some y ∧ x ≠ y := by
  let x : Slot := { name := c!"rootfs.0", sclass := c!"rootfs", device := c!"/dev/sda2", bootname := some (c!"rootfs.1") }
  let y : Slot := { name := c!"rootfs.1", sclass := c!"rootfs", device := c!"/dev/sda3", bootname := some (c!"rootfs.0") }
  have wf : ∀ l : List Slot, (l.Nodup ∧ (∀ s ∈ l, ∀ t ∈ l, s.name = t.name → s = t) ∧
      (∀ s ∈ l, ∀ t ∈ l, s.bootname = t.bootname → s = t) ∧
      ∀ s ∈ l, ∀ bn ∈ s.bootname, bn ≠ [] ∧ ∀ c ∈ bn, isSpace c = false) → SlotsWF l := by
    rintro l ⟨h1, h2, h3, h4⟩
    exact ⟨h1, h2, fun s hs t ht bn e1 e2 => h3 s hs t ht (by rw [e1, e2]), fun s hs bn e => h4 s hs bn e⟩
  exact ⟨x, y, wf _ (by decide), wf _ (by decide), by decide, by decide, by decide⟩

end Rauc.BootName
