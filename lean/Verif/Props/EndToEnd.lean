import Verif.Model.EndToEnd
import Verif.Props.Update
import Verif.Props.Copy
import Verif.Props.HashIndex
import Verif.Props.System
import Verif.Props.Create
import Verif.Props.Workdir
import Mathlib.Tactic.CasesM
import Mathlib.Data.List.Pairwise

/-!
# C98: what the author put into the bundle is what is on the slot

Joins C61 (creation), C33 and C67 (check and mount), C12 and C68 (plans, order, records), C58 (handlers), C30 and C49 (copies).
-/

namespace Rauc.EndToEnd

open Rauc.Update (Step Ev FsKind SlotFs Content contentStep contentAux content mountedStep splits mem_splits expected NameFits updateSlot
  relevant norm norm_mem norm_prog handlerProg optsOf Opts Target updateSlot_cases handler_row bools Prog.paths)
open Rauc.Handlers (Handler imageTypeMap)
open Rauc.Create (Tools Dir openFile lookup)

/-! ## Specification -/

/-- the file system a slot type stands for (`none`: jffs2, which needs no formatting) -/
inductive FsOf : Str → Option FsKind → Prop
  | ext4 : FsOf c!"ext4" (some .ext4)
  | vfat : FsOf c!"vfat" (some .vfat)
  | ubifs : FsOf c!"ubifs" (some .ubifs)
  | jffs2 : FsOf c!"jffs2" none

/-- The file `data` was installed: the files of an archive are in a file system of the slot's type, and no others; every other image
is at the beginning of the slot, byte for byte. -/
def OnSlot (T : Tools) (ty slotType : Str) (data : Bytes) (y : SlotData) : Prop :=
  (ty = c!"tar" → ∃ k tree, FsOf slotType k ∧ T.tar data = some tree ∧ y = .fs k tree) ∧
  (ty ≠ c!"tar" → ∃ d, y = .raw d ∧ d.read 0 data.length = data)

/-- The images of which C98 speaks: archives and plain images, installed by RAUC itself (not by a hook), not changed afterwards by a
hook or by resizing, on slots that are not boot partitions of their own kind (C41 to C43). Images in casync's formats: C63. -/
structure Covered (img : Image) (t : Target) (ty : Str) : Prop where
  typ : img.typ = some ty
  kind : ty ∈ [c!"raw", c!"ext4", c!"vfat", c!"squashfs", c!"ubifs", c!"tar"]
  /-- files with these names are indices of chunk stores -/
  name : ∀ f, img.filename = some f → ¬ c!".caibx" <:+ f ∧ ¬ c!".caidx" <:+ f ∧ ¬ c!".catar" <:+ f
  noInstall : img.hooks.install = false
  noPost : img.hooks.postInstall = false
  noResize : t.resize = false
  slot : ¬ c!"boot-" <+: t.slotType

/-- the file `data` was installed, in whichever way -/
def Shown (T : Tools) (data : Bytes) (y : SlotData) : Prop :=
  (∃ d, y = .raw d ∧ d.read 0 data.length = data) ∨ ∃ k tree, T.tar data = some tree ∧ y = .fs k tree

/-- If the slot is known to hold an image with some digest, then a file with this digest was installed into it. -/
def Backed (T : Tools) (st : Install.St) (dev : Str → SlotData) (n : Str) : Prop :=
  ∀ dg, st.content n = some (some dg) → ∃ data, Create.shaHex T data = dg ∧ Shown T data (dev n)

/-- Two different chunks with the same hash have occurred in images or on slots. (That such chunks exist somewhere is trivial.) -/
def Clash (sha : Sha) : Prop := ∃ x y, x ≠ y ∧ sha.seen x ∧ sha.seen y ∧ sha.hash x = sha.hash y

/-- The bundle has the file of the image, and the manifest tells the truth about it. -/
structure Honest (D : Device) (img : Image) (data : Bytes) : Prop where
  file : ∃ f, img.filename = some f ∧ openFile D.files f = some data
  digest : img.digest = some (Create.shaHex D.T data)
  size : img.size = data.length

/-! ## The steps of a handler -/

def fsKind : SlotFs → Option FsKind
  | .ext4 => some .ext4 | .vfat => some .vfat | .ubifs => some .ubifs | .jffs2 => none

/-- what the abstract content of C58 means -/
def Means (S : Source) (y : SlotData) : Content → Prop
  | .erased => y = .fs none []
  | .image false => Written S y ∨ EndToEnd.Clash S.sha
  | .files k none => y = .fs (fsKind k) []
  | .files k (some false) => ∃ tree, S.T.tar S.data = some tree ∧ y = .fs (fsKind k) tree
  | _ => True

/-- steps that may change what is on the slot without being writes of RAUC -/
def disturbs : Step → Bool
  | .hook _ | .resize2fs => true
  | _ => false

def isMount : Step → Bool
  | .mount | .umount => true
  | _ => false

theorem mountedAfter_eq : mountedAfter = mountedStep := rfl

theorem copy_written {S : Source} (hs : S.size = S.data.length) {f io sector} {d : Disk}
    (h : (Copy.copyRaw f io S.size 0 sector 0 S.data).ok = true) : Written S (.raw (Copy.apply d (Copy.copyRaw f io S.size 0 sector 0 S.data).ops)) := by
  obtain ⟨-, -, h3⟩ := Copy.C49_complete f io S.size 0 sector 0 S.data h
  refine ⟨_, rfl, ?_⟩
  have := (h3 d).1
  rw [hs] at this ⊢
  simpa using this

theorem adaptive_written {S : Source} {io} {I : HashIndex.Input} {d d' : Disk} (h1 : I.isize = S.data.length) (h2 : I.image.read 0 I.isize = S.data)
    (h3 : I.istored = none ∨ I.istored = some (HashIndex.hashFile S.sha.hash 4096 I.image (I.isize / 4096)))
    (h4 : HashIndex.copyAdaptive S.sha.hash (S.sha.hash (List.replicate 4096 0)) 4096 io I d = .ok (d', true))
    (h5 : ∀ c < I.isize / 4096, S.sha.seen (d'.read (c * 4096) 4096) ∧ S.sha.seen (I.image.read (c * 4096) 4096)) :
    Written S (.raw d') ∨ EndToEnd.Clash S.sha := by
  rcases HashIndex.C30_exact S.sha.hash _ 4096 io I d d' rfl h3 h4 with ⟨h | ⟨c, hc, h6, h7⟩, -⟩
  · left
    refine ⟨d', rfl, ?_⟩
    rw [← h1, h, h2]
  · exact Or.inr ⟨_, _, h6, (h5 c hc).1, (h5 c hc).2, h7⟩

theorem means_broken {S : Source} {y : SlotData} : Means S y .broken := trivial

/-- one step: the abstract content stays true -/
theorem step_means {S : Source} (hs : S.size = S.data.length) {m : Bool} {x y : SlotData} {c : Content} {e : Ev}
    (hq : c ≠ .old → disturbs e.1 = false ∧ (isMount e.1 = true → ∀ b, c ≠ .image b)) (hx : Means S x c) (h : StepData S m x e y) :
    Means S y (contentStep m c e) := by
  obtain ⟨s, b⟩ := e
  have old : c = .old → Means S y c := fun e => by subst e; trivial
  have hm : (∀ k t, x = .fs k t → y = x) → (∀ b, c ≠ .image b) → Means S y c := by
    intro h1 h2
    cases c with
    | image b => exact absurd rfl (h2 b)
    | old => trivial
    | broken => trivial
    | byHook => trivial
    | erased => exact (h1 _ _ hx).trans hx
    | files k a =>
      cases a with
      | none => exact (h1 _ _ hx).trans hx
      | some a =>
        cases a with
        | true => trivial
        | false =>
          obtain ⟨tree, t1, t2⟩ := hx
          exact ⟨tree, t1, (h1 _ _ t2).trans t2⟩
  have same : y = x → Means S y c := fun e => by rw [e]; exact hx
  have dist : disturbs s = true → Means S y c := by
    intro hd
    by_cases ho : c = .old
    · exact old ho
    · have := (hq ho).1
      rw [hd] at this; cases this
  have mt : isMount s = true → (∀ k t, x = .fs k t → y = x) → Means S y c := by
    intro hd h1
    by_cases ho : c = .old
    · exact old ho
    · exact hm h1 ((hq ho).2 hd)
  have wr : Written S y ∨ EndToEnd.Clash S.sha → Means S y (.image false) := fun h => h
  cases s with
  | hook k => cases k <;> cases b <;> cases m <;> first | exact trivial | exact dist rfl
  | mount => cases b <;> cases m <;> exact mt rfl h
  | umount => cases b <;> cases m <;> exact mt rfl h
  | mountSeed => cases b <;> cases m <;> exact same h
  | umountSeed => cases b <;> cases m <;> exact same h
  | openDev => cases b <;> cases m <;> exact same h
  | checkSize => cases b <;> cases m <;> exact same h
  | ubiStart => cases b <;> cases m <;> exact means_broken
  | copyRaw =>
    cases b <;> cases m <;> try exact means_broken
    obtain ⟨d, f, io, sector, -, h1, rfl⟩ := h rfl
    exact wr (Or.inl (copy_written hs h1))
  | closeDev => cases b <;> cases m <;> first | exact means_broken | exact same h
  | copyAdaptive =>
    cases b <;> cases m <;> try exact means_broken
    obtain ⟨d, io, I, d', -, h1, h2, h3, h4, h5, rfl⟩ := h rfl
    exact wr (adaptive_written h1 h2 h3 h4 h5)
  | casyncBlob => cases b <;> cases m <;> exact trivial
  | casyncTree =>
    cases b <;> cases m <;> try exact means_broken
    all_goals
      simp only [contentStep, Update.unpackInto]
      cases c with
      | files k a => cases a <;> exact trivial
      | _ => exact trivial
  | untar =>
    cases b <;> cases m <;> try exact means_broken
    simp only [contentStep, Update.unpackInto]
    cases c with
    | files k a =>
      cases a with
      | some a => exact trivial
      | none => exact h rfl _ hx
    | erased => exact h rfl _ hx
    | _ => exact trivial
  | mkfs k => cases b <;> cases m <;> first | exact means_broken | (cases k <;> exact h rfl)
  | flashErase => cases b <;> cases m <;> first | exact means_broken | exact h rfl
  | nandWrite =>
    cases b <;> cases m <;> try exact means_broken
    simp only [contentStep]
    by_cases hc : c = .erased
    · subst hc
      exact wr (Or.inl (h rfl hx))
    · simp only [Step.writesDevice, Bool.and_true, hc]
      exact trivial
  | flashcp =>
    cases b <;> cases m <;> try exact means_broken
    exact wr (Or.inl (h rfl))
  | resize2fs =>
    by_cases ho : c = .old
    · subst ho
      cases b <;> cases m <;> exact trivial
    · have := (hq ho).1
      cases this

/-- no hook, no resizing, no mounting on top of something written as a whole -/
def quietStep (c : Content) (e : Ev) : Bool :=
  decide (c = .old) || (!disturbs e.1 && (!isMount e.1 || (decide (c ≠ .image false) && decide (c ≠ .image true))))

def quietTrace : List Ev → Bool → Content → Bool
  | [], _, _ => true
  | e :: es, m, c => quietStep c e && quietTrace es (mountedStep m e) (contentStep m c e)

theorem steps_means {S : Source} (hs : S.size = S.data.length) {tr : List Ev} {m : Bool} {x y : SlotData} {c : Content}
    (hq : quietTrace tr m c = true) (hx : Means S x c) (h : Steps S m x tr y) : Means S y (contentAux tr m c) := by
  induction tr generalizing m x c with
  | nil => cases h; exact hx
  | cons e es ih =>
    cases h with
    | cons h1 h2 =>
      simp only [quietTrace, Bool.and_eq_true] at hq
      refine ih hq.2 (step_means hs ?_ hx h1) h2
      intro ho
      have h0 := hq.1
      simp only [quietStep, Bool.or_eq_true, Bool.and_eq_true, decide_eq_true_eq, Bool.not_eq_true', ho, false_or] at h0
      refine ⟨h0.1, fun hm b => ?_⟩
      rcases h0.2 with h3 | h3
      · rw [hm] at h3; cases h3
      · cases b
        · simpa using h3.1
        · simpa using h3.2

/-- without post-install hook and resizing, nothing disturbs what the handlers write -/
def allQuiet (h : Handler) : Prop := ∀ o ∈ relevant h, o.postHook = false → o.resize = false → h ≠ .hookInstall →
  ∀ p ∈ (handlerProg o h).toList, ∀ q ∈ p.paths, quietTrace q.1 false .old = true

theorem allQuiet_all (h : Handler) : allQuiet h := by
  cases h <;> (unfold allQuiet; decide +kernel)

theorem covered_fits {img : Image} {t : Target} {ty : Str} (h : Covered img t ty) : NameFits img ty := by
  have suf : ∀ s, (∀ f, img.filename = some f → ¬ s <:+ f) → Update.nameHasSuffix img s = false := by
    intro s hs
    unfold Update.nameHasSuffix
    split
    · rfl
    · rename_i f hf
      rw [Bool.eq_false_iff]
      exact fun h => hs f hf (List.isSuffixOf_iff_suffix.mp h)
  have h1 := suf c!".caibx" (fun f hf => (h.name f hf).1)
  have h2 := suf c!".caidx" (fun f hf => (h.name f hf).2.1)
  have h3 := suf c!".catar" (fun f hf => (h.name f hf).2.2)
  have hk := h.kind
  simp only [List.mem_cons, List.not_mem_nil, or_false] at hk
  unfold NameFits
  rcases hk with rfl | rfl | rfl | rfl | rfl | rfl
  · rw [if_neg (by decide), if_neg (by decide), if_neg (by decide), if_neg (by decide), if_neg (by decide)]; exact h1
  · rw [if_neg (by decide), if_neg (by decide), if_neg (by decide), if_neg (by decide), if_neg (by decide)]; exact h1
  · rw [if_neg (by decide), if_neg (by decide), if_neg (by decide), if_neg (by decide), if_neg (by decide)]; exact h1
  · rw [if_neg (by decide), if_neg (by decide), if_neg (by decide), if_neg (by decide), if_neg (by decide)]; exact h1
  · rw [if_neg (by decide), if_neg (by decide), if_neg (by decide), if_neg (by decide), if_neg (by decide)]; exact h1
  · rw [if_pos rfl]; exact ⟨h2, h3⟩

theorem covered_expected {img : Image} {t : Target} {ty : Str} (h : Covered img t ty) :
    expected ty t.slotType = if ty = c!"tar" then (Update.slotFs t.slotType).map (.files · (some false)) else some (.image false) := by
  have hk := h.kind
  simp only [List.mem_cons, List.not_mem_nil, or_false] at hk
  unfold expected
  rcases hk with rfl | rfl | rfl | rfl | rfl | rfl
  all_goals first
    | rw [if_pos rfl, if_pos rfl]
    | rw [if_neg (by decide), if_neg (by decide), if_neg (by decide), if_neg (by decide), if_neg (by decide)]

theorem covered_not_special {img : Image} {t : Target} {ty : Str} (h : Covered img t ty) : ¬ Special img t := by
  rintro ⟨hd, h1, h2⟩
  obtain ⟨e, he, -, hst, rfl⟩ := handler_row h.noInstall h1
  have key : ∀ e ∈ imageTypeMap, ¬ c!"boot-" <+: e.2.1 → e.2.2 ≠ .bootEmmc ∧ e.2.2 ≠ .bootMbrSwitch ∧ e.2.2 ≠ .bootGptSwitch ∧ e.2.2 ≠ .bootRawFallback := by
    decide
  have := key e he (by rw [← hst]; exact h.slot)
  revert h2 this
  cases e.2.2 <;> simp [handlerProg]

/-- **C98, one slot.** When an update handler reports success, what it was given is on the slot. -/
theorem C98_handler (S : Source) (hs : S.size = S.data.length) (img : Image) (t : Target) (ty : Str) (hc : Covered img t ty)
    (o : List Ev → Step → Bool) (tr : List Ev) (h : updateSlot img t o = some (tr, true)) (x y : SlotData) (hst : Steps S false x tr y) :
    OnSlot S.T ty t.slotType S.data y ∨ EndToEnd.Clash S.sha := by
  have hx := (Update.C58_complete hc.noInstall h hc.typ (covered_fits hc)).1 rfl
  obtain ⟨hd, h1, p, h2, h3⟩ := updateSlot_cases h
  obtain ⟨e, he, hty, hsl, rfl⟩ := handler_row hc.noInstall h1
  have hq : quietTrace tr false .old = true := by
    have hn : (norm e.2.2 (optsOf img t)).postHook = false := by
      rw [(Update.norm_hooks _ _).2]; simp [optsOf, hc.noPost]
    have hr : (norm e.2.2 (optsOf img t)).resize = false := by
      have : (optsOf img t).resize = false := by simp [optsOf, hc.noResize]
      revert this
      generalize optsOf img t = oo
      intro this
      cases e.2.2 <;> first | exact this | rfl
    exact allQuiet_all e.2.2 _ (norm_mem _ _) hn hr (Update.row_not_hook e he) p (by rw [← norm_prog, h2]; simp) _ h3
  have hmean := steps_means hs hq (c := .old) trivial hst
  change Means S y (content tr) at hmean
  rw [covered_expected hc] at hx
  by_cases ht : ty = c!"tar"
  · rw [if_pos ht, Option.map_eq_some_iff] at hx
    obtain ⟨k, hk, hcont⟩ := hx
    rw [← hcont] at hmean
    obtain ⟨tree, t1, t2⟩ := hmean
    refine Or.inl ⟨fun _ => ⟨_, tree, ?_, t1, t2⟩, fun hne => absurd ht hne⟩
    unfold Update.slotFs at hk
    split at hk
    · rename_i h; cases hk; rw [h]; exact .ext4
    · split at hk
      · rename_i h; cases hk; rw [h]; exact .vfat
      · split at hk
        · rename_i h; cases hk; rw [h]; exact .ubifs
        · split at hk
          · rename_i h; cases hk; rw [h]; exact .jffs2
          · cases hk
  · rw [if_neg ht, Option.some.injEq] at hx
    rw [← hx] at hmean
    rcases hmean with hw | hcol
    · exact Or.inl ⟨fun h => absurd h ht, fun _ => hw⟩
    · exact Or.inr hcol

/-! ## The events of an installation -/

theorem OnSlot.shown {T : Tools} {ty slotType : Str} {data : Bytes} {y : SlotData} (h : OnSlot T ty slotType data y) : Shown T data y := by
  by_cases ht : ty = c!"tar"
  · obtain ⟨k, tree, -, h1, h2⟩ := h.1 ht
    exact Or.inr ⟨k, tree, h1, h2⟩
  · exact Or.inl (h.2 ht)

/-- what is written to slot `n` is this image, of this file -/
structure Only (D : Device) (n : Str) (s : Slot) (img : Image) (ty : Str) (data : Bytes) (evs : List Install.Ev) : Prop where
  writes : ∀ s' img', Install.Ev.writeEnd s' img' true ∈ evs → s'.name = n → s' = s ∧ img' = img
  custom : ∀ e ∈ evs, e ≠ .customStart ∧ ∀ b, e ≠ .customEnd b
  name : s.name = n
  honest : Honest D img data
  covered : Covered img (D.target s) ty

theorem Honest.source {D : Device} {img : Image} {data : Bytes} (h : Honest D img data) : D.source img = ⟨D.T, D.sha, data, data.length⟩ := by
  obtain ⟨f, h1, h2⟩ := h.file
  simp [Device.source, h1, h2, h.size]

/-- an event that is not about the slot -/
theorem dev_frame {D : Device} {dev dev' : Str → SlotData} {e : Install.Ev} {n : Str} (h : DevStep D dev e dev')
    (hn : System.about e ≠ some n) (hc : e ≠ .customStart ∧ ∀ b, e ≠ .customEnd b) : dev' n = dev n := by
  cases e with
  | writeEnd s img b =>
    have : n ≠ s.name := fun e => hn (by simp [System.about, e])
    cases b
    · exact congrFun h n
    · exact h.1 n this
  | writeStart s img k => exact h n (fun e => hn (by simp [System.about, e]))
  | customStart => exact absurd rfl hc.1
  | customEnd b => exact absurd rfl (hc.2 b)
  | _ => exact congrFun h n

/-- the handler for the slot was successful -/
theorem written_event {D : Device} {n : Str} {s : Slot} {img : Image} {ty : Str} {data : Bytes} {evs : List Install.Ev}
    (O : Only D n s img ty data evs) {dev dev' : Str → SlotData} (h : DevStep D dev (.writeEnd s img true) dev') :
    OnSlot D.T ty (D.target s).slotType data (dev' n) ∨ EndToEnd.Clash D.sha := by
  rcases h.2 with hsp | ⟨x, o, tr, h1, h2⟩
  · exact absurd hsp (covered_not_special O.covered)
  · rw [O.honest.source] at h2
    have := C98_handler _ rfl img (D.target s) ty O.covered o tr h1 x _ h2
    rw [O.name] at this
    exact this

theorem Only.tail {D : Device} {n : Str} {s : Slot} {img : Image} {ty : Str} {data : Bytes} {e : Install.Ev} {evs : List Install.Ev}
    (O : Only D n s img ty data (e :: evs)) : Only D n s img ty data evs :=
  ⟨fun s' i' h => O.writes s' i' (List.mem_cons_of_mem _ h), fun x hx => O.custom x (List.mem_cons_of_mem _ hx), O.name, O.honest, O.covered⟩

/-- one event -/
theorem event_cases {D : Device} {n : Str} {s : Slot} {img : Image} {ty : Str} {data : Bytes} {e : Install.Ev} {evs : List Install.Ev}
    (O : Only D n s img ty data (e :: evs)) {c : Install.Cfg} {st : Install.St} {dev dev' : Str → SlotData} (h : DevStep D dev e dev') :
    EndToEnd.Clash D.sha ∨
    (dev' n = dev n ∧ (Install.apply c st e).content n = st.content n ∧ e ≠ .writeEnd s img true) ∨ ((Install.apply c st e).content n = none ∧ e ≠ .writeEnd s img true) ∨
    (OnSlot D.T ty (D.target s).slotType data (dev' n) ∧ (Install.apply c st e).content n = some (some (Create.shaHex D.T data))) := by
  by_cases ha : System.about e = some n
  · cases e with
    | setMem k st' => exact Or.inr (Or.inl ⟨congrFun h n, rfl, by simp⟩)
    | writeStart s' img' k =>
      right; right; left
      simp only [System.about, Option.some.injEq] at ha
      refine ⟨?_, by simp⟩
      simp [Install.apply, Install.upd, ha]
    | writeEnd s' img' b =>
      simp only [System.about, Option.some.injEq] at ha
      cases b with
      | false => exact Or.inr (Or.inl ⟨congrFun h n, rfl, by simp⟩)
      | true =>
        obtain ⟨rfl, rfl⟩ := O.writes s' img' (by simp) ha
        rcases written_event O h with h1 | h1
        · refine Or.inr (Or.inr (Or.inr ⟨h1, ?_⟩))
          simp [Install.apply, Install.upd, ha, O.honest.digest]
        · exact Or.inl h1
    | _ => simp [System.about] at ha
  · refine Or.inr (Or.inl ⟨dev_frame h ha (O.custom e (by simp)), (System.apply_frame ha).2.1, ?_⟩)
    rintro rfl
    exact ha (by simp [System.about, O.name])

theorem backed_steps {D : Device} {n : Str} {s : Slot} {img : Image} {ty : Str} {data : Bytes} {c : Install.Cfg} {evs : List Install.Ev}
    (O : Only D n s img ty data evs) {st : Install.St} {dev dev' : Str → SlotData} (h : DevSteps D dev evs dev') (hb : Backed D.T st dev n) :
    Backed D.T (Install.replay c st evs) dev' n ∨ EndToEnd.Clash D.sha := by
  induction evs generalizing st dev with
  | nil => cases h; exact Or.inl hb
  | cons e es ih =>
    cases h with
    | cons h1 h2 =>
      rcases event_cases (c := c) (st := st) O h1 with hc | ⟨e1, e2, -⟩ | ⟨e1, -⟩ | ⟨e1, e2⟩
      · exact Or.inr hc
      · refine ih O.tail h2 ?_
        intro dg hd
        rw [e2] at hd
        rw [e1]
        exact hb dg hd
      · refine ih O.tail h2 ?_
        intro dg hd
        rw [e1] at hd
        cases hd
      · refine ih O.tail h2 ?_
        intro dg hd
        rw [e2] at hd
        cases hd
        exact ⟨data, rfl, e1.shown⟩

/-- from the end of a successful write on -/
theorem fresh_steps {D : Device} {n : Str} {s : Slot} {img : Image} {ty : Str} {data : Bytes} {c : Install.Cfg} {evs : List Install.Ev}
    (O : Only D n s img ty data evs) {st : Install.St} {dev dev' : Str → SlotData} (h : DevSteps D dev evs dev')
    (hb : st.content n = none ∨ OnSlot D.T ty (D.target s).slotType data (dev n) ∨ Install.Ev.writeEnd s img true ∈ evs) :
    (Install.replay c st evs).content n = none ∨ OnSlot D.T ty (D.target s).slotType data (dev' n) ∨ EndToEnd.Clash D.sha := by
  induction evs generalizing st dev with
  | nil =>
    cases h
    rcases hb with hb | hb | hb
    · exact Or.inl hb
    · exact Or.inr (Or.inl hb)
    · simp at hb
  | cons e es ih =>
    cases h with
    | cons h1 h2 =>
      rcases event_cases (c := c) (st := st) O h1 with hc | ⟨e1, e2, e3⟩ | ⟨e1, -⟩ | ⟨e1, e2⟩
      · exact Or.inr (Or.inr hc)
      · refine ih O.tail h2 ?_
        rw [e1, e2]
        rcases hb with hb | hb | hb
        · exact Or.inl hb
        · exact Or.inr (Or.inl hb)
        · rcases List.mem_cons.1 hb with hb | hb
          · exact absurd hb.symm e3
          · exact Or.inr (Or.inr hb)
      · exact ih O.tail h2 (Or.inl e1)
      · exact ih O.tail h2 (Or.inr (Or.inl e1))

/-! ## Whole installations -/

/-- where the writes of an installation come from -/
def FromPlans (plans : List Select.Plan) (e : Install.Ev) : Prop :=
  (e ≠ .customStart ∧ ∀ b, e ≠ .customEnd b) ∧ ∀ s i, e = .writeEnd s i true → ∃ p ∈ plans, ∃ hd, p.target = .slot s hd ∧ p.image = i

theorem FromPlans.mono {p : Select.Plan} {plans : List Select.Plan} {e : Install.Ev} (h : FromPlans plans e) : FromPlans (p :: plans) e :=
  ⟨h.1, fun s i he => (h.2 s i he).imp fun _ hq => ⟨List.mem_cons_of_mem _ hq.1, hq.2⟩⟩

theorem slotPlan_writes {w : Install.World} {m : Manifest} {txn : Str} {p : Select.Plan} {plans : List Select.Plan} {s : Slot} {hd} {h evs : List Install.Ev} {b : Bool}
    (hp : p.target = .slot s hd) (hm : p ∈ plans)
    (he : Install.slotPlan w m txn p.image s h = (h ++ evs, b)) : ∀ e ∈ evs, FromPlans plans e := by
  rcases Install.slotPlan_cases w m txn p.image s h with ⟨-, e⟩ | ⟨-, hs, st, b', -, -, e⟩ | ⟨-, -, -, st, -, e⟩ |
    ⟨-, -, -, st, st', k, a, b', -, -, -, e⟩ | ⟨-, -, -, st', k, a, b', -, -, e⟩ <;>
    rw [he] at e <;> simp only [Prod.mk.injEq] at e <;> obtain ⟨e1, e2⟩ := e
  · have : evs = [] := by simpa using e1
    subst this; simp
  all_goals
    have := List.append_cancel_left e1
    subst this
    intro e hx
    refine ⟨?_, ?_⟩
    · simp only [List.mem_cons, List.not_mem_nil, or_false] at hx
      casesm* _ ∨ _ <;> subst_vars <;> simp
    · rintro s' i' rfl
      simp only [List.mem_cons, List.not_mem_nil, or_false, reduceCtorEq, false_or, Install.Ev.writeEnd.injEq] at hx
      try obtain ⟨rfl, rfl, -⟩ := hx
      try exact ⟨p, hm, hd, hp, rfl⟩

theorem plansLoop_writes (w : Install.World) (m : Manifest) (txn : Str) (plans : List Select.Plan) (h : List Install.Ev) :
    ∃ evs b, Install.plansLoop w m txn plans h = (h ++ evs, b) ∧ ∀ e ∈ evs, FromPlans plans e := by
  apply Install.plansLoop_ind w m txn (fun plans _ evs _ => ∀ e ∈ evs, FromPlans plans e)
  · simp
  · intro p s hd ps h evs ht he
    exact slotPlan_writes ht (by simp) he
  · intro p s hd ps h evs evs' b ht he ih e hm
    rcases List.mem_append.1 hm with hm | hm
    · exact slotPlan_writes ht (by simp) he e hm
    · exact (ih e hm).mono
  · intro p n ps h ht e hm
    simp only [List.mem_cons, List.not_mem_nil, or_false] at hm
    rcases hm with rfl | rfl <;> exact ⟨by simp, by simp⟩
  · intro p n ps h evs' b ht ih e hm
    simp only [List.mem_cons] at hm
    rcases hm with rfl | rfl | hm
    · exact ⟨by simp, by simp⟩
    · exact ⟨by simp, by simp⟩
    · exact (ih e hm).mono

theorem quiet_from {plans : List Select.Plan} {e : Install.Ev} (h : e.isWrite = false) : FromPlans plans e := by
  refine ⟨⟨?_, ?_⟩, ?_⟩
  · rintro rfl; simp [Install.Ev.isWrite] at h
  · rintro b rfl; simp [Install.Ev.isWrite] at h
  · rintro s i rfl; simp [Install.Ev.isWrite] at h

theorem install_writes {w : Install.World} {a : Install.Args} {c : Install.Checked} {inner : Option Manifest} {m : Manifest} {plans : List Select.Plan}
    (hm : (c.manifest <|> inner) = some m) (hh : m.handlerName = none) (hp : Install.plansOf w m = some plans) :
    ∀ e ∈ (Install.install w a c inner).1, FromPlans plans e := by
  obtain ⟨h, dh, post, hE, hq1, hq2, hd, -⟩ := System.install_core w a c inner m hm hh
  have key : ∀ e ∈ dh, FromPlans plans e := by
    rcases hd with rfl | hd
    · simp
    rcases Install.defaultHandler_shape w m a.transaction h with ⟨o, -, e⟩ | ⟨plans', boot, hp', hb', -, ⟨s, rfl, e⟩ |
      ⟨pre0, evs0, b0, tail, o, hpre, hl, e, ht⟩⟩
    · rw [e] at hd
      have : dh = [] := by simpa using hd
      subst this; simp
    · rw [e] at hd
      have := List.append_cancel_left hd
      subst this
      intro e he
      simp only [List.mem_cons, List.not_mem_nil, or_false] at he
      subst he
      exact quiet_from rfl
    · have hd' : dh = pre0 ++ evs0 ++ tail := by
        rw [e] at hd
        apply List.append_cancel_left (as := h)
        rw [← hd]; simp
      rw [Install.plansOf, hp'] at hp
      cases hp
      obtain ⟨evs, b, hl', hq3⟩ := plansLoop_writes w m a.transaction plans (h ++ pre0)
      rw [hl] at hl'
      simp only [Prod.mk.injEq] at hl'
      have := List.append_cancel_left hl'.1
      subst this
      intro x hx
      rw [hd'] at hx
      simp only [List.mem_append] at hx
      rcases hx with (hx | hx) | hx
      · rw [hpre, List.mem_map] at hx
        obtain ⟨s, -, rfl⟩ := hx
        exact quiet_from rfl
      · exact hq3 x hx
      · cases ht <;> simp only [List.mem_cons, List.not_mem_nil, or_false] at hx
        · subst hx; exact quiet_from rfl
        · subst hx; exact quiet_from rfl
        · rcases hx with rfl | rfl <;> exact quiet_from rfl
        · rcases hx with rfl | rfl | rfl | rfl <;> exact quiet_from rfl
  intro e he
  rw [hE] at he
  simp only [List.mem_append] at he
  rcases he with (he | he) | he
  · exact quiet_from (hq1 e he).2.2
  · exact key e he
  · exact quiet_from (hq2 e he).2.2

theorem plan_unique {plans : List Select.Plan} (h : System.Distinct plans) {p q : Select.Plan} (hp : p ∈ plans) (hq : q ∈ plans)
    {s s' : Slot} {hd hd'} (h1 : p.target = .slot s hd) (h2 : q.target = .slot s' hd') (hn : s.name = s'.name) : p = q := by
  by_contra hne
  haveI sym : Std.Symm fun p q : Select.Plan => ∀ s hd s' hd', p.target = .slot s hd → q.target = .slot s' hd' → s.name ≠ s'.name :=
    ⟨fun a b hab s hd s' hd' h1 h2 e => hab s' hd' s hd h2 h1 e.symm⟩
  exact List.Pairwise.forall h hp hq hne s hd s' hd' h1 h2 hn

/-- the writes of an installation to one of its targets -/
theorem only_of_update {slots : List Slot} {w : Install.World} {a : Install.Args} {c : Install.Checked} {inner : Option Manifest} {m : Manifest}
    {plans : List Select.Plan} (U : System.Update slots w c inner m plans) (D : Device) {p : Select.Plan} (hp : p ∈ plans) {s : Slot} {hd}
    (ht : p.target = .slot s hd) {ty : Str} {data : Bytes} (hh : Honest D p.image data) (hc : Covered p.image (D.target s) ty)
    {pre : List Install.Ev} (hpre : pre <+: (Install.install w a c inner).1) : Only D s.name s p.image ty data pre := by
  have hw := install_writes (a := a) U.manifest U.noHandler U.plans
  have hsub : ∀ e ∈ pre, FromPlans plans e := fun e he => hw e (hpre.subset he)
  refine ⟨?_, fun e he => (hsub e he).1, rfl, hh, hc⟩
  intro s' i' hm hn
  obtain ⟨q, hq, hd', hqt, rfl⟩ := (hsub _ hm).2 s' i' rfl
  have := plan_unique U.distinct hq hp hqt ht hn
  subst this
  rw [ht] at hqt
  cases hqt
  exact ⟨rfl, rfl⟩

/-- a successful installation has carried out all plans -/
theorem all_done {slots : List Slot} {w : Install.World} {a : Install.Args} {c : Install.Checked} {inner : Option Manifest} {m : Manifest}
    {plans : List Select.Plan} (U : System.Update slots w c inner m plans) (hok : (Install.install w a c inner).2 = .ok) :
    System.Complete plans (Install.install w a c inner).1 (Install.replay w.cfg w.st0 (Install.install w a c inner).1) ∧
    ∀ p ∈ plans, ∀ s hd, p.target = .slot s hd → s.installSame = true → Install.Ev.writeEnd s p.image true ∈ (Install.install w a c inner).1 := by
  obtain ⟨h, dh, post, hE, hq1, hq2, -, hfin⟩ := System.install_core w a c inner m U.manifest U.noHandler
  obtain ⟨hd, hdo⟩ := hfin hok
  rcases Install.defaultHandler_shape w m a.transaction h with ⟨o, ho, e⟩ | ⟨plans', boot, hp', hb', -, ⟨s, rfl, e⟩ |
    ⟨pre0, evs0, b0, tail, o, hpre, hl, e, htl⟩⟩
  · rw [e] at hdo; exact absurd hdo ho
  · rw [e] at hdo; simp at hdo
  · have hpl := U.plans
    rw [Install.plansOf, hp'] at hpl
    cases hpl
    have hd' : dh = pre0 ++ evs0 ++ tail := by
      rw [e] at hd
      apply List.append_cancel_left (as := h)
      rw [← hd]; simp
    rw [e] at hdo
    simp only [] at hdo
    subst hdo
    have hb : b0 = true := by cases htl <;> rfl
    subst hb
    have hEv : (Install.install w a c inner).1 = (h ++ pre0 ++ evs0) ++ (tail ++ post) := by
      rw [hE, hd']; simp
    constructor
    · have hcl : ∃ t, ∀ x ∈ tail ++ post, System.Closing w t (h ++ pre0 ++ evs0) x := by
        cases htl with
        | done hx =>
          refine ⟨{ name := [], sclass := [] }, ?_⟩
          intro x hx
          simp only [List.cons_append, List.nil_append, List.mem_cons] at hx
          rcases hx with rfl | hx
          · exact Or.inl rfl
          · exact Or.inl (hq2 x hx).2.1
        | activated s st b' hss _ hst hdg =>
          refine ⟨s, ?_⟩
          have hcur : (w.cur (h ++ pre0 ++ evs0 ++ [.prune true, .setPrimary s true])).mem s.name =
              (w.cur (h ++ pre0 ++ evs0)).mem s.name := by
            rw [Install.cur_append]; rfl
          rw [hcur] at hst hdg
          intro x hx
          simp only [List.cons_append, List.nil_append, List.mem_cons] at hx
          rcases hx with rfl | rfl | rfl | rfl | he
          · exact Or.inl rfl
          · exact Or.inl rfl
          · exact Or.inr (Or.inr ⟨st, rfl, hst, hdg⟩)
          · exact Or.inr (Or.inl ⟨b', rfl⟩)
          · exact Or.inl (hq2 x he).2.1
      obtain ⟨t, hcl⟩ := hcl
      exact U.complete (t := t) (List.prefix_refl _) hl hEv hcl
    · intro p hp s hd0 ht hs
      obtain ⟨evs2, b2, hl2, -, hpost⟩ := Install.plansLoop_post w m a.transaction plans (h ++ pre0)
      rw [hl] at hl2
      simp only [Prod.mk.injEq] at hl2
      obtain ⟨e2, rfl⟩ := hl2
      have := List.append_cancel_left e2
      subst this
      have hco := (hpost rfl).1 p hp
      unfold Install.CarriedOut at hco
      rw [ht] at hco
      simp only [] at hco
      rcases hco with h1 | ⟨h1, -⟩
      · rw [hEv]; simp [h1]
      · rw [hs] at h1; cases h1

/-- **C98, installation.** After an installation that reports success, the file of each image is on its slot - unless there are two
different chunks of 4096 bytes with the same hash. If the slot was written at all (always, unless `install-same=false` is set), the very
file is there in the form its type asks for; otherwise one with the same digest is there since an earlier installation. -/
theorem C98_install {slots : List Slot} {w : Install.World} {a : Install.Args} {c : Install.Checked} {inner : Option Manifest} {m : Manifest}
    {plans : List Select.Plan} (U : System.Update slots w c inner m plans) (D : Device) {p : Select.Plan} (hp : p ∈ plans) {s : Slot} {hd}
    (ht : p.target = .slot s hd) {ty : Str} {data : Bytes} (hh : Honest D p.image data) (hc : Covered p.image (D.target s) ty)
    (hok : (Install.install w a c inner).2 = .ok) {dev dev' : Str → SlotData} (hdev : DevSteps D dev (Install.install w a c inner).1 dev') :
    ((s.installSame = true ∨ Install.Ev.writeEnd s p.image true ∈ (Install.install w a c inner).1) → OnSlot D.T ty (D.target s).slotType data (dev' s.name)) ∧
    (Backed D.T w.st0 dev s.name → ∃ data', Create.shaHex D.T data' = Create.shaHex D.T data ∧ Shown D.T data' (dev' s.name)) ∨
    EndToEnd.Clash D.sha := by
  obtain ⟨hcomp, hall⟩ := all_done U hok
  have O := only_of_update (a := a) U D hp ht hh hc (List.prefix_refl _)
  have hcont := hcomp p hp
  rw [ht] at hcont
  simp only [] at hcont
  by_cases hcol : EndToEnd.Clash D.sha
  · exact Or.inr hcol
  left
  constructor
  · intro hw
    have hmem : Install.Ev.writeEnd s p.image true ∈ (Install.install w a c inner).1 := by
      rcases hw with hs | hw
      · exact hall p hp s hd ht hs
      · exact hw
    rcases fresh_steps (c := w.cfg) (st := w.st0) O hdev (Or.inr (Or.inr hmem)) with h | h | h
    · rw [hcont.1] at h; cases h
    · exact h
    · exact absurd h hcol
  · intro hb
    rcases backed_steps (c := w.cfg) O hdev hb with h | h
    · refine h _ ?_
      rw [hcont.1, hh.digest]
    · exact absurd h hcol

/-- **C98, interrupted.** At every moment of an installation, whatever its result, a slot that counts as holding an image (by its recorded
digest) holds a file with this digest. -/
theorem C98_interrupted {slots : List Slot} {w : Install.World} {a : Install.Args} {c : Install.Checked} {inner : Option Manifest} {m : Manifest}
    {plans : List Select.Plan} (U : System.Update slots w c inner m plans) (D : Device) {n : Str}
    (hcov : ∀ p ∈ plans, ∀ s hd, p.target = .slot s hd → s.name = n → ∃ ty data, Honest D p.image data ∧ Covered p.image (D.target s) ty)
    {pre : List Install.Ev} (hpre : pre <+: (Install.install w a c inner).1) {dev dev' : Str → SlotData} (hdev : DevSteps D dev pre dev')
    (hb : Backed D.T w.st0 dev n) :
    (Backed D.T (Install.replay w.cfg w.st0 pre) dev' n ∧ Backed D.T (Install.restart (Install.replay w.cfg w.st0 pre)) dev' n) ∨ EndToEnd.Clash D.sha := by
  have key : Backed D.T (Install.replay w.cfg w.st0 pre) dev' n ∨ EndToEnd.Clash D.sha := by
    by_cases htg : System.IsTarget plans n
    · obtain ⟨p, hp, s, hd, ht, rfl⟩ := htg
      obtain ⟨ty, data, h1, h2⟩ := hcov p hp s hd ht rfl
      exact backed_steps (only_of_update U D hp ht h1 h2 hpre) hdev hb
    · left
      have hw := install_writes (a := a) U.manifest U.noHandler U.plans
      have hab : ∀ e ∈ pre, System.about e ≠ some n ∧ (e ≠ .customStart ∧ ∀ b, e ≠ .customEnd b) := by
        intro e he
        refine ⟨fun h => ?_, (hw e (hpre.subset he)).1⟩
        obtain ⟨plans', h1, h2⟩ := System.install_about w a c inner m U.manifest U.noHandler e (hpre.subset he) n h
        rw [U.plans] at h1
        cases h1
        exact htg h2
      clear hpre hw
      generalize w.st0 = st at hb
      induction pre generalizing dev st with
      | nil => cases hdev; exact hb
      | cons e es ih =>
        cases hdev with
        | cons h1 h2 =>
          obtain ⟨a1, a2⟩ := hab e (by simp)
          refine ih h2 (fun x hx => hab x (List.mem_cons_of_mem _ hx)) _ ?_
          intro dg hd
          rw [(System.apply_frame a1).2.1] at hd
          rw [dev_frame h1 a1 a2]
          exact hb dg hd
  rcases key with h | h
  · exact Or.inl ⟨h, h⟩
  · exact Or.inr h

/-- Any number of installations of bundles whose manifests are true for the slot `n`, with any results, interrupted at any moment. -/
inductive Life (T : Tools) (sha : EndToEnd.Sha) (n : Str) : Install.St → (Str → SlotData) → Prop
  | start {st : Install.St} {dev : Str → SlotData} : Install.Sound st → Backed T st dev n → Life T sha n st dev
  | install {slots : List Slot} {w : Install.World} {a : Install.Args} {c : Install.Checked} {inner : Option Manifest} {m : Manifest}
      {plans : List Select.Plan} {files : Dir} {target : Slot → Target} {dev dev' : Str → SlotData} (pre : List Install.Ev) (crash : Bool) :
      Life T sha n w.st0 dev → System.Update slots w c inner m plans →
      (∀ p ∈ plans, ∀ s hd, p.target = .slot s hd → s.name = n → ∃ ty data, Honest ⟨T, sha, files, target⟩ p.image data ∧ Covered p.image (target s) ty) →
      pre <+: (Install.install w a c inner).1 → DevSteps ⟨T, sha, files, target⟩ dev pre dev' →
      Life T sha n (if crash then Install.restart (Install.replay w.cfg w.st0 pre) else Install.replay w.cfg w.st0 pre) dev'

theorem Life.inv {T : Tools} {sha : EndToEnd.Sha} {n : Str} {st : Install.St} {dev : Str → SlotData} (h : Life T sha n st dev) :
    (Install.Sound st ∧ Backed T st dev n) ∨ EndToEnd.Clash sha := by
  induction h with
  | start h1 h2 => exact Or.inl ⟨h1, h2⟩
  | @install slots w a c inner m plans files target dev dev' pre crash _ U hcov hpre hdev ih =>
    rcases ih with ⟨h1, h2⟩ | h
    · rcases C98_interrupted U ⟨T, sha, files, target⟩ hcov hpre hdev h2 with ⟨h3, h4⟩ | h
      · have hs := (Install.install_sound U.shared a c inner h1).prefix hpre
        left
        cases crash
        · exact ⟨hs, h3⟩
        · exact ⟨Install.sound_restart hs, h4⟩
      · exact Or.inr h
    · exact Or.inr h

/-- **C98, history.** After any number of installations, each with any result and interrupted at any moment: when the status file says that
a slot is `ok` and names a digest, a file with this digest was installed into the slot and is still there. -/
theorem C98_life {T : Tools} {sha : EndToEnd.Sha} {n : Str} {st : Install.St} {dev : Str → SlotData} (h : Life T sha n st dev)
    (hs : (st.disk n).status = some c!"ok") (dg : Str) (hd : (st.disk n).digest = some dg) :
    (∃ data, Create.shaHex T data = dg ∧ Shown T data (dev n)) ∨ EndToEnd.Clash sha := by
  rcases h.inv with ⟨h1, h2⟩ | h
  · exact Or.inl (h2 dg (by rw [(h1 n).1 hs, hd]))
  · exact Or.inr h

/-! ## From the author's directory -/

theorem forall2_right {α β : Type} {R : α → β → Prop} {l : List α} {l' : List β} (h : List.Forall₂ R l l') {y : β} (hy : y ∈ l') :
    ∃ x ∈ l, R x y := by
  induction h with
  | nil => simp at hy
  | cons h1 _ ih =>
    rcases List.mem_cons.1 hy with rfl | hy
    · exact ⟨_, by simp, h1⟩
    · obtain ⟨x, hx, hr⟩ := ih hy
      exact ⟨x, List.mem_cons_of_mem _ hx, hr⟩

theorem open_copied {depth : Nat} {d w : Dir} (h : Create.linkDir depth true d = some w) {g : Str} {b : Bytes} (hb : openFile d g = some b) :
    openFile w g = some b := by
  have hc := (Create.C61_copy_complete depth true d w h [g]).1 b
  unfold openFile at hb ⊢
  cases ht : Create.target Create.maxLinks d g with
  | file b' =>
    rw [ht] at hb
    cases hb
    simp only [Create.lookAt, ht] at hc
    have := hc (by simp)
    cases ht' : Create.target Create.maxLinks w g with
    | file b'' => rw [ht'] at this; simp at this; simp [this]
    | dir e => rw [ht'] at this; simp [Create.lookAt] at this
    | missing => rw [ht'] at this; simp at this
    | special => rw [ht'] at this; simp at this
    | up => rw [ht'] at this; simp at this
  | _ => rw [ht] at hb; cases hb

/-- the entries that matter for an installation are those of the author's manifest -/
theorem covered_entry {T : Tools} {w : Dir} {i i' : Image} (E : Create.Entry T w i i') :
    i'.slotclass = i.slotclass ∧ i'.variant = i.variant ∧ i'.filename = i.filename ∧ i'.typ = i.typ ∧ i'.hooks = i.hooks := by
  have := E.same
  rw [← this]
  exact ⟨rfl, rfl, rfl, rfl, rfl⟩

theorem Covered.entry {T : Tools} {w : Dir} {i i' : Image} (E : Create.Entry T w i i') {t : Target} {ty : Str} (h : Covered i t ty) : Covered i' t ty := by
  obtain ⟨-, -, e3, e4, e5⟩ := covered_entry E
  exact ⟨by rw [e4]; exact h.typ, h.kind, by rw [e3]; exact h.name, by rw [e5]; exact h.noInstall, by rw [e5]; exact h.noPost, h.noResize, h.slot⟩

/-- **C98, end to end.** `rauc bundle` made the bundle file `f` from the directory `content` of the author. Then a device that trusts the
signer accepts `f`. If a device installs it successfully, then each slot the installation is for holds the file that the author's
manifest names for the slot's class (and variant): byte for byte, or the files of the archive.

The bundle shows the files that unpacking it gives (`files`, C67); a bundle in the format `plain` has its manifest there (`inner`). -/
theorem C98_author (T : Tools) (hT : Create.Sound T) (K : Bundle.Crypto) (cfg : Bundle.Config) (hK : Create.Trusts K cfg T) (R : Create.Run)
    (hsalt : ∀ s, R.salt = some s → s.length = 32) (hkey : ∀ k, R.key = some k → k.length = 32) (running : Str) (depth : Nat) (dir : Dir)
    (existing : Option Bytes) (f : Bytes) (h : Create.create T R running depth dir existing = (true, some f))
    (wd : Dir) (hl : Create.linkDir depth true dir = some wd) (m : Manifest) (hm : (openFile wd c!"manifest.raucm").bind (Create.loadText T) = some m)
    (hwf : ManifestFile.ManifestWf { m with hash := none }) (hsz : ∀ n b, openFile wd n = some b → b.length < 2 ^ 63) (hconv : ∀ i ∈ m.images, i.convert ≠ some [])
    (hfmt : cfg.formats m.format = true) (acc : Bundle.AccessResults) (ha : acc.enforce = true ∧ acc.check = true) :
    ∃ b files, Bundle.checkBundle K cfg (Create.loadText T) {} acc (.file true f) = some b ∧ Create.extract T running b = .ok files ∧
      ∀ (sha : EndToEnd.Sha) (target : Slot → Target) (slots : List Slot) (w : Install.World) (a : Install.Args) (c : Install.Checked) (inner : Option Manifest)
        (m' : Manifest) (plans : List Select.Plan) (dev dev' : Str → SlotData), c.manifest = b.manifest →
        (∀ mi, inner = some mi → (openFile files c!"manifest.raucm").bind (Create.loadText T) = some mi) → System.Update slots w c inner m' plans →
        (Install.install w a c inner).2 = .ok → DevSteps ⟨T, sha, files, target⟩ dev (Install.install w a c inner).1 dev' →
        ∀ p ∈ plans, ∀ s hd, p.target = .slot s hd → ∃ i ∈ m.images, i.slotclass = s.sclass ∧ i.variant = p.image.variant ∧
          ∀ g ty data, i.filename = some g → openFile dir g = some data → Covered i (target s) ty → (∀ x ∈ Create.visited Create.maxLinks wd g, ¬ Create.Touched m x) →
            ((s.installSame = true ∨ Install.Ev.writeEnd s p.image true ∈ (Install.install w a c inner).1) → OnSlot T ty (target s).slotType data (dev' s.name)) ∧
            (Backed T w.st0 dev s.name → ∃ data', Create.shaHex T data' = Create.shaHex T data ∧ Shown T data' (dev' s.name)) ∨
            EndToEnd.Clash sha := by
  obtain ⟨-, b, files, hchk, hext, hplain, hnot, hholds, -⟩ := Create.C61_create_partial T hT K cfg hK R hsalt hkey running depth dir existing f h wd hl m hm hwf hsz hconv hfmt acc ha
  refine ⟨b, files, hchk, hext, ?_⟩
  intro sha target slots w a c inner m' plans dev dev' hcm hinner U hok hdev p hp s hd ht
  have hcomp : Create.Completed T wd m m' := by
    have hu := U.manifest
    rw [hcm] at hu
    by_cases hf : m.format = .plain
    · rw [hplain hf] at hu
      change inner = some m' at hu
      have h1 := hinner m' hu
      obtain ⟨t, mm, h2, h3, h4⟩ := hholds.manifest
      have : openFile files c!"manifest.raucm" = some t := by
        unfold openFile
        have : Create.target Create.maxLinks files c!"manifest.raucm" = .file t := by
          unfold Create.maxLinks Create.target
          rw [if_neg (by decide), h2]
        rw [this]
      rw [this] at h1
      simp only [Option.bind_some] at h1
      rw [h3] at h1
      cases h1
      exact h4
    · obtain ⟨mm, h1, h2, -⟩ := hnot hf
      rw [h1] at hu
      change some mm = some m' at hu
      cases hu
      exact h2
  obtain ⟨g1, -, -, g2, -, -⟩ := Select.C12_plan_ok _ _ _ _ _ _ U.plans p hp s hd ht
  obtain ⟨i, hi, E⟩ := forall2_right hcomp.images g1
  obtain ⟨e1, e2, e3, e4, e5⟩ := covered_entry E
  refine ⟨i, hi, ?_, e2.symm, ?_⟩
  · rw [← e1]; exact ((U.group _ _ g2).2).symm
  · intro g ty data hg hopen hcov hvis
    have hopw := open_copied hl hopen
    obtain ⟨bb, b1, b2, b3, b4⟩ := E.file g hg
    rw [hopw] at b1
    cases b1
    have hh : Honest ⟨T, sha, files, target⟩ p.image data :=
      ⟨⟨g, by rw [e3]; exact hg, by show openFile files g = _; rw [hholds.files g hvis]; exact hopw⟩, b3, b4⟩
    exact C98_install U ⟨T, sha, files, target⟩ hp ht hh (hcov.entry E) hok hdev

end Rauc.EndToEnd
