import Verif.Model.Update
import Verif.Props.Handlers

/-!
# C58: what an update handler does to its slot

For every image, every slot and every outcome of every external step.
-/

namespace Rauc.Update

open Rauc.Handlers

/-! ## Specification -/

/-- steps by which RAUC changes the target: through the device node ... -/
def Step.writesDevice : Step → Bool
  | .ubiStart | .copyRaw | .copyAdaptive | .casyncBlob | .mkfs _ | .flashErase | .nandWrite | .flashcp | .resize2fs => true
  | _ => false

/-- ... or through the mounted file system -/
def Step.writesFiles : Step → Bool
  | .casyncTree | .untar => true
  | _ => false

def Step.writes (s : Step) : Bool := s.writesDevice || s.writesFiles

/-- Is the target (the seed) mounted by RAUC after this history? -/
def mountedStep (m : Bool) (e : Ev) : Bool :=
  if e = (.mount, true) then true else if e = (.umount, true) then false else m

def mounted (h : List Ev) : Bool := h.foldl mountedStep false

def seedStep (m : Bool) (e : Ev) : Bool :=
  if e = (.mountSeed, true) then true else if e = (.umountSeed, true) then false else m

def seedMounted (h : List Ev) : Bool := h.foldl seedStep false

/-- the file system of a slot type -/
inductive SlotFs where
  | ext4 | vfat | ubifs | jffs2
deriving DecidableEq, Repr

/-- What is on the slot, as far as RAUC itself wrote it. `broken`: some write was interrupted or done onto
something unsuitable. `image casync`: the image, byte for byte (`casync`: reassembled from a chunk store).
`files k none`: an empty file system, `files k (some casync)`: exactly the archive's files.
`erased`: erased flash (an empty jffs2 is the same). `byHook`: the install hook reported success. -/
inductive Content where
  | old | broken | erased | byHook
  | image (casync : Bool)
  | files (k : SlotFs) (archive : Option Bool)
deriving DecidableEq, Repr

def FsKind.slotFs : FsKind → SlotFs
  | .ext4 => .ext4 | .vfat => .vfat | .ubifs => .ubifs

/-- unpacking into a mounted, freshly made file system -/
def unpackInto (m : Bool) (c : Content) (casync : Bool) : Content :=
  match m, c with
  | true, .files k none => .files k (some casync)
  | true, .erased => .files .jffs2 (some casync)
  | _, _ => .broken

/-- How a step changes the content; `m`: the slot is mounted. A failing write leaves it broken, and so does a
write to the device node while it is mounted. Reading, mounting and hooks do not count as writes of RAUC. -/
def contentStep (m : Bool) (c : Content) (e : Ev) : Content :=
  match e with
  | (.hook .install, true) => .byHook
  | (.hook .install, false) => .broken
  | (.closeDev, false) => .broken
  | (.untar, true) => unpackInto m c false
  | (.casyncTree, true) => unpackInto m c true
  | (s, false) => if s.writes then .broken else c
  | (s, true) =>
    if m && s.writesDevice then .broken else
    match s with
    | .mkfs k => .files k.slotFs none
    | .flashErase => .erased
    | .copyRaw | .copyAdaptive | .flashcp => .image false
    | .nandWrite => if c = .erased then .image false else .broken
    | .casyncBlob => .image true
    | .ubiStart => .broken
    | .resize2fs => match c with
      | .image b => .image b
      | _ => .broken
    | _ => c

def contentAux : List Ev → Bool → Content → Content
  | [], _, c => c
  | e :: h, m, c => contentAux h (mountedStep m e) (contentStep m c e)

/-- the content after a history -/
def content (h : List Ev) : Content := contentAux h false .old

/-- the file system a slot type stands for -/
def slotFs (slotType : Str) : Option SlotFs :=
  if slotType = c!"ext4" then some .ext4
  else if slotType = c!"vfat" then some .vfat
  else if slotType = c!"ubifs" then some .ubifs
  else if slotType = c!"jffs2" then some .jffs2
  else none

/-- What a successful installation of an image of type `t` must leave on a slot of type `slotType`: a tar
archive, a casync archive or nothing in a new file system of the slot's type, or the image itself. -/
def expected (t slotType : Str) : Option Content :=
  if t = c!"tar" then (slotFs slotType).map (.files · (some false))
  else if t = c!"caidx" ∨ t = c!"catar" then (slotFs slotType).map (.files · (some true))
  else if t = c!"emptyfs" then (slotFs slotType).map (.files · none)
  else if c!"-caibx" <:+ t then some (.image true)
  else some (.image false)

/-- The file name fits the image type: chunk store indices are called `*.caibx`, `*.caidx`, `*.catar` and
nothing else is. -/
def NameFits (img : Image) (t : Str) : Prop :=
  if t = c!"tar" then nameHasSuffix img c!".caidx" = false ∧ nameHasSuffix img c!".catar" = false
  else if t = c!"caidx" then nameHasSuffix img c!".caidx" = true
  else if t = c!"catar" then nameHasSuffix img c!".catar" = true
  else if t = c!"emptyfs" then True
  else if c!"-caibx" <:+ t then nameHasSuffix img c!".caibx" = true
  else nameHasSuffix img c!".caibx" = false

/-- failing steps that do not make the installation fail: the adaptive method (a full copy follows) and
mounting a seed (none is used then) -/
def tolerated (s : Step) : Bool := s == .copyAdaptive || s == .mountSeed

/-! ## All executions of a program -/

/-- every possible history and result -/
def Prog.paths : Prog → List (List Ev × Bool)
  | .ret b => [([], b)]
  | .act s y n => (y.paths.map fun p => ((s, true) :: p.1, p.2)) ++ (n.paths.map fun p => ((s, false) :: p.1, p.2))

theorem run_mem_paths (o : List Ev → Step → Bool) (p : Prog) (h : List Ev) :
    ∃ q ∈ p.paths, p.run o h = (h ++ q.1, q.2) := by
  induction p generalizing h with
  | ret b => exact ⟨([], b), by simp [Prog.paths], by simp [Prog.run]⟩
  | act s y n ihy ihn =>
    simp only [Prog.run, Prog.paths, List.mem_append, List.mem_map]
    split
    · obtain ⟨q, hq, he⟩ := ihy (h ++ [(s, true)])
      exact ⟨((s, true) :: q.1, q.2), Or.inl ⟨q, hq, rfl⟩, by rw [he]; simp⟩
    · obtain ⟨q, hq, he⟩ := ihn (h ++ [(s, false)])
      exact ⟨((s, false) :: q.1, q.2), Or.inr ⟨q, hq, rfl⟩, by rw [he]; simp⟩

/-- all ways to single out an event of a history -/
def splits {α : Type} : List α → List (List α × α × List α)
  | [] => []
  | a :: l => ([], a, l) :: (splits l).map fun s => (a :: s.1, s.2)

theorem mem_splits {α : Type} (l l1 : List α) (a : α) (l2 : List α) :
    (l1, a, l2) ∈ splits l ↔ l = l1 ++ a :: l2 := by
  induction l generalizing l1 with
  | nil => simp [splits]
  | cons b l ih =>
    simp only [splits, List.mem_cons, List.mem_map, Prod.mk.injEq, Prod.exists]
    constructor
    · rintro (⟨rfl, rfl, rfl⟩ | ⟨x, y, z, hm, rfl, rfl, rfl⟩)
      · rfl
      · rw [(ih x).mp hm]; rfl
    · intro h
      cases l1 with
      | nil => injection h with h1 h2; exact Or.inl ⟨rfl, h1.symm, h2.symm⟩
      | cons c l1 =>
        injection h with h1 h2
        exact Or.inr ⟨l1, a, l2, (ih l1).mpr h2, by rw [h1], rfl, rfl⟩

/-! ## The inputs a handler depends on -/

def bools : List Bool := [false, true]

def baseOpts : List Opts := bools.flatMap fun a => bools.map fun b =>
  { preHook := a, postHook := b, caibx := false, archive := .tar, adaptive := false, resize := false,
    emptyfs := false, seed := .none }

def ubiOpts : List Opts := baseOpts.flatMap fun o => bools.map fun b => { o with caibx := b }

def fsOpts : List Opts := ubiOpts.flatMap fun o => bools.flatMap fun b => bools.map fun c =>
  { o with adaptive := b, resize := c }

def archOpts : List Opts := baseOpts.flatMap fun o => bools.flatMap fun b =>
  [Archive.tar, .caidx, .catar].flatMap fun a => [Seed.none, .ready, .mount].map fun s =>
  { o with emptyfs := b, archive := a, seed := s }

def relevant : Handler → List Opts
  | .imgToUbivol | .imgToUbifs => ubiOpts
  | .imgToNor | .imgToNand => baseOpts
  | .imgToFs | .imgToRaw => fsOpts
  | .archiveToExt4 | .archiveToUbifs | .archiveToVfat | .archiveToJffs2 => archOpts
  | _ => baseOpts

/-- forget what the handler does not look at -/
def norm : Handler → Opts → Opts
  | .imgToUbivol, o | .imgToUbifs, o =>
    { o with archive := .tar, adaptive := false, resize := false, emptyfs := false, seed := .none }
  | .imgToFs, o | .imgToRaw, o => { o with archive := .tar, emptyfs := false, seed := .none }
  | .archiveToExt4, o | .archiveToUbifs, o | .archiveToVfat, o | .archiveToJffs2, o =>
    { o with caibx := false, adaptive := false, resize := false }
  | _, o => { o with caibx := false, archive := .tar, adaptive := false, resize := false, emptyfs := false, seed := .none }

theorem mem_bools (b : Bool) : b ∈ bools := by cases b <;> decide

theorem norm_mem (h : Handler) (o : Opts) : norm h o ∈ relevant h := by
  rcases o with ⟨a, b, c, d, e, f, g, s⟩
  have hb : ∀ a b : Bool, ({ preHook := a, postHook := b, caibx := false, archive := .tar, adaptive := false, resize := false, emptyfs := false, seed := .none } : Opts) ∈ baseOpts :=
    fun a b => List.mem_flatMap.mpr ⟨a, mem_bools a, List.mem_map.mpr ⟨b, mem_bools b, rfl⟩⟩
  have hu : ∀ a b c : Bool, ({ preHook := a, postHook := b, caibx := c, archive := .tar, adaptive := false, resize := false, emptyfs := false, seed := .none } : Opts) ∈ ubiOpts :=
    fun a b c => List.mem_flatMap.mpr ⟨_, hb a b, List.mem_map.mpr ⟨c, mem_bools c, rfl⟩⟩
  have hf : ({ preHook := a, postHook := b, caibx := c, archive := .tar, adaptive := e, resize := f, emptyfs := false, seed := .none } : Opts) ∈ fsOpts :=
    List.mem_flatMap.mpr ⟨_, hu a b c, List.mem_flatMap.mpr ⟨e, mem_bools e, List.mem_map.mpr ⟨f, mem_bools f, rfl⟩⟩⟩
  have ha : ({ preHook := a, postHook := b, caibx := false, archive := d, adaptive := false, resize := false, emptyfs := g, seed := s } : Opts) ∈ archOpts :=
    List.mem_flatMap.mpr ⟨_, hb a b, List.mem_flatMap.mpr ⟨g, mem_bools g, List.mem_flatMap.mpr ⟨d, by cases d <;> decide,
      List.mem_map.mpr ⟨s, by cases s <;> decide, rfl⟩⟩⟩⟩
  cases h <;> first | exact hb a b | exact hu a b c | exact hf | exact ha

theorem norm_prog (h : Handler) (o : Opts) : handlerProg o h = handlerProg (norm h o) h := by
  cases h <;> rfl

/-! ## The check of one execution -/

/-- what the handlers are meant to write -/
def handlerContent (h : Handler) (o : Opts) : Content :=
  let arch := some (o.archive != .tar)
  match h with
  | .imgToFs | .imgToRaw | .imgToUbivol | .imgToUbifs => .image o.caibx
  | .imgToNor | .imgToNand => .image false
  | .archiveToExt4 => .files .ext4 (if o.emptyfs then none else arch)
  | .archiveToUbifs => .files .ubifs arch
  | .archiveToVfat => .files .vfat arch
  | .archiveToJffs2 => .files .jffs2 arch
  | _ => .byHook

/-- Everything claimed about one execution with history `t` and result `r`. -/
structure Good (pre post : Bool) (c : Content) (t : List Ev) (r : Bool) : Prop where
  /-- no write before the pre-install hook succeeded -/
  pre_first : pre = true → ∀ s ∈ splits t, s.2.1.1.writes = true → (Step.hook .pre, true) ∈ s.1
  /-- the pre-install hook is the first thing that happens, apart from mounting the slot for it -/
  pre_once : ∀ s ∈ splits t, s.2.1.1 = .hook .pre → pre = true ∧ ∀ e ∈ s.1, e = (.mount, true)
  /-- the post-install hook runs at most once, on the complete content, and RAUC writes nothing after it -/
  post_last : ∀ s ∈ splits t, s.2.1.1 = .hook .post → post = true ∧ content s.1 = c ∧
    ∀ e ∈ s.2.2, e.1 = .umount
  /-- success means that exactly the steps were successful that may not fail, -/
  success : r = true ↔ ∀ e ∈ t, e.2 = true ∨ tolerated e.1 = true
  /-- that the content is complete -/
  complete : r = true → content t = c
  /-- and that the enabled hooks were run -/
  hooks : r = true → (pre = true → (Step.hook .pre, true) ∈ t) ∧ (post = true → (Step.hook .post, true) ∈ t)
  /-- nothing is left mounted, unless unmounting failed -/
  unmounted : mounted t = true → (Step.umount, false) ∈ t
  seed_unmounted : seedMounted t = true → (Step.umountSeed, false) ∈ t
  /-- mount and umount are only called in the right state -/
  mount_ok : ∀ s ∈ splits t, (s.2.1.1 = .mount → mounted s.1 = false) ∧ (s.2.1.1 = .umount → mounted s.1 = true) ∧
    (s.2.1.1 = .mountSeed → seedMounted s.1 = false) ∧ (s.2.1.1 = .umountSeed → seedMounted s.1 = true)
  /-- the device node is written only while the slot is not mounted, files only while it is -/
  access : ∀ s ∈ splits t, (s.2.1.1.writesDevice = true → mounted s.1 = false) ∧
    (s.2.1.1.writesFiles = true → mounted s.1 = true)

set_option synthInstance.maxSize 1000 in
set_option synthInstance.maxHeartbeats 200000 in
instance (a b : Bool) (c : Content) (t : List Ev) (r : Bool) : Decidable (Good a b c t r) :=
  decidable_of_iff
    (((a = true → ∀ s ∈ splits t, s.2.1.1.writes = true → (Step.hook .pre, true) ∈ s.1) ∧
      (∀ s ∈ splits t, s.2.1.1 = .hook .pre → a = true ∧ ∀ e ∈ s.1, e = (.mount, true)) ∧
      (∀ s ∈ splits t, s.2.1.1 = .hook .post → b = true ∧ content s.1 = c ∧ ∀ e ∈ s.2.2, e.1 = .umount) ∧
      (r = true ↔ ∀ e ∈ t, e.2 = true ∨ tolerated e.1 = true) ∧
      (r = true → content t = c)) ∧
      (r = true → (a = true → (Step.hook .pre, true) ∈ t) ∧ (b = true → (Step.hook .post, true) ∈ t)) ∧
      (mounted t = true → (Step.umount, false) ∈ t) ∧
      (seedMounted t = true → (Step.umountSeed, false) ∈ t) ∧
      (∀ s ∈ splits t, (s.2.1.1 = .mount → mounted s.1 = false) ∧ (s.2.1.1 = .umount → mounted s.1 = true) ∧
        (s.2.1.1 = .mountSeed → seedMounted s.1 = false) ∧ (s.2.1.1 = .umountSeed → seedMounted s.1 = true)) ∧
      (∀ s ∈ splits t, (s.2.1.1.writesDevice = true → mounted s.1 = false) ∧
        (s.2.1.1.writesFiles = true → mounted s.1 = true)))
    ⟨fun ⟨⟨h1, h2, h3, h4, h5⟩, h6, h7, h8, h9, h10⟩ => ⟨h1, h2, h3, h4, h5, h6, h7, h8, h9, h10⟩,
     fun ⟨h1, h2, h3, h4, h5, h6, h7, h8, h9, h10⟩ => ⟨⟨h1, h2, h3, h4, h5⟩, h6, h7, h8, h9, h10⟩⟩

/-- every execution of every handler with every relevant input -/
def allGood (h : Handler) : Prop := ∀ o ∈ relevant h, ∀ p ∈ (handlerProg o h).toList, ∀ q ∈ p.paths,
  Good (o.preHook && h != .hookInstall) (o.postHook && h != .hookInstall) (handlerContent h o) q.1 q.2

theorem allGood_all (h : Handler) : allGood h := by
  cases h <;> (unfold allGood; decide +kernel)

/-! ## From the handlers to `updateSlot` -/

/-- what happened in an installation of an image into a slot -/
theorem updateSlot_cases {img : Image} {t : Target} {o : List Ev → Step → Bool} {tr : List Ev} {r : Bool}
    (h : updateSlot img t o = some (tr, r)) :
    ∃ hd, getUpdateHandler img t.slotType = some hd ∧
      ∃ p, handlerProg (optsOf img t) hd = some p ∧ (tr, r) ∈ p.paths := by
  simp only [updateSlot, Option.map_eq_some_iff, Option.bind_eq_some_iff] at h
  obtain ⟨p, ⟨hd, h1, h2⟩, h3⟩ := h
  obtain ⟨q, hq, he⟩ := run_mem_paths o p []
  rw [he] at h3
  simp only [List.nil_append] at h3
  exact ⟨hd, h1, p, h2, by rw [← h3]; exact hq⟩

/-- without an install hook, the handler comes from the table -/
theorem handler_row {img : Image} {st : Str} {hd : Handler} (hi : img.hooks.install = false)
    (h : getUpdateHandler img st = some hd) :
    ∃ e ∈ imageTypeMap, img.typ = some e.1 ∧ st = e.2.1 ∧ hd = e.2.2 := by
  simp only [getUpdateHandler, hi, Bool.false_eq_true, ↓reduceIte] at h
  cases ht : img.typ with
  | none => rw [ht] at h; simp [handlerFromType] at h
  | some ty =>
    rw [ht] at h
    simp only [handlerFromType, Option.map_eq_some_iff] at h
    obtain ⟨e, he, rfl⟩ := h
    have hp := List.find?_some he
    simp only [Bool.and_eq_true, beq_iff_eq] at hp
    exact ⟨e, List.mem_of_find?_eq_some he, by rw [hp.1], hp.2.symm, rfl⟩

theorem row_not_hook : ∀ e ∈ imageTypeMap, e.2.2 ≠ .hookInstall := by decide

theorem norm_hooks (h : Handler) (o : Opts) : (norm h o).preHook = o.preHook ∧ (norm h o).postHook = o.postHook := by
  cases h <;> exact ⟨rfl, rfl⟩

theorem norm_content (h : Handler) (o : Opts) : handlerContent h (norm h o) = handlerContent h o := by
  cases h <;> rfl

theorem good_of_update {img : Image} {t : Target} {o : List Ev → Step → Bool} {tr : List Ev} {r : Bool}
    (hi : img.hooks.install = false) (h : updateSlot img t o = some (tr, r)) :
    ∃ e ∈ imageTypeMap, img.typ = some e.1 ∧ t.slotType = e.2.1 ∧
      Good (t.hookName && img.hooks.preInstall) (t.hookName && img.hooks.postInstall)
        (handlerContent e.2.2 (optsOf img t)) tr r := by
  obtain ⟨hd, h1, p, h2, h3⟩ := updateSlot_cases h
  obtain ⟨e, he, hty, hst, rfl⟩ := handler_row hi h1
  refine ⟨e, he, hty, hst, ?_⟩
  have hne : (e.2.2 != Handler.hookInstall) = true := by simpa using row_not_hook e he
  have := allGood_all e.2.2 (norm e.2.2 (optsOf img t)) (norm_mem _ _) p
    (by rw [← norm_prog, h2]; simp) _ h3
  rw [hne, Bool.and_true, Bool.and_true, (norm_hooks _ _).1, (norm_hooks _ _).2, norm_content] at this
  exact this

/-! ## Theorems -/

/-- The pre-install hook comes first: if it is enabled, nothing is written to the slot before it succeeded. -/
theorem C58_pre_hook_first {img : Image} {t : Target} {o : List Ev → Step → Bool} {tr : List Ev} {r : Bool}
    (hi : img.hooks.install = false) (h : updateSlot img t o = some (tr, r))
    (hn : t.hookName = true) (hp : img.hooks.preInstall = true)
    {t1 t2 : List Ev} {e : Ev} (hs : tr = t1 ++ e :: t2) (hw : e.1.writes = true) :
    (Step.hook .pre, true) ∈ t1 := by
  obtain ⟨_, -, -, -, g⟩ := good_of_update hi h
  exact g.pre_first (by rw [hn, hp]; rfl) (t1, e, t2) ((mem_splits ..).mpr hs) hw

/-- Hooks run only if the image asks for them; the pre-install hook is preceded by nothing but mounting the slot,
the post-install hook is followed by nothing but unmounting it. -/
theorem C58_hooks_only_if_enabled {img : Image} {t : Target} {o : List Ev → Step → Bool} {tr : List Ev} {r : Bool}
    (hi : img.hooks.install = false) (h : updateSlot img t o = some (tr, r))
    {t1 t2 : List Ev} {c : HookCmd} {b : Bool} (hs : tr = t1 ++ (.hook c, b) :: t2) :
    (c = .pre → img.hooks.preInstall = true ∧ ∀ e ∈ t1, e = (.mount, true)) ∧
    (c = .post → img.hooks.postInstall = true ∧ ∀ e ∈ t2, e.1 = .umount) := by
  obtain ⟨_, -, -, -, g⟩ := good_of_update hi h
  have hm := (mem_splits _ _ _ _).mpr hs
  constructor
  · rintro rfl
    obtain ⟨h1, h2⟩ := g.pre_once _ hm rfl
    exact ⟨(Bool.and_eq_true_iff.mp h1).2, h2⟩
  · rintro rfl
    obtain ⟨h1, -, h2⟩ := g.post_last _ hm rfl
    exact ⟨(Bool.and_eq_true_iff.mp h1).2, h2⟩

/-- The handler of the table writes what the image type promises. -/
theorem row_expected {img : Image} {t : Target} {e : Str × Str × Handler} (he : e ∈ imageTypeMap)
    (hty : img.typ = some e.1) (hn : NameFits img e.1) {p : Prog}
    (hp : handlerProg (optsOf img t) e.2.2 = some p) :
    expected e.1 e.2.1 = some (handlerContent e.2.2 (optsOf img t)) := by
  have key : ∀ e ∈ imageTypeMap, ∀ caibx emptyfs : Bool, ∀ a ∈ [Archive.tar, .caidx, .catar],
      (emptyfs = (e.1 == c!"emptyfs")) →
      (e.2.2 ≠ .bootEmmc ∧ e.2.2 ≠ .bootMbrSwitch ∧ e.2.2 ≠ .bootGptSwitch ∧ e.2.2 ≠ .bootRawFallback) →
      (if e.1 = c!"tar" then a = .tar
        else if e.1 = c!"caidx" then a = .caidx
        else if e.1 = c!"catar" then a ≠ .tar
        else if e.1 = c!"emptyfs" then True
        else if c!"-caibx" <:+ e.1 then caibx = true else caibx = false) →
      expected e.1 e.2.1 = some (handlerContent e.2.2
        { preHook := false, postHook := false, caibx := caibx, archive := a, adaptive := false, resize := false,
          emptyfs := emptyfs, seed := .none }) := by decide +kernel
  have k := key e he (optsOf img t).caibx (optsOf img t).emptyfs (optsOf img t).archive
    (by cases (optsOf img t).archive <;> decide) (by simp [optsOf, hty])
    (by refine ⟨?_, ?_, ?_, ?_⟩ <;> (intro hh; rw [hh] at hp; exact absurd hp (by simp [handlerProg])))
    (by
      unfold NameFits at hn
      split
      · rename_i h0; rw [if_pos h0] at hn; simp [optsOf, hn.1, hn.2]
      · rename_i h0; rw [if_neg h0] at hn
        split
        · rename_i h1; rw [if_pos h1] at hn; simp [optsOf, hn]
        · rename_i h1; rw [if_neg h1] at hn
          split
          · rename_i h2; rw [if_pos h2] at hn
            simp only [optsOf, hn, ↓reduceIte]
            split <;> simp
          · rename_i h2; rw [if_neg h2] at hn
            split
            · trivial
            · rename_i h3; rw [if_neg h3] at hn
              split
              · rename_i h4; rw [if_pos h4] at hn; exact hn
              · rename_i h4; rw [if_neg h4] at hn; exact hn)
  rw [k]
  cases e.2.2 <;> rfl

/-- A successful installation leaves on the slot exactly what image type and slot type promise: the image itself,
or a new file system of the slot's type with exactly the archive's files - and this is also what the
post-install hook finds. -/
theorem C58_complete {img : Image} {t : Target} {o : List Ev → Step → Bool} {tr : List Ev} {r : Bool}
    (hi : img.hooks.install = false) (h : updateSlot img t o = some (tr, r))
    {ty : Str} (hty : img.typ = some ty) (hn : NameFits img ty) :
    (r = true → expected ty t.slotType = some (content tr)) ∧
    (∀ t1 t2 b, tr = t1 ++ (.hook .post, b) :: t2 → expected ty t.slotType = some (content t1)) := by
  obtain ⟨hd, h1, p, h2, h3⟩ := updateSlot_cases h
  obtain ⟨e, he, hty', hst, rfl⟩ := handler_row hi h1
  rw [hty'] at hty
  obtain rfl := Option.some.inj hty
  have hx := row_expected (t := t) he hty' hn h2
  obtain ⟨e', he', hty'', hst', g⟩ := good_of_update hi h
  have e1 : e'.2.2 = e.2.2 := by
    have a := C48_unique_handler e he
    have b := C48_unique_handler e' he'
    rw [hty'] at hty''
    rw [← Option.some.inj hty'', ← hst', hst] at b
    exact Option.some.inj (b.symm.trans a)
  rw [e1] at g
  rw [hst]
  constructor
  · intro hr; rw [hx, g.complete hr]
  · intro t1 t2 b hs
    rw [hx, (g.post_last _ ((mem_splits _ _ _ _).mpr hs) rfl).2.1]

/-- The type derived from a file name fits the file name. -/
theorem C58_derived_fits (img : Image) (f ty : Str) (hf : img.filename = some f) (h : deriveType f = some ty) :
    NameFits img ty := by
  have suf : ∀ s, nameHasSuffix img s = s.isSuffixOf f := by intro s; simp [nameHasSuffix, hf]
  have yes : ∀ s, s <:+ f → nameHasSuffix img s = true := by
    intro s hs; rw [suf]; exact List.isSuffixOf_iff_suffix.mpr hs
  have no : ∀ s, ¬ s <:+ f → nameHasSuffix img s = false := by
    intro s hs; rw [suf, Bool.eq_false_iff]; exact fun h => hs (List.isSuffixOf_iff_suffix.mp h)
  have pos : ∀ l : Str, '*' ∉ l → globMatch ('*' :: l) f = true → l <:+ f := fun l hl h => (glob_suffix l f hl).mp h
  have neg : ∀ l : Str, '*' ∉ l → globMatch ('*' :: l) f = false → ¬ l <:+ f := by
    intro l hl h hs
    rw [(glob_suffix l f hl).mpr hs] at h; cases h
  -- a name with one of the plain extensions is not called `*.caibx`
  have plain : ∀ l : Str, ¬ l <:+ c!".caibx" → ¬ c!".caibx" <:+ l → l <:+ f → nameHasSuffix img c!".caibx" = false := by
    intro l h1 h2 hl
    refine no _ fun hc => ?_
    rcases List.suffix_or_suffix_of_suffix hl hc with h | h
    · exact h1 h
    · exact h2 h
  unfold deriveType extTypeMap at h
  simp only [List.find?_cons, List.find?_nil] at h
  repeat' split at h
  all_goals
    first
    | (simp only [Option.map_none, reduceCtorEq] at h; done)
    | (simp only [Option.map_some, Option.some.injEq] at h
       subst h
       unfold NameFits
       first
       | (rw [if_neg (by decide), if_neg (by decide), if_neg (by decide), if_neg (by decide), if_pos (by decide)]
          rename_i h0
          refine yes _ (List.IsSuffix.trans ?_ (pos _ (by decide) h0))
          decide)
       | (rw [if_neg (by decide), if_neg (by decide), if_neg (by decide), if_neg (by decide), if_pos (by decide)]
          rename_i h0
          obtain ⟨a, b, rfl, h'⟩ := (glob_star _ _).mp h0
          obtain ⟨c, rfl, h''⟩ := (glob_append c!".squashfs-" c!"*.caibx" b (by decide)).mp h'
          refine yes _ (List.IsSuffix.trans ((glob_suffix _ _ (by decide)).mp h'') ?_)
          exact ⟨a ++ c!".squashfs-", by simp⟩)
       | (rw [if_neg (by decide), if_pos rfl]
          rename_i h0
          exact yes _ (pos _ (by decide) h0))
       | (rw [if_neg (by decide), if_neg (by decide), if_pos rfl]
          rename_i h0
          exact yes _ (pos _ (by decide) h0))
       | (rw [if_pos rfl]
          exact ⟨no _ (neg _ (by decide) (by assumption)), no _ (neg _ (by decide) (by assumption))⟩)
       | (rw [if_neg (by decide), if_neg (by decide), if_neg (by decide), if_neg (by decide), if_neg (by decide)]
          rename_i h0
          exact plain _ (by decide) (by decide) (pos _ (by decide) h0))
       | skip)
  -- `*.squashfs-*`, and not `*.squashfs-*.caibx`
  rw [if_neg (by decide), if_neg (by decide), if_neg (by decide), if_neg (by decide), if_neg (by decide)]
  rename_i h0
  have hno : globMatch c!"*.squashfs-*.caibx" f = false := by assumption
  refine no _ fun hc => ?_
  obtain ⟨a, b, rfl, h'⟩ := (glob_star _ _).mp h0
  obtain ⟨c, rfl, -⟩ := (glob_append c!".squashfs-" c!"*" b (by decide)).mp h'
  have hcc : c!".caibx" <:+ c := by
    have h2 : ('-' :: c) <:+ (a ++ (c!".squashfs-" ++ c)) := ⟨a ++ c!".squashfs", by simp⟩
    rcases List.suffix_or_suffix_of_suffix h2 hc with h3 | h3
    · have : '-' ∈ c!".caibx" := h3.subset (List.mem_cons_self ..)
      exact absurd this (by decide)
    · rcases List.suffix_cons_iff.mp h3 with h4 | h4
      · injection h4 with h5; exact absurd h5 (by decide)
      · exact h4
  have hy : globMatch c!"*.squashfs-*.caibx" (a ++ (c!".squashfs-" ++ c)) = true :=
    (glob_star _ _).mpr ⟨a, _, rfl, (glob_append c!".squashfs-" c!"*.caibx" _ (by decide)).mpr
      ⟨c, rfl, (glob_suffix _ _ (by decide)).mpr hcc⟩⟩
  rw [hy] at hno
  cases hno

/-- Success is reported iff no step failed, apart from the adaptive method (a full copy follows) and mounting a
seed; then all enabled hooks were run successfully. -/
theorem C58_success {img : Image} {t : Target} {o : List Ev → Step → Bool} {tr : List Ev} {r : Bool}
    (hi : img.hooks.install = false) (h : updateSlot img t o = some (tr, r)) :
    (r = true ↔ ∀ e ∈ tr, e.2 = true ∨ e.1 = .copyAdaptive ∨ e.1 = .mountSeed) ∧
    (r = true → t.hookName = true →
      (img.hooks.preInstall = true → (Step.hook .pre, true) ∈ tr) ∧
      (img.hooks.postInstall = true → (Step.hook .post, true) ∈ tr)) := by
  obtain ⟨_, -, -, -, g⟩ := good_of_update hi h
  constructor
  · rw [g.success]
    simp [tolerated]
  · intro hr hn
    obtain ⟨h1, h2⟩ := g.hooks hr
    rw [hn] at h1 h2
    exact ⟨h1, h2⟩

/-- Nothing stays mounted: the slot (and a seed slot mounted for casync) is left mounted only if unmounting it
failed, and then the installation fails. -/
theorem C58_unmounted {img : Image} {t : Target} {o : List Ev → Step → Bool} {tr : List Ev} {r : Bool}
    (hi : img.hooks.install = false) (h : updateSlot img t o = some (tr, r)) :
    (mounted tr = true → (Step.umount, false) ∈ tr ∧ r = false) ∧
    (seedMounted tr = true → (Step.umountSeed, false) ∈ tr ∧ r = false) := by
  obtain ⟨_, -, -, -, g⟩ := good_of_update hi h
  have fail : ∀ s, tolerated s = false → (s, false) ∈ tr → r = false := by
    intro s hs hm
    cases r
    · rfl
    · rcases g.success.mp rfl _ hm with h | h
      · cases h
      · rw [hs] at h; cases h
  exact ⟨fun hm => ⟨g.unmounted hm, fail _ rfl (g.unmounted hm)⟩,
    fun hm => ⟨g.seed_unmounted hm, fail _ rfl (g.seed_unmounted hm)⟩⟩

/-- The device node is written only while the slot is not mounted, and files only while it is; a slot is never
mounted twice or unmounted without being mounted. -/
theorem C58_access {img : Image} {t : Target} {o : List Ev → Step → Bool} {tr : List Ev} {r : Bool}
    (hi : img.hooks.install = false) (h : updateSlot img t o = some (tr, r))
    {t1 t2 : List Ev} {e : Ev} (hs : tr = t1 ++ e :: t2) :
    (e.1.writesDevice = true → mounted t1 = false) ∧ (e.1.writesFiles = true → mounted t1 = true) ∧
    (e.1 = .mount → mounted t1 = false) ∧ (e.1 = .umount → mounted t1 = true) ∧
    (e.1 = .mountSeed → seedMounted t1 = false) ∧ (e.1 = .umountSeed → seedMounted t1 = true) := by
  obtain ⟨_, -, -, -, g⟩ := good_of_update hi h
  have hm := (mem_splits _ _ _ _).mpr hs
  exact ⟨(g.access _ hm).1, (g.access _ hm).2, (g.mount_ok _ hm).1, (g.mount_ok _ hm).2.1, (g.mount_ok _ hm).2.2.1,
    (g.mount_ok _ hm).2.2.2⟩

/-- With an install hook RAUC does nothing but run it, and reports its exit status. -/
theorem C58_install_hook {img : Image} {t : Target} {o : List Ev → Step → Bool} {tr : List Ev} {r : Bool}
    (hi : img.hooks.install = true) (h : updateSlot img t o = some (tr, r)) : tr = [(.hook .install, r)] := by
  obtain ⟨hd, h1, p, h2, h3⟩ := updateSlot_cases h
  rw [C48_hook img t.slotType hi] at h1
  obtain rfl := Option.some.inj h1
  simp only [handlerProg, Option.some.injEq] at h2
  subst h2
  simp only [step, Prog.paths, List.map_cons, List.map_nil, List.cons_append, List.nil_append, List.mem_cons,
    Prod.mk.injEq, List.not_mem_nil, or_false] at h3
  rcases h3 with ⟨rfl, rfl⟩ | ⟨rfl, rfl⟩ <;> rfl

/-- all executions with one table row, given the relevant inputs -/
theorem row_paths {img : Image} {t : Target} {o : List Ev → Step → Bool} {tr : List Ev} {r : Bool}
    (hi : img.hooks.install = false) (h : updateSlot img t o = some (tr, r)) :
    ∃ e ∈ imageTypeMap, img.typ = some e.1 ∧ t.slotType = e.2.1 ∧
      ∃ op ∈ relevant e.2.2, ∃ p ∈ (handlerProg op e.2.2).toList, (tr, r) ∈ p.paths := by
  obtain ⟨hd, h1, p, h2, h3⟩ := updateSlot_cases h
  obtain ⟨e, he, hty, hst, rfl⟩ := handler_row hi h1
  exact ⟨e, he, hty, hst, norm e.2.2 (optsOf img t), norm_mem _ _, p, by rw [← norm_prog, h2]; simp, h3⟩

/-- when a hook finds the slot mounted -/
def HookState (ty st : Str) (c : HookCmd) (m : Bool) : Prop :=
  (mountable st = true → ¬ (ty = c!"raw-caibx" ∧ st ≠ c!"ubifs") →
    ¬ (c = .pre ∧ st ≠ c!"ubifs" ∧ ty ∈ [c!"tar", c!"caidx", c!"catar", c!"emptyfs"]) → m = true) ∧
  (st ∈ [c!"raw", c!"ubivol", c!"nor", c!"nand"] → m = false)

instance (ty st : Str) (c : HookCmd) (m : Bool) : Decidable (HookState ty st c m) := by
  unfold HookState; infer_instance

/-- On a slot with a mountable file system the hooks find it mounted, as the documentation says - with two
exceptions: raw chunk store images on ext4 and vfat (no hook does), and the pre-install hook before an archive is
unpacked into ext4 or vfat. On other slots the hooks never find anything mounted. -/
theorem C58_hooks_mounted_partial {img : Image} {t : Target} {o : List Ev → Step → Bool} {tr : List Ev} {r : Bool}
    (hi : img.hooks.install = false) (h : updateSlot img t o = some (tr, r))
    {ty : Str} (hty : img.typ = some ty)
    {t1 t2 : List Ev} {c : HookCmd} {b : Bool} (hs : tr = t1 ++ (.hook c, b) :: t2) :
    (mountable t.slotType = true →
      ¬ (ty = c!"raw-caibx" ∧ t.slotType ≠ c!"ubifs") →
      ¬ (c = .pre ∧ t.slotType ≠ c!"ubifs" ∧ ty ∈ [c!"tar", c!"caidx", c!"catar", c!"emptyfs"]) →
      mounted t1 = true) ∧
    (t.slotType ∈ [c!"raw", c!"ubivol", c!"nor", c!"nand"] → mounted t1 = false) := by
  have key : ∀ e ∈ imageTypeMap, ∀ op ∈ relevant e.2.2, ∀ p ∈ (handlerProg op e.2.2).toList, ∀ q ∈ p.paths,
      ∀ s ∈ splits q.1, ∀ c ∈ [HookCmd.pre, .install, .post], s.2.1.1 = .hook c →
        HookState e.1 e.2.1 c (mounted s.1) := by
    decide +kernel
  obtain ⟨e, he, hty', hst, op, hop, p, hp, hq⟩ := row_paths hi h
  rw [hty'] at hty
  obtain rfl := Option.some.inj hty
  rw [hst]
  exact key e he op hop p hp _ hq (t1, (.hook c, b), t2) ((mem_splits ..).mpr hs) c (by cases c <;> decide) rfl

/-! ## Deviations -/

/-- everything succeeds -/
def allOk : List Ev → Step → Bool := fun _ _ => true

/-- Finding: the documentation promises that the pre-install hook of a mountable slot type runs with the target
mounted, but before a tar archive is unpacked into an ext4 slot it runs without. -/
theorem C58_finding_pre_hook_not_mounted :
    mountable c!"ext4" = true ∧
    updateSlot { slotclass := c!"rootfs", typ := some c!"tar", filename := some c!"rootfs.tar.gz", hooks := { preInstall := true } }
      { slotType := c!"ext4" } allOk =
    some ([(.hook .pre, true), (.mkfs .ext4, true), (.mount, true), (.untar, true), (.umount, true)], true) := by
  decide +kernel

/-- Finding: the post-install hook finds a vfat slot unmounted if the image came from a chunk store. -/
theorem C58_finding_post_hook_not_mounted :
    mountable c!"vfat" = true ∧
    updateSlot { slotclass := c!"boot", typ := some c!"raw-caibx", filename := some c!"boot.img.caibx", hooks := { postInstall := true } }
      { slotType := c!"vfat" } allOk =
    some ([(.casyncBlob, true), (.hook .post, true)], true) := by
  decide +kernel

/-- Finding: a chunk store image is written to raw NAND or NOR flash without ever erasing it, whereas plain
images are written after `flash_erase` or with `flashcp --erase-all`. -/
theorem C58_finding_flash_not_erased {img : Image} {t : Target} {o : List Ev → Step → Bool} {tr : List Ev} {r : Bool}
    (hi : img.hooks.install = false) (h : updateSlot img t o = some (tr, r))
    (hs : t.slotType ∈ [c!"nand", c!"nor"]) (hty : img.typ = some c!"raw-caibx") :
    ∀ e ∈ tr, e.1 ≠ .flashErase ∧ e.1 ≠ .flashcp := by
  have key : ∀ e ∈ imageTypeMap, e.1 = c!"raw-caibx" → e.2.1 ∈ [c!"nand", c!"nor"] →
      ∀ op ∈ relevant e.2.2, ∀ p ∈ (handlerProg op e.2.2).toList, ∀ q ∈ p.paths,
      ∀ x ∈ q.1, x.1 ≠ .flashErase ∧ x.1 ≠ .flashcp := by decide +kernel
  obtain ⟨e, he, hty', hst, op, hop, p, hp, hq⟩ := row_paths hi h
  rw [hty'] at hty
  exact key e he (Option.some.inj hty) (hst ▸ hs) op hop p hp _ hq

/-- The plain image is written to NAND only after erasing it. -/
theorem C58_nand_erased {img : Image} {t : Target} {o : List Ev → Step → Bool} {tr : List Ev} {r : Bool}
    (hi : img.hooks.install = false) (h : updateSlot img t o = some (tr, r))
    {t1 t2 : List Ev} {b : Bool} (hs : tr = t1 ++ (.nandWrite, b) :: t2) : content t1 = .erased := by
  have key : ∀ e ∈ imageTypeMap, ∀ op ∈ relevant e.2.2, ∀ p ∈ (handlerProg op e.2.2).toList, ∀ q ∈ p.paths,
      ∀ s ∈ splits q.1, s.2.1.1 = .nandWrite → content s.1 = .erased := by decide +kernel
  obtain ⟨e, he, -, -, op, hop, p, hp, hq⟩ := row_paths hi h
  exact key e he op hop p hp _ hq (t1, (.nandWrite, b), t2) ((mem_splits ..).mpr hs) rfl

/-- is the slot device held open for writing after `h`? (closing releases it even if it reports an error) -/
def isOpen (h : List Ev) : Bool :=
  h.foldl (fun m e => if e.1 = .openDev then e.2 else if e.1 = .closeDev then false else m) false

/-- what must hold at step `x` after `t1` (image type `ty`, slot type `st`) -/
def SessionOk (ty st : Str) (t1 : List Ev) (x : Step) : Prop :=
  (x = .copyRaw → isOpen t1 = true) ∧
  (st = c!"ubivol" ∨ (st = c!"ubifs" ∧ some ty ∉ [some c!"tar", some c!"caidx", some c!"catar"]) →
    x.writes = true → x ≠ .ubiStart → (.ubiStart, true) ∈ t1 ∧ isOpen t1 = true) ∧
  (x = .hook .post → isOpen t1 = false)

set_option synthInstance.maxSize 1000 in
set_option synthInstance.maxHeartbeats 200000 in
instance (ty st : Str) (t1 : List Ev) (x : Step) : Decidable (SessionOk ty st t1 x) := by
  unfold SessionOk; infer_instance

set_option synthInstance.maxSize 1000 in
set_option synthInstance.maxHeartbeats 200000 in
/-- RAUC itself copies data only to the opened device, on UBI volumes every writer (also casync) starts after a volume update was
announced; the post-install hook and a successful return find the device closed, with the close having succeeded. -/
theorem C58_device_session {img : Image} {t : Target} {o : List Ev → Step → Bool} {tr : List Ev} {r : Bool}
    (hi : img.hooks.install = false) (h : updateSlot img t o = some (tr, r)) :
    (∀ t1 b t2, tr = t1 ++ (.copyRaw, b) :: t2 → isOpen t1 = true) ∧
    (t.slotType = c!"ubivol" ∨ (t.slotType = c!"ubifs" ∧ img.typ ∉ [some c!"tar", some c!"caidx", some c!"catar"]) →
      ∀ t1 e t2, tr = t1 ++ e :: t2 → e.1.writes = true → e.1 ≠ .ubiStart → (.ubiStart, true) ∈ t1 ∧ isOpen t1 = true) ∧
    (∀ t1 b t2, tr = t1 ++ (.hook .post, b) :: t2 → isOpen t1 = false) ∧
    (r = true → isOpen tr = false ∧ (.closeDev, false) ∉ tr) := by
  have key : ∀ e ∈ imageTypeMap, ∀ op ∈ relevant e.2.2, ∀ p ∈ (handlerProg op e.2.2).toList, ∀ q ∈ p.paths,
      (∀ s ∈ splits q.1, SessionOk e.1 e.2.1 s.1 s.2.1.1) ∧
      (q.2 = true → isOpen q.1 = false ∧ (.closeDev, false) ∉ q.1) := by
    decide +kernel
  obtain ⟨e, he, hty, hst, op, hop, p, hp, hq⟩ := row_paths hi h
  obtain ⟨k1, k2⟩ := key e he op hop p hp _ hq
  refine ⟨?_, ?_, ?_, k2⟩
  · intro t1 b t2 hs
    exact (k1 (t1, (.copyRaw, b), t2) ((mem_splits ..).mpr hs)).1 rfl
  · intro hu t1 x t2 hs hw hne
    rw [hst, hty] at hu
    exact (k1 (t1, x, t2) ((mem_splits ..).mpr hs)).2.1 hu hw hne
  · intro t1 b t2 hs
    exact (k1 (t1, (.hook .post, b), t2) ((mem_splits ..).mpr hs)).2.2 rfl

/-- a plain image for a UBI volume: the update is announced, the image copied, the device closed -/
example : updateSlot { slotclass := c!"rootfs", typ := some c!"raw", filename := some c!"rootfs.img" } { slotType := c!"ubivol" } allOk =
    some ([(.openDev, true), (.ubiStart, true), (.copyRaw, true), (.closeDev, true)], true) := by decide +kernel

/-- Finding: handlers look at the file name, not at the declared image type. A chunk store index whose file is not
called `*.caibx` is itself copied to the slot, and the installation succeeds. -/
theorem C58_finding_type_ignored :
    updateSlot { slotclass := c!"rootfs", typ := some c!"raw-caibx", filename := some c!"rootfs.index" }
      { slotType := c!"raw" } allOk =
      some ([(.openDev, true), (.checkSize, true), (.copyRaw, true), (.closeDev, true)], true) ∧
    expected c!"raw-caibx" c!"raw" = some (.image true) ∧
    content [(.openDev, true), (.checkSize, true), (.copyRaw, true), (.closeDev, true)] = .image false := by
  decide +kernel

/-! ## Arguments of the tools -/

/-- The label of a new vfat file system has at most 11 characters, none of which is a lower-case letter or one of
those mkfs.vfat refuses, whatever the slot is called; a name that already is such a label is used unchanged. -/
theorem C58_vfat_label (name : Str) :
    (vfatLabel name).length ≤ 11 ∧
    (∀ c ∈ vfatLabel name, ¬ ('a' ≤ c ∧ c ≤ 'z') ∧ c ∉ c!"*?.,;:/\\|+=<>[]\"") ∧
    (name.length ≤ 11 → (∀ c ∈ name, ¬ ('a' ≤ c ∧ c ≤ 'z') ∧ c ∉ c!"*?.,;:/\\|+=<>[]\"") → vfatLabel name = name) := by
  have hc : ∀ c : Char, ¬ ('a' ≤ vfatChar c ∧ vfatChar c ≤ 'z') ∧ vfatChar c ∉ vfatInvalid := by
    intro c
    unfold vfatChar
    by_cases hl : 'a' ≤ c ∧ c ≤ 'z'
    · have hn : 97 ≤ c.toNat ∧ c.toNat ≤ 122 := by
        have h1 : (97 : Nat) ≤ c.toNat := hl.1
        have h2 : c.toNat ≤ 122 := hl.2
        exact ⟨h1, h2⟩
      have key : ∀ n, n < 123 → 97 ≤ n → ¬ ('a' ≤ Char.ofNat (n - 32) ∧ Char.ofNat (n - 32) ≤ 'z') ∧
          Char.ofNat (n - 32) ∉ vfatInvalid := by decide +kernel
      have := key c.toNat (by omega) hn.1
      simp only [if_pos hl, if_neg this.2]
      exact this
    · simp only [if_neg hl]
      split
      · decide
      · exact ⟨hl, by assumption⟩
  refine ⟨?_, ?_, ?_⟩
  · unfold vfatLabel
    rw [List.length_map]
    split
    · simp; omega
    · omega
  · intro c h
    unfold vfatLabel at h
    obtain ⟨d, -, rfl⟩ := List.mem_map.mp h
    exact hc d
  · intro hlen h
    unfold vfatLabel
    rw [if_neg (by omega)]
    refine (List.map_congr_left (g := id) fun c hm => ?_).trans (List.map_id name)
    obtain ⟨h1, h2⟩ := h c hm
    have h2' : c ∉ vfatInvalid := h2
    simp [vfatChar, h1, h2']

/-- The decompression option of tar is determined by the file name extension; at most one extension of the
table fits, so the order of the table does not matter. -/
theorem C58_tar_flag (f : Str) (e : Str × Option Str) (he : e ∈ tarSuffixes) (hs : e.1 <:+ f) :
    tarFlag f = e.2 := by
  have key : ∀ a ∈ tarSuffixes, ∀ b ∈ tarSuffixes, a.1 <:+ b.1 → a = b := by decide
  unfold tarFlag
  cases hf : tarSuffixes.find? (fun e => e.1.isSuffixOf f) with
  | none =>
    have := List.find?_eq_none.mp hf e he
    exact absurd (List.isSuffixOf_iff_suffix.mpr hs) this
  | some a =>
    have ha := List.mem_of_find?_eq_some hf
    have hsa : a.1.isSuffixOf f = true := List.find?_some (p := fun e : Str × Option Str => e.1.isSuffixOf f) hf
    have hsa := List.isSuffixOf_iff_suffix.mp hsa
    rcases List.suffix_or_suffix_of_suffix hsa hs with h | h
    · rw [key a ha e he h]
    · rw [key e he a ha h]

example : vfatLabel c!"bootloader.0" = c!"BOOTLOADER_" := by decide
example : tarFlag c!"rootfs.tar.xz" = some c!"-J" := by decide

/-! ## Concrete cases -/

/-- hypotheses of the theorems: a tar archive with both hooks on an ext4 slot; unpacking fails -/
example : updateSlot { slotclass := c!"rootfs", typ := some c!"tar", filename := some c!"rootfs.tar", hooks := { preInstall := true, postInstall := true } } { slotType := c!"ext4" } (fun _ s => s != .untar) =
    some ([(.hook .pre, true), (.mkfs .ext4, true), (.mount, true), (.untar, false), (.umount, true)], false) := by
  decide +kernel

/-- an image with both hooks on a vfat slot, the adaptive method fails -/
example : updateSlot { slotclass := c!"boot", typ := some c!"vfat", filename := some c!"boot.vfat", adaptive := some [c!"block-hash-index"], hooks := { preInstall := true, postInstall := true } } { slotType := c!"vfat", dataDir := true } (fun _ s => s != .copyAdaptive) =
    some ([(.mount, true), (.hook .pre, true), (.umount, true), (.copyAdaptive, false), (.openDev, true),
      (.checkSize, true), (.copyRaw, true), (.closeDev, true), (.mount, true), (.hook .post, true), (.umount, true)], true) := by
  decide +kernel

/-- a directory tree from a chunk store with a seed that has to be mounted, and cannot be unmounted -/
example : updateSlot { slotclass := c!"rootfs", typ := some c!"caidx", filename := some c!"rootfs.caidx" }
      { slotType := c!"ubifs", seed := .mount } (fun _ s => s != .umountSeed) =
    some ([(.mkfs .ubifs, true), (.mount, true), (.mountSeed, true), (.casyncTree, true), (.umountSeed, false),
      (.umount, true)], false) := by
  decide +kernel

/-- hypotheses of `C58_derived_fits` and `NameFits` -/
example : deriveType c!"rootfs.squashfs-zstd.caibx" = some c!"squashfs-caibx" ∧
    nameHasSuffix { slotclass := [], filename := some c!"rootfs.squashfs-zstd.caibx" } c!".caibx" = true := by decide

/-- an install hook -/
example : updateSlot { slotclass := c!"rootfs", hooks := { install := true } } { slotType := c!"raw" } allOk =
    some ([(.hook .install, true)], true) := by decide +kernel

end Rauc.Update
