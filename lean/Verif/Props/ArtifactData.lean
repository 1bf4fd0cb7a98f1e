import Verif.Model.ArtifactData
import Verif.Props.Copy

/-!
# C91 — an artifact appears in its repository only with all of its data, and durably
-/

namespace Rauc.ArtifactData

/-! ## Specification: a directory entry that can be lost or torn by a power failure -/

/-- the data of an artifact -/
inductive Data where
  | file (b : Bytes)
  /-- an empty directory -/
  | dir
  /-- a copy of this tree -/
  | copied (src : Str)
  /-- this archive, unpacked with owners, access control lists, labels and attributes -/
  | unpacked (src : Str)
  /-- from this composefs image -/
  | composed (src : Str)
  /-- left by a program that failed -/
  | unclear
deriving DecidableEq

/-- what is on disk -/
structure Disk where
  data : Option Data := none
  /-- all of it would survive a power failure -/
  durable : Bool := false
  /-- it has its final name -/
  named : Bool := false
  /-- the final name would survive a power failure -/
  nameDurable : Bool := false
deriving DecidableEq

/-- the effect of an operation, for the temporary name `tmp` -/
def effect (tmp : Str) (s : Disk) : Ev → Disk
  | .create => { s with data := some (.file []), durable := false }
  | .write b => { s with data := match s.data with | some (.file c) => some (.file (c ++ b)) | _ => some .unclear, durable := false }
  | .fsync => { s with durable := true }
  | .mkdir => { s with data := some .dir, durable := false }
  | .run argv ok =>
    { s with
      data :=
        if ok then
          match argv with
          | [cp, a, src, dst] => if cp = c!"cp" ∧ a = c!"-a" ∧ dst = tmp ∧ s.data = none then some (.copied src) else some .unclear
          | [tar, no, acl, se, xa, xf, src, c, dst] =>
            if tar = c!"tar" ∧ no = c!"--numeric-owner" ∧ acl = c!"--acl" ∧ se = c!"--selinux" ∧ xa = c!"--xattrs" ∧ xf = c!"-xf" ∧ c = c!"-C" ∧ dst = tmp ∧ s.data = some .dir then
              some (.unpacked src)
            else some .unclear
          | _ => some .unclear
        else some .unclear
      durable := false }
  | .composefs src ok => { s with data := some (if ok then .composed src else .unclear), durable := false }
  | .syncfs => { s with durable := true }
  | .rename => { s with named := true }
  | .fsyncDir => { s with nameDurable := s.named }

def after (tmp : Str) (t : List Ev) : Disk := t.foldl (effect tmp) {}

/-- the methods of `convert=` and the results of `converted=` belong together -/
def Output (img : Img) (method name : Str) : Prop :=
  img.convert.length = img.converted.length ∧ ∃ i : Nat, img.convert[i]? = some method ∧ img.converted[i]? = some name ∧ ∀ j < i, img.convert[j]? ≠ some method

/-- What an artifact should be, by the type of the repository. -/
inductive Wanted (img : Img) (content : Bytes) : RepoType → Data → Prop
  /-- a single file -/
  | file : Wanted img content .files (.file content)
  /-- a tree: the result of `tar-extract`, if there is one, -/
  | extracted (name : Str) : Output img c!"tar-extract" name → Wanted img content .trees (.copied name)
  /-- otherwise the archive that was kept, -/
  | kept (name : Str) : (∀ n, ¬ Output img c!"tar-extract" n) → Output img c!"keep" name → Wanted img content .trees (.unpacked name)
  /-- otherwise the image itself -/
  | original : (∀ n, ¬ Output img c!"tar-extract" n) → (∀ n, ¬ Output img c!"keep" n) → Wanted img content .trees (.unpacked img.filename)
  | composefs (name : Str) : Output img c!"composefs" name → Wanted img content .composefs (.composed name)

/-! ## Lemmas -/

theorem writes_append (a b : List Copy.Op) : writes (a ++ b) = writes a ++ writes b := List.filterMap_append ..

theorem writes_loop (tmp : Str) (io : Nat → Copy.Io) (size i sum pos : Nat) (rest : Bytes) (s : Disk) (c : Bytes) (hs : s.data = some (.file c)) :
    ∃ d, d <+: rest ∧ ((writes (Copy.copyLoop io size i sum pos rest).ops).foldl (effect tmp) s).data = some (.file (c ++ d)) ∧
      ((writes (Copy.copyLoop io size i sum pos rest).ops).foldl (effect tmp) s).named = s.named ∧
      ((Copy.copyLoop io size i sum pos rest).ok = true → d = rest ∧ sum + rest.length ≤ max sum size) := by
  fun_induction Copy.copyLoop io size i sum pos rest generalizing s c with
  | case1 => exact ⟨[], List.nil_prefix, by simpa [writes] using hs, rfl, fun h => by cases h⟩
  | case2 => exact ⟨[], List.nil_prefix, by simpa [writes] using hs, rfl, fun h => by cases h⟩
  | case3 i sum pos rest k hk hle hc =>
    have hr := Copy.chunk_nil hc
    subst hr
    exact ⟨[], List.nil_prefix, by simpa [writes] using hs, rfl, fun _ => ⟨rfl, Nat.le_max_left _ _⟩⟩
  | case4 i sum pos rest k hk hle hc j hj =>
    refine ⟨(Copy.chunk k rest).take j, (List.take_prefix _ _).trans (List.take_prefix _ _), ?_, rfl, fun h => by cases h⟩
    simp [writes, effect, hs]
  | case5 i sum pos rest k hk hle hc hj r ih =>
    have happ := Copy.chunk_prefix k rest
    obtain ⟨d, h1, h2, h3, h4⟩ := ih { s with data := some (.file (c ++ Copy.chunk k rest)), durable := false } (c ++ Copy.chunk k rest) rfl
    refine ⟨Copy.chunk k rest ++ d, ?_, ?_, ?_, ?_⟩
    · conv => rhs; rw [← happ]
      exact (List.prefix_append_right_inj _).2 h1
    · have : writes (.write pos (Copy.chunk k rest) :: r.ops) = .write (Copy.chunk k rest) :: writes r.ops := rfl
      rw [this, List.foldl_cons]
      simp only [effect, hs]
      rw [h2, List.append_assoc]
    · have : writes (.write pos (Copy.chunk k rest) :: r.ops) = .write (Copy.chunk k rest) :: writes r.ops := rfl
      rw [this, List.foldl_cons]
      simp only [effect, hs]
      rw [h3]
    · intro h
      obtain ⟨k1, k2⟩ := h4 h
      rw [k1]
      refine ⟨happ, ?_⟩
      have : (Copy.chunk k rest).length + (rest.drop (Copy.chunk k rest).length).length = rest.length := by
        conv => rhs; rw [← happ]
        rw [List.length_append]
      omega

theorem find_zip (m n : Str) : ∀ (a b : List Str), a.length = b.length →
    (((a.zip b).find? (fun x => x.1 == m)).map (·.2) = some n ↔ ∃ i : Nat, a[i]? = some m ∧ b[i]? = some n ∧ ∀ j < i, a[j]? ≠ some m)
  | [], [], _ => by simp
  | x :: a, y :: b, h => by
    have ih := find_zip m n a b (by simpa using h)
    rw [List.zip_cons_cons, List.find?_cons]
    by_cases hx : x = m
    · subst hx
      simp only [beq_self_eq_true, Option.map_some, Option.some.injEq]
      constructor
      · rintro rfl
        exact ⟨0, rfl, rfl, fun j hj => absurd hj (Nat.not_lt_zero j)⟩
      · rintro ⟨i, h1, h2, h3⟩
        cases i with
        | zero => simpa using h2
        | succ i => exact absurd rfl (h3 0 (Nat.succ_pos i))
    · have : (x == m) = false := by simpa using hx
      simp only [this]
      rw [ih]
      constructor
      · rintro ⟨i, h1, h2, h3⟩
        refine ⟨i + 1, by simpa using h1, by simpa using h2, ?_⟩
        intro j hj
        cases j with
        | zero => simpa using hx
        | succ j => simpa using h3 j (by omega)
      · rintro ⟨i, h1, h2, h3⟩
        cases i with
        | zero => exact absurd (by simpa using h1) hx
        | succ i => exact ⟨i, by simpa using h1, by simpa using h2, fun j hj => by simpa using h3 (j + 1) (by omega)⟩

theorem getConverted_iff (img : Img) (m n : Str) : getConverted img m = some n ↔ Output img m n := by
  unfold getConverted Output
  by_cases hl : img.convert.length = img.converted.length
  · by_cases he : img.converted = []
    · have : img.converted.isEmpty = true := by simp [he]
      rw [if_pos this]
      simp [he]
    · have : ¬ (img.converted.isEmpty = true) := by simpa using he
      rw [if_neg this, if_neg (by simpa using hl), find_zip m n _ _ hl]
      exact ⟨fun h => ⟨hl, h⟩, fun h => h.2⟩
  · constructor
    · intro h
      split at h
      · cases h
      · simp at h
    · rintro ⟨h, -⟩
      exact absurd h hl

theorem getConverted_none (img : Img) (m : Str) (h : getConverted img m = none) : ∀ n, ¬ Output img m n := by
  intro n hn
  rw [(getConverted_iff img m n).2 hn] at h
  cases h

/-- what the first part leaves, at every moment and at its end -/
theorem place_spec (E : Env) (typ : RepoType) (tmp : Str) (img : Img) (content : Bytes) (hsize : typ = .files → content.length = img.size) :
    (∀ e ∈ (place E typ tmp img content).1, e ≠ .rename) ∧
    ((place E typ tmp img content).2 = true → ∃ d, (after tmp (place E typ tmp img content).1).data = some d ∧ Wanted img content typ d) := by
  have htar : ∀ name, (∀ e ∈ (treeTar E tmp name).1, e ≠ .rename) ∧ ((treeTar E tmp name).2 = true → (after tmp (treeTar E tmp name).1).data = some (.unpacked name)) := by
    intro name
    unfold treeTar
    cases E.mkdir <;> cases E.run <;> simp [after, effect]
  cases typ with
  | files =>
    have hs := hsize rfl
    show (∀ e ∈ (files E img content).1, e ≠ .rename) ∧ ((files E img content).2 = true → ∃ d, (after tmp (files E img content).1).data = some d ∧ Wanted img content .files d)
    have hw : ∀ ops, ∀ e ∈ writes ops, e ≠ .rename := by
      intro ops e he
      obtain ⟨o, -, ho⟩ := List.mem_filterMap.1 he
      cases o <;> simp at ho
      subst ho; simp
    unfold files
    cases E.openImage <;> simp only [Bool.not_true, Bool.not_false, if_true, Bool.false_eq_true, if_false]
    · simp
    cases E.create <;> simp only [Bool.not_true, Bool.not_false, if_true, Bool.false_eq_true, if_false]
    · simp
    by_cases hok : (Copy.copyStream E.io img.size 0 content).ok = true
    · simp only [hok, Bool.not_true, Bool.false_eq_true, if_false]
      cases E.fsync <;> simp only [Bool.not_true, Bool.not_false, if_true, Bool.false_eq_true, if_false]
      · refine ⟨?_, fun h => by cases h⟩
        intro e he
        rcases List.mem_cons.1 he with rfl | he
        · simp
        · exact hw _ e he
      · refine ⟨?_, fun _ => ⟨.file content, ?_, .file⟩⟩
        · intro e he
          rcases List.mem_append.1 he with he | he
          · rcases List.mem_cons.1 he with rfl | he
            · simp
            · exact hw _ e he
          · rw [List.mem_singleton.1 he]; simp
        · unfold after
          rw [List.foldl_append, List.foldl_cons]
          show ((writes _).foldl (effect tmp) _).data = _
          unfold Copy.copyStream at hok ⊢
          split at hok
          · rename_i h0
            rw [if_pos h0]
            have : content = [] := by rw [h0] at hs; exact List.length_eq_zero_iff.1 hs
            subst this
            rfl
          · rename_i h0
            rw [if_neg h0]
            obtain ⟨d, -, h2, -, h4⟩ := writes_loop tmp E.io img.size 0 0 0 content (effect tmp {} .create) [] rfl
            rw [h2, (h4 hok).1, List.nil_append]
    · have hok' : (Copy.copyStream E.io img.size 0 content).ok = false := by simpa using hok
      simp only [hok', Bool.not_false, if_true]
      refine ⟨?_, fun h => by cases h⟩
      intro e he
      rcases List.mem_cons.1 he with rfl | he
      · simp
      · exact hw _ e he
  | trees =>
    unfold place
    dsimp only
    cases h1 : getConverted img c!"tar-extract" with
    | some name =>
      dsimp only
      unfold treeCopy
      cases E.run
      · simp
      · simp [after, effect]
        exact .extracted name ((getConverted_iff _ _ _).1 h1)
    | none =>
      have n1 := getConverted_none _ _ h1
      cases h2 : getConverted img c!"keep" with
      | some name =>
        dsimp only
        exact ⟨(htar name).1, fun h => ⟨_, (htar name).2 h, .kept name n1 ((getConverted_iff _ _ _).1 h2)⟩⟩
      | none =>
        dsimp only
        cases E.original
        · simp
        · exact ⟨(htar _).1, fun h => ⟨_, (htar _).2 h, .original n1 (getConverted_none _ _ h2)⟩⟩
  | composefs =>
    unfold place
    dsimp only
    cases h1 : getConverted img c!"composefs" with
    | some name =>
      dsimp only
      cases E.run
      · simp
      · simp [after, effect]
        exact .composefs name ((getConverted_iff _ _ _).1 h1)
    | none => simp

theorem not_named (tmp : Str) (t : List Ev) (h : ∀ e ∈ t, e ≠ .rename) (s : Disk) : (t.foldl (effect tmp) s).named = s.named := by
  induction t generalizing s with
  | nil => rfl
  | cons e t ih =>
    rw [List.foldl_cons, ih (fun e he => h e (List.mem_cons_of_mem _ he))]
    have := h e (List.mem_cons_self ..)
    cases e <;> first | rfl | exact absurd rfl this

/-! ## Theorems -/

/-- **C91 (at every moment).** Consider any moment of the installation of an artifact's data, whatever failed so far, in particular a power failure. If the artifact has its final name then, its data is complete:
what it should be for the type of the repository, all of it on stable storage. (For files: if the image has the announced size.) -/
theorem C91_complete_partial (E : Env) (typ : RepoType) (tmp : Str) (img : Img) (content : Bytes) (hsize : typ = .files → content.length = img.size)
    (t : List Ev) (ht : t <+: (install E typ tmp img content).1) (hn : (after tmp t).named = true) :
    ∃ d, (after tmp t).data = some d ∧ (after tmp t).durable = true ∧ Wanted img content typ d := by
  obtain ⟨h1, h2⟩ := place_spec E typ tmp img content hsize
  unfold install at ht
  generalize place E typ tmp img content = r at *
  obtain ⟨p, ok⟩ := r
  dsimp only at h1 h2 ht
  have hp : ∀ t, t <+: p → (after tmp t).named = false := fun t ht => not_named tmp t (fun e he => h1 e (ht.subset he)) {}
  have hps : ∀ t, t <+: p ++ [.syncfs] → (after tmp t).named = false := fun t ht => not_named tmp t (fun e he => by
    rcases List.mem_append.1 (ht.subset he) with he | he
    · exact h1 e he
    · rw [List.mem_singleton.1 he]; simp) {}
  have key : ∀ u : List Ev, u <+: [.rename, .fsyncDir] → t <+: p ++ [.syncfs] ++ u → ok = true →
      ∃ d, (after tmp t).data = some d ∧ (after tmp t).durable = true ∧ Wanted img content typ d := by
    intro u hu htu hok
    obtain ⟨d, hd, hw⟩ := h2 hok
    have htu' : t <+: p ++ [.syncfs] ∨ ∃ v, t = p ++ [.syncfs] ++ v ∧ v <+: u := by
      rcases List.prefix_or_prefix_of_prefix htu (List.prefix_append (p ++ [.syncfs]) u) with h | ⟨v, rfl⟩
      · exact .inl h
      · exact .inr ⟨v, rfl, (List.prefix_append_right_inj _).1 htu⟩
    rcases htu' with htu | ⟨v, hv, htv⟩
    · rw [hps t htu] at hn; cases hn
    · have hv' : v <+: [.rename, .fsyncDir] := htv.trans hu
      have : v = [] ∨ v = [.rename] ∨ v = [.rename, .fsyncDir] := by
        rcases v with _ | ⟨a, v⟩
        · exact .inl rfl
        · right
          obtain ⟨rfl, hv2⟩ := List.cons_prefix_cons.1 hv'
          rcases v with _ | ⟨b, v⟩
          · exact .inl rfl
          · right
            obtain ⟨rfl, hv3⟩ := List.cons_prefix_cons.1 hv2
            rw [List.prefix_nil.1 hv3]
      refine ⟨d, ?_, ?_, hw⟩
      · rw [hv]
        unfold after at hd ⊢
        rw [List.foldl_append, List.foldl_append]
        rcases this with rfl | rfl | rfl <;> simpa [effect] using hd
      · rw [hv]
        unfold after
        rw [List.foldl_append, List.foldl_append]
        rcases this with rfl | rfl | rfl <;> simp [effect]
  cases ok <;> simp only [Bool.not_true, Bool.not_false, if_true, Bool.false_eq_true, if_false] at ht
  · rw [hp t ht] at hn; cases hn
  cases h3 : E.openDir <;> simp only [h3, Bool.not_true, Bool.not_false, if_true, Bool.false_eq_true, if_false] at ht
  · rw [hp t ht] at hn; cases hn
  cases h4 : E.syncfs <;> simp only [h4, Bool.not_true, Bool.not_false, if_true, Bool.false_eq_true, if_false] at ht
  · rw [hp t ht] at hn; cases hn
  cases h5 : E.rename <;> simp only [h5, Bool.not_true, Bool.not_false, if_true, Bool.false_eq_true, if_false] at ht
  · rw [hps t ht] at hn; cases hn
  cases h6 : E.fsyncDir <;> simp only [h6, Bool.not_true, Bool.not_false, if_true, Bool.false_eq_true, if_false] at ht
  · exact key [.rename] ⟨[.fsyncDir], rfl⟩ (by simpa using ht) rfl
  · exact key [.rename, .fsyncDir] List.prefix_rfl (by simpa using ht) rfl

/-- **C91 (success).** When the installation of the data is reported as successful, the artifact has its final name and this will survive a power failure. -/
theorem C91_named (E : Env) (typ : RepoType) (tmp : Str) (img : Img) (content : Bytes) (h : (install E typ tmp img content).2 = true) :
    (after tmp (install E typ tmp img content).1).named = true ∧ (after tmp (install E typ tmp img content).1).nameDurable = true := by
  unfold install at h ⊢
  generalize place E typ tmp img content = r at *
  obtain ⟨p, ok⟩ := r
  dsimp only at h ⊢
  cases ok <;> cases h3 : E.openDir <;> cases h4 : E.syncfs <;> cases h5 : E.rename <;> cases h6 : E.fsyncDir <;> simp [h3, h4, h5, h6] at h ⊢
  unfold after
  rw [List.foldl_append]
  simp [effect]

/-- **C91 (it works).** If no call fails, no program fails, and there is something suitable for the type of the repository, the installation of the data succeeds. -/
theorem C91_works (E : Env) (typ : RepoType) (tmp : Str) (img : Img) (content : Bytes) (hsize : typ = .files → content.length = img.size)
    (hc : typ = .composefs → ∃ n, Output img c!"composefs" n)
    (hio : ∀ i, (E.io i).read ≠ none ∧ (E.io i).write = none)
    (h : E.openImage = true ∧ E.create = true ∧ E.fsync = true ∧ E.close = true ∧ E.mkdir = true ∧ E.run = true ∧ E.original = true ∧ E.openDir = true ∧ E.syncfs = true ∧ E.rename = true ∧ E.fsyncDir = true) :
    (install E typ tmp img content).2 = true := by
  obtain ⟨g1, g2, g3, g4, g5, g6, g7, g8, g9, g10, g11⟩ := h
  have hloop : ∀ size i sum pos rest, sum + rest.length ≤ size → (Copy.copyLoop E.io size i sum pos rest).ok = true := by
    intro size i sum pos rest hle
    fun_induction Copy.copyLoop E.io size i sum pos rest with
    | case1 i sum pos rest hk => exact absurd hk (hio i).1
    | case2 i sum pos rest k hk hgt =>
      have : (Copy.chunk k rest).length ≤ rest.length := by simp [Copy.chunk]; omega
      omega
    | case3 => rfl
    | case4 i sum pos rest k hk hle hc j hj => rw [(hio i).2] at hj; cases hj
    | case5 i sum pos rest k hk hle' hc hj r ih =>
      refine ih ?_
      have happ := Copy.chunk_prefix k rest
      have : (Copy.chunk k rest).length + (rest.drop (Copy.chunk k rest).length).length = rest.length := by
        conv => rhs; rw [← happ]
        rw [List.length_append]
      omega
  have hp : (place E typ tmp img content).2 = true := by
    cases typ with
    | files =>
      have hs := hsize rfl
      have : (Copy.copyStream E.io img.size 0 content).ok = true := by
        unfold Copy.copyStream
        split
        · rfl
        · exact hloop _ _ _ _ _ (by omega)
      simp [place, files, g1, g2, g3, g4, this]
    | trees =>
      unfold place
      dsimp only
      (repeat' split) <;> simp_all [treeCopy, treeTar]
    | composefs =>
      obtain ⟨n, hn⟩ := hc rfl
      simp [place, (getConverted_iff _ _ _).2 hn, g6]
  unfold install
  generalize place E typ tmp img content = r at *
  obtain ⟨p, ok⟩ := r
  dsimp only at hp ⊢
  simp [hp, g8, g9, g10, g11]

/-! ## What the code does not guarantee -/

def good : Env := { io := fun _ => ⟨some 4096, none⟩ }

/-- **C91 violated (announced size 0).** An image whose announced size is 0 is installed as an empty file, whatever it contains. The digest is not checked. -/
theorem C91_finding_zero (content : Bytes) : (install good .files c!"t" ⟨c!"/b/app", 0, [], []⟩ content).2 = true ∧
    (after c!"t" (install good .files c!"t" ⟨c!"/b/app", 0, [], []⟩ content).1).data = some (.file []) := by
  constructor <;> rfl

/-- **C91 violated (announced size not reached).** An image that is shorter than announced is installed and reported as success. -/
theorem C91_finding_short : (install good .files c!"t" ⟨c!"/b/app", 1000, [], []⟩ [1, 2]).2 = true ∧
    (after c!"t" (install good .files c!"t" ⟨c!"/b/app", 1000, [], []⟩ [1, 2]).1).data = some (.file [1, 2]) := by
  decide +kernel

/-! ## Satisfiable -/

example : (install good .files c!"t" ⟨c!"/b/app", 2, [], []⟩ [1, 2]).1 = [.create, .write [1, 2], .fsync, .syncfs, .rename, .fsyncDir] := by decide +kernel

/-- the copy of a tree that was extracted when the bundle was created; the program fails -/
example : (install { good with run := false } .trees c!"t" ⟨c!"/b/a.tar", 2, [c!"keep", c!"tar-extract"], [c!"/b/a.tar", c!"/b/a.tar.extracted"]⟩ []).1 =
    [.run [c!"cp", c!"-a", c!"/b/a.tar.extracted", c!"t"] false] := by decide +kernel

example : Output ⟨c!"/b/a.tar", 2, [c!"keep", c!"tar-extract"], [c!"/b/a.tar", c!"/b/a.tar.extracted"]⟩ c!"tar-extract" c!"/b/a.tar.extracted" :=
  ⟨rfl, 1, rfl, rfl, fun j hj => by have : j = 0 := by omega
                                    subst this; decide⟩

end Rauc.ArtifactData
