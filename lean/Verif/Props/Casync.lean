import Verif.Model.Casync
import Verif.Props.Resign
import Verif.Props.Handlers

/-!
# C63: conversion to casync
-/

namespace Rauc.Create

open Bundle (Bundle Res Params AccessResults Crypto Config checkBundle)
open ManifestFile (prepare ManifestWf ImageWf)
open Handlers (globMatch deriveType)

/-! ## Specification -/

/-- Specification: the name of an archive: it contains `.tar`, or ends with `.catar` -/
def ArchiveName (f : Str) : Prop := c!".tar" <:+: f ∨ c!".catar" <:+ f

/-- Specification: the name of the index for a file -/
def IndexName (f n : Str) : Prop := (ArchiveName f ∧ n = f ++ c!".caidx") ∨ (¬ ArchiveName f ∧ n = f ++ c!".caibx")

/-- Specification: what can be restored from an index and a chunk store. Chunks are only added to a store. -/
structure Restores (T : Tools) (C : Casync) (blob : Bytes → Dir → Option Bytes) (arch : Bytes → Dir → Option Dir) : Prop where
  blobs : ∀ b st x st', C.blob b st = some (x, st') → blob x st' = some b ∧ (∀ y c, blob y st = some c → blob y st' = some c) ∧ (∀ y c, arch y st = some c → arch y st' = some c)
  archs : ∀ b st x st', C.arch b st = some (x, st') → (∃ tree, T.tar b = some tree ∧ arch x st' = some tree) ∧
    (∀ y c, blob y st = some c → blob y st' = some c) ∧ (∀ y c, arch y st = some c → arch y st' = some c)

/-- Specification: an image after the conversion. Checksum and size are those of the original file. -/
structure Indexed (T : Tools) (blob : Bytes → Dir → Option Bytes) (arch : Bytes → Dir → Option Dir) (ignore : List Str) (d d' st : Dir) (i i' : Image) : Prop where
  same : { i' with filename := i.filename, typ := i.typ } = i
  kept : i.filename = none ∨ i.slotclass ∈ ignore → i' = i
  /-- a type that was not given comes from the new name -/
  typ : i'.typ = if i.typeFromExt then i'.filename.bind deriveType else i.typ
  index : ∀ f, i.filename = some f → i.slotclass ∉ ignore → ∃ n b x, IndexName f n ∧ i'.filename = some n ∧ openFile d f = some b ∧
    lookup d' n = some (.file x) ∧ lookup d' f = none ∧
    (ArchiveName f → ∃ tree, T.tar b = some tree ∧ arch x st = some tree) ∧ (¬ ArchiveName f → blob x st = some b)

/-- Specification: the files to be converted -/
def toConvert (ignore : List Str) (l : List Image) : List Str := l.filterMap (fun i => if i.slotclass ∈ ignore then none else i.filename)

/-- Specification: files that can be converted independently of each other: names in the directory, no index there yet, no file is a link to another -/
structure Independent (d : Dir) (fs : List Str) : Prop where
  names : ∀ f ∈ fs, '/' ∉ f ∧ ∀ n, IndexName f n → lookup d n = none
  apart : fs.Pairwise (fun f g => f ∉ visited maxLinks d g ∧ g ∉ visited maxLinks d f ∧ (∀ n, IndexName f n → n ∉ visited maxLinks d g) ∧ (∀ n, IndexName g n → n ∉ visited maxLinks d f))

/-! ## Names -/

theorem archive_iff (f : Str) : isArchive f = true ↔ ArchiveName f := by
  unfold isArchive ArchiveName
  rw [Bool.or_eq_true]
  refine or_congr ?_ ?_
  · constructor
    · exact Handlers.glob_infix c!".tar" [] f (by decide)
    · rintro ⟨a, b, rfl⟩
      rw [show (c!"*.tar*" : Str) = '*' :: (c!".tar" ++ ['*']) from rfl, Handlers.glob_star]
      refine ⟨a, c!".tar" ++ b, by simp, ?_⟩
      rw [Handlers.glob_append _ _ _ (by decide)]
      refine ⟨b, rfl, ?_⟩
      rw [Handlers.glob_star]
      exact ⟨b, [], by simp, rfl⟩
  · exact Handlers.glob_suffix c!".catar" f (by decide)

theorem indexName_iff {f n : Str} : IndexName f n ↔ n = casyncName f := by
  unfold IndexName casyncName
  rw [← archive_iff]
  cases isArchive f <;> simp

theorem casyncName_ne (f : Str) : casyncName f ≠ f := by
  unfold casyncName
  split <;> exact longer_ne (by decide)

theorem casyncName_inj {f g : Str} (h : casyncName f = casyncName g) : f = g := by
  have key : ∀ {a b : Str}, a ++ c!".caidx" = b ++ c!".caibx" → False := by
    intro a b h
    have h1 := congrArg List.reverse h
    rw [List.reverse_append, List.reverse_append] at h1
    have h2 := congrArg (fun l => l[1]?) h1
    simp at h2
  unfold casyncName at h
  split at h <;> split at h
  · exact List.append_cancel_right h
  · exact absurd h key
  · exact absurd h.symm key
  · exact List.append_cancel_right h

theorem independent_iff {d : Dir} {fs : List Str} : Independent d fs ↔ (∀ f ∈ fs, '/' ∉ f ∧ lookup d (casyncName f) = none) ∧
    fs.Pairwise (fun f g => f ∉ visited maxLinks d g ∧ g ∉ visited maxLinks d f ∧ casyncName f ∉ visited maxLinks d g ∧ casyncName g ∉ visited maxLinks d f) := by
  have e : ∀ (f : Str) (P : Str → Prop), (∀ n, IndexName f n → P n) ↔ P (casyncName f) := by
    intro f P
    constructor
    · intro h; exact h _ (indexName_iff.2 rfl)
    · intro h n hn; rw [indexName_iff.1 hn]; exact h
  constructor
  · rintro ⟨h1, h2⟩
    refine ⟨fun f hf => ⟨(h1 f hf).1, (e f (fun n => lookup d n = none)).1 (h1 f hf).2⟩, h2.imp ?_⟩
    rintro f g ⟨a, b, c, c'⟩
    exact ⟨a, b, (e f (fun n => n ∉ visited maxLinks d g)).1 c, (e g (fun n => n ∉ visited maxLinks d f)).1 c'⟩
  · rintro ⟨h1, h2⟩
    refine ⟨fun f hf => ⟨(h1 f hf).1, (e f (fun n => lookup d n = none)).2 (h1 f hf).2⟩, h2.imp ?_⟩
    rintro f g ⟨a, b, c, c'⟩
    exact ⟨a, b, (e f (fun n => n ∉ visited maxLinks d g)).2 c, (e g (fun n => n ∉ visited maxLinks d f)).2 c'⟩

theorem self_visited {d : Dir} {f : Str} {b : Bytes} (h : openFile d f = some b) : f ∈ visited maxLinks d f ∧ ∃ x, lookup d f = some x ∧ ∀ e, x ≠ .dir e := by
  unfold openFile at h
  split at h
  · rename_i c hc
    unfold maxLinks at hc ⊢
    rw [target_succ] at hc
    unfold visited
    split at hc
    · cases hc
    · rename_i hn
      rw [if_neg hn]
      refine ⟨by simp, ?_⟩
      split at hc
      · cases hc
      · rename_i hl; exact ⟨_, hl, by simp⟩
      · cases hc
      · cases hc
      · rename_i hl; exact ⟨_, hl, by simp⟩
  · cases h

/-! ## The loop -/

/-- one converted image -/
theorem casyncImage_convert {C : Casync} {out : Str → Option Bytes} {ignore : List Str} {s s' : CState} {i i' : Image} {f : Str} (hf : i.filename = some f) (hi : i.slotclass ∉ ignore)
    (hn : '/' ∉ f) (h : casyncImage C out ignore s i = (s', some i')) :
    ∃ b x, openFile s.dir f = some b ∧ (if isArchive f then C.arch b s.store else C.blob b s.store) = some (x, s'.store) ∧ i' = { i with filename := some (casyncName f) } ∧
      s'.outside = s.outside ∧ ∀ n, lookup s'.dir n = if n = f then none else if n = casyncName f then some (.file x) else lookup s.dir n := by
  unfold casyncImage at h
  rw [hf] at h
  simp only [] at h
  rw [if_neg (by simpa using hi), if_neg hn] at h
  cases hb : openFile s.dir f with
  | none => rw [hb] at h; simp at h
  | some b =>
    rw [hb] at h
    simp only [] at h
    cases hx : (if isArchive f then C.arch b s.store else C.blob b s.store) with
    | none => rw [hx] at h; simp at h
    | some r =>
      obtain ⟨x, st⟩ := r
      rw [hx] at h
      simp only [hn, if_false, Prod.mk.injEq, Option.some.injEq] at h
      obtain ⟨rfl, rfl⟩ := h
      refine ⟨b, x, rfl, hx, rfl, rfl, ?_⟩
      intro n
      obtain ⟨-, y, hy, hd⟩ := self_visited hb
      have hl : lookup (setEntry s.dir (casyncName f) (.file x)) f = some y := by
        rw [lookup_setEntry, if_neg (Ne.symm (casyncName_ne f)), hy]
      have hu : unlink (setEntry s.dir (casyncName f) (.file x)) f = some (erase (setEntry s.dir (casyncName f) (.file x)) f) := by
        unfold unlink
        rw [hl]
        cases y with
        | dir e => exact absurd rfl (hd e)
        | file b => rfl
        | link t => rfl
        | special => rfl
      simp only [hu, Option.getD_some]
      rw [lookup_erase, lookup_setEntry]

theorem casyncImage_keep {C : Casync} {out : Str → Option Bytes} {ignore : List Str} {s s' : CState} {i i' : Image} (hi : i.filename = none ∨ i.slotclass ∈ ignore)
    (h : casyncImage C out ignore s i = (s', some i')) : s' = s ∧ i' = i := by
  unfold casyncImage at h
  split at h
  · simp only [Prod.mk.injEq, Option.some.injEq] at h
    exact ⟨h.1.symm, h.2.symm⟩
  · rename_i f hf
    rcases hi with hi | hi
    · rw [hf] at hi; cases hi
    · rw [if_pos (by simpa using hi)] at h
      simp only [Prod.mk.injEq, Option.some.injEq] at h
      exact ⟨h.1.symm, h.2.symm⟩

/-- an image after the loop -/
structure Stepped (T : Tools) (blob : Bytes → Dir → Option Bytes) (arch : Bytes → Dir → Option Dir) (ignore : List Str) (d d' st : Dir) (i i' : Image) : Prop where
  kept : i.filename = none ∨ i.slotclass ∈ ignore → i' = i
  index : ∀ f, i.filename = some f → i.slotclass ∉ ignore → i' = { i with filename := some (casyncName f) } ∧ ∃ b x, openFile d f = some b ∧
    lookup d' (casyncName f) = some (.file x) ∧ lookup d' f = none ∧
    (isArchive f = true → ∃ tree, T.tar b = some tree ∧ arch x st = some tree) ∧ (isArchive f = false → blob x st = some b)

theorem toConvert_cons_keep {ignore : List Str} {i : Image} {l : List Image} (hi : i.filename = none ∨ i.slotclass ∈ ignore) : toConvert ignore (i :: l) = toConvert ignore l := by
  unfold toConvert
  rw [List.filterMap_cons_none]
  rcases hi with h | h
  · rw [h]; simp
  · rw [if_pos h]

theorem toConvert_cons {ignore : List Str} {i : Image} {l : List Image} {f : Str} (hf : i.filename = some f) (hi : i.slotclass ∉ ignore) :
    toConvert ignore (i :: l) = f :: toConvert ignore l := by
  unfold toConvert
  rw [List.filterMap_cons_some]
  rw [if_neg hi, hf]

theorem independent_next {d d' : Dir} {f : Str} {fs : List Str} {x : Node} (hf : f ∈ visited maxLinks d f) (h : Independent d (f :: fs))
    (hd : ∀ n, lookup d' n = if n = f then none else if n = casyncName f then some x else lookup d n) : Independent d' fs ∧ ∀ g ∈ fs, openFile d' g = openFile d g := by
  obtain ⟨h1, h2⟩ := independent_iff.1 h
  rw [List.pairwise_cons] at h2
  have hv : ∀ g ∈ fs, ∀ n ∈ visited maxLinks d g, lookup d' n = lookup d n := by
    intro g hg n hn
    obtain ⟨a, -, b, -⟩ := h2.1 g hg
    rw [hd, if_neg (by rintro rfl; exact a hn), if_neg (by rintro rfl; exact b hn)]
  have hvis : ∀ g ∈ fs, visited maxLinks d' g = visited maxLinks d g := fun g hg => visited_congr (hv g hg)
  refine ⟨independent_iff.2 ⟨?_, ?_⟩, fun g hg => openFile_congr (hv g hg)⟩
  · intro g hg
    obtain ⟨a, b⟩ := h1 g (List.mem_cons_of_mem _ hg)
    refine ⟨a, ?_⟩
    rw [hd]
    split
    · rfl
    split
    · rename_i e
      have := casyncName_inj e
      subst this
      exact absurd hf (h2.1 g hg).1
    · exact b
  · refine h2.2.imp_of_mem ?_
    intro a b ha hb hab
    rw [hvis a ha, hvis b hb]
    exact hab

theorem casyncImages_spec {T : Tools} {C : Casync} {blob : Bytes → Dir → Option Bytes} {arch : Bytes → Dir → Option Dir} (hC : Restores T C blob arch) {out : Str → Option Bytes}
    {ignore : List Str} : ∀ {l l' : List Image} {s s' : CState}, casyncImages C out ignore s l = (s', some l') → Independent s.dir (toConvert ignore l) →
      List.Forall₂ (Stepped T blob arch ignore s.dir s'.dir s'.store) l l' ∧ s'.outside = s.outside ∧
      (∀ n, (∀ f ∈ toConvert ignore l, n ≠ f ∧ n ≠ casyncName f) → lookup s'.dir n = lookup s.dir n) ∧
      (∀ y c, blob y s.store = some c → blob y s'.store = some c) ∧ (∀ y c, arch y s.store = some c → arch y s'.store = some c) ∧
      (∀ f ∈ toConvert ignore l, f ∈ visited maxLinks s.dir f) := by
  intro l
  induction l with
  | nil =>
    intro l' s s' h _
    simp only [casyncImages, Prod.mk.injEq, Option.some.injEq] at h
    obtain ⟨rfl, rfl⟩ := h
    exact ⟨.nil, rfl, fun _ _ => rfl, fun _ _ h => h, fun _ _ h => h, by simp [toConvert]⟩
  | cons i l ih =>
    intro l' s s' h hind
    rw [casyncImages] at h
    cases h1 : casyncImage C out ignore s i with
    | mk s1 r1 =>
      rw [h1] at h
      cases r1 with
      | none => simp at h
      | some i' =>
        simp only [] at h
        cases h2 : casyncImages C out ignore s1 l with
        | mk s2 r2 =>
          rw [h2] at h
          cases r2 with
          | none => simp at h
          | some l2 =>
            simp only [Prod.mk.injEq, Option.some.injEq] at h
            obtain ⟨rfl, rfl⟩ := h
            by_cases hk : i.filename = none ∨ i.slotclass ∈ ignore
            · obtain ⟨rfl, rfl⟩ := casyncImage_keep hk h1
              rw [toConvert_cons_keep hk] at hind ⊢
              obtain ⟨q1, q2, q3, q4, q5, q6⟩ := ih h2 hind
              refine ⟨.cons ⟨fun _ => rfl, ?_⟩ q1, q2, q3, q4, q5, q6⟩
              intro f hf hi
              rcases hk with hk | hk
              · rw [hf] at hk; cases hk
              · exact absurd hk hi
            · rw [not_or] at hk
              obtain ⟨f, hf⟩ := Option.ne_none_iff_exists'.1 hk.1
              rw [toConvert_cons hf hk.2] at hind ⊢
              obtain ⟨n1, n2⟩ := independent_iff.1 hind
              obtain ⟨b, x, hb, hx, rfl, ho, hd⟩ := casyncImage_convert hf hk.2 (n1 f (by simp)).1 h1
              obtain ⟨hfv, y, hfl, -⟩ := self_visited hb
              obtain ⟨hind', hopen⟩ := independent_next hfv hind hd
              obtain ⟨q1, q2, q3, q4, q5, q6⟩ := ih h2 hind'
              rw [List.pairwise_cons] at n2
              have grow : (∀ y c, blob y s.store = some c → blob y s1.store = some c) ∧ (∀ y c, arch y s.store = some c → arch y s1.store = some c) ∧
                  (isArchive f = true → ∃ tree, T.tar b = some tree ∧ arch x s1.store = some tree) ∧ (isArchive f = false → blob x s1.store = some b) := by
                split at hx
                · rename_i ha
                  obtain ⟨r1, r2, r3⟩ := hC.archs _ _ _ _ hx
                  exact ⟨r2, r3, fun _ => r1, fun h => by rw [ha] at h; cases h⟩
                · rename_i ha
                  obtain ⟨r1, r2, r3⟩ := hC.blobs _ _ _ _ hx
                  exact ⟨r2, r3, fun h => absurd h ha, fun _ => r1⟩
              have hsep : ∀ g ∈ toConvert ignore l, f ≠ g ∧ f ≠ casyncName g ∧ casyncName f ≠ g ∧ casyncName f ≠ casyncName g := by
                intro g hg
                obtain ⟨a1, a2, a3, a4⟩ := n2.1 g hg
                have hgv : g ∈ visited maxLinks s.dir g := by
                  have := q6 g hg
                  rwa [visited_congr (d := s.dir)] at this
                  intro n hn
                  rw [hd, if_neg (by rintro rfl; exact a1 hn), if_neg (by rintro rfl; exact a3 hn)]
                have hgn := (n1 g (List.mem_cons_of_mem _ hg)).2
                refine ⟨by rintro rfl; exact a1 hgv, ?_, by (intro e; rw [e] at a3; exact a3 hgv), ?_⟩
                · intro e; rw [e, hgn] at hfl; cases hfl
                · intro e
                  have := casyncName_inj e
                  subst this
                  exact a1 hgv
              refine ⟨.cons ⟨?_, ?_⟩ ?_, by rw [q2, ho], ?_, fun y c h => q4 y c (grow.1 y c h), fun y c h => q5 y c (grow.2.1 y c h), ?_⟩
              · rintro (h | h)
                · exact absurd h hk.1
                · exact absurd h hk.2
              · intro f' hf' _
                rw [hf] at hf'
                cases hf'
                refine ⟨rfl, b, x, hb, ?_, ?_, ?_, ?_⟩
                · rw [q3 (casyncName f) (fun g hg => ⟨(hsep g hg).2.2.1, (hsep g hg).2.2.2⟩), hd, if_neg (casyncName_ne f), if_pos rfl]
                · rw [q3 f (fun g hg => ⟨(hsep g hg).1, (hsep g hg).2.1⟩), hd, if_pos rfl]
                · intro ha
                  obtain ⟨tree, t1, t2⟩ := grow.2.2.1 ha
                  exact ⟨tree, t1, q5 _ _ t2⟩
                · intro ha
                  exact q4 _ _ (grow.2.2.2 ha)
              · -- the others, seen from the directory before
                have : ∀ {l l2 : List Image}, (∀ g ∈ toConvert ignore l, openFile s1.dir g = openFile s.dir g) → List.Forall₂ (Stepped T blob arch ignore s1.dir s2.dir s2.store) l l2 →
                    List.Forall₂ (Stepped T blob arch ignore s.dir s2.dir s2.store) l l2 := by
                  intro l l2 hop hl
                  induction hl with
                  | nil => exact .nil
                  | @cons j j' l l2 hj _ ih =>
                    by_cases hkj : j.filename = none ∨ j.slotclass ∈ ignore
                    · rw [toConvert_cons_keep hkj] at hop
                      refine .cons ⟨hj.kept, ?_⟩ (ih hop)
                      intro g hg hig
                      rcases hkj with hkj | hkj
                      · rw [hg] at hkj; cases hkj
                      · exact absurd hkj hig
                    · rw [not_or] at hkj
                      obtain ⟨g, hg⟩ := Option.ne_none_iff_exists'.1 hkj.1
                      rw [toConvert_cons hg hkj.2] at hop
                      refine .cons ⟨hj.kept, ?_⟩ (ih (fun a ha => hop a (List.mem_cons_of_mem _ ha)))
                      intro g' hg' hig
                      rw [hg] at hg'
                      cases hg'
                      rw [← hop g (by simp)]
                      exact hj.index g hg hig
                exact this hopen q1
              · intro n hn
                obtain ⟨a, b'⟩ := hn f (by simp)
                rw [q3 n (fun g hg => hn g (List.mem_cons_of_mem _ hg)), hd, if_neg a, if_neg b']
              · intro g hg
                rcases List.mem_cons.1 hg with rfl | hg
                · exact hfv
                · obtain ⟨a1, a2, a3, a4⟩ := n2.1 g hg
                  have := q6 g hg
                  rwa [visited_congr (d := s.dir)] at this
                  intro n hn
                  rw [hd, if_neg (by rintro rfl; exact a1 hn), if_neg (by rintro rfl; exact a3 hn)]

/-! ## The manifest -/

/-- a type that is not given is that of the name -/
def retype (i : Image) : Image := if i.typeFromExt then { i with typ := i.filename.bind deriveType } else i

theorem derived_supported {f t : Str} (h : deriveType f = some t) : Handlers.typeSupported t = true ∧ t ≠ c!"emptyfs" ∧ t ≠ [] ∧ ManifestFile.Clean t := by
  have hall : ∀ e ∈ Handlers.extTypeMap, Handlers.typeSupported e.2 = true ∧ e.2 ≠ c!"emptyfs" ∧ e.2 ≠ [] ∧ e.2.head? ≠ some ManifestFile.FF ∧
      (∀ c, e.2.getLast? = some c → c ≠ ' ' ∧ c ≠ '\t' ∧ c ≠ ManifestFile.FF) := by
    have : Handlers.extTypeMap.all (fun e => Handlers.typeSupported e.2 && e.2 != c!"emptyfs" && e.2 != [] && e.2.head? != some ManifestFile.FF &&
      (match e.2.getLast? with | none => true | some c => c != ' ' && c != '\t' && c != ManifestFile.FF)) = true := by decide
    rw [List.all_eq_true] at this
    intro e he
    have h := this e he
    simp only [Bool.and_eq_true, bne_iff_ne, ne_eq] at h
    refine ⟨h.1.1.1.1, h.1.1.1.2, h.1.1.2, h.1.2, ?_⟩
    intro c hc
    have := h.2
    rw [hc] at this
    simp only [Bool.and_eq_true, bne_iff_ne, ne_eq] at this
    exact ⟨this.1.1, this.1.2, this.2⟩
  unfold deriveType at h
  rw [Option.map_eq_some_iff] at h
  obtain ⟨e, he, rfl⟩ := h
  obtain ⟨a, b, c, d, e'⟩ := hall e (List.mem_of_find?_eq_some he)
  exact ⟨a, b, c, ⟨d, e'⟩⟩

theorem prepare_retype (m : Manifest) (l : List Image) : prepare { m with images := l.map retype } = prepare { m with images := l } := by
  have h1 : ∀ i, ManifestFile.prepareImage (retype i) = ManifestFile.prepareImage i := by
    intro i
    unfold retype
    split
    · rename_i h
      have : ManifestFile.imageKvs { i with typ := i.filename.bind deriveType } = ManifestFile.imageKvs i := by
        unfold ManifestFile.imageKvs
        simp only [h, if_true]
      unfold ManifestFile.prepareImage
      rw [this]
      rfl
    · rfl
  have h2 : (l.map retype).flatMap ManifestFile.prepareImage = l.flatMap ManifestFile.prepareImage := by
    rw [List.flatMap_map]
    congr 1
    funext i
    exact h1 i
  unfold prepare
  simp only [h2]
  rfl

theorem imageOk_retype {i : Image} (h : ManifestFile.ImageOk i) (hf : i.typeFromExt = true → i.filename ≠ none) : ManifestFile.ImageOk (retype i) := by
  unfold retype
  split
  · rename_i ht
    refine ⟨h.name, h.digest, h.size, h.converted, fun e => absurd e (hf ht), ?_, h.adaptive⟩
    intro e
    obtain ⟨f, hf'⟩ := Option.ne_none_iff_exists'.1 (hf ht)
    simp only [hf', Option.bind_some] at e
    exact absurd rfl (derived_supported e).2.1
  · exact h

theorem hooks_retype {m : Manifest} {l : List Image} (h : ManifestFile.HooksOk { m with images := l }) : ManifestFile.HooksOk { m with images := l.map retype } := by
  rintro (hc | ⟨i, hi, hh⟩)
  · exact h (.inl hc)
  · simp only [List.mem_map] at hi
    obtain ⟨j, hj, rfl⟩ := hi
    refine h (.inr ⟨j, hj, ?_⟩)
    have : (retype j).hooks = j.hooks := by unfold retype; split <;> rfl
    rw [this] at hh
    exact hh

theorem generate_retype {T : Tools} {running : Str} {m : Manifest} {l : List Image} {f s : Bytes} (hpos : ∀ i ∈ l, i.filename ≠ none → 0 ≤ i.size)
    (hf : ∀ i ∈ l, i.typeFromExt = true → i.filename ≠ none) (h : generateSignature T running { m with images := l } f = some s) :
    generateSignature T running { m with images := l.map retype } f = some s := by
  unfold generateSignature at h ⊢
  by_cases hp : m.format = .plain
  · rw [if_pos (show ({ m with images := l } : Manifest).format = .plain from hp)] at h
    rw [if_pos (show ({ m with images := l.map retype } : Manifest).format = .plain from hp)]
    split at h
    · cases h
    rename_i m' hm'
    obtain ⟨h1, h2, h3, h4, h5, h6, h7, h8, h9, h10⟩ := ManifestFile.C35_internal _ _ _ hm'
    have e : m' = { m with images := l } := by
      unfold ManifestFile.checkInternal at hm'
      split at hm'
      · cases hm'
      split at hm'
      · cases hm'
      rename_i m4 hm4
      split at hm'
      · cases hm'
        exact bundled_id hpos hm4
      · cases hm'
    subst e
    rw [ManifestFile.C35_internal_complete running { m with images := l.map retype } ?_ (hooks_retype h3) h4 h5 h6 h7 h8 h9 ?_]
    · exact h
    · intro i hi
      simp only [List.mem_map] at hi
      obtain ⟨j, hj, rfl⟩ := hi
      exact imageOk_retype (h1 j hj) (hf j hj)
    · intro i hi
      simp only [List.mem_map] at hi
      obtain ⟨j, hj, rfl⟩ := hi
      have := h10 j hj
      unfold retype
      split
      · exact this
      · exact this
  · rw [if_neg (show ¬ ({ m with images := l } : Manifest).format = .plain from hp)] at h
    rw [if_neg (show ¬ ({ m with images := l.map retype } : Manifest).format = .plain from hp)]
    split at h
    · cases h
    rename_i m' hm'
    obtain ⟨h1, h2, h3, h4, h5, h6, h7, h8, h9, h10⟩ := ManifestFile.C35_external _ _ _ hm'
    obtain ⟨rfl, -⟩ := external_complete hpos hm'
    rw [ManifestFile.C35_external_complete running { m with images := l.map retype } ?_ (hooks_retype h3) h4 h5 h6 h7 h8 h9 h10]
    · simp only [prepare_retype]
      exact h
    · intro i hi
      simp only [List.mem_map] at hi
      obtain ⟨j, hj, rfl⟩ := hi
      exact imageOk_retype (h1 j hj) (hf j hj)

theorem sign_retype {T : Tools} {R : Run} {running : Str} {m : Manifest} {l : List Image} {p f : Bytes} (hpos : ∀ i ∈ l, i.filename ≠ none → 0 ≤ i.size)
    (hf : ∀ i ∈ l, i.typeFromExt = true → i.filename ≠ none) (h : signBundle T R running { m with images := l } p = some f) :
    signBundle T R running { m with images := l.map retype } p = some f := by
  unfold signBundle at h ⊢
  by_cases hp : m.format = .plain
  · rw [if_pos (show ({ m with images := l } : Manifest).format = .plain from hp)] at h
    rw [if_pos (show ({ m with images := l.map retype } : Manifest).format = .plain from hp)]
    simp only [] at h ⊢
    split at h
    · cases h
    rename_i s hs
    rw [generate_retype hpos hf hs]
    exact h
  · rw [if_neg (show ¬ ({ m with images := l } : Manifest).format = .plain from hp)] at h
    rw [if_neg (show ¬ ({ m with images := l.map retype } : Manifest).format = .plain from hp)]
    unfold createVerity at h ⊢
    cases hsalt : R.salt with
    | none => rw [hsalt] at h; cases h
    | some salt =>
      rw [hsalt] at h
      simp only [] at h ⊢
      by_cases hlen : p.length % 4096 ≠ 0 ∨ p.length ≤ 4096
      · rw [if_pos hlen] at h; cases h
      · rw [if_neg hlen] at h ⊢
        cases hc : Verity.create Verity.code (fun b => T.sha (salt ++ b)) (p.length / 4096) (Bundle.fileDisk p) with
        | none => rw [hc] at h; cases h
        | some r =>
          obtain ⟨g, root, total⟩ := r
          rw [hc] at h
          simp only [] at h ⊢
          split at h
          · cases h
          rename_i s hs
          have := generate_retype (m := { m with veritySalt := some (Utils.hexEncode salt), verityHash := some (Utils.hexEncode root), veritySize := total * 4096 - p.length }) hpos hf hs
          simp only [] at this
          rw [this]
          exact h

theorem casyncName_val {f : Str} (h : f ≠ [] ∧ ManifestFile.Clean f) : casyncName f ≠ [] ∧ ManifestFile.Clean (casyncName f) := by
  obtain ⟨h0, h1⟩ := h
  have key : ∀ t : Str, t.getLast? = some 'x' → f ++ t ≠ [] ∧ ManifestFile.Clean (f ++ t) := by
    intro t ht
    refine ⟨by simp [h0], ⟨?_, ?_⟩⟩
    · cases f with
      | nil => exact absurd rfl h0
      | cons a l => exact h1.front
    · intro c hc
      rw [List.getLast?_append, ht] at hc
      simp only [Option.some_or, Option.some.injEq] at hc
      subst hc
      decide
  unfold casyncName
  split <;> exact key _ rfl

theorem retype_keep {i : Image} (h : ImageWf i) : retype i = i := by
  unfold retype
  split
  · rename_i ht
    obtain ⟨-, f, t, hf, hd, hty⟩ := h.derived ht
    have e : i.filename.bind deriveType = i.typ := by rw [hf, Option.bind_some, hd, hty]
    rw [e]
  · rfl

theorem retype_filename (i : Image) : (retype i).filename = i.filename := by unfold retype; split <;> rfl

theorem stepped_wf {T : Tools} {blob : Bytes → Dir → Option Bytes} {arch : Bytes → Dir → Option Dir} {ignore : List Str} {d d' st : Dir} {i i' : Image}
    (h : Stepped T blob arch ignore d d' st i i') (hi : ImageWf i)
    (htyp : i.typeFromExt = true → i.slotclass ∉ ignore → ∀ f, i.filename = some f → deriveType (casyncName f) ≠ none) : ImageWf (retype i') := by
  by_cases hk : i.filename = none ∨ i.slotclass ∈ ignore
  · rw [h.kept hk, retype_keep hi]
    exact hi
  · rw [not_or] at hk
    obtain ⟨f, hf⟩ := Option.ne_none_iff_exists'.1 hk.1
    rw [(h.index f hf hk.2).1]
    have hname : ManifestFile.Val (some (casyncName f)) := by
      intro s hs
      cases hs
      exact casyncName_val (hi.filename f hf)
    unfold retype
    simp only []
    split
    · rename_i ht
      obtain ⟨t, hd⟩ := Option.ne_none_iff_exists'.1 (htyp ht hk.2 f hf)
      obtain ⟨d1, -, d3, d4⟩ := derived_supported hd
      simp only [Option.bind_some, hd]
      exact {
        slotclass := hi.slotclass, artifact := hi.artifact, sha256 := hi.sha256, digest := hi.digest, size := hi.size, filename := hname
        artType := fun e => by have := (hi.artType e).2; rw [ht] at this; cases this
        derived := fun _ => ⟨(hi.derived ht).1, casyncName f, t, rfl, hd, rfl⟩
        typ := by intro s hs; cases hs; exact ⟨d3, d4⟩
        known := fun _ _ => ⟨t, rfl, d1⟩
        adaptive := hi.adaptive, convert := hi.convert, converted := hi.converted, convertedNonempty := hi.convertedNonempty
        content := fun e => by cases e }
    · rename_i ht
      exact {
        slotclass := hi.slotclass, artifact := hi.artifact, sha256 := hi.sha256, digest := hi.digest, size := hi.size, filename := hname
        artType := hi.artType
        derived := fun e => absurd e ht
        typ := hi.typ, known := hi.known
        adaptive := hi.adaptive, convert := hi.convert, converted := hi.converted, convertedNonempty := hi.convertedNonempty
        content := fun e => by cases e }

theorem stepped_indexed {T : Tools} {blob : Bytes → Dir → Option Bytes} {arch : Bytes → Dir → Option Dir} {ignore : List Str} {d d' st : Dir} {i i' : Image}
    (h : Stepped T blob arch ignore d d' st i i') (hi : ImageWf i) : Indexed T blob arch ignore d d' st i (retype i') := by
  by_cases hk : i.filename = none ∨ i.slotclass ∈ ignore
  · rw [h.kept hk, retype_keep hi]
    refine ⟨rfl, fun _ => rfl, ?_, ?_⟩
    · split
      · rename_i ht
        obtain ⟨-, f, t, hf, hd, hty⟩ := hi.derived ht
        rw [hf, Option.bind_some, hd, hty]
      · rfl
    · intro f hf hs
      rcases hk with hk | hk
      · rw [hf] at hk; cases hk
      · exact absurd hk hs
  · rw [not_or] at hk
    obtain ⟨f, hf⟩ := Option.ne_none_iff_exists'.1 hk.1
    obtain ⟨e, b, x, h1, h2, h3, h4, h5⟩ := h.index f hf hk.2
    refine ⟨?_, ?_, ?_, ?_⟩
    · rw [e]
      unfold retype
      simp only []
      split <;> rfl
    · rintro (h | h)
      · exact absurd h hk.1
      · exact absurd h hk.2
    · rw [e]
      unfold retype
      simp only []
      split <;> rfl
    · intro f' hf' _
      rw [hf] at hf'
      cases hf'
      refine ⟨casyncName f, b, x, indexName_iff.2 rfl, by rw [retype_filename, e], h1, h2, h3, ?_, ?_⟩
      · intro ha; exact h4 ((archive_iff f).2 ha)
      · intro ha; exact h5 (by cases hc : isArchive f with | false => rfl | true => exact absurd ((archive_iff f).1 hc) ha)

/-- Specification: the manifest after the conversion -/
structure Reindexed (T : Tools) (blob : Bytes → Dir → Option Bytes) (arch : Bytes → Dir → Option Dir) (ignore : List Str) (d d' st : Dir) (m m' : Manifest) : Prop where
  same : { m' with images := m.images, hash := m.hash, verityHash := m.verityHash, veritySalt := m.veritySalt, veritySize := m.veritySize } = { m with minRaucVersion := none }
  images : List.Forall₂ (Indexed T blob arch ignore d d' st) m.images m'.images

/-- what `create_casync_bundle` goes through when it succeeds -/
theorem casync_cases {T : Tools} {R : Run} {C : Casync} {out : Str → Option Bytes} {running : Str} {ignore : List Str} {store store' : Dir} {b : Bundle} {existing f : Option Bytes}
    {outside : List Str} (h : casync T R C out running ignore store b existing = .ok (true, f, store', outside)) :
    existing = none ∧ ∃ d m s imgs p o, extract T running b = .ok d ∧ (openFile d manifestName).bind (loadText T) = some m ∧
      casyncImages C out ignore ⟨d, store, []⟩ m.images = (s, some imgs) ∧ R.saveManifest = true ∧
      T.pack false (setEntry s.dir manifestName (.file (T.text (prepare { m with images := imgs, veritySalt := none, verityHash := none, veritySize := 0 })))) = some p ∧
      signBundle T R running { m with images := imgs, veritySalt := none, verityHash := none, veritySize := 0 } p = some o ∧ f = some o ∧ store' = s.store ∧ outside = s.outside := by
  unfold casync at h
  split at h
  · simp at h
  refine ⟨rfl, ?_⟩
  split at h
  · simp at h
  · cases h
  rename_i d hd
  split at h
  · simp at h
  rename_i m hm
  split at h
  · simp at h
  rename_i s imgs hi
  simp only [] at h
  split at h
  · simp at h
  rename_i hsave
  split at h
  · simp at h
  rename_i p hp
  split at h
  · simp at h
  rename_i o ho
  simp only [Res.ok.injEq, Prod.mk.injEq, true_and] at h
  exact ⟨d, m, s, imgs, p, o, hd, hm, hi, by simpa using hsave, hp, ho, h.1.symm, h.2.1.symm, h.2.2.symm⟩

/-- a relation carried through the list -/
theorem stepped_map {R S : Image → Image → Prop} {l l' : List Image} (h : List.Forall₂ R l l') (hs : ∀ i i', i ∈ l → R i i' → S i (retype i')) : List.Forall₂ S l (l'.map retype) := by
  induction h with
  | nil => exact .nil
  | cons h1 _ ih => exact .cons (hs _ _ (by simp) h1) (ih (fun i i' hi => hs i i' (List.mem_cons_of_mem _ hi)))

theorem stepped_mem {R : Image → Image → Prop} {l l' : List Image} (h : List.Forall₂ R l l') {i' : Image} (hi : i' ∈ l') : ∃ i ∈ l, R i i' := by
  induction h with
  | nil => cases hi
  | cons h1 _ ih =>
    rcases List.mem_cons.1 hi with rfl | hi
    · exact ⟨_, by simp, h1⟩
    · obtain ⟨j, hj, hr⟩ := ih hi
      exact ⟨j, List.mem_cons_of_mem _ hj, hr⟩

theorem stepped_target {α : Type} {R : Image → Image → Prop} {f g : Image → α} {l l' : List Image} (h : List.Forall₂ R l l') (hs : ∀ i i', R i i' → f i' = g i) : l'.map f = l.map g := by
  induction h with
  | nil => rfl
  | cons h1 _ ih => rw [List.map_cons, List.map_cons, ih, hs _ _ h1]

/-- **C63** (partial) What `rauc convert` reports as done is a bundle that the device accepts. It contains, instead of each image that is not ignored, an index from which the
original content can be restored with the chunk store; the manifest (the checksums included) is the same otherwise, and so is everything else in the bundle. Nothing outside is touched, the store only grows.
Assumed: the files are independent of each other, the types are known for the new names, the format is not crypt, the manifest survives being written (C50). -/
theorem C63_convert_partial (T : Tools) (hT : Sound T) (C : Casync) (blob : Bytes → Dir → Option Bytes) (arch : Bytes → Dir → Option Dir) (hC : Restores T C blob arch)
    (K : Crypto) (cfg : Config) (hK : Trusts K cfg T) (R : Run) (hsalt : ∀ s, R.salt = some s → s.length = 32) (out : Str → Option Bytes) (running : Str) (ignore : List Str)
    (store store' : Dir) (b : Bundle) (existing f : Option Bytes) (outside : List Str) (h : casync T R C out running ignore store b existing = .ok (true, f, store', outside))
    (d : Dir) (hd : extract T running b = .ok d) (m : Manifest) (hm : (openFile d c!"manifest.raucm").bind (loadText T) = some m) (hwf : ManifestWf { m with hash := none })
    (hpos : ∀ i ∈ m.images, i.filename ≠ none → 0 ≤ i.size) (hind : Independent d (toConvert ignore m.images)) (hman : c!"manifest.raucm" ∉ toConvert ignore m.images)
    (htyp : ∀ i ∈ m.images, i.typeFromExt = true → i.slotclass ∉ ignore → ∀ g n, i.filename = some g → IndexName g n → deriveType n ≠ none)
    (hcr : m.format ≠ .crypt) (hfmt : cfg.formats m.format = true) (acc : AccessResults) (ha : acc.enforce = true ∧ acc.check = true) :
    existing = none ∧ outside = [] ∧ (∀ y c, blob y store = some c → blob y store' = some c) ∧ (∀ y c, arch y store = some c → arch y store' = some c) ∧
    ∃ o b' d', f = some o ∧ checkBundle K cfg (loadText T) {} acc (.file true o) = some b' ∧ extract T running b' = .ok d' ∧
      (∃ t m', lookup d' c!"manifest.raucm" = some (.file t) ∧ loadText T t = some m' ∧ Reindexed T blob arch ignore d d' store' m m') ∧
      (m.format = .plain → b'.manifest = none) ∧ (m.format ≠ .plain → ∃ m', b'.manifest = some m' ∧ Reindexed T blob arch ignore d d' store' m m') ∧
      (∀ n, n ≠ c!"manifest.raucm" → (∀ g ∈ toConvert ignore m.images, n ≠ g ∧ ¬ IndexName g n) → lookup d' n = lookup d n) := by
  obtain ⟨hex, d_, m_, s, imgs, p, o, hd', hm', himg, -, hpack, hsign, rfl, rfl, rfl⟩ := casync_cases h
  rw [hd] at hd'
  cases hd'
  rw [show (openFile d manifestName).bind (loadText T) = some m from hm] at hm'
  cases hm'
  obtain ⟨q1, q2, q3, q4, q5, -⟩ := casyncImages_spec hC himg hind
  refine ⟨hex, q2, q4, q5, o, ?_⟩
  have hmlook : ∃ x, lookup d manifestName = some x := by
    cases ho : openFile d manifestName with
    | none => rw [show c!"manifest.raucm" = manifestName from rfl, ho] at hm; cases hm
    | some t => obtain ⟨-, x, hx, -⟩ := self_visited ho; exact ⟨x, hx⟩
  obtain ⟨h1, -⟩ := independent_iff.1 hind
  have hidx : ∀ g ∈ toConvert ignore m.images, casyncName g ≠ manifestName := by
    intro g hg e
    obtain ⟨x, hx⟩ := hmlook
    have := (h1 g hg).2
    rw [e, hx] at this
    cases this
  let m2 : Manifest := { m with images := imgs.map retype, veritySalt := none, verityHash := none, veritySize := 0 }
  have hprep : prepare { m with images := imgs, veritySalt := none, verityHash := none, veritySize := 0 } = prepare m2 :=
    (prepare_retype { m with veritySalt := none, verityHash := none, veritySize := 0 } imgs).symm
  rw [hprep] at hpack
  generalize hD : setEntry s.dir manifestName (.file (T.text (prepare m2))) = D at hpack
  have hDl : ∀ n, lookup D n = if n = manifestName then some (.file (T.text (prepare m2))) else lookup s.dir n := by
    intro n; rw [← hD, lookup_setEntry]
  have hst : ∀ i i', i ∈ m.images → Stepped T blob arch ignore d s.dir s.store i i' → Indexed T blob arch ignore d D s.store i (retype i') := by
    intro i i' hi hs
    have := stepped_indexed hs (hwf.images i hi)
    refine ⟨this.same, this.kept, this.typ, ?_⟩
    intro g hg hns
    obtain ⟨n, b, x, e1, e2, e3, e4, e5, e6⟩ := this.index g hg hns
    have hgm : g ∈ toConvert ignore m.images := by
      unfold toConvert
      rw [List.mem_filterMap]
      exact ⟨i, hi, by rw [if_neg hns, hg]⟩
    refine ⟨n, b, x, e1, e2, e3, ?_, ?_, e6⟩
    · rw [hDl, if_neg (by rw [indexName_iff.1 e1]; exact hidx g hgm)]; exact e4
    · rw [hDl, if_neg (by rintro rfl; exact hman hgm)]; exact e5
  have himgs : List.Forall₂ (Indexed T blob arch ignore d D s.store) m.images (imgs.map retype) := stepped_map q1 hst
  have hmem : ∀ j ∈ imgs.map retype, ∃ i ∈ m.images, ∃ i', Stepped T blob arch ignore d s.dir s.store i i' ∧ j = retype i' := by
    intro j hj
    obtain ⟨i', hi', rfl⟩ := List.mem_map.1 hj
    obtain ⟨i, hi, hs⟩ := stepped_mem q1 hi'
    exact ⟨i, hi, i', hs, rfl⟩
  have hsame : ∀ i i', Stepped T blob arch ignore d s.dir s.store i i' → i'.size = i.size ∧ i'.typeFromExt = i.typeFromExt ∧ (i'.filename = none ↔ i.filename = none) ∧
      ManifestFile.target i' = ManifestFile.target i := by
    intro i i' hs
    by_cases hk : i.filename = none ∨ i.slotclass ∈ ignore
    · rw [hs.kept hk]; exact ⟨rfl, rfl, Iff.rfl, rfl⟩
    · rw [not_or] at hk
      obtain ⟨g, hg⟩ := Option.ne_none_iff_exists'.1 hk.1
      rw [(hs.index g hg hk.2).1]
      exact ⟨rfl, rfl, by simp [hg], rfl⟩
  have htg : (imgs.map retype).map ManifestFile.target = m.images.map ManifestFile.target := by
    have : ∀ i, ManifestFile.target (retype i) = ManifestFile.target i := by intro i; unfold retype; split <;> rfl
    rw [List.map_map]
    exact (stepped_target q1 (fun i i' hs => by rw [Function.comp, this]; exact (hsame i i' hs).2.2.2))
  have hw2 : ManifestWf { m2 with hash := none } := {
    compatible := hwf.compatible, version := hwf.version, description := hwf.description, build := hwf.build
    plain := fun _ => ⟨rfl, rfl, rfl⟩, explicit := hwf.explicit, key := hwf.key
    verityHash := fun s hs => by cases hs
    veritySalt := fun s hs => by cases hs
    cryptKey := hwf.cryptKey, veritySize := by show 0 < 2 ^ 64; decide
    handler := hwf.handler, hook := hwf.hook
    images := by
      intro j hj
      obtain ⟨i, hi, i', hs, rfl⟩ := hmem j hj
      exact stepped_wf hs (hwf.images i hi) (fun ht hns g hg => htyp i hi ht hns g _ hg (indexName_iff.2 rfl))
    targets := by
      show ((imgs.map retype).map ManifestFile.target).Nodup
      rw [htg]; exact hwf.targets
    metas := hwf.metas, metaNames := hwf.metaNames, meta' := hwf.meta' }
  have hsz0 : ∀ i ∈ imgs, i.filename ≠ none → 0 ≤ i.size := by
    intro i' hi' hf
    obtain ⟨i, hi, hs⟩ := stepped_mem q1 hi'
    obtain ⟨a, -, c, -⟩ := hsame i i' hs
    rw [a]
    exact hpos i hi (fun e => hf (c.2 e))
  have hsz : ∀ i ∈ m2.images, i.filename ≠ none → 0 ≤ i.size := by
    intro j hj
    obtain ⟨i', hi', rfl⟩ := List.mem_map.1 hj
    have : (retype i').size = i'.size := by unfold retype; split <;> rfl
    rw [retype_filename, this]
    exact hsz0 i' hi'
  have hsign2 : signBundle T R running m2 p = some o := by
    refine sign_retype (m := { m with veritySalt := none, verityHash := none, veritySize := 0 }) hsz0 ?_ hsign
    intro i' hi' ht e
    obtain ⟨i, hi, hs⟩ := stepped_mem q1 hi'
    obtain ⟨-, b, c, -⟩ := hsame i i' hs
    rw [b] at ht
    obtain ⟨-, g, t, hg, -⟩ := (hwf.images i hi).derived ht
    rw [c.1 e] at hg
    cases hg
  obtain ⟨hpne, hun⟩ := hT.pack _ _ _ hpack
  have hinner : ∃ t m', lookup D c!"manifest.raucm" = some (.file t) ∧ loadText T t = some m' ∧ Reindexed T blob arch ignore d D s.store m m' := by
    refine ⟨T.text (prepare m2), _, ?_, load_text hT hw2, ⟨rfl, himgs⟩⟩
    show lookup D manifestName = _
    rw [hDl, if_pos rfl]
  have hrest : ∀ n, n ≠ c!"manifest.raucm" → (∀ g ∈ toConvert ignore m.images, n ≠ g ∧ ¬ IndexName g n) → lookup D n = lookup d n := by
    intro n hn hg
    rw [hDl, if_neg (show n ≠ manifestName from hn)]
    exact q3 n (fun g hgm => ⟨(hg g hgm).1, fun e => (hg g hgm).2 (indexName_iff.2 e)⟩)
  rcases signed_tail hT hK hsalt hsign2 hw2 hsz hpne hfmt ha with ⟨hpl, sg, rfl, hchk⟩ | ⟨hpl, salt, root, tree, sg, rfl, hrl, hsl, ht0, hp4, hpl4, hsg, ht4, hverify, hmwf, hchk, hpay⟩
  · have hpl' : m.format = .plain := hpl
    refine ⟨_, D, rfl, hchk, extract_plain rfl rfl rfl ?_, hinner, fun _ => rfl, fun e => absurd hpl' e, hrest⟩
    unfold Bundle.appendSignature
    rw [List.append_assoc]
    exact hun _
  · have hpl' : m.format ≠ .plain := hpl
    refine ⟨_, D, rfl, hchk, ?_, hinner, fun e => absurd e hpl', fun _ => ⟨_, rfl, ⟨?_, himgs⟩⟩, hrest⟩
    · unfold extract
      rw [hpay]
      have : m2.format ≠ .crypt := hcr
      simp only [signedManifest, this, if_false]
      unfold Bundle.appendSignature
      rw [List.append_assoc, List.append_assoc, hun]
    · have hwe : m.wasEncrypted = false := hwf.meta'.1
      simp only [signedManifest, hwe, m2]

/-! ## Failures -/

/-- **C63** Conversion never replaces a file, and leaves nothing under the name of the output when it fails. -/
theorem C63_failed (T : Tools) (R : Run) (C : Casync) (out : Str → Option Bytes) (running : Str) (ignore : List Str) (store store' : Dir) (b : Bundle) (existing f : Option Bytes)
    (ok : Bool) (outside : List Str) (h : casync T R C out running ignore store b existing = .ok (ok, f, store', outside)) :
    (ok = false → f = existing) ∧ (ok = true → existing = none ∧ f ≠ none) := by
  unfold casync at h
  repeat' (first | split at h | (simp only [] at h; split at h))
  all_goals simp only [Res.ok.injEq, Prod.mk.injEq, reduceCtorEq] at h
  all_goals (obtain ⟨rfl, rfl, -, -⟩ := h; simp)

/-- the store, for all outcomes -/
theorem casyncImage_store {T : Tools} {C : Casync} {blob : Bytes → Dir → Option Bytes} {arch : Bytes → Dir → Option Dir} (hC : Restores T C blob arch) {out : Str → Option Bytes} {ignore : List Str}
    {s s' : CState} {i : Image} {r : Option Image} (h : casyncImage C out ignore s i = (s', r)) :
    (∀ y c, blob y s.store = some c → blob y s'.store = some c) ∧ (∀ y c, arch y s.store = some c → arch y s'.store = some c) ∧
    ((∀ f, i.filename = some f → i.slotclass ∉ ignore → '/' ∉ f) → s'.outside = s.outside) := by
  unfold casyncImage at h
  cases hf : i.filename with
  | none =>
    simp only [hf, Prod.mk.injEq] at h
    obtain ⟨rfl, -⟩ := h
    exact ⟨fun _ _ h => h, fun _ _ h => h, fun _ => rfl⟩
  | some f =>
    simp only [hf] at h
    by_cases hi : ignore.contains i.slotclass = true
    · rw [if_pos hi, Prod.mk.injEq] at h
      obtain ⟨rfl, -⟩ := h
      exact ⟨fun _ _ h => h, fun _ _ h => h, fun _ => rfl⟩
    · rw [if_neg hi] at h
      have hi' : i.slotclass ∉ ignore := by simpa using hi
      cases hb : (if '/' ∈ f then out f else openFile s.dir f) with
      | none =>
        rw [hb, Prod.mk.injEq] at h
        obtain ⟨rfl, -⟩ := h
        exact ⟨fun _ _ h => h, fun _ _ h => h, fun _ => rfl⟩
      | some b =>
        rw [hb] at h
        simp only [] at h
        cases hx : (if isArchive f then C.arch b s.store else C.blob b s.store) with
        | none =>
          rw [hx, Prod.mk.injEq] at h
          obtain ⟨rfl, -⟩ := h
          exact ⟨fun _ _ h => h, fun _ _ h => h, fun _ => rfl⟩
        | some r =>
          obtain ⟨x, st⟩ := r
          rw [hx] at h
          have key : (∀ y c, blob y s.store = some c → blob y st = some c) ∧ (∀ y c, arch y s.store = some c → arch y st = some c) := by
            split at hx
            · exact (hC.archs _ _ _ _ hx).2
            · exact (hC.blobs _ _ _ _ hx).2
          by_cases hn : '/' ∈ f
          · simp only [hn, if_true, Prod.mk.injEq] at h
            obtain ⟨rfl, -⟩ := h
            exact ⟨key.1, key.2, fun hh => absurd hn (hh f rfl hi')⟩
          · simp only [hn, if_false, Prod.mk.injEq] at h
            obtain ⟨rfl, -⟩ := h
            exact ⟨key.1, key.2, fun _ => rfl⟩

theorem casyncImages_store {T : Tools} {C : Casync} {blob : Bytes → Dir → Option Bytes} {arch : Bytes → Dir → Option Dir} (hC : Restores T C blob arch) {out : Str → Option Bytes} {ignore : List Str} :
    ∀ {l : List Image} {s s' : CState} {r : Option (List Image)}, casyncImages C out ignore s l = (s', r) →
    (∀ y c, blob y s.store = some c → blob y s'.store = some c) ∧ (∀ y c, arch y s.store = some c → arch y s'.store = some c) ∧
    ((∀ f ∈ toConvert ignore l, '/' ∉ f) → s'.outside = s.outside) := by
  intro l
  induction l with
  | nil =>
    intro s s' r h
    simp only [casyncImages, Prod.mk.injEq] at h
    obtain ⟨rfl, -⟩ := h
    exact ⟨fun _ _ h => h, fun _ _ h => h, fun _ => rfl⟩
  | cons i l ih =>
    intro s s' r h
    rw [casyncImages] at h
    have hcons : (∀ f ∈ toConvert ignore (i :: l), '/' ∉ f) → (∀ f, i.filename = some f → i.slotclass ∉ ignore → '/' ∉ f) ∧ (∀ f ∈ toConvert ignore l, '/' ∉ f) := by
      intro hh
      constructor
      · intro f hf hi
        exact hh f (by rw [toConvert_cons hf hi]; simp)
      · intro f hf
        refine hh f ?_
        unfold toConvert at hf ⊢
        rw [List.mem_filterMap] at hf ⊢
        obtain ⟨a, ha, hb⟩ := hf
        exact ⟨a, List.mem_cons_of_mem _ ha, hb⟩
    cases h1 : casyncImage C out ignore s i with
    | mk s1 r1 =>
      rw [h1] at h
      obtain ⟨a1, a2, a3⟩ := casyncImage_store hC h1
      cases r1 with
      | none =>
        simp only [Prod.mk.injEq] at h
        obtain ⟨rfl, -⟩ := h
        exact ⟨a1, a2, fun hh => a3 (hcons hh).1⟩
      | some i' =>
        simp only [] at h
        cases h2 : casyncImages C out ignore s1 l with
        | mk s2 r2 =>
          rw [h2] at h
          obtain ⟨b1, b2, b3⟩ := ih h2
          have e : s' = s2 := by
            cases r2 <;> (simp only [Prod.mk.injEq] at h; exact h.1.symm)
          subst e
          exact ⟨fun y c hy => b1 y c (a1 y c hy), fun y c hy => b2 y c (a2 y c hy), fun hh => (b3 (hcons hh).2).trans (a3 (hcons hh).1)⟩

/-- **C63** Whatever the outcome: what could be restored from the store before can be restored afterwards. Files outside are touched only for images whose names lead there. -/
theorem C63_store (T : Tools) (C : Casync) (blob : Bytes → Dir → Option Bytes) (arch : Bytes → Dir → Option Dir) (hC : Restores T C blob arch) (R : Run) (out : Str → Option Bytes)
    (running : Str) (ignore : List Str) (store store' : Dir) (b : Bundle) (existing f : Option Bytes) (ok : Bool) (outside : List Str)
    (h : casync T R C out running ignore store b existing = .ok (ok, f, store', outside)) :
    (∀ y c, blob y store = some c → blob y store' = some c) ∧ (∀ y c, arch y store = some c → arch y store' = some c) ∧
    (outside ≠ [] → ∃ d m, extract T running b = .ok d ∧ (openFile d c!"manifest.raucm").bind (loadText T) = some m ∧ ∃ g ∈ toConvert ignore m.images, '/' ∈ g) := by
  have triv : ∀ {st : Dir} {o : List Str}, st = store → o = [] → (∀ y c, blob y store = some c → blob y st = some c) ∧ (∀ y c, arch y store = some c → arch y st = some c) ∧
      (o ≠ [] → ∃ d m, extract T running b = .ok d ∧ (openFile d c!"manifest.raucm").bind (loadText T) = some m ∧ ∃ g ∈ toConvert ignore m.images, '/' ∈ g) := by
    rintro st o rfl rfl
    exact ⟨fun _ _ h => h, fun _ _ h => h, fun h => absurd rfl h⟩
  unfold casync at h
  split at h
  · simp only [Res.ok.injEq, Prod.mk.injEq] at h
    exact triv h.2.2.1.symm h.2.2.2.symm
  split at h
  · simp only [Res.ok.injEq, Prod.mk.injEq] at h
    exact triv h.2.2.1.symm h.2.2.2.symm
  · cases h
  rename_i d hd
  split at h
  · simp only [Res.ok.injEq, Prod.mk.injEq] at h
    exact triv h.2.2.1.symm h.2.2.2.symm
  rename_i m hm
  have key : ∀ {s : CState} {r}, casyncImages C out ignore ⟨d, store, []⟩ m.images = (s, r) → (∀ y c, blob y store = some c → blob y s.store = some c) ∧
      (∀ y c, arch y store = some c → arch y s.store = some c) ∧
      (s.outside ≠ [] → ∃ d m, extract T running b = .ok d ∧ (openFile d c!"manifest.raucm").bind (loadText T) = some m ∧ ∃ g ∈ toConvert ignore m.images, '/' ∈ g) := by
    intro s r hs
    obtain ⟨a1, a2, a3⟩ := casyncImages_store hC hs
    refine ⟨a1, a2, fun hne => ⟨d, m, hd, hm, ?_⟩⟩
    refine Decidable.not_not.1 (fun hc => hne (a3 ?_))
    intro g hg hs
    exact hc ⟨g, hg, hs⟩
  split at h
  · rename_i s hs
    simp only [Res.ok.injEq, Prod.mk.injEq] at h
    rw [← h.2.2.1, ← h.2.2.2]
    exact key hs
  rename_i s imgs hs
  have : store' = s.store ∧ outside = s.outside := by
    simp only [] at h
    repeat' (first | split at h | (simp only [] at h; split at h))
    all_goals simp only [Res.ok.injEq, Prod.mk.injEq] at h
    all_goals exact ⟨h.2.2.1.symm, h.2.2.2.symm⟩
  rw [this.1, this.2]
  exact key hs

/-! ## Findings -/

/-- Finding: a bundle in the crypt format cannot be converted, as the manifest inside does not contain the key (`create_bundle` writes it there without key). -/
theorem C63_finding_crypt (T : Tools) (R : Run) (C : Casync) (out : Str → Option Bytes) (running : Str) (ignore : List Str) (store : Dir) (b : Bundle) (existing : Option Bytes)
    (d : Dir) (hd : extract T running b = .ok d) (m : Manifest) (hm : (openFile d c!"manifest.raucm").bind (loadText T) = some m) (hf : m.format = .crypt) (hk : m.cryptKey = none) :
    ∀ f store' outside, casync T R C out running ignore store b existing ≠ .ok (true, f, store', outside) := by
  intro f store' outside h
  obtain ⟨-, d_, m_, s, imgs, p, o, hd', hm', -, -, -, hsign, -⟩ := casync_cases h
  rw [hd] at hd'
  cases hd'
  rw [show (openFile d manifestName).bind (loadText T) = some m from hm] at hm'
  cases hm'
  rcases signBundle_cases hsign with ⟨hpl, -⟩ | ⟨m4, m5, g, sg, -, hver, hext, -⟩
  · have : m.format = .plain := hpl
    rw [hf] at this; cases this
  · obtain ⟨-, -, -, -, -, -, -, -, -, hkk⟩ := ManifestFile.C35_external _ _ _ hext
    have e : m4.format = .crypt ∧ m4.cryptKey = none := by
      unfold createVerity at hver
      split at hver
      · cases hver
      split at hver
      · cases hver
      split at hver
      · cases hver
      rw [Option.some.injEq, Prod.mk.injEq] at hver
      rw [← hver.1]
      exact ⟨hf, hk⟩
    obtain ⟨x, hx, -⟩ := hkk e.1
    rw [e.2] at hx
    cases hx

theorem images_gone {C : Casync} {out : Str → Option Bytes} {ignore : List Str} {f : Str} (hn : '/' ∉ f) :
    ∀ {l : List Image} {s : CState}, lookup s.dir f = none → (∀ g ∈ toConvert ignore l, casyncName g ≠ f) → (∃ i ∈ l, i.filename = some f ∧ i.slotclass ∉ ignore) →
      (casyncImages C out ignore s l).2 = none := by
  have hopen : ∀ {d : Dir}, lookup d f = none → openFile d f = none := by
    intro d h
    cases ho : openFile d f with
    | none => rfl
    | some b =>
      obtain ⟨-, x, hx, -⟩ := self_visited ho
      rw [h] at hx
      cases hx
  intro l
  induction l with
  | nil => rintro s - - ⟨i, hi, -⟩; cases hi
  | cons i l ih =>
    intro s hs hne hex
    rw [casyncImages]
    cases h1 : casyncImage C out ignore s i with
    | mk s1 r1 =>
      cases r1 with
      | none => rfl
      | some i' =>
        simp only []
        have hl : ∃ j ∈ l, j.filename = some f ∧ j.slotclass ∉ ignore := by
          obtain ⟨j, hj, hjf, hji⟩ := hex
          rcases List.mem_cons.1 hj with rfl | hj
          · obtain ⟨b, x, hb, -⟩ := casyncImage_convert hjf hji hn h1
            rw [hopen hs] at hb
            cases hb
          · exact ⟨j, hj, hjf, hji⟩
        have hs1 : lookup s1.dir f = none := by
          by_cases hk : i.filename = none ∨ i.slotclass ∈ ignore
          · obtain ⟨rfl, -⟩ := casyncImage_keep hk h1
            exact hs
          · rw [not_or] at hk
            obtain ⟨g, hg⟩ := Option.ne_none_iff_exists'.1 hk.1
            by_cases hsl : '/' ∈ g
            · unfold casyncImage at h1
              rw [hg] at h1
              simp only [] at h1
              rw [if_neg (by simpa using hk.2)] at h1
              simp only [hsl, if_true] at h1
              split at h1
              · simp at h1
              split at h1
              · simp at h1
              simp only [Prod.mk.injEq] at h1
              rw [← h1.1]
              exact hs
            · obtain ⟨b, x, -, -, -, -, hlk⟩ := casyncImage_convert hg hk.2 hsl h1
              rw [hlk]
              split
              · rfl
              rw [if_neg (fun e => hne g (by rw [toConvert_cons hg hk.2]; simp) e.symm)]
              exact hs
        have hne' : ∀ g ∈ toConvert ignore l, casyncName g ≠ f := by
          intro g hg
          refine hne g ?_
          unfold toConvert at hg ⊢
          rw [List.mem_filterMap] at hg ⊢
          obtain ⟨a, ha, hb⟩ := hg
          exact ⟨a, List.mem_cons_of_mem _ ha, hb⟩
        have := ih hs1 hne' hl
        cases h2 : casyncImages C out ignore s1 l with
        | mk s2 r2 =>
          rw [h2] at this
          simp only [] at this
          subst this
          rfl

/-- Finding: a bundle in which two images use the same file cannot be converted: the file is removed after the first of them (unless some index is written under this name). -/
theorem C63_finding_shared (C : Casync) (out : Str → Option Bytes) (ignore : List Str) (f : Str) (hn : '/' ∉ f) (i : Image) (l : List Image) (hi : i.filename = some f) (hs : i.slotclass ∉ ignore)
    (hl : ∃ j ∈ l, j.filename = some f ∧ j.slotclass ∉ ignore) (hne : ∀ g ∈ toConvert ignore l, ¬ IndexName g f) (s : CState) : (casyncImages C out ignore s (i :: l)).2 = none := by
  rw [casyncImages]
  cases h1 : casyncImage C out ignore s i with
  | mk s1 r1 =>
    cases r1 with
    | none => rfl
    | some i' =>
      simp only []
      obtain ⟨b, x, -, -, -, -, hlk⟩ := casyncImage_convert hi hs hn h1
      have := images_gone (C := C) (out := out) hn (s := s1) (by rw [hlk, if_pos rfl]) (fun g hg e => hne g hg (indexName_iff.2 e.symm)) hl
      cases h2 : casyncImages C out ignore s1 l with
      | mk s2 r2 =>
        rw [h2] at this
        simp only [] at this
        subst this
        rfl

/-- Finding: types are not checked for the new names. An archive `r.tgz` (which is no archive for the conversion), or a file that was converted before, gets a name without a known type:
no manifest with such an entry can be loaded, although the conversion reports success. -/
theorem C63_finding_type : (∀ f, f = c!"r.tgz" ∨ f = c!"r.img.caibx" ∨ f = c!"r.ext4.caibx" → deriveType f ≠ none ∧ ¬ ArchiveName f ∧ deriveType (casyncName f) = none) ∧
    ∀ f, f = c!"r.tgz" ∨ f = c!"r.img.caibx" ∨ f = c!"r.ext4.caibx" → ∀ T, Sound T →
      loadText T (T.text (prepare { compatible := c!"x", images := [{ slotclass := c!"rootfs", filename := some (casyncName f), typ := deriveType f, typeFromExt := true }] })) = none := by
  refine ⟨?_, ?_⟩
  · intro f hf
    have : ∀ f, f = c!"r.tgz" ∨ f = c!"r.img.caibx" ∨ f = c!"r.ext4.caibx" → deriveType f ≠ none ∧ ¬ (isArchive f = true) ∧ deriveType (casyncName f) = none := by
      rintro f (rfl | rfl | rfl) <;> decide
    obtain ⟨a, b, c⟩ := this f hf
    exact ⟨a, fun h => b ((archive_iff f).2 h), c⟩
  · intro f hf T hT
    have e : ∀ f, f = c!"r.tgz" ∨ f = c!"r.img.caibx" ∨ f = c!"r.ext4.caibx" → ManifestFile.parse (ManifestFile.reload (prepare
        { compatible := c!"x", images := [{ slotclass := c!"rootfs", filename := some (casyncName f), typ := deriveType f, typeFromExt := true }] })) = none := by
      rintro f (rfl | rfl | rfl) <;> decide
    unfold loadText ManifestFile.load
    rw [hT.text]
    simp only [e f hf]

end Rauc.Create
