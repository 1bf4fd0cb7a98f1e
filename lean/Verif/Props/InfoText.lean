import Verif.Model.InfoText
import Verif.Props.BootTextBb
import Verif.Props.HandlerEnv

/-!
# C96: the readable output of `rauc info`
-/

namespace Rauc.InfoText

open Rauc.StatusView (formatStr hookWords)

/-! ## Specification: how the output is read -/

/-- the lines of a text -/
def linesOf (t : Str) : List Str := (splitAux '\n' [] t).dropLast

/-- the rest of a line that starts with `label` -/
def strip (label line : Str) : Option Str := if label.isPrefixOf line then some (line.drop label.length) else none

/-- what is shown for a label: the rests of all lines that start with it -/
def shown (label : Str) (lines : List Str) : List Str := lines.filterMap (strip label)

/-- the parts of the output: up to the first empty line, up to the second, and what follows -/
def part1 (l : List Str) : List Str := l.takeWhile (fun s => !s.isEmpty)
def part2 (l : List Str) : List Str := part1 ((l.dropWhile (fun s => !s.isEmpty)).drop 1)
def part3 (l : List Str) : List Str := (((l.dropWhile (fun s => !s.isEmpty)).drop 1).dropWhile (fun s => !s.isEmpty)).drop 1

/-- a line that is indented by exactly two blanks starts a section -/
def isHead : Str → Bool
  | ' ' :: ' ' :: ' ' :: _ => false
  | ' ' :: ' ' :: _ => true
  | _ => false

/-- the sections: first lines and what follows them -/
def sections : List Str → List (Str × List Str)
  | [] => []
  | l :: r => (l, r.takeWhile (fun x => !isHead x)) :: sections (r.dropWhile (fun x => !isHead x))
termination_by l => l.length
decreasing_by
  simp only [List.length_cons]
  have := (List.dropWhile_suffix (fun x => !isHead x) (l := r)).length_le
  omega

def quoted (s : Str) : Str := c!"'" ++ s ++ c!"'"

/-- NULL is shown as "(null)" -/
def orNull : Option Str → Str
  | none => c!"(null)"
  | some s => s

/-- how the format is described -/
def formatText (m : Manifest) : Str :=
  match m.format with
  | .plain => c!"plain"
  | .verity => c!"verity"
  | .crypt => if m.wasEncrypted then c!"crypt\x1B[1m\x1B[32m [encrypted CMS]\x1B[0m" else c!"crypt\x1B[1m\x1B[33m [unencrypted CMS]\x1B[0m"

/-- what is to be shown about the bundle: label, and the text after it if the line is to be there -/
def headFields (m : Manifest) : List (Str × Option Str) :=
  [(c!"Compatible:     ", some (quoted m.compatible)), (c!"Version:        ", some (quoted (orNull m.version))), (c!"Description:    ", some (quoted (orNull m.description))),
   (c!"Build:          ", some (quoted (orNull m.build))), (c!"Hooks:          ", some (quoted (if m.installCheck then c!"install-check" else []))),
   (c!"Bundle Format:  ", some (formatText m)),
   (c!"  Verity Salt:  ", if m.format = .plain then none else some (quoted (orNull m.veritySalt))),
   (c!"  Verity Hash:  ", if m.format = .plain then none else some (quoted (orNull m.verityHash))),
   (c!"  Verity Size:  ", if m.format = .plain then none else some (toDec m.veritySize)),
   (c!"Manifest Hash:  ", some (quoted (orNull m.hash)))]

/-- what is to be shown about an image -/
def imageFields (fmt : Int → Str) (i : Image) : List (Str × Option Str) :=
  [(c!"    Variant:   ", i.variant), (c!"    Artifact:  ", i.artifact), (c!"    Filename:  ", i.filename),
   (c!"    Type:      ", if i.artifact = none then some (orNull i.typ ++ (if i.typeFromExt then c!" (detected)" else [])) else none),
   (c!"    Checksum:  ", i.filename.map (fun _ => orNull i.digest)), (c!"    Size:      ", i.filename.map (fun _ => fmt i.size)),
   (c!"    Hooks:     ", some (join ' ' (hookWords i.hooks))), (c!"    Adaptive:  ", i.adaptive.map (join ' ')), (c!"    Convert:   ", i.convert.map (join ' ')),
   (c!"    Converted:", i.converted.map (fun l => l.flatMap (fun f => c!" " ++ quoted f)))]

/-- no line breaks in what is shown, no group of meta data whose name starts with a blank, no key with ": " -/
structure Clean (fmt : Int → Str) (m : Manifest) : Prop where
  compatible : '\n' ∉ m.compatible
  opts : ∀ o ∈ [m.version, m.description, m.build, m.veritySalt, m.verityHash, m.hash], ∀ v ∈ o, '\n' ∉ v
  metas : ∀ g ∈ m.metas, '\n' ∉ g.1 ∧ g.1.head? ≠ some ' ' ∧ ∀ e ∈ g.2, '\n' ∉ e.1 ∧ '\n' ∉ e.2 ∧ ¬ c!": " <:+: e.1
  images : ∀ i ∈ m.images, '\n' ∉ i.slotclass ∧ (∀ o ∈ [i.variant, i.artifact, i.filename, i.typ, i.digest], ∀ v ∈ o, '\n' ∉ v) ∧
    (∀ o ∈ [i.adaptive, i.convert, i.converted], ∀ l ∈ o, ∀ v ∈ l, '\n' ∉ v)
  size : ∀ n, '\n' ∉ fmt n

/-! ## Lines -/

theorem linesOf_flatMap (ls : List Str) (h : ∀ l ∈ ls, '\n' ∉ l) : linesOf (ls.flatMap ln) = ls := by
  unfold linesOf
  have key : ∀ ls : List Str, (∀ l ∈ ls, '\n' ∉ l) → splitAux '\n' [] (ls.flatMap ln) = ls ++ [[]] := by
    intro ls
    induction ls with
    | nil => intro _; rfl
    | cons l r ih =>
      intro h
      rw [List.flatMap_cons, ln, List.append_assoc, List.singleton_append, splitAux_delim _ _ _ _ (h l (by simp)), ih (fun x hx => h x (List.mem_cons_of_mem _ hx))]
      rfl
  rw [key ls h, List.dropLast_concat]

theorem pstr_eq (o : Option Str) : pstr o = orNull o := by cases o <;> rfl

theorem nonl_pstr {o : Option Str} (h : ∀ v ∈ o, '\n' ∉ v) : '\n' ∉ pstr o := by
  cases o with
  | none => decide
  | some v => exact h v rfl

theorem nonl_join {l : List Str} (h : ∀ v ∈ l, '\n' ∉ v) : '\n' ∉ join ' ' l := by
  induction l with
  | nil => simp [join]
  | cons a l ih =>
    cases l with
    | nil => exact h a (by simp)
    | cons b l =>
      rw [join]
      · have := ih (fun v hv => h v (List.mem_cons_of_mem _ hv))
        have ha := h a (by simp)
        simp only [List.mem_append, List.mem_cons, not_or]
        exact ⟨ha, by decide, this⟩
      · simp

theorem nonl_hooks (h : SlotHooks) : '\n' ∉ join ' ' (hookWords h) := by
  apply nonl_join
  intro v hv
  simp only [hookWords, List.mem_append] at hv
  rcases hv with (hv | hv) | hv <;> (split at hv <;> simp at hv; subst hv; decide)

theorem nonl_app {a b : Str} (ha : '\n' ∉ a) (hb : '\n' ∉ b) : '\n' ∉ a ++ b := by
  simp only [List.mem_append, not_or]; exact ⟨ha, hb⟩

theorem head_nonl {fmt : Int → Str} {m : Manifest} (h : Clean fmt m) : ∀ l ∈ headLines m, '\n' ∉ l := by
  have hv := h.opts
  simp only [List.mem_cons, List.not_mem_nil, or_false, forall_eq_or_imp, forall_eq] at hv
  obtain ⟨h1, h2, h3, h4, h5, h6⟩ := hv
  have q : ∀ {a b : Str}, '\n' ∉ a → '\n' ∉ b → '\n' ∉ a ++ b ++ c!"'" := fun ha hb => nonl_app (nonl_app ha hb) (by decide)
  intro l hl
  simp only [headLines, List.mem_append, List.mem_cons, List.not_mem_nil, or_false] at hl
  rcases hl with (((rfl | rfl | rfl | rfl | rfl | rfl) | hl) | hl) | rfl
  · exact q (by decide) h.compatible
  · exact q (by decide) (nonl_pstr h1)
  · exact q (by decide) (nonl_pstr h2)
  · exact q (by decide) (nonl_pstr h3)
  · refine q (by decide) ?_
    split <;> decide
  · refine nonl_app (nonl_app (by decide) ?_) ?_
    · cases m.format <;> decide
    · split
      · split <;> decide
      · decide
  · split at hl
    · simp only [List.mem_cons, List.not_mem_nil, or_false] at hl; subst hl; decide
    · cases hl
  · split at hl
    · simp only [List.mem_cons, List.not_mem_nil, or_false] at hl
      rcases hl with rfl | rfl | rfl
      · exact q (by decide) (nonl_pstr h4)
      · exact q (by decide) (nonl_pstr h5)
      · exact nonl_app (by decide) (BootText.toDec_nonl _)
    · cases hl
  · exact q (by decide) (nonl_pstr h6)

theorem meta_nonl {fmt : Int → Str} {m : Manifest} (h : Clean fmt m) : ∀ l ∈ metaLines m.metas, '\n' ∉ l := by
  intro l hl
  unfold metaLines at hl
  split at hl
  · cases hl
  · rcases List.mem_cons.1 hl with rfl | hl
    · decide
    · obtain ⟨g, hg, hl⟩ := List.mem_flatMap.1 hl
      obtain ⟨g1, g2, g3⟩ := h.metas g hg
      rcases List.mem_cons.1 hl with rfl | hl
      · exact nonl_app (nonl_app (by decide) g1) (by decide)
      · obtain ⟨e, he, rfl⟩ := List.mem_map.1 hl
        exact nonl_app (nonl_app (nonl_app (by decide) (g3 e he).1) (by decide)) (g3 e he).2.1

theorem image_nonl {fmt : Int → Str} {m : Manifest} (h : Clean fmt m) {i : Image} (hi : i ∈ m.images) : ∀ l ∈ imageLines fmt i, '\n' ∉ l := by
  obtain ⟨hc, ho, hl⟩ := h.images i hi
  simp only [List.mem_cons, List.not_mem_nil, or_false, forall_eq_or_imp, forall_eq] at ho hl
  obtain ⟨h1, h2, h3, h4, h5⟩ := ho
  obtain ⟨l1, l2, l3⟩ := hl
  intro l hm
  simp only [imageLines, List.mem_append, List.mem_cons, List.not_mem_nil, or_false, Option.mem_toList, Option.mem_def, Option.map_eq_some_iff] at hm
  rcases hm with (((((((((rfl | hm) | hm) | hm) | hm) | hm) | hm) | rfl) | hm) | hm) | hm
  · exact nonl_app (nonl_app (nonl_app (by decide) hc) (by decide)) (by decide)
  · obtain ⟨v, e, rfl⟩ := hm
    exact nonl_app (by decide) (h1 v e)
  · obtain ⟨v, e, rfl⟩ := hm
    exact nonl_app (by decide) (h2 v e)
  · obtain ⟨v, e, rfl⟩ := hm
    exact nonl_app (by decide) (h3 v e)
  · split at hm
    · rw [List.mem_singleton.1 hm]; decide
    · cases hm
  · split at hm
    · rw [List.mem_singleton.1 hm]; exact nonl_app (nonl_app (by decide) (nonl_pstr h4)) (by split <;> decide)
    · cases hm
  · split at hm
    · simp only [List.mem_cons, List.not_mem_nil, or_false] at hm
      rcases hm with rfl | rfl
      · exact nonl_app (by decide) (nonl_pstr h5)
      · exact nonl_app (by decide) (h.size _)
    · cases hm
  · exact nonl_app (by decide) (nonl_hooks _)
  · obtain ⟨v, e, rfl⟩ := hm
    exact nonl_app (by decide) (nonl_join (l1 v e))
  · obtain ⟨v, e, rfl⟩ := hm
    exact nonl_app (by decide) (nonl_join (l2 v e))
  · obtain ⟨v, e, rfl⟩ := hm
    refine nonl_app (by decide) ?_
    intro hn
    obtain ⟨f, hf, hn⟩ := List.mem_flatMap.1 hn
    exact nonl_app (nonl_app (by decide) (l3 v e f hf)) (by decide) hn

theorem count_nonl (n : Nat) : '\n' ∉ countLine n :=
  nonl_app (nonl_app (nonl_app (BootText.toDec_nonl _) (by decide)) (by split <;> decide)) (by split <;> decide)

theorem lines_eq {fmt : Int → Str} {m : Manifest} (h : Clean fmt m) : linesOf (infoReadable fmt m) = infoLines fmt m := by
  refine linesOf_flatMap _ ?_
  intro l hl
  simp only [infoLines, List.mem_append, List.mem_cons, List.not_mem_nil, or_false] at hl
  rcases hl with ((((hl | rfl) | hl) | rfl) | rfl) | hl
  · exact head_nonl h l hl
  · simp
  · exact meta_nonl h l hl
  · simp
  · exact count_nonl _
  · obtain ⟨i, hi, hl⟩ := List.mem_flatMap.1 hl
    exact image_nonl h hi l hl

/-! ## Parts -/

theorem head_ne (m : Manifest) : ∀ l ∈ headLines m, l ≠ [] := by
  intro l hl
  simp only [headLines, List.mem_append, List.mem_cons, List.not_mem_nil, or_false] at hl
  rcases hl with (((rfl | rfl | rfl | rfl | rfl | rfl) | hl) | hl) | rfl
  all_goals try simp
  · split at hl
    · simp at hl; subst hl; simp
    · cases hl
  · split at hl
    · simp only [List.mem_cons, List.not_mem_nil, or_false] at hl
      rcases hl with rfl | rfl | rfl <;> simp
    · cases hl

theorem meta_ne (l : List (Str × List (Str × Str))) : ∀ x ∈ metaLines l, x ≠ [] := by
  intro x hx
  unfold metaLines at hx
  split at hx
  · cases hx
  · rcases List.mem_cons.1 hx with rfl | hx
    · simp
    · obtain ⟨g, -, hx⟩ := List.mem_flatMap.1 hx
      rcases List.mem_cons.1 hx with rfl | hx
      · simp
      · obtain ⟨e, -, rfl⟩ := List.mem_map.1 hx
        simp

theorem takeWhile_cut {a b : List Str} (h : ∀ x ∈ a, x ≠ []) : (a ++ [] :: b).takeWhile (fun s => !s.isEmpty) = a ∧ ((a ++ [] :: b).dropWhile (fun s => !s.isEmpty)).drop 1 = b := by
  induction a with
  | nil => exact ⟨rfl, rfl⟩
  | cons x a ih =>
    have hx : (!x.isEmpty) = true := by
      have := h x (by simp)
      cases x <;> simp_all
    obtain ⟨i1, i2⟩ := ih (fun y hy => h y (List.mem_cons_of_mem _ hy))
    constructor
    · rw [List.cons_append, List.takeWhile_cons, if_pos hx, i1]
    · rw [List.cons_append, List.dropWhile_cons, if_pos hx, i2]

theorem parts_eq {fmt : Int → Str} {m : Manifest} (h : Clean fmt m) :
    part1 (linesOf (infoReadable fmt m)) = headLines m ∧ part2 (linesOf (infoReadable fmt m)) = metaLines m.metas ∧
    part3 (linesOf (infoReadable fmt m)) = countLine m.images.length :: m.images.flatMap (imageLines fmt) := by
  rw [lines_eq h]
  have e : infoLines fmt m = headLines m ++ [] :: (metaLines m.metas ++ [] :: (countLine m.images.length :: m.images.flatMap (imageLines fmt))) := by
    simp [infoLines]
  obtain ⟨c1, c2⟩ := takeWhile_cut (b := metaLines m.metas ++ [] :: (countLine m.images.length :: m.images.flatMap (imageLines fmt))) (head_ne m)
  obtain ⟨c3, c4⟩ := takeWhile_cut (b := countLine m.images.length :: m.images.flatMap (imageLines fmt)) (meta_ne m.metas)
  unfold part1 part2 part3 part1
  rw [e, c2]
  exact ⟨c1, c3, c4⟩

/-! ## The theorems -/

/-- **C96.** The first part of the output (the lines before the first empty one) shows every field of the bundle exactly once, on the line with its label, exactly as it is. -/
theorem C96_bundle {fmt : Int → Str} {m : Manifest} (h : Clean fmt m) :
    ∀ e ∈ headFields m, shown e.1 (part1 (linesOf (infoReadable fmt m))) = e.2.toList := by
  rw [(parts_eq h).1]
  intro e he
  simp only [headFields, List.mem_cons, List.not_mem_nil, or_false] at he
  unfold headLines
  simp only [pstr_eq]
  generalize orNull m.version = v1 at *
  generalize orNull m.description = v2 at *
  generalize orNull m.build = v3 at *
  generalize orNull m.veritySalt = v4 at *
  generalize orNull m.verityHash = v5 at *
  generalize orNull m.hash = v6 at *
  rcases he with rfl | rfl | rfl | rfl | rfl | rfl | rfl | rfl | rfl | rfl
  all_goals cases hf : m.format
  all_goals simp [shown, strip, quoted, formatText, hf, formatStr]
  all_goals split <;> simp [bold, green, norm, yellow]

/-- the lines of an image as pairs of label and text -/
def pieces (fmt : Int → Str) (i : Image) : List (Str × Option Str) :=
  [(c!"    Variant:   ", i.variant), (c!"    Artifact:  ", i.artifact), (c!"    Filename:  ", i.filename),
   (c!"    (no image file)", if i.filename.isNone then some [] else none),
   (c!"    Type:      ", if i.artifact = none then some (orNull i.typ ++ (if i.typeFromExt then c!" (detected)" else [])) else none),
   (c!"    Checksum:  ", i.filename.map (fun _ => orNull i.digest)), (c!"    Size:      ", i.filename.map (fun _ => fmt i.size)),
   (c!"    Hooks:     ", some (join ' ' (hookWords i.hooks))), (c!"    Adaptive:  ", i.adaptive.map (join ' ')), (c!"    Convert:   ", i.convert.map (join ' ')),
   (c!"    Converted:", i.converted.map (fun l => l.flatMap (fun f => c!" " ++ quoted f)))]

def Incomp (a b : Str) : Prop := a.isPrefixOf b = false ∧ b.isPrefixOf a = false

instance (a b : Str) : Decidable (Incomp a b) := inferInstanceAs (Decidable (_ ∧ _))

def pieceLines (ps : List (Str × Option Str)) : List Str := ps.flatMap (fun p => (p.2.map (p.1 ++ ·)).toList)

theorem strip_same (lab v : Str) : strip lab (lab ++ v) = some v := by
  unfold strip
  rw [if_pos (List.isPrefixOf_iff_prefix.2 (List.prefix_append _ _)), List.drop_left]

theorem strip_diff {a b : Str} (h : Incomp a b) (v : Str) : strip a (b ++ v) = none := by
  unfold strip
  rw [if_neg]
  intro hp
  have h1 := List.isPrefixOf_iff_prefix.1 hp
  rcases List.prefix_or_prefix_of_prefix h1 (List.prefix_append b v) with h2 | h2
  · have := List.isPrefixOf_iff_prefix.2 h2; rw [h.1] at this; cases this
  · have := List.isPrefixOf_iff_prefix.2 h2; rw [h.2] at this; cases this

theorem shown_pieces (ps : List (Str × Option Str)) (h : (ps.map (·.1)).Pairwise Incomp) : ∀ e ∈ ps, shown e.1 (pieceLines ps) = e.2.toList := by
  have none_of : ∀ (a : Str) (ps : List (Str × Option Str)), (∀ p ∈ ps, Incomp a p.1) → shown a (pieceLines ps) = [] := by
    intro a ps
    induction ps with
    | nil => intro _; rfl
    | cons p ps ih =>
      intro hp
      have hi := ih (fun x hx => hp x (List.mem_cons_of_mem _ hx))
      unfold pieceLines shown at hi ⊢
      rw [List.flatMap_cons, List.filterMap_append, hi, List.append_nil]
      cases hq : p.2 with
      | none => rfl
      | some v => simp [strip_diff (hp p (by simp)) v]
  induction ps with
  | nil => intro e he; cases he
  | cons p ps ih =>
    rw [List.map_cons, List.pairwise_cons] at h
    intro e he
    have hsplit : ∀ a, shown a (pieceLines (p :: ps)) = shown a (p.2.map (p.1 ++ ·)).toList ++ shown a (pieceLines ps) := by
      intro a
      unfold pieceLines shown
      rw [List.flatMap_cons, List.filterMap_append]
    rw [hsplit]
    rcases List.mem_cons.1 he with rfl | he
    · rw [none_of _ _ (fun q hq => h.1 _ (List.mem_map_of_mem hq)), List.append_nil]
      cases hq : e.2 with
      | none => rfl
      | some v => simp [shown, strip_same]
    · have hinc := h.1 _ (List.mem_map_of_mem he)
      rw [ih h.2 e he]
      have : shown e.1 (p.2.map (p.1 ++ ·)).toList = [] := by
        cases hq : p.2 with
        | none => rfl
        | some v => simp [shown, strip_diff ⟨hinc.2, hinc.1⟩ v]
      rw [this, List.nil_append]

theorem imageLines_eq (fmt : Int → Str) (i : Image) :
    imageLines fmt i = (c!"  \x1B[1m[" ++ i.slotclass ++ c!"]\x1B[0m") :: pieceLines (pieces fmt i) := by
  have q : (fun f : Str => c!" '" ++ f ++ c!"'") = fun f => c!" " ++ quoted f := by funext f; simp [quoted]
  have f1 : (if i.filename.isNone then [c!"    (no image file)"] else []) =
      ((if i.filename.isNone then some [] else none : Option Str).map (c!"    (no image file)" ++ ·)).toList := by
    cases i.filename <;> rfl
  have f2 : (if i.artifact.isNone then [c!"    Type:      " ++ orNull i.typ ++ (if i.typeFromExt then c!" (detected)" else [])] else []) =
      ((if i.artifact = none then some (orNull i.typ ++ (if i.typeFromExt then c!" (detected)" else [])) else none : Option Str).map (c!"    Type:      " ++ ·)).toList := by
    cases i.artifact <;> simp
  have f3 : (if i.filename.isSome then [c!"    Checksum:  " ++ orNull i.digest, c!"    Size:      " ++ fmt i.size] else []) =
      ((i.filename.map (fun _ => orNull i.digest)).map (c!"    Checksum:  " ++ ·)).toList ++ ((i.filename.map (fun _ => fmt i.size)).map (c!"    Size:      " ++ ·)).toList := by
    cases i.filename <;> rfl
  unfold imageLines
  rw [f1, q, pstr_eq, pstr_eq, f2, f3]
  simp only [pieces, pieceLines, List.flatMap_cons, List.flatMap_nil, List.append_nil, bold, norm, Option.map_map, Function.comp_def, List.append_assoc]
  rfl

/-- the lines of an image after the first -/
theorem image_tail (fmt : Int → Str) (i : Image) :
    (∀ l ∈ pieceLines (pieces fmt i), isHead l = false) ∧ ∀ e ∈ imageFields fmt i, shown e.1 (pieceLines (pieces fmt i)) = e.2.toList := by
  constructor
  · intro l hl
    obtain ⟨p, hp, hl⟩ := List.mem_flatMap.1 hl
    have : ∃ r, p.1 = ' ' :: ' ' :: ' ' :: r := by
      simp only [pieces, List.mem_cons, List.not_mem_nil, or_false] at hp
      rcases hp with rfl | rfl | rfl | rfl | rfl | rfl | rfl | rfl | rfl | rfl | rfl <;> exact ⟨_, rfl⟩
    obtain ⟨r, hr⟩ := this
    cases hq : p.2 with
    | none => rw [hq] at hl; cases hl
    | some v =>
      rw [hq] at hl
      simp only [Option.map_some, Option.toList_some, List.mem_singleton] at hl
      rw [hl, hr]; rfl
  · intro e he
    refine shown_pieces _ ?_ e ?_
    · change List.Pairwise Incomp [c!"    Variant:   ", c!"    Artifact:  ", c!"    Filename:  ", c!"    (no image file)", c!"    Type:      ", c!"    Checksum:  ", c!"    Size:      ", c!"    Hooks:     ", c!"    Adaptive:  ",
        c!"    Convert:   ", c!"    Converted:"]
      decide
    · simp only [imageFields, List.mem_cons, List.not_mem_nil, or_false] at he
      rcases he with rfl | rfl | rfl | rfl | rfl | rfl | rfl | rfl | rfl | rfl <;> simp [pieces]

/-- sections are found again -/
theorem sections_flatMap {α : Type} (f : α → Str) (g : α → List Str) (l : List α) (hf : ∀ x ∈ l, isHead (f x) = true) (hg : ∀ x ∈ l, ∀ y ∈ g x, isHead y = false) :
    sections (l.flatMap (fun x => f x :: g x)) = l.map (fun x => (f x, g x)) := by
  induction l with
  | nil => rw [List.flatMap_nil, sections]; rfl
  | cons x l ih =>
    have ih' := ih (fun y hy => hf y (List.mem_cons_of_mem _ hy)) (fun y hy => hg y (List.mem_cons_of_mem _ hy))
    have hrest : ∀ r : List Str, (∀ y ∈ r, isHead y = false) → (r ++ l.flatMap (fun x => f x :: g x)).takeWhile (fun y => !isHead y) = r ∧
        (r ++ l.flatMap (fun x => f x :: g x)).dropWhile (fun y => !isHead y) = l.flatMap (fun x => f x :: g x) := by
      intro r
      induction r with
      | nil =>
        intro _
        cases l with
        | nil => exact ⟨rfl, rfl⟩
        | cons z l =>
          have hz := hf z (by simp)
          simp [List.flatMap_cons, List.takeWhile_cons, List.dropWhile_cons, hz]
      | cons y r ihr =>
        intro hr
        have hy := hr y (by simp)
        obtain ⟨i1, i2⟩ := ihr (fun z hz => hr z (List.mem_cons_of_mem _ hz))
        constructor
        · rw [List.cons_append, List.takeWhile_cons, if_pos (by rw [hy]; rfl), i1]
        · rw [List.cons_append, List.dropWhile_cons, if_pos (by rw [hy]; rfl), i2]
    obtain ⟨h1, h2⟩ := hrest (g x) (hg x (by simp))
    rw [List.flatMap_cons, List.cons_append, sections, h1, h2, ih']
    rfl

/-- **C96.** The third part of the output says how many images there are, and then has exactly one section for each of them, in their order, starting with its slot class and showing every field of the image exactly once and exactly as it is
(lists as their elements separated by blanks). -/
theorem C96_images {fmt : Int → Str} {m : Manifest} (h : Clean fmt m) :
    ∃ r, part3 (linesOf (infoReadable fmt m)) = (toDec m.images.length ++ (if m.images.length = 1 then c!" Image:" else if m.images.length = 0 then c!" Images" else c!" Images:")) :: r ∧
      List.Forall₂ (fun i sec => sec.1 = c!"  \x1B[1m[" ++ i.slotclass ++ c!"]\x1B[0m" ∧ ∀ e ∈ imageFields fmt i, shown e.1 sec.2 = e.2.toList) m.images (sections r) := by
  rw [(parts_eq h).2.2]
  refine ⟨m.images.flatMap (imageLines fmt), ?_, ?_⟩
  · congr 1
    unfold countLine
    rcases Nat.lt_trichotomy m.images.length 1 with h1 | h1 | h1
    · have : m.images.length = 0 := by omega
      simp [this]
    · simp [h1]
    · have h2 : m.images.length ≠ 1 := by omega
      have h3 : m.images.length ≠ 0 := by omega
      have h4 : m.images.length > 0 := by omega
      simp [h2, h3, h4]
  · have e : m.images.flatMap (imageLines fmt) = m.images.flatMap (fun i => (c!"  \x1B[1m[" ++ i.slotclass ++ c!"]\x1B[0m") :: pieceLines (pieces fmt i)) := by
      congr 1; funext i; exact imageLines_eq fmt i
    rw [e, sections_flatMap _ _ _ (fun i _ => rfl) (fun i _ => (image_tail fmt i).1)]
    rw [List.forall₂_map_right_iff]
    exact List.forall₂_same.2 (fun i _ => ⟨rfl, (image_tail fmt i).2⟩)

/-- a line of meta data: what precedes and what follows the first ": " -/
def keyValue : Str → Str × Str
  | [] => ([], [])
  | c :: l => if c!": ".isPrefixOf (c :: l) then ([], (c :: l).drop 2) else (c :: (keyValue l).1, (keyValue l).2)

theorem keyValue_append (k v : Str) (h : ¬ c!": " <:+: k) : keyValue (k ++ c!": " ++ v) = (k, v) := by
  induction k with
  | nil => rfl
  | cons c k ih =>
    have hk : ¬ c!": " <:+: k := fun hi => h (hi.trans (List.suffix_cons c k).isInfix)
    have hn : c!": ".isPrefixOf (c :: k ++ c!": " ++ v) = false := by
      rw [Bool.eq_false_iff]
      intro hp
      have hp := List.isPrefixOf_iff_prefix.1 hp
      cases k with
      | nil =>
        obtain ⟨r, hr⟩ := hp
        simp at hr
      | cons d k =>
        obtain ⟨r, hr⟩ := hp
        simp only [List.cons_append, List.nil_append, List.cons.injEq] at hr
        refine h (List.IsPrefix.isInfix ⟨k, ?_⟩)
        rw [hr.1, hr.2.1]; rfl
    change keyValue (c :: (k ++ c!": " ++ v)) = _
    rw [keyValue, if_neg (by rw [← Bool.not_eq_true] at hn; exact hn), ih hk]

/-- **C96.** The second part of the output shows exactly the meta data: its sections are the groups, with their keys and values. -/
theorem C96_meta {fmt : Int → Str} {m : Manifest} (h : Clean fmt m) :
    (m.metas = [] → part2 (linesOf (infoReadable fmt m)) = []) ∧
    (m.metas ≠ [] → ∃ r, part2 (linesOf (infoReadable fmt m)) = c!"Metadata:" :: r ∧
      (sections r).map (fun s => ((s.1.drop 2).dropLast, s.2.map (fun l => keyValue (l.drop 4)))) = m.metas) := by
  rw [(parts_eq h).2.1]
  constructor
  · intro e; rw [e]; rfl
  · intro hne
    have : m.metas.isEmpty = false := by cases hm : m.metas <;> simp_all
    unfold metaLines
    rw [if_neg (by rw [this]; simp)]
    refine ⟨_, rfl, ?_⟩
    rw [sections_flatMap]
    · rw [List.map_map]
      conv_rhs => rw [← List.map_id m.metas]
      refine List.map_congr_left fun g hg => ?_
      obtain ⟨-, -, g3⟩ := h.metas g hg
      simp only [Function.comp, List.map_map, id]
      have e1 : (List.drop 2 (c!"  " ++ g.1 ++ c!":")).dropLast = g.1 := by
        change (g.1 ++ [':']).dropLast = g.1
        exact List.dropLast_concat
      have e2 : g.2.map ((fun l => keyValue (List.drop 4 l)) ∘ fun e => c!"    " ++ e.1 ++ c!": " ++ e.2) = g.2 := by
        conv_rhs => rw [← List.map_id g.2]
        refine List.map_congr_left fun e he => ?_
        exact keyValue_append e.1 e.2 (g3 e he).2.2
      rw [e1, e2]
    · intro g hg
      obtain ⟨-, g2, -⟩ := h.metas g hg
      cases hq : g.1 with
      | nil => rfl
      | cons c r =>
        rw [hq] at g2
        have hc : c ≠ ' ' := fun e => g2 (by rw [e]; rfl)
        simp only [List.cons_append, List.nil_append]
        unfold isHead
        split
        · next heq => injection heq with _ heq; injection heq with _ heq; injection heq with heq _; exact absurd heq hc
        · rfl
        · next h1 h2 => exact absurd rfl (h2 _)
    · intro g hg y hy
      obtain ⟨e, -, rfl⟩ := List.mem_map.1 hy
      rfl

/-- two images that look the same -/
structure SameImage (fmt : Int → Str) (a b : Image) : Prop where
  slotclass : a.slotclass = b.slotclass
  fields : a.variant = b.variant ∧ a.artifact = b.artifact ∧ a.filename = b.filename
  content : a.filename ≠ none → orNull a.digest = orNull b.digest ∧ fmt a.size = fmt b.size
  hooks : a.hooks = b.hooks
  adaptive : a.adaptive.map (join ' ') = b.adaptive.map (join ' ')
  convert : a.convert.map (join ' ') = b.convert.map (join ' ')

theorem hookWords_inj {a b : SlotHooks} (h : join ' ' (hookWords a) = join ' ' (hookWords b)) : a = b := by
  obtain ⟨a1, a2, a3⟩ := a
  obtain ⟨b1, b2, b3⟩ := b
  revert h
  cases a1 <;> cases a2 <;> cases a3 <;> cases b1 <;> cases b2 <;> cases b3 <;> decide

/-- **C96.** Two bundles whose output is the same agree in everything that is shown: compatible, version, description, build, hooks, format, hashes (NULL looks like "(null)"), meta data, and the images one by one. -/
theorem C96_identifies {fmt : Int → Str} {a b : Manifest} (ha : Clean fmt a) (hb : Clean fmt b) (h : infoReadable fmt a = infoReadable fmt b) :
    a.compatible = b.compatible ∧ orNull a.version = orNull b.version ∧ orNull a.description = orNull b.description ∧ orNull a.build = orNull b.build ∧ a.installCheck = b.installCheck ∧
    a.format = b.format ∧ orNull a.hash = orNull b.hash ∧ (a.format ≠ .plain → orNull a.verityHash = orNull b.verityHash ∧ orNull a.veritySalt = orNull b.veritySalt ∧ a.veritySize = b.veritySize) ∧
    (a.format = .crypt → a.wasEncrypted = b.wasEncrypted) ∧ a.metas = b.metas ∧ List.Forall₂ (SameImage fmt) a.images b.images := by
  have opt_inj : ∀ {x y : Option Str}, x.toList = y.toList → x = y := by
    intro x y e; cases x <;> cases y <;> simp_all
  have quoted_inj : ∀ {x y : Str}, quoted x = quoted y → x = y := by
    intro x y e
    unfold quoted at e
    simpa using e
  have hh : ∀ k : Nat, (headFields a)[k]?.map (·.1) = (headFields b)[k]?.map (·.1) → (headFields a)[k]?.map (·.2) = (headFields b)[k]?.map (·.2) := by
    intro k hk
    cases ea : (headFields a)[k]? with
    | none => rw [ea] at hk; cases eb : (headFields b)[k]? with
      | none => rfl
      | some y => rw [eb] at hk; cases hk
    | some x =>
      cases eb : (headFields b)[k]? with
      | none => rw [ea, eb] at hk; cases hk
      | some y =>
        rw [ea, eb] at hk
        have h1 := C96_bundle ha x (List.mem_of_getElem? ea)
        have h2 := C96_bundle hb y (List.mem_of_getElem? eb)
        simp only [Option.map_some, Option.some.injEq] at hk ⊢
        rw [h, hk] at h1
        exact opt_inj (h1.symm.trans h2)
  have g0 := hh 0 rfl
  have g1 := hh 1 rfl
  have g2 := hh 2 rfl
  have g3 := hh 3 rfl
  have g4 := hh 4 rfl
  have g5 := hh 5 rfl
  have g6 := hh 6 rfl
  have g7 := hh 7 rfl
  have g8 := hh 8 rfl
  have g9 := hh 9 rfl
  simp only [headFields, List.getElem?_cons_zero, List.getElem?_cons_succ, Option.map_some, Option.some.injEq] at g0 g1 g2 g3 g4 g5 g6 g7 g8 g9
  have hfmt : a.format = b.format ∧ (a.format = .crypt → a.wasEncrypted = b.wasEncrypted) := by
    revert g5
    unfold formatText
    cases a.format <;> cases b.format <;> cases a.wasEncrypted <;> cases b.wasEncrypted <;> decide
  refine ⟨quoted_inj g0, quoted_inj g1, quoted_inj g2, quoted_inj g3, ?_, hfmt.1, quoted_inj g9, ?_, hfmt.2, ?_, ?_⟩
  · have := quoted_inj g4
    revert this
    cases a.installCheck <;> cases b.installCheck <;> decide
  · intro hp
    have hp' : b.format ≠ .plain := by rw [← hfmt.1]; exact hp
    rw [if_neg hp, if_neg hp'] at g6 g7 g8
    simp only [Option.some.injEq] at g6 g7 g8
    exact ⟨quoted_inj g7, quoted_inj g6, HandlerEnv.toDec_inj g8⟩
  · have ma := C96_meta ha
    have mb := C96_meta hb
    rw [h] at ma
    by_cases e1 : a.metas = [] <;> by_cases e2 : b.metas = []
    · rw [e1, e2]
    · obtain ⟨r, hr, -⟩ := mb.2 e2
      rw [ma.1 e1] at hr; cases hr
    · obtain ⟨r, hr, -⟩ := ma.2 e1
      rw [mb.1 e2] at hr; cases hr
    · obtain ⟨r, hr, hs⟩ := ma.2 e1
      obtain ⟨r', hr', hs'⟩ := mb.2 e2
      rw [hr] at hr'
      injection hr' with _ hr'
      rw [← hs, ← hs', hr']
  · obtain ⟨r, hr, f1⟩ := C96_images ha
    obtain ⟨r', hr', f2⟩ := C96_images hb
    rw [h, hr'] at hr
    injection hr with _ hr
    subst hr
    have comb : ∀ (xs ys : List Image) (ss : List (Str × List Str)),
        List.Forall₂ (fun i sec => sec.1 = c!"  \x1B[1m[" ++ i.slotclass ++ c!"]\x1B[0m" ∧ ∀ e ∈ imageFields fmt i, shown e.1 sec.2 = e.2.toList) xs ss →
        List.Forall₂ (fun i sec => sec.1 = c!"  \x1B[1m[" ++ i.slotclass ++ c!"]\x1B[0m" ∧ ∀ e ∈ imageFields fmt i, shown e.1 sec.2 = e.2.toList) ys ss →
        List.Forall₂ (SameImage fmt) xs ys := by
      intro xs
      induction xs with
      | nil => intro ys ss hx hy; cases hx; cases hy; exact .nil
      | cons x xs ih =>
        intro ys ss hx hy
        cases hx with
        | cons p hx =>
          cases hy with
          | cons q hy =>
            refine .cons ?_ (ih _ _ hx hy)
            obtain ⟨p1, p2⟩ := p
            obtain ⟨q1, q2⟩ := q
            simp only [imageFields, List.mem_cons, List.not_mem_nil, or_false, forall_eq_or_imp, forall_eq] at p2 q2
            obtain ⟨a1, a2, a3, a4, a5, a6, a7, a8, a9, a10⟩ := p2
            obtain ⟨b1, b2, b3, b4, b5, b6, b7, b8, b9, b10⟩ := q2
            have c3 := opt_inj (a3.symm.trans b3)
            refine ⟨?_, ⟨opt_inj (a1.symm.trans b1), opt_inj (a2.symm.trans b2), c3⟩, ?_, ?_, opt_inj (a8.symm.trans b8), opt_inj (a9.symm.trans b9)⟩
            · rw [p1] at q1
              simpa using q1
            · intro hne
              have d5 := opt_inj (a5.symm.trans b5)
              have d6 := opt_inj (a6.symm.trans b6)
              rw [← c3] at d5 d6
              cases hx : x.filename with
              | none => exact absurd hx hne
              | some v => rw [hx] at d5 d6; simp only [Option.map_some, Option.some.injEq] at d5 d6; exact ⟨d5, d6⟩
            · have := opt_inj (a7.symm.trans b7)
              simp only [Option.some.injEq] at this
              exact hookWords_inj this
    exact comb _ _ _ f1 f2

/-- **C96.** The key of an encrypted bundle is not shown. -/
theorem C96_key (fmt : Int → Str) (m : Manifest) (k : Option Str) (chain : Option (List Cert)) : infoOutput fmt { m with cryptKey := k } chain = infoOutput fmt m chain := rfl

/-- the last line which is not empty -/
def lastLine (t : Str) : Option Str := ((linesOf t).filter (fun l => !l.isEmpty)).getLast?

theorem linesOf_append (t : Str) (ls : List Str) (h : ∀ l ∈ ls, '\n' ∉ l) : ∃ r, linesOf (t ++ ['\n'] ++ ls.flatMap ln) = r ++ ls := by
  have hs : ∀ (acc t u : Str), ∃ r, splitAux '\n' acc (t ++ '\n' :: u) = r ++ splitAux '\n' [] u := by
    intro acc t u
    induction t generalizing acc with
    | nil => exact ⟨[acc], by simp [splitAux]⟩
    | cons c t ih =>
      rw [List.cons_append, splitAux]
      split
      · obtain ⟨r, hr⟩ := ih []
        exact ⟨acc :: r, by rw [hr]; rfl⟩
      · exact ih _
  have hl := linesOf_flatMap ls h
  unfold linesOf at hl ⊢
  obtain ⟨r, hr⟩ := hs [] t (ls.flatMap ln)
  refine ⟨r, ?_⟩
  rw [List.append_assoc, List.singleton_append, hr]
  have hne : splitAux '\n' [] (ls.flatMap ln) ≠ [] := by
    intro e
    cases hx : ls.flatMap ln with
    | nil => rw [hx] at e; cases e
    | cons c l =>
      rw [hx] at e
      have : ∀ (acc u : Str), splitAux '\n' acc u ≠ [] := by
        intro acc u
        induction u generalizing acc with
        | nil => simp [splitAux]
        | cons d u ih => rw [splitAux]; split; simp; exact ih _
      exact this _ _ e
  rw [List.dropLast_append_of_ne_nil hne, hl]

/-- **C96.** Whatever is in the manifest (line breaks included), the end of the output says whether the signature was verified: the last line is "Signature unverified" exactly if it was not. -/
theorem C96_unverified (fmt : Int → Str) (m : Manifest) (chain : Option (List Cert)) (hc : ∀ l ∈ chain, ∀ c ∈ l, '\n' ∉ c.subject ∧ '\n' ∉ c.issuer ∧ '\n' ∉ c.spki ∧ '\n' ∉ c.notBefore ∧ '\n' ∉ c.notAfter) :
    lastLine (infoOutput fmt m chain) = some c!"Signature unverified" ↔ chain = none := by
  have last : ∀ (ls : List Str) (l : Str), (∀ x ∈ ls ++ [l], '\n' ∉ x) → l ≠ [] → ∀ e : List Str, (e = [] ∨ e = [[]]) →
      lastLine (infoReadable fmt m ++ ['\n'] ++ (ls ++ [l] ++ e).flatMap ln) = some l := by
    intro ls l hn hne e he
    obtain ⟨r, hr⟩ := linesOf_append (infoReadable fmt m) (ls ++ [l] ++ e) (by
      intro x hx
      rcases List.mem_append.1 hx with hx | hx
      · exact hn x hx
      · rcases he with rfl | rfl
        · cases hx
        · rw [List.mem_singleton.1 hx]; simp)
    unfold lastLine
    rw [hr]
    have hl : (!l.isEmpty) = true := by cases l <;> simp_all
    rcases he with rfl | rfl <;> simp [List.filter_append, hl]
  unfold infoOutput
  cases chain with
  | none =>
    simp only [iff_true]
    have := last [] c!"Signature unverified" (by intro x hx; simp at hx; subst hx; decide) (by simp) [] (Or.inl rfl)
    simpa using this
  | some l =>
    have certNl : ∀ (l : List Cert), (∀ c ∈ l, '\n' ∉ c.subject ∧ '\n' ∉ c.issuer ∧ '\n' ∉ c.spki ∧ '\n' ∉ c.notBefore ∧ '\n' ∉ c.notAfter) → ∀ i, ∀ x ∈ certsFrom i l, '\n' ∉ x := by
      intro l
      induction l with
      | nil => intro _ i x hx; cases hx
      | cons c l ih =>
        intro h i x hx
        obtain ⟨h1, h2, h3, h4, h5⟩ := h c (by simp)
        rcases List.mem_append.1 hx with hx | hx
        · simp only [certLines, List.mem_cons, List.not_mem_nil, or_false] at hx
          rcases hx with rfl | rfl | rfl | rfl | rfl
          · refine nonl_app (nonl_app ?_ (by decide)) h1
            unfold dec2
            split
            · simp only [List.mem_cons, not_or]; exact ⟨by decide, BootText.toDec_nonl _⟩
            · exact BootText.toDec_nonl _
          · exact nonl_app (by decide) h2
          · exact nonl_app (by decide) h3
          · exact nonl_app (by decide) h4
          · exact nonl_app (by decide) h5
        · exact ih (fun c hc => h c (List.mem_cons_of_mem _ hc)) _ x hx
    have certEnd : ∀ (l : List Cert), l ≠ [] → ∀ i, ∃ r c, certsFrom i l = r ++ [c!"   Not After:  " ++ c] := by
      intro l
      induction l with
      | nil => intro h; exact absurd rfl h
      | cons c l ih =>
        intro _ i
        cases l with
        | nil => exact ⟨(certLines i c).dropLast, c.notAfter, rfl⟩
        | cons d l =>
          obtain ⟨r, e, hr⟩ := ih (by simp) (i + 1)
          exact ⟨certLines i c ++ r, e, by rw [certsFrom, hr, List.append_assoc]⟩
    have hln : (['\n'] : Str) = [([] : Str)].flatMap ln := rfl
    dsimp only
    conv_lhs => rw [show (chainLines l).flatMap ln ++ ['\n'] = (chainLines l ++ [[]]).flatMap ln by rw [List.flatMap_append]; rfl]
    have hne : ∃ ls x, chainLines l = ls ++ [x] ∧ x ≠ c!"Signature unverified" ∧ x ≠ [] := by
      by_cases hl : l = []
      · subst hl; exact ⟨[], c!"Certificate Chain:", rfl, by decide, by simp⟩
      · obtain ⟨r, c, hr⟩ := certEnd l hl 0
        exact ⟨c!"Certificate Chain:" :: r, _, by rw [chainLines, hr]; rfl, by simp, by simp⟩
    obtain ⟨ls, x, h1, h2, h3⟩ := hne
    rw [h1, last ls x ?_ h3 [[]] (Or.inr rfl)]
    · simp [h2]
    · rw [← h1]
      intro y hy
      rcases List.mem_cons.1 hy with rfl | hy
      · decide
      · exact certNl l (hc l rfl) 0 y hy

/-! ## Findings -/

/-- **C96, finding.** Line breaks in values are printed as they are: a description can add lines that look like other fields (here a second version, and a certificate chain, before the line "Signature unverified"). -/
theorem C96_finding_forged :
    shown c!"Version:        " (part1 (linesOf (infoReadable (fun _ => []) { compatible := c!"x", version := some c!"1", description := some c!"y'\nVersion:        '2" }))) = [c!"'1'", c!"'2'"] := by
  decide +kernel

/-- **C96, finding.** A missing value cannot be told from the text "(null)". -/
theorem C96_finding_null : infoReadable (fun _ => []) { compatible := c!"x" } = infoReadable (fun _ => []) { compatible := c!"x", version := some c!"(null)" } := by
  decide +kernel

/-! ## Non-vacuity -/

def exM : Manifest :=
  { compatible := c!"board", version := some c!"1.0", format := .crypt, wasEncrypted := true, veritySize := 4096, installCheck := true,
    metas := [(c!"release", [(c!"notes", c!"a: b"), (c!"n", c!"")]), (c!"x", [])],
    images := [{ slotclass := c!"rootfs", filename := some c!"r.img", typ := some c!"raw", size := 5 }, { slotclass := c!"app", artifact := some c!"a", adaptive := some [c!"x", c!"y"] }] }

example : Clean (fun n => StatusView.decInt n) exM := by
  refine ⟨by decide, by decide, by decide, by decide, ?_⟩
  intro n
  cases n with
  | ofNat n => exact BootText.toDec_nonl n
  | negSucc n =>
    simp only [StatusView.decInt, List.mem_cons, not_or]
    exact ⟨by decide, BootText.toDec_nonl _⟩

example : shown c!"Bundle Format:  " (part1 (linesOf (infoReadable (fun n => StatusView.decInt n) exM))) = [c!"crypt\x1B[1m\x1B[32m [encrypted CMS]\x1B[0m"] := by decide +kernel

end Rauc.InfoText
