import Verif.Model.JsonView
import Verif.Props.InfoShell
import Verif.Props.Json
import Verif.Props.StatusShell

/-!
# C83: the JSON output of `rauc info` and `rauc status`; the slots in the readable output (C69)
-/

set_option linter.unusedSimpArgs false

namespace Rauc.StatusView

open Json (Reads)

/-! ## Specification -/

/-- the text is a JSON document, and this is the only way to read it -/
def Doc (t : Str) (j : Json) : Prop := Reads t j ∧ ∀ j', Reads t j' → j' = j

/-- no object has two members of the same name -/
inductive Distinct : Json → Prop
  | null : Distinct .null
  | bool (b : Bool) : Distinct (.bool b)
  | num (n : Int) : Distinct (.num n)
  | str (s : Str) : Distinct (.str s)
  | arr {l : List Json} (h : ∀ j ∈ l, Distinct j) : Distinct (.arr l)
  | obj {l : List (Str × Json)} (hn : (l.map (·.1)).Nodup) (h : ∀ e ∈ l, Distinct e.2) : Distinct (.obj l)

/-- the member of an object -/
def member (k : Str) : Json → Option Json
  | .obj l => look k l
  | _ => none

/-- the members of an object; `none` says that there is none of this name -/
def Fields (j : Json) (l : List (Str × Option Json)) : Prop := ∀ e ∈ l, member e.1 j = e.2

/-- a string, or null if there is none -/
def text (o : Option Str) : Json := match o with | none => .null | some s => .str s

def texts (l : List Str) : Json := .arr (l.map .str)

/-- Specification: an image in the output of `rauc info` -/
def ImageDoc (i : Image) (j : Json) : Prop :=
  ∃ d, j = .obj [(i.slotclass, d)] ∧ Fields d
    [(c!"artifact", some (text i.artifact)), (c!"variant", some (text i.variant)), (c!"filename", some (text i.filename)), (c!"type", some (text i.typ)),
     (c!"checksum", some (text i.digest)), (c!"size", some (.num i.size)), (c!"hooks", some (texts (hooksOf i.hooks))),
     (c!"adaptive", some (texts (i.adaptive.getD []))), (c!"convert", i.convert.map texts), (c!"converted", i.converted.map texts)]

/-- Specification: the output of `rauc info` -/
def InfoDoc (m : Manifest) (j : Json) : Prop :=
  Fields j [(c!"compatible", some (.str m.compatible)), (c!"version", some (text m.version)), (c!"description", some (text m.description)),
    (c!"build", some (text m.build)), (c!"format", some (.str (formatWord m.format))),
    (c!"hooks", some (texts (if m.installCheck then [c!"install-check"] else []))), (c!"hash", some (text m.hash))] ∧
  ∃ l, member c!"images" j = some (.arr l) ∧ List.Forall₂ ImageDoc m.images l

/-- Specification: the recorded data of a slot in the output of `rauc status --detailed` -/
def StatusDoc (st : SlotStatus) (j : Json) : Prop :=
  (∃ b, member c!"bundle" j = some b ∧ Fields b [(c!"compatible", some (text st.bundleCompatible)), (c!"version", st.bundleVersion.map .str),
    (c!"description", st.bundleDescription.map .str), (c!"build", st.bundleBuild.map .str), (c!"hash", st.bundleHash.map .str)]) ∧
  (∀ g, st.digest = some g → st.sha256 = true → ∃ c, member c!"checksum" j = some c ∧ Fields c [(c!"sha256", some (.str g)), (c!"size", some (.num st.size))]) ∧
  (st.digest = none → member c!"checksum" j = none) ∧
  (∀ t, st.installedTimestamp = some t → ∃ c, member c!"installed" j = some c ∧
    Fields c [(c!"timestamp", some (.str t.fmt)), (c!"count", some (.num st.installedCount))]) ∧
  (st.installedTimestamp = none → member c!"installed" j = none) ∧
  (∀ t, st.activatedTimestamp = some t → ∃ c, member c!"activated" j = some c ∧
    Fields c [(c!"timestamp", some (.str t.fmt)), (c!"count", some (.num st.activatedCount))]) ∧
  (st.activatedTimestamp = none → member c!"activated" j = none) ∧
  member c!"status" j = st.status.map .str

/-- Specification: the word for a state -/
def stateValue : Option Select.State → Json
  | some .active => .str c!"active"
  | some .inactive => .str c!"inactive"
  | some .booted => .str c!"booted"
  | none => .null

/-- Specification: the boot status; slots without a boot name have none -/
def bootValue (s : RSlot) : Json :=
  if s.bootname.isSome then
    match s.bootState with
    | some true => .str c!"good"
    | some false => .str c!"bad"
    | none => .str c!"unknown"
  else .null

/-- Specification: a slot in the output of `rauc status` -/
def SlotDoc (detailed : Bool) (s : RSlot) (j : Json) : Prop :=
  ∃ d, j = .obj [(s.name, d)] ∧
    Fields d [(c!"class", some (text s.sclass)), (c!"device", some (text s.device)), (c!"type", some (text s.typ)), (c!"bootname", some (text s.bootname)),
      (c!"state", some (stateValue s.state)), (c!"parent", some (text s.parent)), (c!"mountpoint", some (text s.mountPoint)), (c!"boot_status", some (bootValue s))] ∧
    (∀ st, detailed = true → s.status = some st → ∃ x, member c!"slot_status" d = some x ∧ StatusDoc st x) ∧
    (detailed = false ∨ s.status = none → member c!"slot_status" d = none)

def InstanceDoc (x : Instance) (j : Json) : Prop := Fields j [(c!"checksum", some (.str x.checksum)), (c!"references", some (texts x.refs))]

def ArtifactDoc (a : ArtifactView) (j : Json) : Prop :=
  Fields j [(c!"name", some (.str a.name))] ∧ ∃ l, member c!"instances" j = some (.arr l) ∧ List.Forall₂ InstanceDoc a.instances l

/-- Specification: a repository in the output of `rauc status` -/
def RepoDoc (r : RepoView) (j : Json) : Prop :=
  Fields j [(c!"name", some (.str r.name)), (c!"description", r.description.map .str), (c!"path", r.path.map .str), (c!"type", r.typ.map .str),
    (c!"parent-class", r.parentClass.map .str)] ∧
  ∃ l, member c!"artifacts" j = some (.arr l) ∧ List.Forall₂ ArtifactDoc r.artifacts l

/-- Specification: the output of `rauc status` -/
def PrintDoc (detailed : Bool) (p : Print) (j : Json) : Prop :=
  Fields j [(c!"compatible", some (text p.compatible)), (c!"variant", some (text p.variant)), (c!"system_version", some (text p.version)),
    (c!"booted", some (text p.bootslot)), (c!"boot_primary", some (text p.primary))] ∧
  (∃ l, member c!"slots" j = some (.arr l) ∧ List.Forall₂ (SlotDoc detailed) p.slots l) ∧
  ∃ l, member c!"artifact-repositories" j = some (.arr l) ∧ List.Forall₂ RepoDoc p.repos l

/-- what `rauc info --output-format=json` tells about an image -/
structure SameImageJson (a b : Image) : Prop where
  slotclass : a.slotclass = b.slotclass
  artifact : a.artifact = b.artifact
  variant : a.variant = b.variant
  filename : a.filename = b.filename
  typ : a.typ = b.typ
  digest : a.digest = b.digest
  size : a.size = b.size
  hooks : a.hooks = b.hooks
  adaptive : a.adaptive.getD [] = b.adaptive.getD []
  convert : a.convert = b.convert
  converted : a.converted = b.converted

/-- what `rauc info --output-format=json` tells about a bundle -/
structure SameInfoJson (a b : Manifest) : Prop where
  compatible : a.compatible = b.compatible
  version : a.version = b.version
  description : a.description = b.description
  build : a.build = b.build
  format : a.format = b.format
  installCheck : a.installCheck = b.installCheck
  hash : a.hash = b.hash
  images : List.Forall₂ SameImageJson a.images b.images

/-! ## Building blocks -/

theorem ostr_eq (o : Option Str) : Json.ostr o = text o := by cases o <;> rfl

theorem strArr_eq (l : List Str) : strArr l = texts l := rfl

theorem ostr_inj {a b : Option Str} (h : Json.ostr a = Json.ostr b) : a = b := by
  cases a <;> cases b <;> simp_all [Json.ostr]

theorem strArr_inj {a b : List Str} (h : strArr a = strArr b) : a = b := by
  simp only [strArr, Json.arr.injEq] at h
  exact (List.map_injective_iff.2 (fun x y e => by cases e; rfl)) h

theorem layout_ok (p : Bool) : (layout p).Ok := by
  cases p
  · exact Json.compact_ok
  · exact Json.pretty_ok

theorem doc_gen {L : Json.Layout} (hL : L.Ok) (j : Json) : Doc (Json.gen L 0 j) j :=
  ⟨Json.reads_gen hL j, fun _ h => h.unique (Json.reads_gen hL j)⟩

theorem gen_inj {L : Json.Layout} (hL : L.Ok) {a b : Json} (h : Json.gen L 0 a = Json.gen L 0 b) : a = b :=
  (doc_gen hL b).2 a (h ▸ Json.reads_gen hL a)

theorem forall₂_map {α β : Type} {R : α → β → Prop} {f : α → β} {l : List α} (h : ∀ x ∈ l, R x (f x)) : List.Forall₂ R l (l.map f) := by
  induction l with
  | nil => exact .nil
  | cons x l ih => exact .cons (h x (by simp)) (ih (fun y hy => h y (by simp [hy])))

/-! ### Distinct names -/

theorem opt_keys {α : Type} (k : Str) (o : Option α) : ((opt k o).map (·.1)).Sublist [k] := by
  cases o with
  | none => exact List.nil_sublist _
  | some v => exact List.Sublist.refl _

theorem opt_mem {α : Type} {k : Str} {o : Option α} {e : Str × α} (h : e ∈ opt k o) : o = some e.2 := by
  cases o with
  | none => cases h
  | some v => simp only [opt, List.mem_singleton] at h; subst h; rfl

theorem distinct_ostr (o : Option Str) : Distinct (Json.ostr o) := by cases o <;> constructor

theorem distinct_strArr (l : List Str) : Distinct (strArr l) := by
  refine .arr fun j hj => ?_
  obtain ⟨s, -, rfl⟩ := List.mem_map.1 hj
  exact .str s

theorem distinct_opt {k : Str} {o : Option Json} (h : ∀ j, o = some j → Distinct j) : ∀ e ∈ opt k o, Distinct e.2 := fun _ he => h _ (opt_mem he)

theorem distinct_optS {k : Str} {o : Option Str} : ∀ e ∈ opt k (o.map Json.str), Distinct e.2 := by
  refine distinct_opt fun j hj => ?_
  cases o with
  | none => cases hj
  | some s => cases hj; exact .str s

theorem distinct_optA {k : Str} {o : Option (List Str)} : ∀ e ∈ opt k (o.map strArr), Distinct e.2 := by
  refine distinct_opt fun j hj => ?_
  cases o with
  | none => cases hj
  | some s => cases hj; exact distinct_strArr s

theorem nodup_single (k : Str) : [k].Nodup := by simp

theorem distinct_one {k : Str} {j : Json} (h : Distinct j) : Distinct (.obj [(k, j)]) :=
  .obj (by simp) (fun e he => by simp only [List.mem_singleton] at he; subst he; exact h)

theorem distinct_image (i : Image) : Distinct (imageJson i) := by
  refine distinct_one (.obj ?_ ?_)
  · simp only [List.map_append]
    refine List.Nodup.sublist (l₂ := [c!"artifact", c!"variant", c!"filename", c!"type", c!"checksum", c!"size", c!"hooks", c!"adaptive"] ++ [c!"convert"] ++ [c!"converted"])
      (((List.Sublist.refl _).append (opt_keys _ _)).append (opt_keys _ _)) (by decide)
  · intro e he
    simp only [List.mem_append, List.mem_cons, List.not_mem_nil, or_false] at he
    rcases he with ((rfl | rfl | rfl | rfl | rfl | rfl | rfl | rfl) | he) | he
    · exact distinct_ostr _
    · exact distinct_ostr _
    · exact distinct_ostr _
    · exact distinct_ostr _
    · exact distinct_ostr _
    · exact .num _
    · exact distinct_strArr _
    · exact distinct_strArr _
    · exact distinct_optA e he
    · exact distinct_optA e he

theorem distinct_info (m : Manifest) : Distinct (infoJson m) := by
  refine .obj (by simp only [List.map_cons, List.map_nil]; decide) ?_
  intro e he
  simp only [List.mem_cons, List.not_mem_nil, or_false] at he
  rcases he with rfl | rfl | rfl | rfl | rfl | rfl | rfl | rfl
  · exact .str _
  · exact distinct_ostr _
  · exact distinct_ostr _
  · exact distinct_ostr _
  · exact .str _
  · exact distinct_strArr _
  · exact distinct_ostr _
  · refine .arr fun j hj => ?_
    obtain ⟨i, -, rfl⟩ := List.mem_map.1 hj
    exact distinct_image i

theorem distinct_status (st : SlotStatus) : Distinct (statusJson st) := by
  have hnum : ∀ a b : Str, a ≠ b → ∀ (s : Str) (n : Int), Distinct (.obj [(a, .str s), (b, .num n)]) := by
    intro a b hab s n
    refine .obj (by simpa using hab) (fun e he => ?_)
    simp only [List.mem_cons, List.not_mem_nil, or_false] at he
    rcases he with rfl | rfl
    · exact .str _
    · exact .num _
  refine .obj ?_ ?_
  · simp only [List.map_append]
    exact List.Nodup.sublist (l₂ := [c!"bundle"] ++ [c!"checksum"] ++ [c!"installed"] ++ [c!"activated"] ++ [c!"status"])
      (((((List.Sublist.refl _).append (opt_keys _ _)).append (opt_keys _ _)).append (opt_keys _ _)).append (opt_keys _ _)) (by decide)
  · intro e he
    simp only [List.mem_append, List.mem_singleton] at he
    rcases he with (((rfl | he) | he) | he) | he
    · refine .obj ?_ ?_
      · simp only [List.map_append]
        exact List.Nodup.sublist (l₂ := [c!"compatible"] ++ [c!"version"] ++ [c!"description"] ++ [c!"build"] ++ [c!"hash"])
          (((((List.Sublist.refl _).append (opt_keys _ _)).append (opt_keys _ _)).append (opt_keys _ _)).append (opt_keys _ _)) (by decide)
      · intro e he
        simp only [List.mem_append, List.mem_singleton] at he
        rcases he with (((rfl | he) | he) | he) | he
        · exact distinct_ostr _
        · exact distinct_optS e he
        · exact distinct_optS e he
        · exact distinct_optS e he
        · exact distinct_optS e he
    · refine distinct_opt (fun j hj => ?_) e he
      split at hj
      · obtain ⟨g, -, rfl⟩ := Option.map_eq_some_iff.1 hj
        exact hnum _ _ (by decide) _ _
      · cases hj
    · refine distinct_opt (fun j hj => ?_) e he
      obtain ⟨g, -, rfl⟩ := Option.map_eq_some_iff.1 hj
      exact hnum _ _ (by decide) _ _
    · refine distinct_opt (fun j hj => ?_) e he
      obtain ⟨g, -, rfl⟩ := Option.map_eq_some_iff.1 hj
      exact hnum _ _ (by decide) _ _
    · exact distinct_optS e he

theorem distinct_slot (d : Bool) (s : RSlot) : Distinct (slotJson d s) := by
  refine distinct_one (.obj ?_ ?_)
  · simp only [List.map_append]
    exact List.Nodup.sublist (l₂ := [c!"class", c!"device", c!"type", c!"bootname", c!"state", c!"parent", c!"mountpoint", c!"boot_status"] ++ [c!"slot_status"])
      ((List.Sublist.refl _).append (opt_keys _ _)) (by decide)
  · intro e he
    simp only [List.mem_append, List.mem_cons, List.not_mem_nil, or_false] at he
    rcases he with (rfl | rfl | rfl | rfl | rfl | rfl | rfl | rfl) | he
    · exact distinct_ostr _
    · exact distinct_ostr _
    · exact distinct_ostr _
    · exact distinct_ostr _
    · exact distinct_ostr _
    · exact distinct_ostr _
    · exact distinct_ostr _
    · exact distinct_ostr _
    · refine distinct_opt (fun j hj => ?_) e he
      split at hj
      · obtain ⟨st, -, rfl⟩ := Option.map_eq_some_iff.1 hj
        exact distinct_status st
      · cases hj

theorem distinct_pair {a b : Str} (hab : a ≠ b) {x y : Json} (hx : Distinct x) (hy : Distinct y) : Distinct (.obj [(a, x), (b, y)]) := by
  refine .obj (by simpa using hab) (fun e he => ?_)
  simp only [List.mem_cons, List.not_mem_nil, or_false] at he
  rcases he with rfl | rfl
  · exact hx
  · exact hy

theorem distinct_repo (r : RepoView) : Distinct (repoJson r) := by
  refine .obj ?_ ?_
  · simp only [List.map_append]
    exact List.Nodup.sublist (l₂ := [c!"name"] ++ [c!"description"] ++ [c!"path"] ++ [c!"type"] ++ [c!"parent-class"] ++ [c!"artifacts"])
      ((((((List.Sublist.refl _).append (opt_keys _ _)).append (opt_keys _ _)).append (opt_keys _ _)).append (opt_keys _ _)).append (List.Sublist.refl _)) (by decide)
  · intro e he
    simp only [List.mem_append, List.mem_singleton] at he
    rcases he with ((((rfl | he) | he) | he) | he) | rfl
    · exact .str _
    · exact distinct_optS e he
    · exact distinct_optS e he
    · exact distinct_optS e he
    · exact distinct_optS e he
    · refine .arr fun j hj => ?_
      obtain ⟨a, -, rfl⟩ := List.mem_map.1 hj
      refine distinct_pair (by decide) (.str _) (.arr fun j hj => ?_)
      obtain ⟨x, -, rfl⟩ := List.mem_map.1 hj
      exact distinct_pair (by decide) (.str _) (distinct_strArr _)

theorem distinct_print (d : Bool) (p : Print) : Distinct (printJson d p) := by
  refine .obj (by simp only [List.map_cons, List.map_nil]; decide) ?_
  intro e he
  simp only [List.mem_cons, List.not_mem_nil, or_false] at he
  rcases he with rfl | rfl | rfl | rfl | rfl | rfl | rfl
  · exact distinct_ostr _
  · exact distinct_ostr _
  · exact distinct_ostr _
  · exact distinct_ostr _
  · exact distinct_ostr _
  · refine .arr fun j hj => ?_
    obtain ⟨i, -, rfl⟩ := List.mem_map.1 hj
    exact distinct_slot d i
  · refine .arr fun j hj => ?_
    obtain ⟨i, -, rfl⟩ := List.mem_map.1 hj
    exact distinct_repo i

/-! ## `rauc info` -/

theorem image_doc (i : Image) : ImageDoc i (imageJson i) := by
  refine ⟨_, rfl, ?_⟩
  have hw : hookWords i.hooks = hooksOf i.hooks := hooks_eq i.hooks
  intro e he
  simp only [List.mem_cons, List.not_mem_nil, or_false] at he
  rcases he with rfl | rfl | rfl | rfl | rfl | rfl | rfl | rfl | rfl | rfl <;>
    simp [member, look_append, look_opt, look_cons, look_nil, hw, ostr_eq, strArr_eq]
  · cases i.convert <;> rfl
  · cases i.converted <;> rfl

/-- **C83** `rauc info` with the JSON formats prints a JSON document that can be read in one way only and without ambiguous names; it has the documented members
with the values of the manifest, and all images in order. -/
theorem C83_info (pretty : Bool) (m : Manifest) : ∃ j, Doc (infoText pretty m) j ∧ Distinct j ∧ InfoDoc m j := by
  refine ⟨infoJson m, doc_gen (layout_ok pretty) _, distinct_info m, ?_, _, rfl, forall₂_map (fun i _ => image_doc i)⟩
  have hf : formatStr m.format = formatWord m.format := by cases m.format <;> rfl
  intro e he
  simp only [List.mem_cons, List.not_mem_nil, or_false] at he
  rcases he with rfl | rfl | rfl | rfl | rfl | rfl | rfl <;>
    simp [infoJson, member, look_cons, look_nil, hf, ostr_eq, strArr_eq]

theorem image_json_iff (a b : Image) : imageJson a = imageJson b ↔ SameImageJson a b := by
  constructor
  · intro h
    simp only [imageJson, Json.obj.injEq, List.cons.injEq, Prod.mk.injEq, and_true] at h
    obtain ⟨h0, h⟩ := h
    have f := fun k => congrArg (look k) h
    simp only [look_append, look_opt, look_cons, look_nil] at f
    have f1 := f c!"artifact"
    have f2 := f c!"variant"
    have f3 := f c!"filename"
    have f4 := f c!"type"
    have f5 := f c!"checksum"
    have f6 := f c!"size"
    have f7 := f c!"hooks"
    have f8 := f c!"adaptive"
    have f9 := f c!"convert"
    have f10 := f c!"converted"
    simp at f1 f2 f3 f4 f5 f6 f7 f8 f9 f10
    have hopt : ∀ {x y : Option (List Str)}, x.map strArr = y.map strArr → x = y := by
      intro x y e
      cases x <;> cases y <;> simp at e ⊢
      exact strArr_inj e
    exact ⟨h0, ostr_inj f1, ostr_inj f2, ostr_inj f3, ostr_inj f4, ostr_inj f5, f6, hooksOf_inj (strArr_inj f7), strArr_inj f8, hopt f9, hopt f10⟩
  · intro h
    simp only [imageJson, h.slotclass, h.artifact, h.variant, h.filename, h.typ, h.digest, h.size, h.hooks, h.adaptive, h.convert, h.converted]

theorem images_json_iff (a b : List Image) : a.map imageJson = b.map imageJson ↔ List.Forall₂ SameImageJson a b := by
  induction a generalizing b with
  | nil => cases b <;> simp
  | cons x a ih =>
    cases b with
    | nil => simp
    | cons y b => simp only [List.map_cons, List.cons.injEq, List.forall₂_cons, image_json_iff, ih]

/-- **C83** Two bundles give the same output exactly if they agree in everything that is shown. -/
theorem C83_info_iff (pretty : Bool) (a b : Manifest) : infoText pretty a = infoText pretty b ↔ SameInfoJson a b := by
  constructor
  · intro h
    have := gen_inj (layout_ok pretty) h
    simp only [infoJson, Json.obj.injEq, List.cons.injEq, Prod.mk.injEq, true_and, and_true, Json.str.injEq, Json.arr.injEq] at this
    obtain ⟨h1, h2, h3, h4, h5, h6, h7, h8⟩ := this
    refine ⟨h1, ostr_inj h2, ostr_inj h3, ostr_inj h4, ?_, ?_, ostr_inj h7, (images_json_iff _ _).1 h8⟩
    · revert h5; cases a.format <;> cases b.format <;> decide
    · have := strArr_inj h6
      revert this; cases a.installCheck <;> cases b.installCheck <;> simp
  · intro h
    have hi := (images_json_iff _ _).2 h.images
    simp only [infoText, infoJson, h.compatible, h.version, h.description, h.build, h.format, h.installCheck, h.hash, hi]

/-- **C83** None of the JSON formats depends on the key of an encrypted bundle. -/
theorem C83_key (pretty : Bool) (m : Manifest) (k : Option Str) :
    infoText pretty { m with cryptKey := k } = infoText pretty m ∧ info2Text { m with cryptKey := k } = info2Text m := ⟨rfl, rfl⟩

/-! ### json-2 -/

theorem map_inj_on {α β : Type} {f : α → β} : ∀ {l l' : List α}, (∀ x ∈ l, ∀ y ∈ l', f x = f y → x = y) → l.map f = l'.map f → l = l'
  | [], [], _, _ => rfl
  | [], _ :: _, _, h => by cases h
  | _ :: _, [], _, h => by cases h
  | x :: l, y :: l', hi, h => by
    simp only [List.map_cons, List.cons.injEq] at h
    rw [hi x (by simp) y (by simp) h.1, map_inj_on (fun a ha b hb => hi a (by simp [ha]) b (by simp [hb])) h.2]

/-- a number in the dictionary is a 64 bit number -/
def NumOk : IVal → Prop
  | .num n => n < 2 ^ 64
  | _ => True

theorem ival_inj {a b : IVal} (ha : NumOk a) (hb : NumOk b) (h : ivalJson a = ivalJson b) : a = b := by
  cases a <;> cases b <;> simp only [ivalJson, strArr, reduceCtorEq, Json.str.injEq, Json.num.injEq] at h
  · rw [h]
  · simp only [NumOk] at ha hb
    unfold toI64 at h
    congr 1
    split at h <;> split at h <;> omega
  · congr 1; exact strArr_inj h

theorem group_inj {a b : List (Str × IVal)} (ha : ∀ e ∈ a, NumOk e.2) (hb : ∀ e ∈ b, NumOk e.2) (h : groupJson a = groupJson b) : a = b := by
  simp only [groupJson, Json.obj.injEq] at h
  refine map_inj_on (fun x hx y hy e => ?_) h
  simp only [Prod.mk.injEq] at e
  exact Prod.ext e.1 (ival_inj (ha x hx) (hb y hy) e.2)

/-- the kind of value under a key, and bounds of numbers -/
def Shaped (e : Str × RVal) : Prop :=
  match e.2 with
  | .str _ => e.1 = c!"manifest-hash"
  | .grp l => e.1 ∈ [c!"update", c!"bundle", c!"hooks", c!"handler"] ∧ ∀ x ∈ l, NumOk x.2
  | .arr l => e.1 = c!"images" ∧ ∀ g ∈ l, ∀ x ∈ g, NumOk x.2
  | .metas _ => e.1 = c!"meta"

theorem rval_inj {a b : Str × RVal} (ha : Shaped a) (hb : Shaped b) (hk : a.1 = b.1) (h : rvalJson a.2 = rvalJson b.2) : a = b := by
  obtain ⟨k, a⟩ := a
  obtain ⟨k', b⟩ := b
  simp only at hk
  subst hk
  cases a <;> cases b <;> simp only [Shaped] at ha hb <;> simp only [rvalJson, reduceCtorEq, Json.str.injEq, groupJson] at h
  · rw [h]
  · rw [group_inj ha.2 hb.2 h]
  · rw [hb] at ha
    exact absurd ha.1 (by decide)
  · simp only [Json.arr.injEq] at h
    have : _ = _ := map_inj_on (f := groupJson) (fun x hx y hy e => group_inj (ha.2 x hx) (hb.2 y hy) e) h
    rw [this]
  · rw [ha] at hb
    exact absurd hb.1 (by decide)
  · simp only [Json.obj.injEq] at h
    have : _ = _ := map_inj_on (fun x hx y hy e => by
      simp only [Prod.mk.injEq, Json.obj.injEq] at e
      refine Prod.ext e.1 ?_
      refine map_inj_on (fun u hu v hv e' => ?_) e.2
      simp only [Prod.mk.injEq, Json.str.injEq] at e'
      exact Prod.ext e'.1 e'.2) h
    rw [this]

theorem image_nums (i : Image) : ∀ x ∈ imageDict i, NumOk x.2 := by
  have hs : ∀ (k : Str) (o : Option Str), ∀ x ∈ opt k (o.map IVal.str), NumOk x.2 := by
    intro k o x hx; have := opt_mem hx; cases o <;> simp at this; rw [← this]; trivial
  have hv : ∀ (k : Str) (o : Option (List Str)), ∀ x ∈ opt k (o.map IVal.strv), NumOk x.2 := by
    intro k o x hx; have := opt_mem hx; cases o <;> simp at this; rw [← this]; trivial
  intro x hx
  simp only [imageDict, List.mem_append, List.mem_singleton] at hx
  rcases hx with (((((((((rfl | hx) | hx) | hx) | hx) | hx) | hx) | rfl) | hx) | hx) | hx
  · trivial
  · exact hs _ _ x hx
  · exact hs _ _ x hx
  · exact hs _ _ x hx
  · exact hs _ _ x hx
  · exact hs _ _ x hx
  · have := opt_mem hx
    split at this
    · cases this
    · rw [← Option.some.inj this]
      simp only [NumOk, toU64]
      omega
  · trivial
  · exact hv _ _ x hx
  · exact hv _ _ x hx
  · exact hv _ _ x hx

theorem dict_shaped (m : Manifest) (hv : m.veritySize < 2 ^ 64) : ∀ e ∈ manifestDict m, Shaped e := by
  have hs : ∀ (k : Str) (o : Option Str), ∀ x ∈ opt k (o.map IVal.str), NumOk x.2 := by
    intro k o x hx; have := opt_mem hx; cases o <;> simp at this; rw [← this]; trivial
  have hk : ∀ {α : Type} {k : Str} {o : Option α} {e : Str × α}, e ∈ opt k o → e.1 = k := by
    intro α k o e he; cases o <;> simp [opt] at he; rw [he]
  intro e he
  simp only [manifestDict, List.mem_append, List.mem_cons, List.not_mem_nil, or_false] at he
  rcases he with (((he | rfl | rfl) | he) | he) | rfl | rfl
  · have h1 := opt_mem he
    have h2 := hk he
    cases hh : m.hash <;> rw [hh] at h1 <;> simp at h1
    simp only [Shaped, ← h1]; exact h2
  · refine ⟨by simp, ?_⟩
    intro x hx
    simp only [List.mem_append, List.mem_singleton] at hx
    rcases hx with ((rfl | hx) | hx) | hx
    · trivial
    · exact hs _ _ x hx
    · exact hs _ _ x hx
    · exact hs _ _ x hx
  · refine ⟨by simp, ?_⟩
    intro x hx
    simp only [List.mem_append, List.mem_singleton] at hx
    rcases hx with ((rfl | hx) | hx) | hx
    · trivial
    · exact hs _ _ x hx
    · exact hs _ _ x hx
    · have := opt_mem hx
      split at this
      · cases this
      · rw [← Option.some.inj this]; exact hv
  · have h1 := opt_mem he
    have h2 := hk he
    cases hh : m.hookName <;> rw [hh] at h1 <;> simp at h1
    simp only [Shaped, ← h1]
    refine ⟨by rw [h2]; simp, ?_⟩
    intro x hx
    simp only [List.mem_cons, List.not_mem_nil, or_false] at hx
    rcases hx with rfl | rfl <;> trivial
  · have h1 := opt_mem he
    have h2 := hk he
    cases hh : m.handlerName <;> rw [hh] at h1 <;> simp at h1
    simp only [Shaped, ← h1]
    refine ⟨by rw [h2]; simp, ?_⟩
    intro x hx
    simp only [List.mem_cons] at hx
    rcases hx with rfl | hx
    · trivial
    · exact hs _ _ x hx
  · refine ⟨rfl, ?_⟩
    intro g hg x hx
    obtain ⟨i, -, rfl⟩ := List.mem_map.1 hg
    exact image_nums i x hx
  · rfl

/-- **C83** `--output-format=json-2` prints a JSON document that can be read in one way only; two bundles give the same output exactly if they agree in all
visible information. -/
theorem C83_info2 (a b : Manifest) (ha : ∀ i ∈ a.images, SizeOk i) (hb : ∀ i ∈ b.images, SizeOk i) (hva : a.veritySize < 2 ^ 64) (hvb : b.veritySize < 2 ^ 64) :
    (∃ j, Doc (info2Text a) j) ∧ (info2Text a = info2Text b ↔ SameInfo a b) := by
  refine ⟨⟨_, doc_gen Json.pretty_ok _⟩, ?_⟩
  rw [← C70_inspect a b ha hb]
  constructor
  · intro h
    have := gen_inj Json.pretty_ok h
    simp only [info2Json, Json.obj.injEq] at this
    refine map_inj_on (fun x hx y hy e => ?_) this
    simp only [Prod.mk.injEq] at e
    exact rval_inj (dict_shaped a hva x hx) (dict_shaped b hvb y hy) e.1 e.2
  · intro h
    unfold info2Text info2Json
    rw [h]

/-! ## `rauc status` -/

theorem status_doc (st : SlotStatus) : StatusDoc st (statusJson st) := by
  refine ⟨⟨_, by simp [statusJson, member, look_append, look_cons]; rfl, ?_⟩, ?_, ?_, ?_, ?_, ?_, ?_, ?_⟩
  · intro e he
    simp only [List.mem_cons, List.not_mem_nil, or_false] at he
    rcases he with rfl | rfl | rfl | rfl | rfl <;>
      simp [member, look_append, look_opt, look_cons, look_nil, ostr_eq]
  · intro g hg hs
    refine ⟨.obj [(c!"sha256", .str g), (c!"size", .num st.size)], by simp [statusJson, member, look_append, look_opt, look_cons, look_nil, hg, hs], ?_⟩
    intro e he
    simp only [List.mem_cons, List.not_mem_nil, or_false] at he
    rcases he with rfl | rfl <;> simp [member, look_cons, look_nil]
  · intro h; simp [statusJson, member, look_append, look_opt, look_cons, look_nil, h]
  · intro t ht
    refine ⟨.obj [(c!"timestamp", .str t.fmt), (c!"count", .num st.installedCount)], by simp [statusJson, member, look_append, look_opt, look_cons, look_nil, ht], ?_⟩
    intro e he
    simp only [List.mem_cons, List.not_mem_nil, or_false] at he
    rcases he with rfl | rfl <;> simp [member, look_cons, look_nil]
  · intro h; simp [statusJson, member, look_append, look_opt, look_cons, look_nil, h]
  · intro t ht
    refine ⟨.obj [(c!"timestamp", .str t.fmt), (c!"count", .num st.activatedCount)], by simp [statusJson, member, look_append, look_opt, look_cons, look_nil, ht], ?_⟩
    intro e he
    simp only [List.mem_cons, List.not_mem_nil, or_false] at he
    rcases he with rfl | rfl <;> simp [member, look_cons, look_nil]
  · intro h; simp [statusJson, member, look_append, look_opt, look_cons, look_nil, h]
  · simp [statusJson, member, look_append, look_opt, look_cons, look_nil]

theorem slot_doc (d : Bool) (s : RSlot) : SlotDoc d s (slotJson d s) := by
  refine ⟨_, rfl, ?_, ?_, ?_⟩
  · have h1 : text (stateStr s.state) = stateValue s.state := by cases s.state with | none => rfl | some x => cases x <;> rfl
    have h2 : text (s.bootname.map (fun _ => bootStr s.bootState)) = bootValue s := by
      unfold bootValue
      cases s.bootname with
      | none => rfl
      | some b =>
        cases s.bootState with
        | none => rfl
        | some x => cases x <;> rfl
    intro e he
    simp only [List.mem_cons, List.not_mem_nil, or_false] at he
    rcases he with rfl | rfl | rfl | rfl | rfl | rfl | rfl | rfl <;>
      simp [member, look_append, look_opt, look_cons, look_nil, h1, h2, ostr_eq]
  · intro st hd hst
    exact ⟨statusJson st, by simp [member, look_append, look_opt, look_cons, look_nil, hd, hst], status_doc st⟩
  · rintro (h | h) <;> simp [member, look_append, look_opt, look_cons, look_nil, h]

theorem repo_doc (r : RepoView) : RepoDoc r (repoJson r) := by
  refine ⟨?_, _, by simp [repoJson, member, look_append, look_opt, look_cons, look_nil]; rfl, ?_⟩
  · intro e he
    simp only [List.mem_cons, List.not_mem_nil, or_false] at he
    rcases he with rfl | rfl | rfl | rfl | rfl <;>
      simp [repoJson, member, look_append, look_opt, look_cons, look_nil]
  · refine forall₂_map fun a _ => ⟨?_, a.instances.map (fun x => .obj [(c!"checksum", .str x.checksum), (c!"references", strArr x.refs)]),
      by simp [member, look_cons], forall₂_map fun x _ => ?_⟩
    · intro e he
      simp only [List.mem_cons, List.not_mem_nil, or_false] at he
      subst he
      simp [member, look_cons]
    · intro e he
      simp only [List.mem_cons, List.not_mem_nil, or_false] at he
      rcases he with rfl | rfl <;> simp [member, look_cons, look_nil, strArr_eq]

/-- **C83** `rauc status` with a JSON format prints a document that can be read in one way only and without ambiguous names, with the documented members
and every slot and repository exactly once, in order, whatever the names, paths and descriptions contain. -/
theorem C83_print (pretty d : Bool) (p : Print) (h : ∀ s ∈ p.slots, s.state ≠ none) :
    ∃ t j, statusText pretty d p = some t ∧ Doc t j ∧ Distinct j ∧ PrintDoc d p j := by
  refine ⟨_, printJson d p, by unfold statusText; rw [if_neg (by simpa using h)], doc_gen (layout_ok pretty) _, distinct_print d p, ?_, ?_, ?_⟩
  · intro e he
    simp only [List.mem_cons, List.not_mem_nil, or_false] at he
    rcases he with rfl | rfl | rfl | rfl | rfl <;>
      simp [printJson, member, look_cons, look_nil, ostr_eq]
  · exact ⟨_, by simp [printJson, member, look_cons], forall₂_map (fun s _ => slot_doc d s)⟩
  · exact ⟨_, by simp [printJson, member, look_cons], forall₂_map (fun s _ => repo_doc s)⟩

/-- **C83** The JSON output of `rauc status` with a service: a document with the values the service has, every slot once and no others. -/
theorem C83_status_partial (iso : Str → Option DateTime) (ord : List RSlot → List RSlot) (pretty d : Bool) (S : Server) (ho : ∀ l, (ord l).Perm l)
    (h : TableOk S.slots) (hl : ∀ s ∈ S.slots, Sendable (S.load s)) (hs : ∀ s ∈ S.slots, s.state ≠ none)
    (hp : ∀ q, S.primary = some q → q ∈ S.slots.map (·.name)) :
    ∃ t j shown, raucStatusJson iso ord pretty d S = some t ∧ Doc t j ∧ Distinct j ∧ PrintDoc d shown j ∧ Received d S shown := by
  obtain ⟨P, e0, r⟩ := received iso ord d S ho h hl hp
  obtain ⟨t, j, h1, h2, h3, h4⟩ := C83_print pretty d P (r.states hs)
  exact ⟨t, j, P, by unfold raucStatusJson; rw [e0]; exact h1, h2, h3, h4, r⟩

/-- the conditions hold for the service of the example (see there), and this is a part of the output -/
example : ∃ P, retrieveStatus (fun _ => none) id true serverEx = some P ∧ P.slots.length = 3 ∧
    (statusText false false { P with slots := [] }) = some
      c!"{\"compatible\":\"it's\",\"variant\":\"\",\"system_version\":\"1\",\"booted\":\"B\",\"boot_primary\":\"rootfs.0\",\"slots\":[],\"artifact-repositories\":[]}" := by
  refine ⟨_, rfl, ?_, ?_⟩ <;> decide +kernel

/-- **Finding (C83).** The client aborts if the state of a slot is not known, as in C69. -/
theorem C83_abort (pretty d : Bool) (p : Print) (h : ∃ s ∈ p.slots, s.state = none) : statusText pretty d p = none := by
  obtain ⟨s, h1, h2⟩ := h
  unfold statusText
  rw [if_pos]
  rw [List.any_eq_true]
  exact ⟨s, h1, decide_eq_true h2⟩

/-- **Finding (C83).** The format `json` of `rauc info` does not tell anything about metadata, handlers or the verity parameters of a bundle: two bundles that differ
in these give the same output. (`json-2` does, see `C83_info2`.) -/
theorem C83_info_meta_violated : ∃ a b : Manifest, ¬ SameInfo a b ∧ ∀ pretty, infoText pretty a = infoText pretty b :=
  ⟨{ compatible := c!"x", handlerName := some c!"h" }, { compatible := c!"x" }, (fun h => by cases h.handlerName),
    fun p => (C83_info_iff p _ _).2 ⟨rfl, rfl, rfl, rfl, rfl, rfl, rfl, .nil⟩⟩

/-! ## The slots in the readable output (C69) -/

theorem removeFast_perm (k : Option Str) (l : List (Option Str)) : (removeFast k l).Perm (l.erase k) := by
  induction l with
  | nil => exact .refl _
  | cons x l ih =>
    by_cases hx : x = k
    · subst hx
      simp only [removeFast, if_true, List.erase_cons_head]
      cases hl : l.getLast? with
      | none => rw [List.getLast?_eq_none_iff.1 hl]
      | some z =>
        obtain ⟨y, rfl⟩ := List.getLast?_eq_some_iff.1 hl
        simp only [List.dropLast_concat]
        exact (List.perm_append_singleton z y).symm
    · simp only [removeFast, if_neg hx]
      rw [List.erase_cons_tail (by simpa using hx)]
      exact ih.cons x

theorem readd_spec (l : List (Option Str)) (k : Option Str) (h : l.Nodup) : (readd l k).Nodup ∧ ∀ x, x ∈ readd l k ↔ x ∈ l ∨ x = k := by
  have hp := removeFast_perm k l
  unfold readd
  constructor
  · refine List.nodup_append.2 ⟨hp.nodup_iff.2 (h.erase k), by simp, ?_⟩
    intro a ha b hb e
    simp only [List.mem_singleton] at hb
    subst hb e
    rw [hp.mem_iff, h.mem_erase_iff] at ha
    exact ha.1 rfl
  · intro x
    rw [List.mem_append, hp.mem_iff, h.mem_erase_iff, List.mem_singleton]
    by_cases hx : x = k <;> simp [hx]

theorem rootClasses_spec (slots : List RSlot) :
    (rootClasses slots).Nodup ∧ ∀ k, k ∈ rootClasses slots ↔ ∃ s ∈ slots, s.parent = none ∧ s.sclass = k := by
  have key : ∀ (l : List RSlot) (acc : List (Option Str)), acc.Nodup →
      (l.foldl (fun l s => readd l s.sclass) acc).Nodup ∧ ∀ k, k ∈ l.foldl (fun l s => readd l s.sclass) acc ↔ k ∈ acc ∨ ∃ s ∈ l, s.sclass = k := by
    intro l
    induction l with
    | nil => intro acc h; exact ⟨h, by simp⟩
    | cons s l ih =>
      intro acc h
      obtain ⟨h1, h2⟩ := readd_spec acc s.sclass h
      obtain ⟨h3, h4⟩ := ih (readd acc s.sclass) h1
      refine ⟨h3, fun k => ?_⟩
      rw [List.foldl_cons, h4, h2]
      simp only [List.mem_cons, exists_eq_or_imp, or_assoc]
      rw [eq_comm (a := k) (b := s.sclass)]
  obtain ⟨h1, h2⟩ := key (slots.filter (fun s => s.parent.isNone)) [] (by simp)
  refine ⟨h1, fun k => ?_⟩
  unfold rootClasses
  rw [h2]
  simp only [List.not_mem_nil, false_or, List.mem_filter, Option.isNone_iff_eq_none, and_assoc]

/-- Specification: the parents of slots exist and have no parents (config_file.c:20-56, C59) -/
def ParentsOk (slots : List RSlot) : Prop := ∀ s ∈ slots, ∀ p, s.parent = some p → ∃ q ∈ slots, q.name = p ∧ q.parent = none

/-- Specification: no class has both slots with and without a parent -/
def ClassesOk (slots : List RSlot) : Prop := ∀ s ∈ slots, ∀ t ∈ slots, s.sclass = t.sclass → s.parent = none → t.parent = none

theorem mem_readable (slots : List RSlot) (x : RSlot) :
    x ∈ readableSlots slots ↔ ∃ r ∈ slots, r.parent = none ∧ ∃ s ∈ slots, s.sclass = r.sclass ∧ (x = s ∨ x ∈ slots ∧ x.name ≠ s.name ∧ x.parent = some s.name) := by
  unfold readableSlots
  simp only [List.mem_flatMap, (rootClasses_spec slots).2, ofClass, children, List.mem_filter, List.mem_cons, decide_eq_true_eq, Bool.and_eq_true]
  constructor
  · rintro ⟨k, ⟨r, h1, h2, rfl⟩, s, ⟨h3, h4⟩, h5⟩
    exact ⟨r, h1, h2, s, h3, h4, h5⟩
  · rintro ⟨r, h1, h2, s, h3, h4, h5⟩
    exact ⟨r.sclass, ⟨r, h1, h2, rfl⟩, s, ⟨h3, h4⟩, h5⟩

theorem eq_of_name {slots : List RSlot} (hn : (slots.map (·.name)).Nodup) {a b : RSlot} (ha : a ∈ slots) (hb : b ∈ slots) (h : a.name = b.name) : a = b :=
  List.inj_on_of_nodup_map hn ha hb h

/-- **C69** The readable output of `rauc status` shows every slot, and no others. -/
theorem C69_readable_all (slots : List RSlot) (hn : (slots.map (·.name)).Nodup) (hp : ParentsOk slots) (x : RSlot) : x ∈ readableSlots slots ↔ x ∈ slots := by
  rw [mem_readable]
  constructor
  · rintro ⟨r, -, -, s, h3, -, rfl | h⟩
    · exact h3
    · exact h.1
  · intro hx
    cases hpar : x.parent with
    | none => exact ⟨x, hx, hpar, x, hx, rfl, .inl rfl⟩
    | some p =>
      obtain ⟨q, h1, h2, h3⟩ := hp x hx p hpar
      refine ⟨q, h1, h3, q, h1, rfl, .inr ⟨hx, ?_, by rw [h2]⟩⟩
      intro e
      rw [eq_of_name hn hx h1 e, h3] at hpar
      cases hpar

/-- **C69** If no class has slots with and without a parent, every slot is shown exactly once. -/
theorem C69_readable_partial (slots : List RSlot) (hn : (slots.map (·.name)).Nodup) (hp : ParentsOk slots) (hc : ClassesOk slots) :
    (readableSlots slots).Perm slots := by
  have hnd : slots.Nodup := hn.of_map _
  rw [List.perm_ext_iff_of_nodup ?_ hnd]
  · exact C69_readable_all slots hn hp
  unfold readableSlots
  have hroot : ∀ k ∈ rootClasses slots, ∀ s ∈ ofClass slots k, s ∈ slots ∧ s.sclass = k ∧ s.parent = none := by
    intro k hk s hs
    obtain ⟨r, h1, h2, h3⟩ := ((rootClasses_spec slots).2 k).1 hk
    simp only [ofClass, List.mem_filter, decide_eq_true_eq] at hs
    exact ⟨hs.1, hs.2, hc r h1 s hs.1 (h3.trans hs.2.symm) h2⟩
  have hdis : ∀ s t : RSlot, s ∈ slots → t ∈ slots → s.parent = none → t.parent = none → s ≠ t → List.Disjoint (s :: children slots s) (t :: children slots t) := by
    intro s t hs ht hs0 ht0 hst x hx hy
    simp only [children, List.mem_cons, List.mem_filter, Bool.and_eq_true, decide_eq_true_eq] at hx hy
    rcases hx with rfl | ⟨-, -, hx⟩ <;> rcases hy with rfl | ⟨-, -, hy⟩
    · exact hst rfl
    · rw [hs0] at hy; cases hy
    · rw [ht0] at hx; cases hx
    · rw [hx] at hy
      exact hst (eq_of_name hn hs ht (Option.some.inj hy))
  refine List.nodup_flatMap.2 ⟨fun k hk => List.nodup_flatMap.2 ⟨fun s hs => ?_, ?_⟩, ?_⟩
  · rw [List.nodup_cons]
    refine ⟨?_, hnd.filter _⟩
    simp [children]
  · have : (ofClass slots k).Pairwise (· ≠ ·) := hnd.filter _
    refine this.imp_of_mem ?_
    intro a b ha hb hab
    obtain ⟨a1, -, a2⟩ := hroot k hk a ha
    obtain ⟨b1, -, b2⟩ := hroot k hk b hb
    exact hdis a b a1 b1 a2 b2 hab
  · have : (rootClasses slots).Pairwise (· ≠ ·) := (rootClasses_spec slots).1
    refine this.imp_of_mem ?_
    intro a b ha hb hab x hx hy
    obtain ⟨s, h1, h2⟩ := List.mem_flatMap.1 hx
    obtain ⟨t, h3, h4⟩ := List.mem_flatMap.1 hy
    obtain ⟨a1, a2, a3⟩ := hroot a ha s h1
    obtain ⟨b1, b2, b3⟩ := hroot b hb t h3
    refine hdis s t a1 b1 a3 b3 ?_ h2 h4
    intro e
    exact hab (by rw [← a2, ← b2, e])

/-- the conditions hold for the slots of the example -/
example : (serverEx.slots.map (·.name)).Nodup ∧ ParentsOk serverEx.slots ∧ ClassesOk serverEx.slots ∧
    (readableSlots serverEx.slots).map (·.name) = [c!"rootfs.0", c!"appfs.0", c!"rootfs.1"] := by
  refine ⟨by decide, ?_, ?_, by decide⟩
  · intro s hs p hp
    simp only [serverEx, List.mem_cons, List.not_mem_nil, or_false] at hs
    rcases hs with rfl | rfl | rfl
    · cases hp
    · cases hp
    · cases hp; exact ⟨_, List.mem_cons_self, rfl, rfl⟩
  · intro s hs t ht
    simp only [serverEx, List.mem_cons, List.not_mem_nil, or_false] at hs ht
    rcases hs with rfl | rfl | rfl <;> rcases ht with rfl | rfl | rfl <;> decide

/-- **Finding (C69).** If a class has slots with and without a parent (which the configuration accepts), the readable output shows the slots with a parent twice. -/
theorem C69_readable_violated : ∃ slots : List RSlot, (slots.map (·.name)).Nodup ∧ ParentsOk slots ∧
    (readableSlots slots).map (·.name) = [c!"a.0", c!"a.1", c!"a.1"] :=
  ⟨[{ name := c!"a.0", sclass := some c!"a" }, { name := c!"a.1", sclass := some c!"a", parent := some c!"a.0" }], by decide, by
    intro s hs p hp
    simp only [List.mem_cons, List.not_mem_nil, or_false] at hs
    rcases hs with rfl | rfl
    · cases hp
    · cases hp; exact ⟨_, List.mem_cons_self, rfl, rfl⟩, by decide⟩

end Rauc.StatusView
