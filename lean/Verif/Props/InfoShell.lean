import Verif.Props.StatusShell
import Verif.Model.ManifestFile

/-!
# C70: `rauc info` and InspectBundle show what the manifest says, and not the key of an encrypted bundle
-/

namespace Rauc.StatusView

open HandlerEnv (metaVarList shellFromMeta_eq metaVarList_names)

/-! ## Shell output: specification -/

def formatWord : Format → Str
  | .plain => c!"plain"
  | .verity => c!"verity"
  | .crypt => c!"crypt"

/-- variables describing the bundle -/
def bundleVars (m : Manifest) : List (Str × Str) :=
  [(c!"RAUC_MF_COMPATIBLE", m.compatible), (c!"RAUC_MF_VERSION", m.version.getD []), (c!"RAUC_MF_DESCRIPTION", m.description.getD []),
   (c!"RAUC_MF_BUILD", m.build.getD []), (c!"RAUC_MF_HASH", m.hash.getD []), (c!"RAUC_MF_FORMAT", formatWord m.format),
   (c!"RAUC_MF_IMAGES", toDec m.images.length), (c!"RAUC_MF_HOOKS", if m.installCheck then c!"install-check" else [])]

/-- the hooks of an image in words -/
def hooksOf (h : SlotHooks) : List Str :=
  [(h.preInstall, c!"pre-install"), (h.install, c!"install"), (h.postInstall, c!"post-install")].filterMap (fun p => if p.1 then some p.2 else none)

/-- `RAUC_IMAGE_*_<N>`, images are counted from 0 -/
def infoFields : List (Str × (Image → Option Str)) :=
  [(c!"RAUC_IMAGE_NAME", fun i => some (i.filename.getD [])), (c!"RAUC_IMAGE_CLASS", fun i => some i.slotclass),
   (c!"RAUC_IMAGE_ARTIFACT", fun i => some (i.artifact.getD [])), (c!"RAUC_IMAGE_VARIANT", fun i => some (i.variant.getD [])),
   (c!"RAUC_IMAGE_DIGEST", fun i => some (i.digest.getD [])), (c!"RAUC_IMAGE_SIZE", fun i => some (signedDec i.size)),
   (c!"RAUC_IMAGE_HOOKS", fun i => some (join ' ' (hooksOf i.hooks))), (c!"RAUC_IMAGE_ADAPTIVE", fun i => i.adaptive.map (join ' ')),
   (c!"RAUC_IMAGE_CONVERT", fun i => i.convert.map (join ' ')), (c!"RAUC_IMAGE_CONVERTED", fun i => i.converted.map (join ' '))]

/-- `rauc info` prints variable `k` with value `v`. -/
inductive InfoVar (m : Manifest) : Str → Str → Prop
  | bundle {k v : Str} : (k, v) ∈ bundleVars m → InfoVar m k v
  | data {k v : Str} : (k, v) ∈ metaVarList m.metas → InfoVar m k v
  | image {n : Nat} {i : Image} {f : Str × (Image → Option Str)} {v : Str} : m.images[n]? = some i → f ∈ infoFields → f.2 i = some v →
      InfoVar m (numbered f.1 [n]) v

/-! ## Proof -/

theorem hooks_eq (h : SlotHooks) : hookWords h = hooksOf h := by
  obtain ⟨a, b, c⟩ := h
  cases a <;> cases b <;> cases c <;> rfl

theorem imageVars_eq (n : Nat) (i : Image) : imageVars n i = fieldVars infoFields [n] i := by
  unfold imageVars
  rw [hooks_eq, decInt_eq]
  obtain ⟨a1, a2, a3, a4, a5, a6, a7, a8, a9, a10, a11, a12, a13⟩ := i
  cases a11 <;> cases a12 <;> cases a13 <;> rfl

theorem manifestVars_eq (m : Manifest) : (manifestVars m).map Var.pair = bundleVars m := by
  unfold manifestVars bundleVars
  simp only [List.map_cons, List.map_nil, Var.pair, Var.name, List.flatMap_nil, List.append_nil]
  cases m.format <;> rfl

def infoBases : List Str :=
  [c!"RAUC_MF_COMPATIBLE", c!"RAUC_MF_VERSION", c!"RAUC_MF_DESCRIPTION", c!"RAUC_MF_BUILD", c!"RAUC_MF_HASH", c!"RAUC_MF_FORMAT",
   c!"RAUC_MF_IMAGES", c!"RAUC_MF_HOOKS"]

set_option maxRecDepth 10000 in
theorem info_bases : ∀ b ∈ infoBases ++ infoFields.map (·.1), PlainBase b ∧ b ≠ [] ∧ (∀ c ∈ b,
    (('A' ≤ c ∧ c ≤ 'Z') ∨ ('0' ≤ c ∧ c ≤ '9') ∨ c = '_')) ∧ (c!"RAUC_M" = b.take 6 ∧ b.drop 6 ≠ [] ∧ (b.drop 6).head? = some 'F' ∨ c!"RAUC_I" = b.take 6) := by
  decide +kernel

set_option maxRecDepth 10000 in
theorem info_nodup : (infoBases ++ infoFields.map (·.1)).Nodup := by decide +kernel

/-- variables of the manifest and its images -/
def plainVars (m : Manifest) : List Var := manifestVars m ++ countFrom imageVars 0 m.images

theorem manifestVars_base {m : Manifest} {v : Var} (h : v ∈ manifestVars m) : v.base ∈ infoBases := by
  simp only [manifestVars, List.mem_cons, List.not_mem_nil, or_false] at h
  rcases h with rfl | rfl | rfl | rfl | rfl | rfl | rfl | rfl <;> simp [infoBases]

theorem countImages_base {m : Manifest} {v : Var} (h : v ∈ countFrom imageVars 0 m.images) : v.base ∈ infoFields.map (·.1) := by
  obtain ⟨i, x, -, hx⟩ := mem_countFrom.1 h
  rw [imageVars_eq] at hx
  exact (fieldVars_base hx).1

theorem plainVars_base {m : Manifest} {v : Var} (h : v ∈ plainVars m) : v.base ∈ infoBases ++ infoFields.map (·.1) := by
  rcases List.mem_append.1 h with h | h
  · exact List.mem_append_left _ (manifestVars_base h)
  · exact List.mem_append_right _ (countImages_base h)

theorem plainVars_nodup (m : Manifest) : ((plainVars m).map Var.key).Nodup := by
  refine nodup_bases infoBases ?_ ?_ (fun v hv => manifestVars_base hv) ?_
  · simp only [manifestVars, List.map_cons, List.map_nil, Var.key]; decide +kernel
  · refine nodup_countFrom 0 0 ?_ ?_
    · intro i x _
      rw [imageVars_eq]
      exact nodup_fieldVars (List.nodup_append.1 info_nodup).2.1
    · intro i x v hv
      rw [imageVars_eq] at hv
      rw [(fieldVars_base hv).2]; rfl
  · intro v hv hm
    exact disj _ _ info_nodup hm (countImages_base hv) rfl

/-- names of the manifest and of images are not names of meta data -/
theorem plain_not_meta {m : Manifest} {v : Var} (h : v ∈ plainVars m) : ¬ c!"RAUC_META_" <+: v.name := by
  intro hp
  obtain ⟨-, -, -, h4⟩ := info_bases _ (plainVars_base h)
  obtain ⟨r, hr⟩ := hp
  have e : v.name = v.base ++ v.idx.flatMap (fun i => '_' :: toDec i) := rfl
  rw [e] at hr
  rcases h4 with ⟨h1, h2, h3⟩ | h1
  · have e2 : v.base = v.base.take 6 ++ v.base.drop 6 := (List.take_append_drop 6 _).symm
    rw [e2, ← h1] at hr
    cases hd : v.base.drop 6 with
    | nil => exact h2 hd
    | cons c r2 =>
      rw [hd] at hr h3
      simp at hr h3
      rw [h3] at hr
      exact absurd hr.1 (by decide)
  · have e2 : v.base = v.base.take 6 ++ v.base.drop 6 := (List.take_append_drop 6 _).symm
    rw [e2, ← h1] at hr
    simp at hr

/-- **C70.** The output of `rauc info --output-format=shell` is a script that assigns the documented variables for the manifest, its meta data and
every image, with the documented values, and nothing else; apart from the variables for meta data (see `C27_collision`) each is assigned once. -/
theorem C70_shell (m : Manifest) :
    ∃ t vars, infoShell m = some t ∧ Utils.Script t vars ∧ (∀ k v, (k, v) ∈ vars ↔ InfoVar m k v) ∧
      ((vars.filter (fun p => !(c!"RAUC_META_").isPrefixOf p.1)).map (·.1)).Nodup := by
  let vars := (manifestVars m).map Var.pair ++ metaVarList m.metas ++ (countFrom imageVars 0 m.images).map Var.pair
  have hname : ∀ v ∈ plainVars m, v.name ≠ [] ∧ ∀ c ∈ v.name, Utils.NameChar c := by
    intro v hv
    obtain ⟨-, h2, h3, -⟩ := info_bases _ (plainVars_base hv)
    exact numbered_name ⟨h2, h3⟩ _
  obtain ⟨t, ht, hs⟩ := Utils.C51_shell_output vars (by
    intro q hq
    rcases List.mem_append.1 hq with hq | hq
    · rcases List.mem_append.1 hq with hq | hq
      · obtain ⟨v, hv, rfl⟩ := List.mem_map.1 hq
        exact hname v (List.mem_append_left _ hv)
      · obtain ⟨h1, h2⟩ := metaVarList_names hq
        refine ⟨fun e => by rw [e] at h1; exact absurd h1 (by decide), ?_⟩
        have : q.1 ++ '=' :: q.2 ∈ Utils.shellFromMeta m.metas := by
          rw [shellFromMeta_eq]
          exact List.mem_map_of_mem (f := fun p : Str × Str => p.1 ++ '=' :: p.2) hq
        obtain ⟨name, value, e1, e2⟩ := Utils.C27_well_formed _ _ this
        have hne : '=' ∉ c!"RAUC_META_" ++ name := by
          intro hm
          rcases e2 _ hm with h | h | h
          · exact absurd h (by decide)
          · exact absurd h (by decide)
          · exact absurd h (by decide)
        have e3 := congrArg Utils.splitEq e1
        rw [Utils.splitEq_key _ _ h2, Utils.splitEq_key _ _ hne] at e3
        have e4 : q.1 = c!"RAUC_META_" ++ name := congrArg Prod.fst (Option.some.inj e3)
        rw [e4]
        exact e2
    · obtain ⟨v, hv, rfl⟩ := List.mem_map.1 hq
      exact hname v (List.mem_append_right _ hv))
  refine ⟨t, vars, ?_, hs, ?_, ?_⟩
  · unfold infoShell
    rw [shellFromMeta_eq]
    rw [List.map_append, List.map_append, List.map_map, List.map_map] at ht
    exact ht
  · intro k v
    show (k, v) ∈ _ ++ _ ++ _ ↔ _
    rw [List.mem_append, List.mem_append, manifestVars_eq]
    constructor
    · rintro ((h | h) | h)
      · exact .bundle h
      · exact .data h
      · obtain ⟨w, hw, he⟩ := List.mem_map.1 h
        obtain ⟨rfl, rfl⟩ : w.name = k ∧ w.value = v := ⟨congrArg Prod.fst he, congrArg Prod.snd he⟩
        obtain ⟨n, i, hi, hx⟩ := mem_countFrom.1 hw
        rw [imageVars_eq, Nat.zero_add] at hx
        obtain ⟨f, hf, h1, h2, h3⟩ := mem_fieldVars.1 hx
        rw [name_eq, h2, h3]
        exact .image hi hf h1
    · intro h
      cases h with
      | bundle h => exact Or.inl (Or.inl h)
      | data h => exact Or.inl (Or.inr h)
      | @image n i f _ hi hf hv =>
        refine Or.inr (List.mem_map.2 ⟨⟨f.1, [n], v⟩, mem_countFrom.2 ⟨n, i, hi, ?_⟩, rfl⟩)
        rw [imageVars_eq, Nat.zero_add]
        exact mem_fieldVars.2 ⟨f, hf, hv, rfl, rfl⟩
  · have hf : vars.filter (fun p => !(c!"RAUC_META_").isPrefixOf p.1) = (plainVars m).map Var.pair := by
      have h1 : ∀ l : List Var, (∀ v ∈ l, v ∈ plainVars m) →
          (l.map Var.pair).filter (fun p => !(c!"RAUC_META_").isPrefixOf p.1) = l.map Var.pair := by
        intro l hl
        rw [List.filter_eq_self]
        intro q hq
        obtain ⟨v, hv, rfl⟩ := List.mem_map.1 hq
        have := plain_not_meta (hl v hv)
        rw [← List.isPrefixOf_iff_prefix] at this
        show (!(c!"RAUC_META_").isPrefixOf v.name) = true
        rw [Bool.eq_false_iff.2 this]; rfl
      have h2 : (metaVarList m.metas).filter (fun p => !(c!"RAUC_META_").isPrefixOf p.1) = [] := by
        rw [List.filter_eq_nil_iff]
        intro q hq
        have := List.isPrefixOf_iff_prefix.2 (metaVarList_names hq).1
        rw [this]; decide
      show List.filter _ (_ ++ _ ++ _) = _
      rw [List.filter_append, List.filter_append, h2, h1 _ (fun v hv => List.mem_append_left _ hv),
        h1 _ (fun v hv => List.mem_append_right _ hv), List.append_nil]
      simp [plainVars]
    rw [hf, List.map_map]
    exact names_nodup (plainVars_nodup m) (fun v hv => (info_bases _ (plainVars_base hv)).1)

/-! ## InspectBundle -/

/-- the value of a key -/
def look {α : Type} (k : Str) (l : List (Str × α)) : Option α := (l.find? (fun p => decide (p.1 = k))).map (·.2)

theorem look_append {α : Type} (k : Str) (a b : List (Str × α)) : look k (a ++ b) = (look k a).or (look k b) := by
  unfold look
  rw [List.find?_append]
  cases a.find? (fun p => decide (p.1 = k)) <;> rfl

theorem look_opt {α : Type} (k k' : Str) (o : Option α) : look k (opt k' o) = if k' = k then o else none := by
  cases o with
  | none => simp [look, opt]
  | some v => by_cases h : k' = k <;> simp [look, opt, h]

theorem look_cons {α : Type} (k k' : Str) (v : α) (l : List (Str × α)) : look k ((k', v) :: l) = if k' = k then some v else look k l := by
  unfold look
  by_cases h : k' = k <;> simp [h]

theorem look_nil {α : Type} (k : Str) : look k ([] : List (Str × α)) = none := rfl

/-- Specification: what the user is told about an image. The size is shown as an unsigned number. -/
structure SameImage (a b : Image) : Prop where
  slotclass : a.slotclass = b.slotclass
  artifact : a.artifact = b.artifact
  variant : a.variant = b.variant
  filename : a.filename = b.filename
  typ : a.typ = b.typ
  digest : a.digest = b.digest
  size : a.size = b.size
  hooks : a.hooks = b.hooks
  adaptive : a.adaptive = b.adaptive
  convert : a.convert = b.convert
  converted : a.converted = b.converted

/-- Specification: what the user is told about a bundle. -/
structure SameInfo (a b : Manifest) : Prop where
  hash : a.hash = b.hash
  compatible : a.compatible = b.compatible
  version : a.version = b.version
  description : a.description = b.description
  build : a.build = b.build
  format : a.format = b.format
  verityHash : a.verityHash = b.verityHash
  veritySalt : a.veritySalt = b.veritySalt
  veritySize : a.veritySize = b.veritySize
  hookName : a.hookName = b.hookName
  installCheck : a.hookName.isSome → a.installCheck = b.installCheck
  handlerName : a.handlerName = b.handlerName
  handlerArgs : a.handlerName.isSome → a.handlerArgs = b.handlerArgs
  images : List.Forall₂ SameImage a.images b.images
  metas : a.metas = b.metas

/-- a size is a 64 bit number -/
def SizeOk (i : Image) : Prop := -2 ^ 63 ≤ i.size ∧ i.size < 2 ^ 63

theorem map_str_inj {a b : Option Str} (h : a.map IVal.str = b.map IVal.str) : a = b := by
  cases a <;> cases b <;> simp_all

theorem map_strv_inj {a b : Option (List Str)} (h : a.map IVal.strv = b.map IVal.strv) : a = b := by
  cases a <;> cases b <;> simp_all

theorem hooksOf_inj {a b : SlotHooks} (h : hookWords a = hookWords b) : a = b := by
  obtain ⟨a1, a2, a3⟩ := a
  obtain ⟨b1, b2, b3⟩ := b
  revert h
  cases a1 <;> cases a2 <;> cases a3 <;> cases b1 <;> cases b2 <;> cases b3 <;> decide

theorem toU64_inj {a b : Int} (ha : -2 ^ 63 ≤ a ∧ a < 2 ^ 63) (hb : -2 ^ 63 ≤ b ∧ b < 2 ^ 63) (h : toU64 a = toU64 b) : a = b := by
  rw [← toI64_toU64 a ha.1 ha.2, ← toI64_toU64 b hb.1 hb.2, h]

theorem image_same {a b : Image} (ha : SizeOk a) (hb : SizeOk b) : imageDict a = imageDict b ↔ SameImage a b := by
  constructor
  · intro h
    have f := fun k => congrArg (look k) h
    have look_one : ∀ (k k' : Str) (v : IVal), look k [(k', v)] = if k' = k then some v else none := fun k k' v => look_cons k k' v []
    simp only [imageDict, look_append, look_opt, look_one] at f
    have f1 := f c!"slot-class"
    have f2 := f c!"artifact"
    have f3 := f c!"variant"
    have f4 := f c!"filename"
    have f5 := f c!"type"
    have f6 := f c!"checksum"
    have f7 := f c!"size"
    have f8 := f c!"hooks"
    have f9 := f c!"adaptive"
    have f10 := f c!"convert"
    have f11 := f c!"converted"
    clear f
    simp at f1 f2 f3 f4 f5 f6 f7 f8 f9 f10 f11
    refine ⟨f1, map_str_inj f2, map_str_inj f3, map_str_inj f4, map_str_inj f5, map_str_inj f6, ?_, hooksOf_inj f8, map_strv_inj f9,
      map_strv_inj f10, map_strv_inj f11⟩
    by_cases h1 : a.size = 0 <;> by_cases h2 : b.size = 0
    · rw [h1, h2]
    · simp [h1, h2] at f7
    · simp [h1, h2] at f7
    · simp only [h1, h2, if_false, Option.some.injEq, IVal.num.injEq] at f7
      exact toU64_inj ha hb f7
  · rintro ⟨h1, h2, h3, h4, h5, h6, h7, h8, h9, h10, h11⟩
    unfold imageDict
    rw [h1, h2, h3, h4, h5, h6, h7, h8, h9, h10, h11]

theorem images_same {l m : List Image} (hl : ∀ i ∈ l, SizeOk i) (hm : ∀ i ∈ m, SizeOk i) :
    l.map imageDict = m.map imageDict ↔ List.Forall₂ SameImage l m := by
  induction l generalizing m with
  | nil => cases m <;> simp
  | cons a r ih =>
    cases m with
    | nil => simp
    | cons b s =>
      simp only [List.map_cons, List.cons.injEq, List.forall₂_cons]
      rw [image_same (hl a (by simp)) (hm b (by simp)), ih (fun i hi => hl i (by simp [hi])) (fun i hi => hm i (by simp [hi]))]

theorem map_rstr_inj {a b : Option Str} (h : a.map RVal.str = b.map RVal.str) : a = b := by
  cases a <;> cases b <;> simp_all

/-- Specification: the documented entries of an image in the reply of InspectBundle; an entry without a value is left out. -/
def imageReply (i : Image) : List (Str × Option IVal) :=
  [(c!"slot-class", some (.str i.slotclass)), (c!"artifact", i.artifact.map .str), (c!"variant", i.variant.map .str),
   (c!"filename", i.filename.map .str), (c!"type", i.typ.map .str), (c!"checksum", i.digest.map .str),
   (c!"size", if i.size = 0 then none else some (.num (toU64 i.size))),
   (c!"hooks", some (.strv (hooksOf i.hooks))), (c!"adaptive", i.adaptive.map .strv), (c!"convert", i.convert.map .strv),
   (c!"converted", i.converted.map .strv)]

/-- Specification: the documented groups of the reply of InspectBundle. -/
def manifestReply (m : Manifest) : List (Str × List (Str × Option IVal)) :=
  [(c!"update", [(c!"compatible", some (.str m.compatible)), (c!"version", m.version.map .str), (c!"description", m.description.map .str),
      (c!"build", m.build.map .str)]),
   (c!"bundle", [(c!"format", some (.str (formatWord m.format))), (c!"verity-hash", m.verityHash.map .str),
      (c!"verity-salt", m.veritySalt.map .str), (c!"verity-size", if m.veritySize = 0 then none else some (.num m.veritySize))]),
   (c!"hooks", [(c!"filename", m.hookName.map .str),
      (c!"hooks", m.hookName.map (fun _ => .strv (if m.installCheck then [c!"install-check"] else [])))]),
   (c!"handler", [(c!"filename", m.handlerName.map .str), (c!"args", m.handlerName.bind (fun _ => m.handlerArgs.map .str))])]

/-- the entries of a group of the reply -/
def group (k : Str) (d : List (Str × RVal)) : List (Str × IVal) :=
  match look k d with
  | some (.grp l) => l
  | _ => []

theorem group_of {k : Str} {d : List (Str × RVal)} {l : List (Str × IVal)} (h : look k d = some (.grp l)) : group k d = l := by
  unfold group; rw [h]

theorem group_none {k : Str} {d : List (Str × RVal)} (h : look k d = none) : group k d = [] := by
  unfold group; rw [h]

/-- **C70.** Every image is reported under the documented keys, with its own values. -/
theorem C70_image (i : Image) : ∀ e ∈ imageReply i, look e.1 (imageDict i) = e.2 := by
  intro e he
  have hw : hookWords i.hooks = hooksOf i.hooks := hooks_eq i.hooks
  simp only [imageReply, List.mem_cons, List.not_mem_nil, or_false] at he
  rcases he with rfl | rfl | rfl | rfl | rfl | rfl | rfl | rfl | rfl | rfl | rfl <;>
    simp [imageDict, look_append, look_opt, look_cons, look_nil, hw]

/-- **C70.** The reply of InspectBundle has every documented entry, under its key, with the value the manifest has for it; the images and the meta data are
listed completely and in order. -/
theorem C70_reply (m : Manifest) :
    (∀ g ∈ manifestReply m, ∀ e ∈ g.2, look e.1 (group g.1 (manifestDict m)) = e.2) ∧
    look c!"manifest-hash" (manifestDict m) = m.hash.map .str ∧
    look c!"images" (manifestDict m) = some (.arr (m.images.map imageDict)) ∧ look c!"meta" (manifestDict m) = some (.metas m.metas) := by
  have look_oneI : ∀ (k k' : Str) (v : IVal), look k [(k', v)] = if k' = k then some v else none := fun k k' v => look_cons k k' v []
  have hf : formatStr m.format = formatWord m.format := by cases m.format <;> rfl
  refine ⟨?_, ?_, ?_, ?_⟩
  · intro g hg
    simp only [manifestReply, List.mem_cons, List.not_mem_nil, or_false] at hg
    rcases hg with rfl | rfl | rfl | rfl
    · intro e he
      rw [group_of (k := c!"update") (d := manifestDict m) (by simp [manifestDict, look_append, look_opt, look_cons, look_nil]; rfl)]
      simp only [List.mem_cons, List.not_mem_nil, or_false] at he
      rcases he with rfl | rfl | rfl | rfl <;> simp [look_append, look_opt, look_oneI, look_cons]
    · intro e he
      rw [group_of (k := c!"bundle") (d := manifestDict m) (by simp [manifestDict, look_append, look_opt, look_cons, look_nil]; rfl)]
      simp only [List.mem_cons, List.not_mem_nil, or_false] at he
      rcases he with rfl | rfl | rfl | rfl <;> simp [look_append, look_opt, look_oneI, look_cons, hf]
    · intro e he
      cases hn : m.hookName with
      | none =>
        rw [group_none (k := c!"hooks") (d := manifestDict m) (by simp [manifestDict, look_append, look_opt, look_cons, look_nil, hn])]
        simp only [hn, List.mem_cons, List.not_mem_nil, or_false] at he
        rcases he with rfl | rfl <;> rfl
      | some f =>
        rw [group_of (k := c!"hooks") (d := manifestDict m) (by simp [manifestDict, look_append, look_opt, look_cons, look_nil, hn]; rfl)]
        simp only [hn, List.mem_cons, List.not_mem_nil, or_false] at he
        rcases he with rfl | rfl <;> simp [look_cons, look_nil]
    · intro e he
      cases hn : m.handlerName with
      | none =>
        rw [group_none (k := c!"handler") (d := manifestDict m) (by simp [manifestDict, look_append, look_opt, look_cons, look_nil, hn])]
        simp only [hn, List.mem_cons, List.not_mem_nil, or_false] at he
        rcases he with rfl | rfl <;> rfl
      | some f =>
        rw [group_of (k := c!"handler") (d := manifestDict m) (by simp [manifestDict, look_append, look_opt, look_cons, look_nil, hn]; rfl)]
        simp only [hn, List.mem_cons, List.not_mem_nil, or_false] at he
        rcases he with rfl | rfl <;> simp [look_append, look_opt, look_cons]
  · simp [manifestDict, look_append, look_opt, look_cons, look_nil]
  · simp [manifestDict, look_append, look_opt, look_cons, look_nil]
  · simp [manifestDict, look_append, look_opt, look_cons, look_nil]

/-- **C70.** InspectBundle (and `rauc info --output-format=json-2`) tells everything about the manifest in `SameInfo`, and nothing else: two manifests give the
same reply exactly if they agree there. -/
theorem C70_inspect (a b : Manifest) (ha : ∀ i ∈ a.images, SizeOk i) (hb : ∀ i ∈ b.images, SizeOk i) :
    manifestDict a = manifestDict b ↔ SameInfo a b := by
  have look_oneI : ∀ (k k' : Str) (v : IVal), look k [(k', v)] = if k' = k then some v else none := fun k k' v => look_cons k k' v []
  constructor
  · intro h
    have f := fun k => congrArg (look k) h
    simp only [manifestDict, look_append, look_opt, look_cons, look_nil] at f
    have f1 := f c!"manifest-hash"
    have f2 := f c!"update"
    have f3 := f c!"bundle"
    have f4 := f c!"hooks"
    have f5 := f c!"handler"
    have f6 := f c!"images"
    have f7 := f c!"meta"
    clear f
    simp at f1
    simp only [Option.none_or, Option.some_or, Option.or_none, if_true, Option.some.injEq, RVal.grp.injEq, RVal.arr.injEq, RVal.metas.injEq,
      List.cons.injEq, reduceCtorEq, if_false, Char.reduceEq, and_false, false_and] at f2 f3 f4 f5 f6 f7
    have g2 := fun k => congrArg (look k) f2
    have g3 := fun k => congrArg (look k) f3
    simp only [look_append, look_opt, look_oneI] at g2 g3
    have u1 := g2 c!"compatible"
    have u2 := g2 c!"version"
    have u3 := g2 c!"description"
    have u4 := g2 c!"build"
    have v1 := g3 c!"format"
    have v2 := g3 c!"verity-hash"
    have v3 := g3 c!"verity-salt"
    have v4 := g3 c!"verity-size"
    simp at u1 u2 u3 u4 v1 v2 v3 v4
    have hh : a.hookName = b.hookName ∧ (a.hookName.isSome → a.installCheck = b.installCheck) := by
      cases h1 : a.hookName <;> cases h2 : b.hookName <;> simp [h1, h2] at f4 ⊢
      refine ⟨f4.1, ?_⟩
      cases h3 : a.installCheck <;> cases h4 : b.installCheck <;> simp [h3, h4] at f4 ⊢
    have hn : a.handlerName = b.handlerName ∧ (a.handlerName.isSome → a.handlerArgs = b.handlerArgs) := by
      cases h1 : a.handlerName <;> cases h2 : b.handlerName <;> simp [h1, h2] at f5 ⊢
      refine ⟨f5.1, ?_⟩
      have := congrArg (look c!"args") f5.2
      simp only [look_opt, if_true] at this
      exact map_str_inj this
    refine ⟨map_rstr_inj f1, u1, map_str_inj u2, map_str_inj u3, map_str_inj u4, ?_, map_str_inj v2, map_str_inj v3, ?_, hh.1, hh.2, hn.1, hn.2,
      (images_same ha hb).1 ?_, ?_⟩
    · revert v1
      cases a.format <;> cases b.format <;> simp [formatStr]
    · by_cases h1 : a.veritySize = 0 <;> by_cases h2 : b.veritySize = 0 <;> simp_all
    · simpa using f6
    · simpa using f7
  · rintro ⟨h1, h2, h3, h4, h5, h6, h7, h8, h9, h10, h11, h12, h13, h14, h15⟩
    unfold manifestDict
    rw [h1, h2, h3, h4, h5, h6, h7, h8, h9, ← h10, ← h12, (images_same ha hb).2 h14, h15]
    have e1 : a.hookName.map (fun f => RVal.grp [(c!"filename", .str f), (c!"hooks", .strv (if a.installCheck then [c!"install-check"] else []))]) =
        a.hookName.map (fun f => RVal.grp [(c!"filename", .str f), (c!"hooks", .strv (if b.installCheck then [c!"install-check"] else []))]) := by
      cases hn : a.hookName with
      | none => rfl
      | some x => rw [h11 (by simp [hn])]
    have e2 : a.handlerName.map (fun f => RVal.grp ([(c!"filename", IVal.str f)] ++ opt c!"args" (a.handlerArgs.map .str))) =
        a.handlerName.map (fun f => RVal.grp ([(c!"filename", IVal.str f)] ++ opt c!"args" (b.handlerArgs.map .str))) := by
      cases hn : a.handlerName with
      | none => rfl
      | some x => rw [h13 (by simp [hn])]
    rw [e1, e2]

/-- **C70.** Neither output depends on the key of an encrypted bundle: looking at a bundle does not reveal the key. -/
theorem C70_key (m : Manifest) (k : Option Str) :
    infoShell { m with cryptKey := k } = infoShell m ∧ manifestDict { m with cryptKey := k } = manifestDict m := ⟨rfl, rfl⟩

/-- **Finding (C70).** An image without a file (installed by a hook, or `emptyfs`) needs no size and passes the checks of a bundled
manifest unchanged; its size is then -1 internally, and InspectBundle reports 18446744073709551615 bytes. -/
theorem C70_size_violated (i : Image) (hf : i.filename = none) (h : i.size = -1) :
    ManifestFile.checkImage i = some i ∧ look c!"size" (imageDict i) = some (.num 18446744073709551615) := by
  refine ⟨by simp [ManifestFile.checkImage, hf], ?_⟩
  have look_one : ∀ (k k' : Str) (v : IVal), look k [(k', v)] = if k' = k then some v else none := fun k k' v => look_cons k k' v []
  simp only [imageDict, look_append, look_opt, look_one, h]
  simp [toU64]

/-! ### An example -/

def infoEx : Manifest :=
  { compatible := c!"Sys", version := some c!"it's", format := .crypt, cryptKey := some c!"secret", installCheck := true, hookName := some c!"hook",
    images := [{ slotclass := c!"rootfs", filename := some c!"r.img", size := 7, digest := some c!"ab", hooks := { postInstall := true }, adaptive := some [c!"block-hash-index"] },
      { slotclass := c!"app", hooks := { install := true } }],
    metas := [(c!"foo", [(c!"a-b", c!"x")])] }

example : InfoVar infoEx c!"RAUC_IMAGE_HOOKS_1" c!"install" :=
  InfoVar.image (n := 1) (f := (c!"RAUC_IMAGE_HOOKS", fun i => some (join ' ' (hooksOf i.hooks)))) rfl (by simp [infoFields]) rfl

example : InfoVar infoEx c!"RAUC_META_FOO_A_B" c!"x" := InfoVar.data (by decide)

set_option maxRecDepth 100000 in
example : (infoShell infoEx).map (fun t => t.drop (t.length - 27)) = some c!"RAUC_IMAGE_HOOKS_1='install'".tail := by decide +kernel

example : ∀ i ∈ infoEx.images, SizeOk i := by
  intro i hi
  simp only [infoEx, List.mem_cons, List.not_mem_nil, or_false] at hi
  rcases hi with rfl | rfl <;> constructor <;> decide

/-- a different image size is noticed -/
example : ¬ SameInfo infoEx { infoEx with images := [] } := by
  intro h
  have := h.images
  cases this

end Rauc.StatusView
