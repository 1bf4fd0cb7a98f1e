import Verif.Props.Handlers
import Verif.Model.ManifestFile

/-!
# C48: the image types in a manifest
-/

namespace Rauc.ManifestFile

open Utils Handlers

theorem parseType_spec {art install : Bool} {f : Option Str} {g : Got} {ty : Option Str × Bool} (h : parseType art install f g = some ty)
    (ha : art = false) (hi : install = false) :
    ∃ t, ty.1 = some t ∧ IsImageType t ∧ (ty.2 = false → g = .ok t) ∧ (ty.2 = true → g = .missing ∧ ∃ n, f = some n ∧ deriveType n = some t) := by
  subst ha hi
  unfold parseType at h
  simp only [Bool.false_eq_true, if_false, Bool.false_or] at h
  cases g with
  | bad => cases h
  | ok t =>
    simp only at h
    split at h
    · rename_i hs
      cases h
      exact ⟨t, rfl, (C48_supported_iff t).1 hs, fun _ => rfl, by simp⟩
    · cases h
  | missing =>
    simp only at h
    cases f with
    | none => cases h
    | some n =>
      simp only at h
      cases hd : deriveType n with
      | none => rw [hd] at h; cases h
      | some t =>
        rw [hd] at h
        simp only at h
        split at h
        · rename_i hs
          cases h
          exact ⟨t, rfl, (C48_supported_iff t).1 hs, by simp, fun _ => ⟨rfl, n, rfl, hd⟩⟩
        · cases h

theorem parseImage_type {rest : Str} {kvs : Kvs} {i : Image} (h : parseImage rest kvs = some i) (ha : i.artifact = none)
    (hi : i.hooks.install = false) :
    ∃ t, i.typ = some t ∧ IsImageType t ∧ (i.typeFromExt = false → consume kvs c!"type" = .ok t) ∧
      (i.typeFromExt = true → consume kvs c!"type" = .missing ∧ ∃ n, i.filename = some n ∧ deriveType n = some t) := by
  unfold parseImage at h
  simp only at h
  split at h
  · cases h
  · split at h
    · cases h
    · split at h
      · cases h
      · split at h
        · cases h
        · rename_i ty hty
          rw [Option.ite_none_right_eq_some] at h
          obtain ⟨_, h⟩ := h
          cases h
          simp only at ha hi ⊢
          rw [ha] at hty
          exact parseType_spec hty rfl hi

theorem parseGroups_mem {kf : KeyFile} : ∀ {imgs : List Image} {metas : List (Str × Kvs)}, parseGroups kf = some (imgs, metas) →
    ∀ i ∈ imgs, ∃ g ∈ kf, ∃ rest, stripPrefix c!"image." g.1 = some rest ∧ parseImage rest g.2 = some i := by
  induction kf with
  | nil =>
    intro imgs metas h i hi
    simp only [parseGroups, Option.some.injEq, Prod.mk.injEq] at h
    rw [← h.1] at hi; cases hi
  | cons x l ih =>
    obtain ⟨g, kvs⟩ := x
    intro imgs metas h i hi
    unfold parseGroups at h
    cases hl : parseGroups l with
    | none => rw [hl] at h; cases h
    | some p =>
      obtain ⟨im, me⟩ := p
      rw [hl] at h
      simp only at h
      have tail : i ∈ im → ∃ g' ∈ (g, kvs) :: l, ∃ rest, stripPrefix c!"image." g'.1 = some rest ∧ parseImage rest g'.2 = some i := by
        intro hm
        obtain ⟨g', hg', r⟩ := ih hl i hm
        exact ⟨g', List.mem_cons_of_mem _ hg', r⟩
      split at h
      · cases h; exact tail hi
      · split at h
        · rename_i rest hr
          split at h
          · cases h
          · rename_i i' hi'
            cases h
            rcases List.mem_cons.1 hi with rfl | hm
            · exact ⟨_, List.mem_cons_self, rest, hr, hi'⟩
            · exact tail hm
        · split at h
          · split at h
            · cases h
            · cases h; exact tail hi
          · cases h

/-- **C48.** In every manifest that is accepted, each image for a slot which is not installed by a hook has a supported type: the one written in its section, or, if there is none, the
one derived from its file name. -/
theorem C48_manifest_types (kf : KeyFile) (m : Manifest) (h : parse kf = some m) (i : Image) (hi : i ∈ m.images) (ha : i.artifact = none)
    (hh : i.hooks.install = false) :
    ∃ t, i.typ = some t ∧ IsImageType t ∧ ∃ g ∈ kf, c!"image." <+: g.1 ∧
      ((i.typeFromExt = false ∧ consume g.2 c!"type" = .ok t) ∨
       (i.typeFromExt = true ∧ consume g.2 c!"type" = .missing ∧ ∃ n, i.filename = some n ∧ deriveType n = some t)) := by
  have key : ∃ imgs metas, parseGroups kf = some (imgs, metas) ∧ m.images = imgs := by
    unfold parse at h
    simp only at h
    split at h
    · cases h
    · split at h
      · cases h
      · split at h
        · cases h
        · split at h
          · cases h
          · split at h
            · cases h
            · split at h
              · cases h
              · rename_i imgs metas hg
                cases h
                exact ⟨imgs, metas, hg, rfl⟩
  obtain ⟨imgs, metas, hg, he⟩ := key
  rw [he] at hi
  obtain ⟨g, hgm, rest, hr, hp⟩ := parseGroups_mem hg i hi
  obtain ⟨t, h1, h2, h3, h4⟩ := parseImage_type hp ha hh
  refine ⟨t, h1, h2, g, hgm, ?_, ?_⟩
  · have : ∀ (p s r : Str), stripPrefix p s = some r → p <+: s := by
      intro p
      induction p with
      | nil => intro s r _; exact List.nil_prefix
      | cons c p ih =>
        intro s r hs
        cases s with
        | nil => simp [stripPrefix] at hs
        | cons d s =>
          simp only [stripPrefix] at hs
          split at hs
          · rename_i e; subst e; exact List.cons_prefix_cons.2 ⟨rfl, ih s r hs⟩
          · cases hs
    exact this _ _ _ hr
  · cases hx : i.typeFromExt with
    | false => exact Or.inl ⟨rfl, h3 hx⟩
    | true => exact Or.inr ⟨rfl, h4 hx⟩

/-- a manifest with an explicit and a derived type -/
example : ∃ m, parse [(c!"update", [(c!"compatible", c!"x")]), (c!"image.rootfs", [(c!"sha256", c!"00"), (c!"filename", c!"a.ext4")]),
    (c!"image.appfs", [(c!"filename", c!"b.img"), (c!"type", c!"vfat")])] = some m ∧ m.images.map (·.typ) = [some c!"ext4", some c!"vfat"] := by
  decide +kernel

/-- a type that is not supported is rejected -/
example : parse [(c!"update", [(c!"compatible", c!"x")]), (c!"image.rootfs", [(c!"filename", c!"a.ext4"), (c!"type", c!"ext5")])] = none := by decide +kernel

end Rauc.ManifestFile
