import Verif.Props.ManifestRound

/-!
# C50: writing a manifest and reading it back, whole manifests
-/

namespace Rauc.ManifestFile

open Utils Handlers

theorem group_append (a b : KeyFile) (k : Str) : KeyFile.group (a ++ b) k = (KeyFile.group a k).or (KeyFile.group b k) := by
  unfold KeyFile.group
  rw [List.find?_append]
  cases a.find? (fun p => p.1 == k) <;> simp

theorem group_grp (n : Str) (kvs : Kvs) (g : Str) : KeyFile.group (grp n kvs) g = if n = g ∧ kvs ≠ [] then some kvs else none := by
  unfold grp KeyFile.group
  by_cases h : kvs = []
  · simp [h]
  · by_cases hn : n = g <;> simp [h, hn]

/-- image and meta sections -/
def others (m : Manifest) : KeyFile := m.images.flatMap prepareImage ++ m.metas.flatMap prepareMeta

theorem others_names {m : Manifest} {p : Str × Kvs} (h : p ∈ others m) : (∃ x, p.1 = c!"image." ++ x) ∨ ∃ x, p.1 = c!"meta." ++ x := by
  rcases List.mem_append.mp h with h | h
  · obtain ⟨i, _, h⟩ := List.mem_flatMap.mp h
    unfold prepareImage at h
    split at h
    · cases h
    · unfold grp at h
      split at h
      · cases h
      · simp only [List.mem_singleton] at h; subst h; exact Or.inl ⟨_, rfl⟩
  · obtain ⟨i, _, h⟩ := List.mem_flatMap.mp h
    unfold prepareMeta grp at h
    split at h
    · cases h
    · simp only [List.mem_singleton] at h; subst h; exact Or.inr ⟨_, rfl⟩

theorem others_group (m : Manifest) {g : Str} (hg : g ∈ fixedGroups) : KeyFile.group (others m) g = none := by
  unfold KeyFile.group
  rw [Option.map_eq_none_iff, List.find?_eq_none]
  intro p hp hc
  have hc := beq_iff_eq.mp hc
  rcases others_names hp with ⟨x, hx⟩ | ⟨x, hx⟩ <;> rw [hc] at hx <;> subst hx <;>
    simp [fixedGroups] at hg

def updateKvs (m : Manifest) : Kvs :=
  (c!"compatible", strVal m.compatible) :: (opt c!"version" m.version ++ opt c!"description" m.description ++ opt c!"build" m.build)
def handlerKvs (m : Manifest) : Kvs := opt c!"filename" m.handlerName ++ opt c!"args" m.handlerArgs
def hooksKvs (m : Manifest) : Kvs :=
  opt c!"filename" m.hookName ++ (if m.installCheck then [(c!"hooks", listVal [c!"install-check"])] else [])

theorem prepare_eq (m : Manifest) : prepare m =
    grp c!"update" (updateKvs m) ++ grp c!"bundle" (bundleKvs m) ++ grp c!"handler" (handlerKvs m) ++ grp c!"hooks" (hooksKvs m) ++ others m := by
  simp only [prepare, updateKvs, handlerKvs, hooksKvs, others, List.append_assoc]

theorem getD_grp (kvs : Kvs) : ((if kvs ≠ [] then some kvs else none : Option Kvs)).getD [] = kvs := by
  by_cases h : kvs = [] <;> simp [h]

theorem group_update (m : Manifest) : ((prepare m).group c!"update").getD [] = updateKvs m := by
  rw [prepare_eq]
  simp only [group_append, group_grp, others_group m (by decide : c!"update" ∈ fixedGroups)]
  simp only [reduceCtorEq, List.cons.injEq, Char.reduceEq, false_and, if_false, Option.or_none, true_and, getD_grp, Option.or_self]

theorem group_bundle (m : Manifest) : ((prepare m).group c!"bundle").getD [] = bundleKvs m := by
  rw [prepare_eq]
  simp only [group_append, group_grp, others_group m (by decide : c!"bundle" ∈ fixedGroups)]
  simp only [reduceCtorEq, List.cons.injEq, Char.reduceEq, false_and, if_false, Option.or_none, Option.none_or, true_and, getD_grp]

theorem group_handler (m : Manifest) : ((prepare m).group c!"handler").getD [] = handlerKvs m := by
  rw [prepare_eq]
  simp only [group_append, group_grp, others_group m (by decide : c!"handler" ∈ fixedGroups)]
  simp only [reduceCtorEq, List.cons.injEq, Char.reduceEq, false_and, and_false, if_false, Option.or_none, Option.none_or, true_and, getD_grp]

theorem group_hooks (m : Manifest) : ((prepare m).group c!"hooks").getD [] = hooksKvs m := by
  rw [prepare_eq]
  simp only [group_append, group_grp, others_group m (by decide : c!"hooks" ∈ fixedGroups)]
  simp only [reduceCtorEq, List.cons.injEq, Char.reduceEq, false_and, and_false, if_false, Option.or_none, Option.none_or, true_and, getD_grp]

/-! ## the sections in order -/

theorem parseGroups_fixed {g : Str} (kvs : Kvs) (l : KeyFile) (h : g ∈ fixedGroups) : parseGroups ((g, kvs) :: l) = parseGroups l := by
  simp only [parseGroups]
  cases parseGroups l with
  | none => rfl
  | some r => simp [h]

theorem parseGroups_grp {g : Str} (kvs : Kvs) (l : KeyFile) (h : g ∈ fixedGroups) : parseGroups (grp g kvs ++ l) = parseGroups l := by
  unfold grp
  split
  · rfl
  · exact parseGroups_fixed kvs l h

theorem image_not_fixed (x : Str) : (fixedGroups.contains (c!"image." ++ x) || (c!"image." ++ x == c!"rollout")) = false := by
  simp [fixedGroups]

theorem meta_not_fixed (x : Str) : (fixedGroups.contains (c!"meta." ++ x) || (c!"meta." ++ x == c!"rollout")) = false := by
  simp [fixedGroups]

theorem meta_not_image (x : Str) : stripPrefix c!"image." (c!"meta." ++ x) = none := by
  simp [stripPrefix]

theorem parseGroups_images : ∀ (imgs : List Image) (l : KeyFile), (∀ i ∈ imgs, ImageWf i) →
    parseGroups (imgs.flatMap prepareImage ++ l) = (parseGroups l).map (fun r => (imgs ++ r.1, r.2))
  | [], l, _ => by cases h : parseGroups l <;> simp [h]
  | i :: imgs, l, h => by
    have ih := parseGroups_images imgs l (fun x hx => h x (List.mem_cons_of_mem _ hx))
    have hi := h i (by simp)
    rw [List.flatMap_cons, List.append_assoc]
    have hp : prepareImage i = [(c!"image." ++ imageTarget i, imageKvs i)] := by
      unfold prepareImage
      rw [if_neg (fun he => hi.slotclass.1 he.1)]
      unfold grp
      rw [if_neg (imageKvs_ne_nil hi)]
    rw [hp]
    simp only [List.cons_append, List.nil_append, parseGroups]
    rw [ih]
    cases parseGroups l with
    | none => rfl
    | some r =>
      have e1 := image_not_fixed (imageTarget i)
      have e2 := stripPrefix_append c!"image." (imageTarget i)
      simp only [List.cons_append, List.nil_append] at e1 e2
      simp only [Option.map_some, e1, e2, Bool.false_eq_true, if_false, parseImage_of hi]

theorem parseGroups_metas : ∀ (ms : List (Str × Kvs)), (∀ g ∈ ms, (∀ c ∈ g.1, KeyChar c) ∧ g.2 ≠ [] ∧
      ∀ kv ∈ g.2, (∀ c ∈ kv.1, KeyChar c) ∧ kv.2 ≠ [] ∧ Clean kv.2) →
    parseGroups (ms.flatMap prepareMeta) = some ([], ms)
  | [], _ => rfl
  | g :: ms, h => by
    have ih := parseGroups_metas ms (fun x hx => h x (List.mem_cons_of_mem _ hx))
    obtain ⟨h1, h2, h3⟩ := h g (by simp)
    rw [List.flatMap_cons]
    have hp : prepareMeta g = [(c!"meta." ++ g.1, g.2.map (fun kv => (kv.1, strVal kv.2)))] := by
      unfold prepareMeta grp
      rw [if_neg (by simpa using h2)]
    rw [hp]
    simp only [List.cons_append, List.nil_append, parseGroups]
    rw [ih]
    have e1 := meta_not_fixed g.1
    have e2 := stripPrefix_append c!"meta." g.1
    have e3 := meta_not_image g.1
    simp only [List.cons_append, List.nil_append] at e1 e2 e3
    simp only [e1, e2, e3, Bool.false_eq_true, if_false, parseMeta_of g h1 h3]

theorem val_none : Val none := by intro s h; cases h
theorem val_some {s : Str} (h : s ≠ [] ∧ Clean s) : Val (some s) := by intro s' e; cases e; exact h

theorem parseBundle_of {m : Manifest} (h : ManifestWf m) :
    parseBundle (bundleKvs m) = some ⟨m.format, m.formatExplicit, m.verityHash, m.veritySalt, m.veritySize, m.cryptKey⟩ := by
  have clean : ∀ f, Val (some (formatStr f)) := by
    intro f
    apply val_some
    cases f <;> exact ⟨by decide, by decide, by simp [formatStr, FF]⟩
  cases hf : m.format with
  | plain =>
    obtain ⟨a, b, c⟩ := h.plain hf
    have d := h.key (by rw [hf]; decide)
    unfold bundleKvs
    rw [hf, a, b, c, d]
    cases m.formatExplicit <;> decide
  | verity =>
    have d := h.key (by rw [hf]; decide)
    have e := h.explicit (by rw [hf]; decide)
    have k1 : KeyFile.gget (bundleKvs m) c!"format" = (some (formatStr .verity)).map strVal := by
      unfold bundleKvs; rw [hf]; simp [gget_append, gget_cons]
    have k2 : KeyFile.gget (bundleKvs m) c!"verity-hash" = m.verityHash.map strVal := by
      unfold bundleKvs; rw [hf]; simp [gget_append, gget_cons, gget_nil, gget_ite, gget_opt]
    have k3 : KeyFile.gget (bundleKvs m) c!"verity-salt" = m.veritySalt.map strVal := by
      unfold bundleKvs; rw [hf]; simp [gget_append, gget_cons, gget_nil, gget_ite, gget_opt]
    have k4 : KeyFile.gget (bundleKvs m) c!"verity-size" = if m.veritySize = 0 then none else some (toDec m.veritySize) := by
      unfold bundleKvs; rw [hf]; simp [gget_append, gget_cons, gget_nil, gget_ite, gget_opt]
    have k5 : noKeysLeft (bundleKvs m) [c!"format", c!"verity-hash", c!"verity-salt"] [c!"verity-size"] = true := by
      unfold bundleKvs
      rw [hf]
      simp only [reduceCtorEq, if_false, List.nil_append]
      rw [show ((c!"format", strVal (formatStr .verity)) :: (opt c!"verity-hash" m.verityHash ++ opt c!"verity-salt" m.veritySalt ++
        if m.veritySize = 0 then [] else [(c!"verity-size", toDec m.veritySize)])) = opt c!"format" (some (formatStr .verity)) ++
        (opt c!"verity-hash" m.verityHash ++ opt c!"verity-salt" m.veritySalt ++
        if m.veritySize = 0 then [] else [(c!"verity-size", toDec m.veritySize)]) from rfl]
      simp only [nkl_append, Bool.and_eq_true]
      exact ⟨nkl_opt (by simp), ⟨nkl_opt (by simp), nkl_opt (by simp)⟩, nkl_ite rfl (nkl_one (by decide))⟩
    unfold parseBundle
    rw [str_of k1 (clean .verity), str_of k2 h.verityHash, str_of k3 h.veritySalt, k4, d, e]
    simp only [formatStr, List.cons.injEq, Char.reduceEq, false_and, if_false, if_true, k5, Option.some.injEq, BundleInfo.mk.injEq, true_and,
      and_true]
    split
    · rename_i hz; simp [hz]
    · simp only [Option.bind_some, kfUint64_toDec m.veritySize (by have := h.veritySize; simp only [u64max]; omega), Option.getD_some]
  | crypt =>
    have e := h.explicit (by rw [hf]; decide)
    have k0 : KeyFile.gget (bundleKvs m) c!"crypt-key" = m.cryptKey.map strVal := by
      unfold bundleKvs; rw [hf]; simp [gget_append, gget_cons, gget_nil, gget_ite, gget_opt]
    have k1 : KeyFile.gget (bundleKvs m) c!"format" = (some (formatStr .crypt)).map strVal := by
      unfold bundleKvs; rw [hf]; simp [gget_append, gget_cons, gget_opt]
    have k2 : KeyFile.gget (bundleKvs m) c!"verity-hash" = m.verityHash.map strVal := by
      unfold bundleKvs; rw [hf]; simp [gget_append, gget_cons, gget_nil, gget_ite, gget_opt]
    have k3 : KeyFile.gget (bundleKvs m) c!"verity-salt" = m.veritySalt.map strVal := by
      unfold bundleKvs; rw [hf]; simp [gget_append, gget_cons, gget_nil, gget_ite, gget_opt]
    have k4 : KeyFile.gget (bundleKvs m) c!"verity-size" = if m.veritySize = 0 then none else some (toDec m.veritySize) := by
      unfold bundleKvs; rw [hf]; simp [gget_append, gget_cons, gget_nil, gget_ite, gget_opt]
    have k5 : noKeysLeft (bundleKvs m) [c!"format", c!"verity-hash", c!"verity-salt", c!"crypt-key"] [c!"verity-size"] = true := by
      unfold bundleKvs
      rw [hf]
      simp only [if_true]
      rw [show ((c!"format", strVal (formatStr .crypt)) :: (opt c!"verity-hash" m.verityHash ++ opt c!"verity-salt" m.veritySalt ++
        if m.veritySize = 0 then [] else [(c!"verity-size", toDec m.veritySize)])) = opt c!"format" (some (formatStr .crypt)) ++
        (opt c!"verity-hash" m.verityHash ++ opt c!"verity-salt" m.veritySalt ++
        if m.veritySize = 0 then [] else [(c!"verity-size", toDec m.veritySize)]) from rfl]
      simp only [nkl_append, Bool.and_eq_true]
      exact ⟨nkl_opt (by simp), nkl_opt (by simp), ⟨nkl_opt (by simp), nkl_opt (by simp)⟩, nkl_ite rfl (nkl_one (by decide))⟩
    unfold parseBundle
    rw [str_of k1 (clean .crypt), str_of k2 h.verityHash, str_of k3 h.veritySalt, str_of k0 h.cryptKey, k4, e]
    simp only [formatStr, List.cons.injEq, Char.reduceEq, false_and, if_false, if_true, k5, Option.some.injEq, BundleInfo.mk.injEq, true_and,
      and_true]
    split
    · rename_i hz; simp [hz]
    · simp only [Option.bind_some, kfUint64_toDec m.veritySize (by have := h.veritySize; simp only [u64max]; omega), Option.getD_some]

theorem stable_bundle {m : Manifest} (h : ManifestWf m) : Stable (bundleKvs m) := by
  have hs : ∀ f, trim (strVal (formatStr f)) = strVal (formatStr f) := by intro f; cases f <;> decide
  have ht : Stable (opt c!"verity-hash" m.verityHash ++ opt c!"verity-salt" m.veritySalt ++
      if m.veritySize = 0 then [] else [(c!"verity-size", toDec m.veritySize)]) :=
    stable_append (stable_append (stable_opt h.verityHash) (stable_opt h.veritySalt)) (stable_ite stable_nil (stable_one (trim_toDec _)))
  unfold bundleKvs
  cases m.format with
  | plain => exact stable_ite (stable_one (hs .plain)) stable_nil
  | verity => exact stable_append (stable_ite (stable_opt h.cryptKey) stable_nil) (stable_append (stable_one (hs .verity)) ht)
  | crypt => exact stable_append (stable_ite (stable_opt h.cryptKey) stable_nil) (stable_append (stable_one (hs .crypt)) ht)

theorem prepare_stable {m : Manifest} (h : ManifestWf m) : reload (prepare m) = prepare m := by
  apply reload_stable
  have hg : ∀ {n : Str} {kvs : Kvs}, Stable kvs → ∀ g ∈ grp n kvs, Stable g.2 := by
    intro n kvs hs g hg
    unfold grp at hg
    split at hg
    · cases hg
    · simp only [List.mem_singleton] at hg; subst hg; exact hs
  rw [prepare_eq]
  intro g hm
  rcases List.mem_append.mp hm with hm | hm
  · rcases List.mem_append.mp hm with hm | hm
    · rcases List.mem_append.mp hm with hm | hm
      · rcases List.mem_append.mp hm with hm | hm
        · refine hg ?_ g hm
          exact stable_append (a := [(c!"compatible", strVal m.compatible)]) (stable_one (trim_strVal h.compatible.2))
            (stable_append (stable_append (stable_opt h.version) (stable_opt h.description)) (stable_opt h.build))
        · exact hg (stable_bundle h) g hm
      · exact hg (stable_append (stable_opt h.handler.1) (stable_opt h.handler.2.1)) g hm
    · exact hg (stable_append (stable_opt h.hook) (stable_ite (stable_one (by decide)) stable_nil)) g hm
  · rcases List.mem_append.mp hm with hm | hm
    · obtain ⟨i, hi, hm⟩ := List.mem_flatMap.mp hm
      unfold prepareImage at hm
      split at hm
      · cases hm
      · exact hg (stable_imageKvs (h.images i hi)) g hm
    · obtain ⟨x, hx, hm⟩ := List.mem_flatMap.mp hm
      refine hg ?_ g hm
      intro kv hkv
      obtain ⟨kv', hk, rfl⟩ := List.mem_map.mp hkv
      exact trim_strVal ((h.metas x hx).2.2.2 kv' hk).2.2

/-- C50 (partial: everything except `min-rauc-version`, which is never written): writing a manifest into a bundle and reading it back gives
the same manifest. -/
theorem C50_roundtrip_partial (m : Manifest) (h : ManifestWf m) :
    parse (reload (prepare m)) = some { m with minRaucVersion := none } := by
  rw [prepare_stable h]
  unfold parse
  simp only [group_update, group_bundle, group_handler, group_hooks]
  have g1 : KeyFile.gget (updateKvs m) c!"compatible" = (some m.compatible).map strVal := by
    simp [updateKvs, gget_cons]
  have g2 : KeyFile.gget (updateKvs m) c!"version" = m.version.map strVal := by
    simp [updateKvs, gget_cons, gget_append, gget_opt]
  have g3 : KeyFile.gget (updateKvs m) c!"description" = m.description.map strVal := by
    simp [updateKvs, gget_cons, gget_append, gget_opt]
  have g4 : KeyFile.gget (updateKvs m) c!"build" = m.build.map strVal := by
    simp [updateKvs, gget_cons, gget_append, gget_opt]
  have g5 : KeyFile.gget (updateKvs m) c!"min-rauc-version" = (none : Option Str).map strVal := by
    simp [updateKvs, gget_cons, gget_append, gget_opt]
  have n1 : noKeysLeft (updateKvs m) [c!"compatible", c!"version", c!"description", c!"build", c!"min-rauc-version"] [] = true := by
    have : updateKvs m = opt c!"compatible" (some m.compatible) ++
      (opt c!"version" m.version ++ opt c!"description" m.description ++ opt c!"build" m.build) := rfl
    rw [this]
    simp only [nkl_append, Bool.and_eq_true]
    exact ⟨nkl_opt (by simp), ⟨nkl_opt (by simp), nkl_opt (by simp)⟩, nkl_opt (by simp)⟩
  have a1 : KeyFile.gget (handlerKvs m) c!"filename" = m.handlerName.map strVal := by
    simp [handlerKvs, gget_append, gget_opt]
  have a2 : KeyFile.gget (handlerKvs m) c!"args" = m.handlerArgs.map strVal := by
    simp [handlerKvs, gget_append, gget_opt]
  have n2 : noKeysLeft (handlerKvs m) [c!"filename", c!"args"] [] = true := by
    unfold handlerKvs
    simp only [nkl_append, Bool.and_eq_true]
    exact ⟨nkl_opt (by simp), nkl_opt (by simp)⟩
  have b1 : KeyFile.gget (hooksKvs m) c!"filename" = m.hookName.map strVal := by
    simp [hooksKvs, gget_append, gget_opt, gget_ite, gget_cons, gget_nil]
  have b2 : KeyFile.gget (hooksKvs m) c!"hooks" = (if m.installCheck then some [c!"install-check"] else none).map listVal := by
    simp only [hooksKvs, gget_append, gget_opt, gget_ite, gget_cons, gget_nil]
    cases m.installCheck <;> simp
  have n3 : noKeysLeft (hooksKvs m) [c!"filename"] [c!"hooks"] = true := by
    unfold hooksKvs
    simp only [nkl_append, Bool.and_eq_true]
    exact ⟨nkl_opt (by simp), nkl_ite (nkl_one (by decide)) rfl⟩
  rw [str_of g1 (val_some h.compatible), str_of g2 h.version, str_of g3 h.description, str_of g4 h.build, str_of g5 val_none, n1,
    parseBundle_of h, str_of a1 h.handler.1, str_of a2 h.handler.2.1, n2, str_of b1 h.hook, strList_of b2, n3]
  have hh : (m.handlerArgs.isSome && m.handlerName.isNone) = false := by
    have := h.handler.2.2
    cases ha : m.handlerArgs <;> cases hn : m.handlerName <;> simp_all
  have hgroups : parseGroups (prepare m) = some (m.images, m.metas) := by
    rw [prepare_eq]
    simp only [List.append_assoc]
    rw [parseGroups_grp _ _ (by decide), parseGroups_grp _ _ (by decide), parseGroups_grp _ _ (by decide), parseGroups_grp _ _ (by decide)]
    unfold others
    rw [parseGroups_images m.images _ h.images, parseGroups_metas m.metas (fun g hg => ⟨(h.metas g hg).1, (h.metas g hg).2.1, (h.metas g hg).2.2.2⟩)]
    simp
  simp only [hh, hgroups, Bool.not_true, Bool.false_eq_true, if_false, Bool.or_false, Bool.or_self]
  obtain ⟨e1, e2⟩ := h.meta'
  cases hi : m.installCheck with
  | false =>
    simp only [Bool.false_eq_true, if_false, Option.getD_none, List.all_nil, List.isEmpty_nil, Bool.not_true, Option.some.injEq]
    cases m; simp_all
  | true =>
    simp only [if_true, Option.getD_some, List.all_cons, beq_self_eq_true, List.all_nil, Bool.and_self, Bool.not_true, Bool.false_eq_true, if_false,
      List.isEmpty_cons, Bool.not_false, Option.some.injEq]
    cases m; simp_all

/-- Finding against C50: the required version is never written. The signed manifest of a verity or crypt bundle is always such a copy,
so the requirement the author stated is never enforced by a device. -/
theorem C50_finding_min_version_lost (m m' : Manifest) (h : ManifestWf m) (hp : parse (reload (prepare m)) = some m') : m'.minRaucVersion = none := by
  rw [C50_roundtrip_partial m h] at hp
  cases hp
  rfl

/-! ## A concrete manifest with all kinds of sections -/

theorem clean_of {s : Str} (h1 : s.head? ≠ some FF) (h2 : s.getLast?.all (fun c => c ≠ ' ' && c ≠ '\t' && c ≠ FF) = true) : Clean s :=
  ⟨h1, fun c hc => by rw [hc] at h2; simpa [and_assoc] using h2⟩

theorem val_of {s : Str} (h0 : s ≠ []) (h1 : s.head? ≠ some FF) (h2 : s.getLast?.all (fun c => c ≠ ' ' && c ≠ '\t' && c ≠ FF) = true) :
    Val (some s) := val_some ⟨h0, clean_of h1 h2⟩

def rtImage : Image :=
  { slotclass := c!"rootfs", variant := some c!"board.v2", sha256 := true, digest := some digest0, size := 4096,
    filename := some c!"rootfs.ext4", typ := some c!"ext4", typeFromExt := true,
    hooks := { preInstall := true, postInstall := true }, adaptive := some [c!"block-hash-index"] }

def rtArtifact : Image :=
  { slotclass := c!"files", artifact := some c!"app-1", sha256 := true, digest := some digest0, size := 7, filename := some c!"a;b\\c.tar",
    convert := some [c!"tar-extract"], converted := some [c!" d;"] }

def rt : Manifest :=
  { compatible := c!" My Board", version := some c!"1.0;\n2", format := .crypt, formatExplicit := true, verityHash := some digest0,
    veritySalt := some digest0, veritySize := 8192, cryptKey := some digest0, hookName := some c!"hook.sh", installCheck := true,
    images := [rtImage, rtArtifact], metas := [(c!"release", [(c!"Notes", c!"x y")])] }

theorem val_digest0 : Val (some digest0) := val_of (by decide) (by decide) (by decide)

theorem rtImage_wf : ImageWf rtImage where
  slotclass := by decide
  artifact := by intro a h; cases h
  sha256 := by decide
  digest := val_digest0
  size := by decide
  filename := val_of (by decide) (by decide) (by decide)
  artType := by decide
  derived := fun _ => ⟨by decide, c!"rootfs.ext4", c!"ext4", rfl, by decide, rfl⟩
  typ := val_of (by decide) (by decide) (by decide)
  known := fun _ _ => ⟨c!"ext4", rfl, by decide⟩
  adaptive := by intro l h; cases h; decide
  convert := by intro l h; cases h
  converted := by intro l h; cases h
  convertedNonempty := by decide
  content := by decide

theorem rtArtifact_wf : ImageWf rtArtifact where
  slotclass := by decide
  artifact := by intro a h; cases h; decide
  sha256 := by decide
  digest := val_digest0
  size := by decide
  filename := val_of (by decide) (by decide) (by decide)
  artType := by decide
  derived := fun h => absurd h (by decide)
  typ := val_none
  known := fun h => absurd h (by decide)
  adaptive := by intro l h; cases h
  convert := by intro l h; cases h; decide
  converted := by intro l h; cases h; decide
  convertedNonempty := by decide
  content := by decide

theorem rt_wf : ManifestWf rt where
  compatible := ⟨by decide, clean_of (by decide) (by decide)⟩
  version := val_of (by decide) (by decide) (by decide)
  description := val_none
  build := val_none
  plain := by decide
  explicit := by decide
  key := by decide
  verityHash := val_digest0
  veritySalt := val_digest0
  cryptKey := val_digest0
  veritySize := by decide
  handler := ⟨val_none, val_none, by decide⟩
  hook := val_of (by decide) (by decide) (by decide)
  images := by
    intro i hi
    simp only [rt, List.mem_cons, List.not_mem_nil, or_false] at hi
    rcases hi with rfl | rfl
    · exact rtImage_wf
    · exact rtArtifact_wf
  targets := by decide
  metas := by
    intro g hg
    simp only [rt, List.mem_cons, List.not_mem_nil, or_false] at hg
    subst hg
    refine ⟨?_, by decide, by decide, ?_⟩
    · unfold KeyChar; decide
    · intro kv hkv
      simp only [List.mem_cons, List.not_mem_nil, or_false] at hkv
      subst hkv
      refine ⟨?_, by decide, clean_of (by decide) (by decide)⟩
      unfold KeyChar; decide
  metaNames := by decide
  meta' := by decide

example : parse (reload (prepare rt)) = some rt := C50_roundtrip_partial rt rt_wf

/-- The hypothesis is needed: GLib drops blanks at the end of a value. -/
theorem C50_finding_trailing_blank :
    parse (reload (prepare { rt with version := some c!"1 " })) = some { rt with version := some c!"1" } := by decide

/-- The hypothesis is needed: a meta section without keys disappears. -/
theorem C50_finding_empty_meta : parse (reload (prepare { rt with metas := [(c!"a", [])] })) = some { rt with metas := [] } := by decide

/-- Instance of the finding: the author requires RAUC 1.15, the device running 1.14 accepts what is in the bundle. -/
theorem C50_finding_version_unenforced :
    ∃ m m' : Manifest, checkExternal c!"1.14" m = none ∧ checkExternal c!"1.15" m ≠ none ∧ parse (reload (prepare m)) = some m' ∧
      checkExternal c!"1.14" m' ≠ none :=
  ⟨{ rt with minRaucVersion := some c!"1.15" }, rt, by decide, by decide, by decide, by decide⟩

end Rauc.ManifestFile
