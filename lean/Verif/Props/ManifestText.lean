import Verif.Props.ManifestRound2
import Verif.Props.ManifestTypes

/-!
# C50: manifests as they come from texts

The conditions of the round trip, stated for the text of the manifest instead of the parsed manifest.
-/

namespace Rauc.ManifestFile

open Utils Handlers

/-! ## Specification -/

/-- Specification: a text that can be written again without loss. Everything that GLib's key files cannot keep is excluded:
repeated names, blanks (written as `\s` or `\t`) at the end of values, empty sections and lists; further sizes of 2^63 and more. -/
structure TextOk (kf : KeyFile) : Prop where
  /-- GLib merges repeated sections -/
  groups : (kf.map Prod.fst).Nodup
  /-- ... and replaces repeated keys -/
  keys : ∀ g ∈ kf, (g.2.map Prod.fst).Nodup
  values : ∀ g ∈ kf, ∀ kv ∈ g.2, ∀ s, unescape kv.2 = some s → Clean s
  lists : ∀ g ∈ kf, ∀ kv ∈ g.2, ∀ l, parseList [] kv.2 = some l → ∀ s ∈ l, s.head? ≠ some FF
  /-- `[image.]`, `[image..x]`, `[image./x]` -/
  images : ∀ g ∈ kf, ∀ rest, g.1 = c!"image." ++ rest → rest ≠ [] ∧ rest.head? ≠ some '.' ∧ rest.head? ≠ some '/'
  sizes : ∀ g ∈ kf, ∀ raw n, (c!"size", raw) ∈ g.2 → kfUint64 raw = some n → n < 2 ^ 63
  converted : ∀ g ∈ kf, ∀ raw, (c!"converted", raw) ∈ g.2 → raw ≠ []
  metas : ∀ g ∈ kf, c!"meta." <+: g.1 → g.2 ≠ []

/-! ## Parts -/

theorem gget_mem {kvs : Kvs} {k v : Str} (h : KeyFile.gget kvs k = some v) : (k, v) ∈ kvs := by
  unfold KeyFile.gget at h
  rw [Option.map_eq_some_iff] at h
  obtain ⟨⟨a, b⟩, h1, rfl⟩ := h
  have h2 := List.find?_some h1
  have h3 := List.mem_of_find?_eq_some h1
  simp only [beq_iff_eq] at h2
  subst h2
  exact h3

theorem group_mem {kf : KeyFile} {k : Str} {v : Kvs} (h : KeyFile.group kf k = some v) : (k, v) ∈ kf := by
  unfold KeyFile.group at h
  rw [Option.map_eq_some_iff] at h
  obtain ⟨⟨a, b⟩, h1, rfl⟩ := h
  have h2 := List.find?_some h1
  have h3 := List.mem_of_find?_eq_some h1
  simp only [beq_iff_eq] at h2
  subst h2
  exact h3

/-- values of one section -/
def KvsOk (kvs : Kvs) : Prop := ∀ kv ∈ kvs, ∀ s, unescape kv.2 = some s → Clean s

theorem consume_ok {kvs : Kvs} {k s : Str} (h : consume kvs k = .ok s) : ∃ raw, (k, raw) ∈ kvs ∧ unescape raw = some s ∧ s ≠ [] := by
  unfold consume at h
  split at h
  · cases h
  rename_i raw hr
  split at h
  · cases h
  · cases h
  · rename_i s' hs hu
    cases h
    exact ⟨raw, gget_mem hr, hu, hs⟩

theorem str_ok {kvs : Kvs} {k s : Str} (h : str kvs k = some s) : consume kvs k = .ok s := by
  unfold str at h
  split at h
  · rename_i s' hs
    cases h
    exact hs
  · cases h

theorem str_val {kvs : Kvs} (h : KvsOk kvs) (k : Str) : Val (str kvs k) := by
  intro s hs
  obtain ⟨raw, h1, h2, h3⟩ := consume_ok (str_ok hs)
  exact ⟨h3, h _ h1 s h2⟩

theorem optGot_val {kvs : Kvs} (h : KvsOk kvs) {k : Str} {o : Option Str} (ho : optGot (consume kvs k) = some o) : Val o := by
  intro s hs
  subst hs
  unfold optGot at ho
  split at ho
  · cases ho
  · cases ho
  · rename_i s' hs
    cases ho
    obtain ⟨raw, h1, h2, h3⟩ := consume_ok hs
    exact ⟨h3, h _ h1 s h2⟩

theorem parseList_nil : ∀ (s acc : Str), parseList acc s = some [] → s = [] := by
  have : ∀ (n : Nat) (s acc : Str), s.length ≤ n → s ≠ [] → parseList acc s ≠ some [] := by
    intro n
    induction n with
    | zero => intro s acc hl hs; exact absurd (List.length_eq_zero_iff.1 (Nat.le_zero.1 hl)) hs
    | succ n ih =>
      have step : ∀ (s acc : Str), s.length ≤ n → acc ≠ [] → parseList acc s ≠ some [] := by
        intro s acc hl ha
        by_cases hs : s = []
        · subst hs; simp [parseList, ha]
        · exact ih s acc hl hs
      intro s acc hl hs
      cases s with
      | nil => exact absurd rfl hs
      | cons c cs =>
        by_cases hb : c = '\\'
        · subst hb
          cases cs with
          | nil => simp [parseList]
          | cons d ds =>
            have hlen : ds.length ≤ n := by simp at hl; omega
            rw [parseList]
            split
            · exact step _ _ hlen (by simp)
            · split
              · simp
              · exact step _ _ hlen (by simp)
        · by_cases hc : c = ';'
          · subst hc
            rw [parseList_sep]
            cases parseList [] cs <;> simp
          · rw [parseList_cons hb hc]
            exact step _ _ (by simpa using hl) (by simp)
  intro s acc h
  exact Decidable.not_not.1 (fun hs => this _ s acc (Nat.le_refl _) hs h)

theorem cutFirst_spec (d : Char) (s : Str) : d ∉ (cutFirst d s).1 ∧ s = (cutFirst d s).1 ++ (match (cutFirst d s).2 with | none => [] | some r => d :: r) := by
  induction s with
  | nil => exact ⟨by simp [cutFirst], by simp [cutFirst]⟩
  | cons c cs ih =>
    unfold cutFirst
    split
    · rename_i h
      subst h
      exact ⟨by simp, by simp⟩
    · rename_i h
      refine ⟨?_, ?_⟩
      · simp only [List.mem_cons, not_or]
        exact ⟨fun e => h e.symm, ih.1⟩
      · simp only [List.cons_append]
        rw [← ih.2]

theorem cutFirst_head {d : Char} {s : Str} (h1 : s ≠ []) (h2 : s.head? ≠ some d) : (cutFirst d s).1 ≠ [] := by
  cases s with
  | nil => exact absurd rfl h1
  | cons c cs =>
    unfold cutFirst
    rw [if_neg (by rintro rfl; exact h2 rfl)]
    simp

theorem stripPrefix_some : ∀ {p s r : Str}, stripPrefix p s = some r → s = p ++ r
  | [], s, r, h => by simp only [stripPrefix, Option.some.injEq] at h; simp [h]
  | c :: p, [], r, h => by simp [stripPrefix] at h
  | c :: p, d :: s, r, h => by
    rw [stripPrefix] at h
    split at h
    · rename_i e
      subst e
      rw [stripPrefix_some h]; rfl
    · cases h

theorem parseImage_fields {rest : Str} {kvs : Kvs} {i : Image} (h : parseImage rest kvs = some i) :
    imageTarget i = rest ∧ i.slotclass = (cutFirst '/' (cutFirst '.' rest).1).1 ∧ i.artifact = (cutFirst '/' (cutFirst '.' rest).1).2 ∧
    (∃ n, parseSize kvs = some n ∧ i.size = n) ∧ optGot (consume kvs c!"filename") = some i.filename ∧
    parseType i.artifact.isSome i.hooks.install i.filename (consume kvs c!"type") = some (i.typ, i.typeFromExt) ∧
    i.sha256 = i.digest.isSome ∧ i.digest = str kvs c!"sha256" ∧ i.adaptive = strList kvs c!"adaptive" ∧ i.convert = strList kvs c!"convert" ∧ i.converted = strList kvs c!"converted" := by
  unfold parseImage at h
  simp only at h
  split at h
  · cases h
  rename_i size hsize
  split at h
  · cases h
  rename_i hooks hhooks
  split at h
  · cases h
  rename_i filename hfile
  split at h
  · cases h
  rename_i ty hty
  rw [Option.ite_none_right_eq_some] at h
  obtain ⟨_, h⟩ := h
  cases h
  refine ⟨?_, rfl, rfl, ⟨size, hsize, rfl⟩, hfile, hty, rfl, rfl, rfl, rfl, rfl⟩
  unfold imageTarget
  simp only
  have e1 := (cutFirst_spec '.' rest).2
  have e2 := (cutFirst_spec '/' (cutFirst '.' rest).1).2
  conv => rhs; rw [e1, e2]
  rfl

theorem parseImage_wf {rest : Str} {kvs : Kvs} {i : Image} (h : parseImage rest kvs = some i) (hk : KvsOk kvs)
    (hl : ∀ kv ∈ kvs, ∀ l, parseList [] kv.2 = some l → ∀ s ∈ l, s.head? ≠ some FF) (hr : rest ≠ [] ∧ rest.head? ≠ some '.' ∧ rest.head? ≠ some '/')
    (hs : ∀ raw n, (c!"size", raw) ∈ kvs → kfUint64 raw = some n → n < 2 ^ 63) (hcv : ∀ raw, (c!"converted", raw) ∈ kvs → raw ≠ [])
    (hc : i.filename = none → i.typ = some c!"emptyfs" ∨ i.hooks.install = true) : ImageWf i := by
  obtain ⟨-, h1, h2, ⟨n, hn, h3⟩, h4, h5, h6, h7, h8, h9, h10⟩ := parseImage_fields h
  have lists : ∀ {k : Str} {o : Option (List Str)}, o = strList kvs k → Vals o := by
    intro k o ho l hol
    subst ho
    unfold strList at hol
    rw [Option.bind_eq_some_iff] at hol
    obtain ⟨raw, hraw, hp⟩ := hol
    exact hl _ (gget_mem hraw) l hp
  have hfile : Val i.filename := optGot_val hk h4
  have htyp : (i.artifact ≠ none → i.typ = none ∧ i.typeFromExt = false) ∧
      (i.typeFromExt = true → i.hooks.install = false ∧ ∃ f t, i.filename = some f ∧ deriveType f = some t ∧ i.typ = some t) ∧ Val i.typ ∧
      (i.artifact = none → i.hooks.install = false → ∃ t, i.typ = some t ∧ typeSupported t = true) := by
    cases ha : i.artifact with
    | some a =>
      rw [ha] at h5
      simp only [parseType, Option.isSome_some, if_true, Option.some.injEq, Prod.mk.injEq] at h5
      obtain ⟨e1, e2⟩ := h5
      rw [← e1, ← e2]
      exact ⟨fun _ => ⟨rfl, rfl⟩, by simp, val_none, by simp⟩
    | none =>
      rw [ha] at h5
      simp only [parseType, Option.isSome_none, Bool.false_eq_true, if_false] at h5
      split at h5
      · cases h5
      · rename_i t ht
        split at h5
        · rename_i hsup
          simp only [Option.some.injEq, Prod.mk.injEq] at h5
          obtain ⟨e1, e2⟩ := h5
          rw [← e1, ← e2]
          refine ⟨by simp, by simp, ?_, ?_⟩
          · obtain ⟨raw, r1, r2, r3⟩ := consume_ok ht
            exact val_some ⟨r3, hk _ r1 t r2⟩
          · intro _ hi
            rw [hi, Bool.false_or] at hsup
            exact ⟨t, rfl, hsup⟩
        · cases h5
      · split at h5
        · rename_i hi
          simp only [Option.some.injEq, Prod.mk.injEq] at h5
          obtain ⟨e1, e2⟩ := h5
          rw [← e1, ← e2]
          exact ⟨by simp, by simp, val_none, by simp [hi]⟩
        · rename_i hi
          split at h5
          · cases h5
          rename_i f hf
          split at h5
          · cases h5
          rename_i t ht
          split at h5
          · rename_i hsup
            simp only [Option.some.injEq, Prod.mk.injEq] at h5
            obtain ⟨e1, e2⟩ := h5
            rw [← e1, ← e2]
            refine ⟨by simp, fun _ => ⟨by simpa using hi, f, t, hf, ht, rfl⟩, ?_, fun _ _ => ⟨t, rfl, hsup⟩⟩
            have hall : ∀ e ∈ extTypeMap, e.2 ≠ [] ∧ e.2.head? ≠ some FF ∧ ∀ c, e.2.getLast? = some c → c ≠ ' ' ∧ c ≠ '\t' ∧ c ≠ FF := by
              have : ∀ e ∈ extTypeMap, e.2 ≠ [] ∧ e.2.head? ≠ some FF ∧ e.2.getLast?.all (fun c => !(c == ' ') && !(c == '\t') && !(c == FF)) = true := by decide
              intro e he
              obtain ⟨a, b, c⟩ := this e he
              refine ⟨a, b, ?_⟩
              intro x hx
              rw [hx] at c
              simp only [Option.all_some, Bool.and_eq_true, Bool.not_eq_true', beq_eq_false_iff_ne] at c
              exact ⟨c.1.1, c.1.2, c.2⟩
            unfold deriveType at ht
            rw [Option.map_eq_some_iff] at ht
            obtain ⟨e, he, rfl⟩ := ht
            obtain ⟨a, b, c⟩ := hall e (List.mem_of_find?_eq_some he)
            exact val_some ⟨a, b, c⟩
          · cases h5
  exact {
    slotclass := by
      rw [h1]
      have hd := cutFirst_spec '.' rest
      have hs := cutFirst_spec '/' (cutFirst '.' rest).1
      refine ⟨?_, ?_, hs.1⟩
      · refine cutFirst_head (cutFirst_head hr.1 hr.2.1) ?_
        intro e
        apply hr.2.2
        rw [hd.2]
        cases hx : (cutFirst '.' rest).1 with
        | nil => rw [hx] at e; cases e
        | cons a l => rw [hx] at e; exact e
      · intro hm
        apply hd.1
        rw [hs.2]
        exact List.mem_append_left _ hm
    artifact := by
      intro a ha hm
      have hd := cutFirst_spec '.' rest
      have hs := cutFirst_spec '/' (cutFirst '.' rest).1
      apply hd.1
      rw [hs.2, ← h2, ha]
      exact List.mem_append_right _ (List.mem_cons_of_mem _ hm)
    sha256 := h6
    digest := by rw [h7]; exact str_val hk _
    size := by
      rw [h3]
      unfold parseSize at hn
      split at hn
      · cases hn; exact .inl rfl
      · rename_i raw hraw
        split at hn
        · cases hn
        · rename_i k hkk
          cases hn
          have := hs raw k (gget_mem hraw) hkk
          right
          unfold toOffset
          rw [if_pos this]
          omega
    filename := hfile
    artType := htyp.1
    derived := htyp.2.1
    typ := htyp.2.2.1
    known := htyp.2.2.2
    adaptive := lists h8
    convert := lists h9
    converted := lists h10
    convertedNonempty := by
      rw [h10]
      intro e
      unfold strList at e
      rw [Option.bind_eq_some_iff] at e
      obtain ⟨raw, hraw, hp⟩ := e
      exact hcv raw (gget_mem hraw) (parseList_nil _ _ hp)
    content := hc }

theorem parseMetaKeys_spec : ∀ {kvs r : Kvs}, parseMetaKeys kvs = some r → r.map Prod.fst = kvs.map Prod.fst ∧ (kvs ≠ [] → r ≠ []) ∧
    ∀ kv ∈ r, (∀ c ∈ kv.1, KeyChar c) ∧ kv.2 ≠ [] ∧ ∃ x ∈ kvs, unescape x.2 = some kv.2
  | [], r, h => by
    simp only [parseMetaKeys, Option.some.injEq] at h
    subst h
    exact ⟨rfl, fun h => absurd rfl h, by simp⟩
  | (k, raw) :: l, r, h => by
    rw [parseMetaKeys] at h
    split at h
    · cases h
    · cases h
    rename_i v hv hu
    split at h
    · cases h
    rename_i ek hek
    split at h
    · cases h
    rename_i r' hr'
    cases h
    obtain ⟨h1, -, h3⟩ := parseMetaKeys_spec hr'
    refine ⟨by simp [h1], fun _ => by simp, ?_⟩
    intro kv hkv
    rcases List.mem_cons.1 hkv with rfl | hkv
    · exact ⟨((C27_key_exact k _).1 hek).1, hv, (k, raw), by simp, hu⟩
    · obtain ⟨a, b, x, hx, hxu⟩ := h3 kv hkv
      exact ⟨a, b, x, List.mem_cons_of_mem _ hx, hxu⟩

/-- images and meta sections, in the order of the text -/
theorem parseGroups_spec : ∀ {kf : KeyFile} {imgs : List Image} {metas : List (Str × Kvs)}, parseGroups kf = some (imgs, metas) →
    (imgs.map (fun i => c!"image." ++ imageTarget i)).Sublist (kf.map Prod.fst) ∧ (metas.map (fun m => c!"meta." ++ m.1)).Sublist (kf.map Prod.fst) ∧
    ∀ m ∈ metas, ∃ g ∈ kf, g.1 = c!"meta." ++ m.1 ∧ parseMeta m.1 g.2 = some m
  | [], imgs, metas, h => by
    simp only [parseGroups, Option.some.injEq, Prod.mk.injEq] at h
    rw [← h.1, ← h.2]
    exact ⟨List.Sublist.refl _, List.Sublist.refl _, by simp⟩
  | (g, kvs) :: l, imgs, metas, h => by
    rw [parseGroups] at h
    cases hl : parseGroups l with
    | none => rw [hl] at h; cases h
    | some p =>
      obtain ⟨im, me⟩ := p
      obtain ⟨s1, s2, s3⟩ := parseGroups_spec hl
      have s3' : ∀ m ∈ me, ∃ g' ∈ (g, kvs) :: l, g'.1 = c!"meta." ++ m.1 ∧ parseMeta m.1 g'.2 = some m := by
        intro m hm
        obtain ⟨g', hg', r⟩ := s3 m hm
        exact ⟨g', List.mem_cons_of_mem _ hg', r⟩
      rw [hl] at h
      simp only at h
      split at h
      · cases h
        exact ⟨s1.cons _, s2.cons _, s3'⟩
      · split at h
        · rename_i rest hr
          split at h
          · cases h
          · rename_i i hi
            cases h
            refine ⟨?_, s2.cons _, s3'⟩
            rw [List.map_cons, List.map_cons, (parseImage_fields hi).1, ← stripPrefix_some hr]
            exact s1.cons_cons _
        · split at h
          · rename_i rest hr
            split at h
            · cases h
            · rename_i m hm
              cases h
              have e : m.1 = rest := by
                unfold parseMeta at hm
                split at hm
                · cases hm
                split at hm
                · cases hm
                split at hm
                · cases hm
                cases hm; rfl
              refine ⟨s1.cons _, ?_, ?_⟩
              · rw [List.map_cons, List.map_cons, e, ← stripPrefix_some hr]
                exact s2.cons_cons _
              · intro m' hm'
                rcases List.mem_cons.1 hm' with rfl | hm'
                · exact ⟨(g, kvs), by simp, by rw [e]; exact stripPrefix_some hr, by rw [e]; exact hm⟩
                · exact s3' m' hm'
          · cases h

theorem kfUint64_lt {s : Str} {n : Nat} (h : kfUint64 s = some n) : n < 2 ^ 64 := by
  unfold kfUint64 at h
  split at h
  · simp only [Option.some.injEq] at h
    have : n ≤ u64max := by rw [← h]; exact Nat.min_le_right _ _
    unfold u64max at this
    omega
  · cases h

theorem parseBundle_wf {kvs : Kvs} {b : BundleInfo} (h : parseBundle kvs = some b) (hk : KvsOk kvs) :
    (b.format = .plain → b.hash = none ∧ b.salt = none ∧ b.size = 0) ∧ (b.format ≠ .plain → b.explicit = true) ∧ (b.format ≠ .crypt → b.key = none) ∧
    Val b.hash ∧ Val b.salt ∧ Val b.key ∧ b.size < 2 ^ 64 := by
  have hsz : ((KeyFile.gget kvs c!"verity-size").bind kfUint64).getD 0 < 2 ^ 64 := by
    cases hx : (KeyFile.gget kvs c!"verity-size").bind kfUint64 with
    | none => decide
    | some n =>
      rw [Option.bind_eq_some_iff] at hx
      obtain ⟨raw, -, hn⟩ := hx
      exact kfUint64_lt hn
  unfold parseBundle at h
  split at h
  · split at h
    · cases h
      exact ⟨fun _ => ⟨rfl, rfl, rfl⟩, fun h => absurd rfl h, fun _ => rfl, val_none, val_none, val_none, by decide⟩
    · cases h
  · split at h
    · split at h
      · cases h
        exact ⟨fun _ => ⟨rfl, rfl, rfl⟩, fun h => absurd rfl h, fun _ => rfl, val_none, val_none, val_none, by decide⟩
      · cases h
    split at h
    · split at h
      · cases h
        exact ⟨fun h => (by cases h), fun _ => rfl, fun _ => rfl, str_val hk _, str_val hk _, val_none, hsz⟩
      · cases h
    split at h
    · split at h
      · cases h
        exact ⟨fun h => (by cases h), fun _ => rfl, fun h => absurd rfl h, str_val hk _, str_val hk _, str_val hk _, hsz⟩
      · cases h
    · cases h

/-- what the parser makes of such a text is a manifest that can be written without loss -/
theorem parse_wf {kf : KeyFile} {m : Manifest} (hp : parse kf = some m) (h : TextOk kf)
    (hc : ∀ i ∈ m.images, i.filename = none → i.typ = some c!"emptyfs" ∨ i.hooks.install = true) : ManifestWf m := by
  have hgrp : ∀ g : Str, KvsOk ((kf.group g).getD []) := by
    intro g
    cases hg : kf.group g with
    | none => intro kv hkv; cases hkv
    | some kvs => exact h.values _ (group_mem hg)
  unfold parse at hp
  simp only at hp
  split at hp
  · cases hp
  rename_i compatible hcomp
  split at hp
  · cases hp
  split at hp
  · cases hp
  rename_i b hb
  split at hp
  · cases hp
  rename_i hhand
  split at hp
  · cases hp
  split at hp
  · cases hp
  rename_i imgs metas hgs
  cases hp
  obtain ⟨b1, b2, b3, b4, b5, b6, b7⟩ := parseBundle_wf hb (hgrp _)
  obtain ⟨s1, s2, s3⟩ := parseGroups_spec hgs
  exact {
    compatible := str_val (hgrp _) _ _ hcomp
    version := str_val (hgrp _) _
    description := str_val (hgrp _) _
    build := str_val (hgrp _) _
    plain := b1, explicit := b2, key := b3, verityHash := b4, veritySalt := b5, cryptKey := b6, veritySize := b7
    handler := by
      refine ⟨str_val (hgrp _) _, str_val (hgrp _) _, ?_⟩
      intro ha hf
      apply hhand
      simp only at ha hf
      obtain ⟨a, ha'⟩ := Option.ne_none_iff_exists'.1 ha
      rw [ha', hf]
      rfl
    hook := str_val (hgrp _) _
    images := by
      intro i hi
      obtain ⟨g, hg, rest, hr, hpi⟩ := parseGroups_mem hgs i hi
      exact parseImage_wf hpi (h.values g hg) (h.lists g hg) (h.images g hg rest (stripPrefix_some hr)) (h.sizes g hg) (h.converted g hg) (hc i hi)
    targets := by
      have hn : (imgs.map (fun i => c!"image." ++ imageTarget i)).Nodup := s1.nodup h.groups
      rw [List.nodup_iff_pairwise_ne, List.pairwise_map] at hn ⊢
      refine hn.imp ?_
      intro a b hab e
      apply hab
      unfold target at e
      simp only [Prod.mk.injEq] at e
      unfold imageTarget
      rw [e.1, e.2.1, e.2.2]
    metas := by
      intro g hg
      obtain ⟨g', hg', e1, e2⟩ := s3 g hg
      unfold parseMeta at e2
      split at e2
      · cases e2
      split at e2
      · cases e2
      rename_i ek hek
      split at e2
      · cases e2
      rename_i r hr
      obtain ⟨n, kvs⟩ := g
      simp only [Option.some.injEq, Prod.mk.injEq, true_and] at e2
      subst e2
      obtain ⟨k1, k2, k3⟩ := parseMetaKeys_spec hr
      refine ⟨((C27_key_exact n _).1 hek).1, k2 (h.metas g' hg' ⟨n, e1.symm⟩), by rw [k1]; exact h.keys g' hg', ?_⟩
      intro kv hkv
      obtain ⟨a, b, x, hx, hxu⟩ := k3 kv hkv
      exact ⟨a, b, h.values g' hg' x hx _ hxu⟩
    metaNames := by
      have hn : (metas.map (fun i => c!"meta." ++ i.1)).Nodup := s2.nodup h.groups
      rw [List.nodup_iff_pairwise_ne, List.pairwise_map] at hn ⊢
      refine hn.imp ?_
      intro a b hab e
      apply hab
      rw [e]
    meta' := ⟨rfl, rfl⟩ }

/-- **C50** (partial: everything except `min-rauc-version`) A manifest that was read from a text is the same after being written and read back. -/
theorem C50_text_partial (kf : KeyFile) (h : TextOk kf) (m : Manifest) (hp : parse kf = some m)
    (hc : ∀ i ∈ m.images, i.filename = none → i.typ = some c!"emptyfs" ∨ i.hooks.install = true) : parse (reload (prepare m)) = some { m with minRaucVersion := none } :=
  C50_roundtrip_partial m (parse_wf hp h hc)

/-- the last character of a value comes from the last character of the raw value, or from an escape sequence at its end -/
theorem unescape_last : ∀ {raw s : Str}, unescape raw = some s → ∀ c, s.getLast? = some c → raw.getLast? = some c ∨ ∃ p e, raw = p ++ ['\\', e] ∧ unescapeChar e = some c
  | [], s, h, c, hc => by
    simp only [unescape, Option.some.injEq] at h
    subst h; cases hc
  | [a], s, h, c, hc => by
    by_cases ha : a = '\\'
    · subst ha; simp [unescape] at h
    · rw [unescape_cons ha] at h
      simp only [unescape, Option.map_some, Option.some.injEq] at h
      subst h
      exact .inl hc
  | a :: b :: l, s, h, c, hc => by
    by_cases ha : a = '\\'
    · subst ha
      cases hu : unescapeChar b with
      | none => simp [unescape, hu] at h
      | some d =>
        rw [unescape_esc hu] at h
        simp only [Option.map_eq_some_iff] at h
        obtain ⟨r, hr, rfl⟩ := h
        cases r with
        | nil =>
          have hl : l = [] := by
            cases l with
            | nil => rfl
            | cons x y =>
              by_cases hx : x = '\\'
              · subst hx
                cases y with
                | nil => simp [unescape] at hr
                | cons z y =>
                  cases hz : unescapeChar z with
                  | none => simp [unescape, hz] at hr
                  | some w => rw [unescape_esc hz] at hr; simp [Option.map_eq_some_iff] at hr
              · rw [unescape_cons hx] at hr; simp [Option.map_eq_some_iff] at hr
          subst hl
          simp only [List.getLast?_singleton, Option.some.injEq] at hc
          subst hc
          exact .inr ⟨[], b, rfl, hu⟩
        | cons x r =>
          rcases unescape_last hr c (by rw [← hc]; simp) with h1 | ⟨p, e, h1, h2⟩
          · left
            cases l with
            | nil => cases h1
            | cons y l => rw [← h1]; simp
          · exact .inr ⟨'\\' :: b :: p, e, by rw [h1]; rfl, h2⟩
    · rw [unescape_cons ha] at h
      simp only [Option.map_eq_some_iff] at h
      obtain ⟨r, hr, rfl⟩ := h
      cases r with
      | nil =>
        exfalso
        by_cases hx : b = '\\'
        · subst hx
          cases l with
          | nil => simp [unescape] at hr
          | cons z y =>
            cases hz : unescapeChar z with
            | none => simp [unescape, hz] at hr
            | some w => rw [unescape_esc hz] at hr; simp [Option.map_eq_some_iff] at hr
        · rw [unescape_cons hx] at hr; simp [Option.map_eq_some_iff] at hr
      | cons x r =>
        rcases unescape_last hr c (by rw [← hc]; simp) with h1 | ⟨p, e, h1, h2⟩
        · left; rw [← h1]; simp
        · exact .inr ⟨a :: p, e, by rw [h1]; rfl, h2⟩

/-- `TextOk.values` for the values that GLib delivers (it has removed white space around them): only `\s` and `\t` at the end of a value are excluded. -/
theorem values_of_trimmed {raw s : Str} (hf : ∀ c, raw.head? = some c → isSpace c = false) (hl : ∀ c, raw.getLast? = some c → isSpace c = false)
    (h1 : ∀ p, raw ≠ p ++ c!"\\s") (h2 : ∀ p, raw ≠ p ++ c!"\\t") (h : unescape raw = some s) : Clean s := by
  refine ⟨?_, ?_⟩
  · intro hh
    cases raw with
    | nil => simp only [unescape, Option.some.injEq] at h; subst h; cases hh
    | cons a l =>
      by_cases ha : a = '\\'
      · subst ha
        cases l with
        | nil => simp [unescape] at h
        | cons b l =>
          cases hu : unescapeChar b with
          | none => simp [unescape, hu] at h
          | some d =>
            rw [unescape_esc hu] at h
            simp only [Option.map_eq_some_iff] at h
            obtain ⟨r, -, rfl⟩ := h
            simp only [List.head?_cons, Option.some.injEq] at hh
            subst hh
            have : ∀ b, unescapeChar b ≠ some FF := by
              intro b hb
              unfold unescapeChar at hb
              split at hb <;> simp [FF] at hb
              all_goals exact absurd hb (by decide)
            exact this b hu
      · rw [unescape_cons ha] at h
        simp only [Option.map_eq_some_iff] at h
        obtain ⟨r, -, rfl⟩ := h
        simp only [List.head?_cons, Option.some.injEq] at hh
        subst hh
        have := hf FF rfl
        revert this
        decide
  · intro c hc
    rcases unescape_last h c hc with hr | ⟨p, e, he, hu⟩
    · have := hl c hr
      refine ⟨?_, ?_, ?_⟩ <;> (rintro rfl; revert this; decide)
    · unfold unescapeChar at hu
      split at hu
      · exact absurd he (h1 p)
      · cases hu; decide
      · exact absurd he (h2 p)
      · cases hu; decide
      · cases hu; decide
      · cases hu

/-- a check for `TextOk` -/
def textCheck (kf : KeyFile) : Bool :=
  decide (kf.map Prod.fst).Nodup && kf.all (fun g => decide (g.2.map Prod.fst).Nodup &&
    g.2.all (fun kv => (unescape kv.2).all (fun s => s.head? != some FF && s.getLast?.all (fun c => !(c == ' ') && !(c == '\t') && !(c == FF))) &&
      (parseList [] kv.2).all (fun l => l.all (fun s => s.head? != some FF)) && (kv.1 != c!"size" || (kfUint64 kv.2).all (· < 2 ^ 63)) && (kv.1 != c!"converted" || !kv.2.isEmpty)) &&
    (stripPrefix c!"image." g.1).all (fun r => !r.isEmpty && r.head? != some '.' && r.head? != some '/') && (!(c!"meta.".isPrefixOf g.1) || !g.2.isEmpty))

theorem textCheck_ok {kf : KeyFile} (h : textCheck kf = true) : TextOk kf := by
  unfold textCheck at h
  simp only [Bool.and_eq_true, List.all_eq_true, decide_eq_true_eq] at h
  obtain ⟨h1, h2⟩ := h
  refine ⟨h1, fun g hg => (h2 g hg).1.1.1, ?_, ?_, ?_, ?_, ?_, ?_⟩
  · intro g hg kv hkv s hs
    have a := ((h2 g hg).1.1.2 kv hkv).1.1.1
    rw [hs] at a
    simp only [Option.all_some, Bool.and_eq_true, bne_iff_ne] at a
    refine ⟨a.1, ?_⟩
    intro c hc
    have a2 := a.2
    rw [hc] at a2
    simp only [Option.all_some, Bool.and_eq_true, Bool.not_eq_true', beq_eq_false_iff_ne] at a2
    exact ⟨a2.1.1, a2.1.2, a2.2⟩
  · intro g hg kv hkv l hl s hs
    have a := ((h2 g hg).1.1.2 kv hkv).1.1.2
    rw [hl] at a
    simp only [Option.all_some, List.all_eq_true, bne_iff_ne] at a
    exact a s hs
  · intro g hg rest hr
    have a := (h2 g hg).1.2
    rw [hr, stripPrefix_append] at a
    simp only [Option.all_some, Bool.and_eq_true, bne_iff_ne, Bool.not_eq_true', List.isEmpty_eq_false_iff] at a
    exact ⟨a.1.1, a.1.2, a.2⟩
  · intro g hg raw n hm hn
    have a := ((h2 g hg).1.1.2 _ hm).1.2
    simp only [bne_self_eq_false, Bool.false_or, hn, Option.all_some, decide_eq_true_eq] at a
    exact a
  · intro g hg raw hm
    have a := ((h2 g hg).1.1.2 _ hm).2
    simpa using a
  · intro g hg hp
    have a := (h2 g hg).2
    rw [List.isPrefixOf_iff_prefix.2 hp] at a
    simpa using a

/-- the hypotheses are met -/
theorem textOk_ex : TextOk [(c!"update", [(c!"compatible", c!"x"), (c!"version", c!"1\\sa")]), (c!"bundle", [(c!"format", c!"verity")]),
    (c!"image.rootfs.v1", [(c!"filename", c!"r.img"), (c!"hooks", c!"post-install;"), (c!"size", c!"100")]), (c!"hooks", [(c!"filename", c!"h.sh")]), (c!"meta.a", [(c!"b", c!"c")])] :=
  textCheck_ok (by decide)

end Rauc.ManifestFile
