import Verif.Props.Manifest

/-!
# C50: writing a manifest and reading it back
-/

namespace Rauc.ManifestFile

open Utils Handlers

/-! ## Specification -/

/-- form feed, which GLib treats as white space but does not escape -/
def FF : Char := Char.ofNat 12

/-- Specification: a string that GLib's key files keep: no form feed in front, no blank, tab or form feed at the end -/
structure Clean (s : Str) : Prop where
  front : s.head? ≠ some FF
  back : ∀ c, s.getLast? = some c → c ≠ ' ' ∧ c ≠ '\t' ∧ c ≠ FF

/-- Specification: an optional value, if present, is neither empty nor changed by GLib -/
def Val (o : Option Str) : Prop := ∀ s, o = some s → s ≠ [] ∧ Clean s

/-- Specification: the members of an optional list do not start with a form feed -/
def Vals (o : Option (List Str)) : Prop := ∀ l, o = some l → ∀ s ∈ l, s.head? ≠ some FF

/-- Specification: images as the parser creates them -/
structure ImageWf (i : Image) : Prop where
  /-- the three parts of the section name -/
  slotclass : i.slotclass ≠ [] ∧ '.' ∉ i.slotclass ∧ '/' ∉ i.slotclass
  artifact : ∀ a, i.artifact = some a → '.' ∉ a
  /-- the checksum type is set with the digest -/
  sha256 : i.sha256 = i.digest.isSome
  digest : Val i.digest
  size : i.size = -1 ∨ (0 ≤ i.size ∧ i.size < 2 ^ 63)
  filename : Val i.filename
  /-- artifacts have no type -/
  artType : i.artifact ≠ none → i.typ = none ∧ i.typeFromExt = false
  /-- a type that was not given comes from the file name -/
  derived : i.typeFromExt = true → i.hooks.install = false ∧ ∃ f t, i.filename = some f ∧ deriveType f = some t ∧ i.typ = some t
  typ : Val i.typ
  /-- only known types, unless there is an install hook -/
  known : i.artifact = none → i.hooks.install = false → ∃ t, i.typ = some t ∧ typeSupported t = true
  adaptive : Vals i.adaptive
  convert : Vals i.convert
  converted : Vals i.converted
  convertedNonempty : i.converted ≠ some []
  /-- something is to be installed (`ImageOk.missing`) -/
  content : i.filename = none → i.typ = some c!"emptyfs" ∨ i.hooks.install = true

/-- the name of a section for an image -/
def target (i : Image) : Str × Option Str × Option Str := (i.slotclass, i.artifact, i.variant)

/-- Specification: manifests as the parser creates them -/
structure ManifestWf (m : Manifest) : Prop where
  compatible : m.compatible ≠ [] ∧ Clean m.compatible
  version : Val m.version
  description : Val m.description
  build : Val m.build
  /-- payload data appear only in the formats that have them -/
  plain : m.format = .plain → m.verityHash = none ∧ m.veritySalt = none ∧ m.veritySize = 0
  explicit : m.format ≠ .plain → m.formatExplicit = true
  key : m.format ≠ .crypt → m.cryptKey = none
  verityHash : Val m.verityHash
  veritySalt : Val m.veritySalt
  cryptKey : Val m.cryptKey
  veritySize : m.veritySize < 2 ^ 64
  handler : Val m.handlerName ∧ Val m.handlerArgs ∧ (m.handlerArgs ≠ none → m.handlerName ≠ none)
  hook : Val m.hookName
  images : ∀ i ∈ m.images, ImageWf i
  /-- each section name occurs once -/
  targets : (m.images.map target).Nodup
  metas : ∀ g ∈ m.metas, (∀ c ∈ g.1, KeyChar c) ∧ g.2 ≠ [] ∧ (g.2.map Prod.fst).Nodup ∧
    ∀ kv ∈ g.2, (∀ c ∈ kv.1, KeyChar c) ∧ kv.2 ≠ [] ∧ Clean kv.2
  metaNames : (m.metas.map Prod.fst).Nodup
  /-- not part of the text -/
  meta' : m.wasEncrypted = false ∧ m.hash = none

/-! ## GLib values -/

theorem unescape_cons {c : Char} {cs : Str} (h : c ≠ '\\') : unescape (c :: cs) = (unescape cs).map (c :: ·) := by
  rw [unescape.eq_def]
  split
  · simp_all
  · rename_i heq; cases heq; exact absurd rfl h
  · rename_i heq; cases heq; exact absurd rfl h
  · rename_i heq; cases heq; cases unescape cs <;> rfl

theorem unescape_esc {c d : Char} {cs : Str} (h : unescapeChar c = some d) : unescape ('\\' :: c :: cs) = (unescape cs).map (d :: ·) := by
  simp only [unescape, h]
  cases unescape cs <;> rfl

theorem unescape_escape (s : Str) (lead : Bool) : unescape (escape false lead s) = some s := by
  induction s generalizing lead with
  | nil => rfl
  | cons c cs ih =>
    simp only [escape]
    by_cases h1 : c = ' '
    · subst h1
      cases lead
      · simp only [if_true, Bool.false_eq_true, if_false]
        rw [unescape_cons (by decide), ih]; rfl
      · simp only [if_true, List.cons_append, List.nil_append]
        rw [unescape_esc (d := ' ') rfl, ih]; rfl
    · simp only [h1, if_false]
      by_cases h2 : c = '\t'
      · subst h2
        cases lead
        · simp only [if_true, Bool.false_eq_true, if_false]
          rw [unescape_cons (by decide), ih]; rfl
        · simp only [if_true, List.cons_append, List.nil_append]
          rw [unescape_esc (d := '\t') rfl, ih]; rfl
      · simp only [h2, if_false]
        by_cases h3 : c = '\n'
        · subst h3
          simp only [if_true, List.cons_append, List.nil_append]
          rw [unescape_esc (d := '\n') rfl, ih]; rfl
        · simp only [h3, if_false]
          by_cases h4 : c = '\r'
          · subst h4
            simp only [if_true, List.cons_append, List.nil_append]
            rw [unescape_esc (d := '\r') rfl, ih]; rfl
          · simp only [h4, if_false]
            by_cases h5 : c = '\\'
            · subst h5
              simp only [if_true, List.cons_append, List.nil_append]
              rw [unescape_esc (d := '\\') rfl, ih]; rfl
            · simp only [h5, if_false, Bool.false_and, Bool.false_eq_true]
              rw [unescape_cons h5, ih]; rfl

theorem parseList_cons {acc : Str} {c : Char} {cs : Str} (h : c ≠ '\\') (h' : c ≠ ';') :
    parseList acc (c :: cs) = parseList (acc ++ [c]) cs := by
  rw [parseList.eq_def]
  split
  · simp_all
  · rename_i heq; cases heq; exact absurd rfl h
  · rename_i heq; cases heq; exact absurd rfl h
  · rename_i heq; cases heq; rw [if_neg h']

theorem parseList_sep {acc cs : Str} : parseList acc (';' :: cs) = (parseList [] cs).map (acc :: ·) := by
  rw [parseList.eq_def]
  split
  · simp_all
  · simp_all
  · simp_all
  · rename_i heq; cases heq; rw [if_pos rfl]; cases parseList [] cs <;> rfl

theorem parseList_esc {acc : Str} {c d : Char} {cs : Str} (h : unescapeChar c = some d) (h' : c ≠ ';') :
    parseList acc ('\\' :: c :: cs) = parseList (acc ++ [d]) cs := by
  simp only [parseList, h, if_neg h']

theorem parseList_escSep {acc cs : Str} : parseList acc ('\\' :: ';' :: cs) = parseList (acc ++ [';']) cs := by
  simp only [parseList, if_true]

theorem parseList_escape (s rest : Str) (acc : Str) (lead : Bool) :
    parseList acc (escape true lead s ++ ';' :: rest) = (parseList [] rest).map ((acc ++ s) :: ·) := by
  induction s generalizing acc lead with
  | nil => simp only [escape, List.nil_append, List.append_nil]; exact parseList_sep
  | cons c cs ih =>
    have e : acc ++ c :: cs = (acc ++ [c]) ++ cs := by simp
    rw [e]
    simp only [escape]
    by_cases h1 : c = ' '
    · subst h1
      cases lead
      · simp only [if_true, Bool.false_eq_true, if_false, List.cons_append]
        rw [parseList_cons (by decide) (by decide), ih]
      · simp only [if_true, List.cons_append, List.nil_append]
        rw [parseList_esc (d := ' ') rfl (by decide), ih]
    · simp only [h1, if_false]
      by_cases h2 : c = '\t'
      · subst h2
        cases lead
        · simp only [if_true, Bool.false_eq_true, if_false, List.cons_append]
          rw [parseList_cons (by decide) (by decide), ih]
        · simp only [if_true, List.cons_append, List.nil_append]
          rw [parseList_esc (d := '\t') rfl (by decide), ih]
      · simp only [h2, if_false]
        by_cases h3 : c = '\n'
        · subst h3
          simp only [if_true, List.cons_append, List.nil_append]
          rw [parseList_esc (d := '\n') rfl (by decide), ih]
        · simp only [h3, if_false]
          by_cases h4 : c = '\r'
          · subst h4
            simp only [if_true, List.cons_append, List.nil_append]
            rw [parseList_esc (d := '\r') rfl (by decide), ih]
          · simp only [h4, if_false]
            by_cases h5 : c = '\\'
            · subst h5
              simp only [if_true, List.cons_append, List.nil_append]
              rw [parseList_esc (d := '\\') rfl (by decide), ih]
            · simp only [h5, if_false]
              by_cases h6 : c = ';'
              · subst h6
                simp only [Bool.true_and, decide_true, if_true, List.cons_append, List.nil_append]
                rw [parseList_escSep, ih]
              · simp only [h6, decide_false, Bool.and_false, Bool.false_eq_true, if_false, List.cons_append]
                rw [parseList_cons h5 h6, ih]

theorem parseList_listVal (l : List Str) : parseList [] (listVal l) = some l := by
  induction l with
  | nil => rfl
  | cons s l ih => simp only [listVal]; rw [parseList_escape, ih]; rfl

/-! ## white space around values -/

def trim (s : Str) : Str := chomp (chug s)

theorem chomp_last (s : Str) (h : ∀ c, s.getLast? = some c → isSpace c = false) : chomp s = s := by
  induction s with
  | nil => rfl
  | cons c cs ih =>
    simp only [chomp]
    cases cs with
    | nil => have := h c rfl; simp [chomp, this]
    | cons d ds =>
      rw [ih (fun x hx => h x (by rw [List.getLast?_cons_cons]; exact hx))]

theorem chug_head (s : Str) (h : ∀ c, s.head? = some c → isSpace c = false) : chug s = s := by
  cases s with
  | nil => rfl
  | cons c cs => simp [chug, h c rfl]

theorem trim_id (s : Str) (h1 : ∀ c, s.head? = some c → isSpace c = false) (h2 : ∀ c, s.getLast? = some c → isSpace c = false) :
    trim s = s := by
  unfold trim; rw [chug_head s h1, chomp_last s h2]

theorem isSpace_other {c : Char} (h1 : c ≠ ' ') (h2 : c ≠ '\t') (h3 : c ≠ '\n') (h4 : c ≠ '\r') (h5 : c ≠ FF) : isSpace c = false := by
  have h5' : c ≠ Char.ofNat 12 := h5
  simp only [isSpace, beq_eq_false_iff_ne.mpr h1, beq_eq_false_iff_ne.mpr h2, beq_eq_false_iff_ne.mpr h3, beq_eq_false_iff_ne.mpr h4,
    beq_eq_false_iff_ne.mpr h5', Bool.or_self]

theorem escape_head (list : Bool) (s : Str) (h : s.head? ≠ some FF) (c : Char) (hc : (escape list true s).head? = some c) : isSpace c = false := by
  cases s with
  | nil => simp [escape] at hc
  | cons d ds =>
    have hd : d ≠ FF := fun e => h (by rw [e]; rfl)
    simp only [escape, if_true] at hc
    split at hc
    · simp at hc; subst hc; decide
    split at hc
    · simp at hc; subst hc; decide
    split at hc
    · simp at hc; subst hc; decide
    split at hc
    · simp at hc; subst hc; decide
    split at hc
    · simp at hc; subst hc; decide
    split at hc
    · simp at hc; subst hc; decide
    · simp at hc; subst hc
      rename_i h1 h2 h3 h4 _ _
      exact isSpace_other h1 h2 h3 h4 hd

theorem escape_ne_nil (list lead : Bool) (s : Str) (h : s ≠ []) : escape list lead s ≠ [] := by
  cases s with
  | nil => exact absurd rfl h
  | cons c cs =>
    simp only [escape]
    split
    · split <;> simp
    split
    · split <;> simp
    split
    · simp
    split
    · simp
    split
    · simp
    split <;> simp

theorem getLast_append_ne (a b : Str) (h : b ≠ []) : (a ++ b).getLast? = b.getLast? := by
  rw [List.getLast?_append]
  cases hb : b.getLast? with
  | none => exact absurd (List.getLast?_eq_none_iff.mp hb) h
  | some c => rfl

/-- the character last written for `s` is a space only if `s` ends with one -/
theorem escape_last (list : Bool) (s : Str) (lead : Bool) (h : ∀ c, s.getLast? = some c → c ≠ ' ' ∧ c ≠ '\t' ∧ c ≠ FF) (c : Char)
    (hc : (escape list lead s).getLast? = some c) : isSpace c = false := by
  induction s generalizing lead with
  | nil => simp [escape] at hc
  | cons d ds ih =>
    cases ds with
    | nil =>
      obtain ⟨k1, k2, k3⟩ := h d rfl
      simp only [escape, k1, k2, if_false, List.append_nil] at hc
      split at hc
      · simp at hc; subst hc; decide
      split at hc
      · simp at hc; subst hc; decide
      split at hc
      · simp at hc; subst hc; decide
      split at hc
      · simp at hc; subst hc; decide
      · simp at hc; subst hc
        rename_i h3 h4 _ _
        exact isSpace_other k1 k2 h3 h4 k3
    | cons e es =>
      have hl : ∀ c, (e :: es).getLast? = some c → c ≠ ' ' ∧ c ≠ '\t' ∧ c ≠ FF :=
        fun x hx => h x (by rw [List.getLast?_cons_cons]; exact hx)
      have key : ∃ pre lead', escape list lead (d :: e :: es) = pre ++ escape list lead' (e :: es) := by
        rw [escape.eq_2]
        split
        · split
          · exact ⟨_, _, rfl⟩
          · exact ⟨[' '], lead, rfl⟩
        split
        · split
          · exact ⟨_, _, rfl⟩
          · exact ⟨['\t'], lead, rfl⟩
        split
        · exact ⟨_, _, rfl⟩
        split
        · exact ⟨_, _, rfl⟩
        split
        · exact ⟨_, _, rfl⟩
        split
        · exact ⟨_, _, rfl⟩
        · exact ⟨[d], false, rfl⟩
      obtain ⟨pre, lead', hk⟩ := key
      rw [hk, getLast_append_ne _ _ (escape_ne_nil _ _ _ (by simp))] at hc
      exact ih lead' hl hc

theorem trim_strVal {s : Str} (h : Clean s) : trim (strVal s) = strVal s :=
  trim_id _ (escape_head false s h.front) (escape_last false s true h.back)

theorem listVal_last (l : List Str) (c : Char) (h : (listVal l).getLast? = some c) : c = ';' := by
  induction l with
  | nil => simp [listVal] at h
  | cons s l ih =>
    simp only [listVal] at h
    rw [getLast_append_ne _ _ (by simp)] at h
    cases hl : listVal l with
    | nil => rw [hl] at h; simp at h; exact h.symm
    | cons x xs =>
      rw [hl, List.getLast?_cons_cons, ← hl] at h
      exact ih h

theorem trim_listVal (l : List Str) (h : ∀ s ∈ l, s.head? ≠ some FF) : trim (listVal l) = listVal l := by
  apply trim_id
  · intro c hc
    cases l with
    | nil => simp [listVal] at hc
    | cons s l =>
      simp only [listVal] at hc
      cases s with
      | nil => simp [escape] at hc; subst hc; decide
      | cons d ds =>
        have hne := escape_ne_nil true true (d :: ds) (by simp)
        apply escape_head true (d :: ds) (h _ (by simp)) c
        cases he : escape true true (d :: ds) with
        | nil => exact absurd he hne
        | cons x xs => rw [he] at hc; simpa using hc
  · intro c hc; rw [listVal_last l c hc]; decide

theorem trim_toDec (n : Nat) : trim (toDec n) = toDec n := by
  have hs : ∀ c ∈ toDec n, isSpace c = false := by
    intro c hc; exact toBase_nospace 10 (by omega) (by omega) n c hc
  apply trim_id
  · intro c hc; exact hs c (List.mem_of_mem_head? hc)
  · intro c hc; exact hs c (List.mem_of_mem_getLast? hc)

/-! ## sections -/

/-- values without white space around them -/
def Stable (kvs : Kvs) : Prop := ∀ kv ∈ kvs, trim kv.2 = kv.2

theorem stable_append {a b : Kvs} (ha : Stable a) (hb : Stable b) : Stable (a ++ b) := by
  intro kv h
  rcases List.mem_append.mp h with h | h
  · exact ha kv h
  · exact hb kv h

theorem stable_nil : Stable [] := by intro kv h; cases h

theorem stable_one {k v : Str} (h : trim v = v) : Stable [(k, v)] := by
  intro kv hk; simp at hk; subst hk; exact h

theorem stable_opt {k : Str} {o : Option Str} (h : Val o) : Stable (opt k o) := by
  cases o with
  | none => exact stable_nil
  | some s => exact stable_one (trim_strVal (h s rfl).2)

theorem stable_optList {k : Str} {o : Option (List Str)} (h : Vals o) : Stable (optList k o) := by
  cases o with
  | none => exact stable_nil
  | some l => exact stable_one (trim_listVal l (h l rfl))

theorem stable_ite {c : Prop} [Decidable c] {a b : Kvs} (ha : Stable a) (hb : Stable b) : Stable (if c then a else b) := by
  split <;> assumption

theorem reload_stable : ∀ (kf : KeyFile), (∀ g ∈ kf, Stable g.2) → reload kf = kf
  | [], _ => rfl
  | g :: kf, h => by
    have ih := reload_stable kf (fun x hx => h x (List.mem_cons_of_mem _ hx))
    have hk : ∀ kvs : Kvs, Stable kvs → kvs.map (fun kv => (kv.1, chomp (chug kv.2))) = kvs := by
      intro kvs hs
      induction kvs with
      | nil => rfl
      | cons kv l ihl =>
        rw [List.map_cons, ihl (fun x hx => hs x (List.mem_cons_of_mem _ hx))]
        have := hs kv (by simp)
        simp only [trim] at this
        rw [this]
    unfold reload at ih ⊢
    rw [List.map_cons, ih, hk g.2 (h g (by simp))]

theorem gget_append (a b : Kvs) (k : Str) : KeyFile.gget (a ++ b) k = (KeyFile.gget a k).or (KeyFile.gget b k) := by
  unfold KeyFile.gget
  rw [List.find?_append]
  cases a.find? (fun p => p.1 == k) <;> simp

theorem gget_cons (k' v : Str) (l : Kvs) (k : Str) : KeyFile.gget ((k', v) :: l) k = if k' = k then some v else KeyFile.gget l k := by
  unfold KeyFile.gget
  by_cases h : k' = k
  · simp [h]
  · simp [h]

theorem gget_nil (k : Str) : KeyFile.gget [] k = none := rfl

theorem gget_ite (c : Prop) [Decidable c] (a b : Kvs) (k : Str) :
    KeyFile.gget (if c then a else b) k = if c then KeyFile.gget a k else KeyFile.gget b k := by split <;> rfl

theorem gget_opt (k' : Str) (o : Option Str) (k : Str) : KeyFile.gget (opt k' o) k = if k' = k then o.map strVal else none := by
  cases o with
  | none => simp [opt, gget_nil]
  | some v => simp only [opt, gget_cons, gget_nil, Option.map_some]

theorem gget_optList (k' : Str) (o : Option (List Str)) (k : Str) :
    KeyFile.gget (optList k' o) k = if k' = k then o.map listVal else none := by
  cases o with
  | none => simp [optList, gget_nil]
  | some v => simp only [optList, gget_cons, gget_nil, Option.map_some]

/-- what `consume` gives for an optional value -/
def gotOf : Option Str → Got
  | none => .missing
  | some s => .ok s

theorem consume_of {kvs : Kvs} {k : Str} {o : Option Str} (h : KeyFile.gget kvs k = o.map strVal) (hv : Val o) :
    consume kvs k = gotOf o := by
  unfold consume
  rw [h]
  cases o with
  | none => rfl
  | some s =>
    simp only [Option.map_some, strVal, unescape_escape, gotOf]
    have := (hv s rfl).1
    cases s with
    | nil => exact absurd rfl this
    | cons => rfl

theorem str_of {kvs : Kvs} {k : Str} {o : Option Str} (h : KeyFile.gget kvs k = o.map strVal) (hv : Val o) : str kvs k = o := by
  unfold str; rw [consume_of h hv]; cases o <;> rfl

theorem strList_of {kvs : Kvs} {k : Str} {o : Option (List Str)} (h : KeyFile.gget kvs k = o.map listVal) : strList kvs k = o := by
  unfold strList; rw [h]
  cases o with
  | none => rfl
  | some l => exact parseList_listVal l

theorem optGot_gotOf (o : Option Str) : optGot (gotOf o) = some o := by cases o <;> rfl

theorem nkl_append (a b : Kvs) (s r : List Str) : noKeysLeft (a ++ b) s r = (noKeysLeft a s r && noKeysLeft b s r) := List.all_append

theorem nkl_opt {k : Str} {o : Option Str} {s r : List Str} (h : o = none ∨ k ∈ r ∨ k ∈ s) : noKeysLeft (opt k o) s r = true := by
  cases o with
  | none => rfl
  | some v =>
    simp only [noKeysLeft, opt, List.all_cons, List.all_nil, Bool.and_true, strVal, unescape_escape, Option.isSome_some]
    rcases h with h | h | h
    · cases h
    · simp [h]
    · simp [h]

theorem nkl_one {k v : Str} {s r : List Str} (h : k ∈ r) : noKeysLeft [(k, v)] s r = true := by simp [noKeysLeft, h]

theorem nkl_optList {k : Str} {o : Option (List Str)} {s r : List Str} (h : k ∈ r) : noKeysLeft (optList k o) s r = true := by
  cases o with
  | none => rfl
  | some l => exact nkl_one h

theorem nkl_ite {c : Prop} [Decidable c] {a b : Kvs} {s r : List Str} (ha : noKeysLeft a s r = true) (hb : noKeysLeft b s r = true) :
    noKeysLeft (if c then a else b) s r = true := by split <;> assumption

/-! ## images -/

theorem cutFirst_none {d : Char} : ∀ {s : Str}, d ∉ s → cutFirst d s = (s, none)
  | [], _ => rfl
  | c :: cs, h => by
    have h1 : c ≠ d := fun e => h (by simp [e])
    have h2 := cutFirst_none (s := cs) (fun hm => h (List.mem_cons_of_mem _ hm))
    simp only [cutFirst, h1, if_false, h2]

theorem cutFirst_some {d : Char} {r : Str} : ∀ {s : Str}, d ∉ s → cutFirst d (s ++ d :: r) = (s, some r)
  | [], _ => by simp [cutFirst]
  | c :: cs, h => by
    have h1 : c ≠ d := fun e => h (by simp [e])
    have h2 := cutFirst_some (s := cs) (r := r) (fun hm => h (List.mem_cons_of_mem _ hm))
    simp only [List.cons_append, cutFirst, h1, if_false, h2]

theorem target_cut {i : Image} (h : ImageWf i) :
    ∃ t, cutFirst '.' (imageTarget i) = (t, i.variant) ∧ cutFirst '/' t = (i.slotclass, i.artifact) := by
  obtain ⟨_, h1, h2⟩ := h.slotclass
  have h3 := h.artifact
  unfold imageTarget
  cases ha : i.artifact with
  | none =>
    refine ⟨i.slotclass, ?_, cutFirst_none h2⟩
    cases hv : i.variant with
    | none => simp only [List.append_nil]; exact cutFirst_none h1
    | some v => simp only [List.append_nil]; exact cutFirst_some h1
  | some a =>
    have h4 : '.' ∉ i.slotclass ++ '/' :: a := by
      intro hm
      rcases List.mem_append.mp hm with hm | hm
      · exact h1 hm
      · rcases List.mem_cons.mp hm with hm | hm
        · cases hm
        · exact h3 a ha hm
    refine ⟨i.slotclass ++ '/' :: a, ?_, cutFirst_some h2⟩
    cases hv : i.variant with
    | none => simp only [List.append_nil]; exact cutFirst_none h4
    | some v => exact cutFirst_some h4

theorem parseHooks_hookList (h : SlotHooks) : parseHooks (hookList h) = some h := by
  obtain ⟨a, b, c⟩ := h
  cases a <;> cases b <;> cases c <;> decide

/-- the hooks as the parser reads them -/
theorem hooks_get (i : Image) : (strList (imageKvs i) c!"hooks").getD [] = hookList i.hooks := by
  have : KeyFile.gget (imageKvs i) c!"hooks" = (if hookList i.hooks = [] then none else some (hookList i.hooks)).map listVal := by
    simp [imageKvs, gget_append, gget_cons, gget_nil, gget_ite, gget_opt, gget_optList]
    split <;> simp
  rw [strList_of this]
  split
  · rename_i h; rw [h]; rfl
  · rfl

theorem get_sha (i : Image) (h : i.sha256 = i.digest.isSome) : KeyFile.gget (imageKvs i) c!"sha256" = i.digest.map strVal := by
  simp [imageKvs, gget_append, gget_cons, gget_nil, gget_ite, gget_opt, gget_optList, h]

theorem get_filename (i : Image) : KeyFile.gget (imageKvs i) c!"filename" = i.filename.map strVal := by
  simp [imageKvs, gget_append, gget_cons, gget_nil, gget_ite, gget_opt, gget_optList]

theorem get_type (i : Image) : KeyFile.gget (imageKvs i) c!"type" = (if i.typeFromExt then none else i.typ).map strVal := by
  simp [imageKvs, gget_append, gget_cons, gget_nil, gget_ite, gget_opt, gget_optList]
  split <;> simp

theorem get_adaptive (i : Image) : KeyFile.gget (imageKvs i) c!"adaptive" = i.adaptive.map listVal := by
  simp [imageKvs, gget_append, gget_cons, gget_nil, gget_ite, gget_opt, gget_optList]

theorem get_convert (i : Image) : KeyFile.gget (imageKvs i) c!"convert" = i.convert.map listVal := by
  simp [imageKvs, gget_append, gget_cons, gget_nil, gget_ite, gget_opt, gget_optList]

theorem get_converted (i : Image) (h : i.converted ≠ some []) : KeyFile.gget (imageKvs i) c!"converted" = i.converted.map listVal := by
  simp [imageKvs, gget_append, gget_cons, gget_nil, gget_ite, gget_opt, gget_optList]
  cases hc : i.converted with
  | none => simp
  | some l =>
    have : l ≠ [] := fun e => h (by rw [hc, e])
    simp [this]

theorem get_size (i : Image) : KeyFile.gget (imageKvs i) c!"size" = if i.size ≥ 0 then some (toDec i.size.toNat) else none := by
  simp [imageKvs, gget_append, gget_cons, gget_nil, gget_ite, gget_opt, gget_optList]

theorem parseSize_of {i : Image} (h : i.size = -1 ∨ (0 ≤ i.size ∧ i.size < 2 ^ 63)) : parseSize (imageKvs i) = some i.size := by
  unfold parseSize
  rw [get_size]
  rcases h with h | ⟨h1, h2⟩
  · rw [if_neg (by omega)]; simp only [h]
  · rw [if_pos h1]
    simp only [kfUint64_toDec i.size.toNat (by simp only [u64max]; omega)]
    unfold toOffset
    rw [if_pos (by omega)]
    congr 1; omega

theorem imageKvs_noKeysLeft {i : Image} (h : ImageWf i) :
    noKeysLeft (imageKvs i) (c!"sha256" :: c!"filename" :: (if i.artifact.isSome then [] else [c!"type"]))
      [c!"size", c!"hooks", c!"version", c!"description", c!"build", c!"adaptive", c!"convert", c!"converted"] = true := by
  unfold imageKvs
  simp only [nkl_append, Bool.and_eq_true]
  refine ⟨⟨⟨⟨⟨⟨⟨?_, ?_⟩, ?_⟩, ?_⟩, ?_⟩, ?_⟩, ?_⟩, ?_⟩
  · exact nkl_ite (nkl_opt (Or.inr (Or.inr (by simp)))) rfl
  · exact nkl_ite (nkl_one (by decide)) rfl
  · exact nkl_opt (Or.inr (Or.inr (by simp)))
  · refine nkl_ite rfl (nkl_opt ?_)
    cases ha : i.artifact with
    | none => right; right; simp
    | some a => left; exact (h.artType (by simp [ha])).1
  · exact nkl_ite rfl (nkl_one (by decide))
  · exact nkl_optList (by decide)
  · exact nkl_optList (by decide)
  · exact nkl_ite rfl (nkl_optList (by decide))

theorem imageType_of {i : Image} (h : ImageWf i) :
    parseType i.artifact.isSome i.hooks.install i.filename (consume (imageKvs i) c!"type") = some (i.typ, i.typeFromExt) := by
  have hc : consume (imageKvs i) c!"type" = gotOf (if i.typeFromExt then none else i.typ) := by
    apply consume_of (get_type i)
    split
    · intro s hs; cases hs
    · exact h.typ
  rw [hc]
  unfold parseType
  cases ha : i.artifact with
  | some a =>
    obtain ⟨h1, h2⟩ := h.artType (by simp [ha])
    simp [h1, h2]
  | none =>
    simp only [Option.isSome_none, Bool.false_eq_true, if_false]
    cases hx : i.typeFromExt with
    | true =>
      obtain ⟨h1, f, t, h2, h3, h4⟩ := h.derived hx
      obtain ⟨t', h5, h6⟩ := h.known ha h1
      rw [h4] at h5; cases h5
      simp only [if_true, gotOf, h1, Bool.false_eq_true, if_false, h2, h3, h6, h4]
    | false =>
      simp only [Bool.false_eq_true, if_false]
      cases ht : i.typ with
      | none =>
        cases hi : i.hooks.install with
        | true => simp [gotOf]
        | false => obtain ⟨t, h1, _⟩ := h.known ha hi; rw [ht] at h1; cases h1
      | some t =>
        cases hi : i.hooks.install with
        | true => simp [gotOf]
        | false =>
          obtain ⟨t', h1, h2⟩ := h.known ha hi
          rw [ht] at h1; cases h1
          simp [gotOf, h2]

theorem parseImage_of {i : Image} (h : ImageWf i) : parseImage (imageTarget i) (imageKvs i) = some i := by
  obtain ⟨t, e1, e2⟩ := target_cut h
  unfold parseImage
  simp only [e1, e2, parseSize_of h.size, hooks_get, parseHooks_hookList, consume_of (get_filename i) h.filename, optGot_gotOf,
    imageType_of h, imageKvs_noKeysLeft h, if_true, str_of (get_sha i h.sha256) h.digest, strList_of (get_adaptive i),
    strList_of (get_convert i), strList_of (get_converted i h.convertedNonempty), ← h.sha256]

theorem stable_imageKvs {i : Image} (h : ImageWf i) : Stable (imageKvs i) := by
  unfold imageKvs
  refine stable_append (stable_append (stable_append (stable_append (stable_append (stable_append (stable_append ?_ ?_) ?_) ?_) ?_) ?_) ?_) ?_
  · exact stable_ite (stable_opt h.digest) stable_nil
  · exact stable_ite (stable_one (trim_toDec _)) stable_nil
  · exact stable_opt h.filename
  · exact stable_ite stable_nil (stable_opt h.typ)
  · refine stable_ite stable_nil (stable_one (trim_listVal _ ?_))
    have : ∀ a b c : Bool, ∀ s ∈ hookList ⟨a, b, c⟩, s.head? ≠ some FF := by decide
    exact this _ _ _
  · exact stable_optList h.adaptive
  · exact stable_optList h.convert
  · exact stable_ite stable_nil (stable_optList h.converted)

theorem imageKvs_ne_nil {i : Image} (h : ImageWf i) : imageKvs i ≠ [] := by
  intro he
  have h1 := get_filename i
  have h2 := hooks_get i
  have h3 := get_type i
  rw [he] at h1 h2 h3
  have hf : i.filename = none := by
    cases hf : i.filename with
    | none => rfl
    | some f => rw [hf] at h1; cases h1
  have hx : i.typeFromExt = false := by
    cases hx : i.typeFromExt with
    | false => rfl
    | true => obtain ⟨_, f, t, hh, _⟩ := h.derived hx; rw [hf] at hh; cases hh
  rcases h.content hf with hc | hc
  · rw [hx, hc] at h3; cases h3
  · have h4 : hookList i.hooks = [] := by rw [← h2]; rfl
    unfold hookList at h4
    rw [hc] at h4
    simp at h4

/-! ## meta sections -/

theorem stripPrefix_append : ∀ (p s : Str), stripPrefix p (p ++ s) = some s
  | [], _ => rfl
  | c :: p, s => by simp [stripPrefix, stripPrefix_append p s]

theorem parseMetaKeys_of : ∀ (kvs : Kvs), (∀ kv ∈ kvs, (∀ c ∈ kv.1, KeyChar c) ∧ kv.2 ≠ [] ∧ Clean kv.2) →
    parseMetaKeys (kvs.map (fun kv => (kv.1, strVal kv.2))) = some kvs
  | [], _ => rfl
  | (k, v) :: l, h => by
    obtain ⟨h1, h2, h3⟩ := h (k, v) (by simp)
    have ih := parseMetaKeys_of l (fun x hx => h x (List.mem_cons_of_mem _ hx))
    have he : envKey k = some (k.map upperName) := (C27_key_exact k _).mpr ⟨h1, rfl⟩
    simp only [List.map_cons, parseMetaKeys, strVal, unescape_escape]
    cases v with
    | nil => exact absurd rfl h2
    | cons c cs =>
      simp only [he]
      rw [show (l.map (fun kv => (kv.1, escape false true kv.2))) = l.map (fun kv => (kv.1, strVal kv.2)) from rfl, ih]

theorem dot_not_key : ¬ KeyChar '.' := by unfold KeyChar; decide

theorem parseMeta_of (g : Str × Kvs) (h1 : ∀ c ∈ g.1, KeyChar c)
    (h2 : ∀ kv ∈ g.2, (∀ c ∈ kv.1, KeyChar c) ∧ kv.2 ≠ [] ∧ Clean kv.2) :
    parseMeta g.1 (g.2.map (fun kv => (kv.1, strVal kv.2))) = some g := by
  unfold parseMeta
  rw [if_neg (fun hm => dot_not_key (h1 _ hm)), (C27_key_exact g.1 _).mpr ⟨h1, rfl⟩, parseMetaKeys_of g.2 h2]

end Rauc.ManifestFile
