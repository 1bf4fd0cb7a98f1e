import Verif.Lib.Str

/-!
# GKeyFile

A loaded key file: groups in file order, each with its keys and (unescaped) string values. GLib's own text
format (escaping, comments, merging of repeated groups) is trusted: saving and loading a key file gives back the same
groups, keys and values.
-/

namespace Rauc

abbrev KeyFile := List (Str × List (Str × Str))

namespace KeyFile

/-- key lookup within one group -/
def gget (kvs : List (Str × Str)) (k : Str) : Option Str := (kvs.find? (fun p => p.1 == k)).map Prod.snd

def group (kf : KeyFile) (g : Str) : Option (List (Str × Str)) := (kf.find? (fun p => p.1 == g)).map Prod.snd

/-- `g_key_file_has_group` -/
def hasGroup (kf : KeyFile) (g : Str) : Bool := (kf.group g).isSome

/-- `g_key_file_get_groups` -/
def groups (kf : KeyFile) : List Str := kf.map Prod.fst

/-- `g_key_file_get_string` (`none`: no such group or key) -/
def get (kf : KeyFile) (g k : Str) : Option Str := (kf.group g).bind (fun kvs => gget kvs k)

/-- set a key within one group: replaces the value or appends the key -/
def gset : List (Str × Str) → Str → Str → List (Str × Str)
  | [], k, v => [(k, v)]
  | p :: ps, k, v => if p.1 = k then (k, v) :: ps else p :: gset ps k v

/-- `g_key_file_set_string`: creates the group if necessary -/
def set : KeyFile → Str → Str → Str → KeyFile
  | [], g, k, v => [(g, [(k, v)])]
  | p :: ps, g, k, v => if p.1 = g then (g, gset p.2 k v) :: ps else p :: set ps g k v

/-- `g_key_file_remove_key` -/
def removeKey (kf : KeyFile) (g k : Str) : KeyFile :=
  kf.map (fun p => if p.1 = g then (p.1, p.2.filter (fun q => !(q.1 == k))) else p)

/-- `g_key_file_remove_group` -/
def removeGroup (kf : KeyFile) (g : Str) : KeyFile := kf.filter (fun p => !(p.1 == g))

/-- `g_key_file_set_string` or removal when there is no value -/
def setOpt (kf : KeyFile) (g k : Str) : Option Str → KeyFile
  | some v => kf.set g k v
  | none => kf.removeKey g k

/-- every group occurs once (GLib merges repeated groups while loading) -/
def GroupsNodup (kf : KeyFile) : Prop := kf.groups.Nodup

/-! ### lemmas -/

theorem gget_gset (kvs : List (Str × Str)) (k v k' : Str) :
    gget (gset kvs k v) k' = if k' = k then some v else gget kvs k' := by
  induction kvs with
  | nil =>
    by_cases h : k' = k
    · simp [gset, gget, h]
    · simp [gset, gget, h, Ne.symm h]
  | cons p ps ih =>
    simp only [gset]
    by_cases hp : p.1 = k
    · simp only [hp, if_true]
      by_cases h : k' = k
      · simp [gget, h]
      · simp [gget, h, Ne.symm h, hp]
    · simp only [hp, if_false]
      unfold gget at ih ⊢
      by_cases hq : p.1 = k'
      · have : k' ≠ k := fun e => hp (hq.trans e)
        simp [hq, this]
      · have : (p.1 == k') = false := by simp [hq]
        rw [List.find?_cons, this, List.find?_cons, this]
        exact ih

theorem group_set (kf : KeyFile) (g k v g' : Str) :
    (kf.set g k v).group g' = if g' = g then some (gset ((kf.group g).getD []) k v) else kf.group g' := by
  induction kf with
  | nil =>
    by_cases h : g' = g
    · simp [set, group, h, gset]
    · simp [set, group, h, Ne.symm h]
  | cons p ps ih =>
    simp only [set]
    by_cases hp : p.1 = g
    · simp only [hp, if_true]
      by_cases h : g' = g
      · simp [group, h, hp]
      · simp [group, h, Ne.symm h, hp]
    · simp only [hp, if_false]
      unfold group at ih ⊢
      by_cases hq : p.1 = g'
      · have : g' ≠ g := fun e => hp (hq.trans e)
        simp [hq, this]
      · have h1 : (p.1 == g') = false := by simp [hq]
        have h2 : (p.1 == g) = false := by simp [hp]
        simp only [List.find?_cons, h1, h2]
        exact ih

theorem get_set (kf : KeyFile) (g k v g' k' : Str) :
    (kf.set g k v).get g' k' = if g' = g ∧ k' = k then some v else kf.get g' k' := by
  unfold get
  rw [group_set]
  by_cases hg : g' = g
  · subst hg
    simp only [if_true, Option.bind_some, gget_gset, true_and]
    by_cases hk : k' = k
    · simp [hk]
    · simp only [hk, if_false]
      cases kf.group g' with
      | none => simp [gget]
      | some x => rfl
  · simp [hg]

theorem gget_filter (kvs : List (Str × Str)) (k k' : Str) :
    gget (kvs.filter (fun q => !(q.1 == k))) k' = if k' = k then none else gget kvs k' := by
  induction kvs with
  | nil => simp [gget]
  | cons p ps ih =>
    unfold gget at ih ⊢
    by_cases hp : p.1 = k
    · have : (!(p.1 == k)) = false := by simp [hp]
      rw [List.filter_cons_of_neg (by simp [hp])]
      rw [ih]
      by_cases h : k' = k
      · simp [h]
      · have : (p.1 == k') = false := by simp [hp, Ne.symm h]
        simp [h, this]
    · rw [List.filter_cons_of_pos (by simp [hp])]
      by_cases hq : p.1 = k'
      · have : k' ≠ k := fun e => hp (hq.trans e)
        simp [hq, this]
      · have h1 : (p.1 == k') = false := by simp [hq]
        rw [List.find?_cons, h1, List.find?_cons, h1]
        exact ih

theorem group_removeKey (kf : KeyFile) (g k g' : Str) :
    (kf.removeKey g k).group g' =
      if g' = g then (kf.group g).map (fun kvs => kvs.filter (fun q => !(q.1 == k))) else kf.group g' := by
  unfold removeKey
  induction kf with
  | nil => simp [group]
  | cons p ps ih =>
    unfold group at ih ⊢
    simp only [List.map_cons]
    by_cases hp : p.1 = g
    · by_cases h : g' = g
      · simp [hp, h]
      · have h1 : (p.1 == g') = false := by simp [hp, Ne.symm h]
        have h1' : (g == g') = false := by simp [Ne.symm h]
        simp only [hp, if_true, List.find?_cons, h1', h, if_false]
        rw [ih]; simp [h]
    · simp only [hp, if_false]
      by_cases hq : p.1 = g'
      · have : g' ≠ g := fun e => hp (hq.trans e)
        simp [hq, this]
      · have h1 : (p.1 == g') = false := by simp [hq]
        have h2 : (p.1 == g) = false := by simp [hp]
        simp only [List.find?_cons, h1, h2]
        exact ih

theorem get_removeKey (kf : KeyFile) (g k g' k' : Str) :
    (kf.removeKey g k).get g' k' = if g' = g ∧ k' = k then none else kf.get g' k' := by
  unfold get
  rw [group_removeKey]
  by_cases hg : g' = g
  · subst hg
    simp only [if_true, true_and]
    cases kf.group g' with
    | none => simp
    | some x =>
      simp only [Option.map_some, Option.bind_some, gget_filter]
  · simp [hg]

theorem get_setOpt (kf : KeyFile) (g k : Str) (v : Option Str) (g' k' : Str) :
    (kf.setOpt g k v).get g' k' = if g' = g ∧ k' = k then v else kf.get g' k' := by
  cases v with
  | none => exact get_removeKey kf g k g' k'
  | some v => exact get_set kf g k v g' k'

theorem group_setOpt_other (kf : KeyFile) (g k : Str) (v : Option Str) (g' : Str) (h : g' ≠ g) :
    (kf.setOpt g k v).group g' = kf.group g' := by
  cases v with
  | none => rw [setOpt, group_removeKey]; simp [h]
  | some v => rw [setOpt, group_set]; simp [h]

theorem group_filter (kf : KeyFile) (P : Str → Bool) (g : Str) :
    group (kf.filter (fun p => P p.1)) g = if P g then kf.group g else none := by
  induction kf with
  | nil => simp [group]
  | cons p ps ih =>
    unfold group at ih ⊢
    by_cases hp : P p.1 = true
    · rw [List.filter_cons_of_pos (by simpa using hp)]
      by_cases hq : p.1 = g
      · subst hq; simp [hp]
      · have h1 : (p.1 == g) = false := by simp [hq]
        rw [List.find?_cons, h1, List.find?_cons, h1]; exact ih
    · rw [List.filter_cons_of_neg (by simpa using hp)]
      rw [ih]
      by_cases hq : p.1 = g
      · subst hq; simp [hp]
      · have h1 : (p.1 == g) = false := by simp [hq]
        rw [List.find?_cons, h1]

end KeyFile

/-- `g_key_file_get_uint64`: the value parsed by `g_ascii_strtoull` if the whole string is consumed. Simplification:
only plain digit strings are accepted (leading blanks or signs, which `g_ascii_strtoull` would accept, are never
produced by RAUC; they read as an error here). `none` is an error, the returned C value is then 0. -/
def kfUint64 (s : Str) : Option Nat :=
  if s ≠ [] ∧ (digitsAux 10 0 0 s).2 = s.length then some (min (digitsAux 10 0 0 s).1 u64max) else none

theorem digitsAux_full (b : Nat) (s : Str) (a k : Nat) (h : ∀ c ∈ s, ∃ v, digitVal c = some v ∧ v < b) :
    (digitsAux b a k s).2 = k + s.length := by
  induction s generalizing a k with
  | nil => simp [digitsAux]
  | cons c cs ih =>
    obtain ⟨v, hv, hb⟩ := h c (by simp)
    simp only [digitsAux, hv, hb, if_true]
    rw [ih _ _ (fun x hx => h x (List.mem_cons_of_mem _ hx))]
    simp; omega

theorem kfUint64_toDec (n : Nat) (h : n ≤ u64max) : kfUint64 (toDec n) = some n := by
  have h1 := digitsAux_toBase 10 (by omega) (by omega) n
  have h2 : (digitsAux 10 0 0 (toDec n)).2 = (toDec n).length := by
    have := digitsAux_full 10 (toDec n) 0 0 (by
      intro c hc
      obtain ⟨d, hd, rfl⟩ := toBase_chars 10 (by omega) n c hc
      exact ⟨d, digitVal_digitChar d (by omega), hd⟩)
    simpa using this
  unfold kfUint64
  rw [if_pos ⟨toBase_ne_nil 10 n, h2⟩]
  simp only [toDec] at *
  rw [h1]
  simp [Nat.min_eq_left h]

end Rauc
