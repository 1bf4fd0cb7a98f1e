import Verif.Props.StatusView
import Verif.Model.Install

/-!
# C69, C70: the shell output of `rauc status` and `rauc info`
-/

namespace Rauc.StatusView

open HandlerEnv (sep_unique toDec_no_us toDec_inj toDec_ne_nil metaVarList)

/-! ## Specification: the documented variables -/

/-- the word list `1 2 ... n` -/
def upTo (n : Nat) : Str := join ' ' ((List.range n).map (fun i => toDec (i + 1)))

/-- variables describing the system -/
def systemVars (p : Print) : List (Str × Str) :=
  [(c!"RAUC_SYSTEM_COMPATIBLE", p.compatible.getD c!"(null)"), (c!"RAUC_SYSTEM_VARIANT", p.variant.getD c!"(null)"),
   (c!"RAUC_SYSTEM_VERSION", p.version.getD c!"(null)"), (c!"RAUC_SYSTEM_BOOTED_BOOTNAME", p.bootslot.getD c!"(null)"),
   (c!"RAUC_BOOT_PRIMARY", p.primary.getD c!"(null)"), (c!"RAUC_SYSTEM_SLOTS", join ' ' (p.slots.map (·.name))),
   (c!"RAUC_SLOTS", upTo p.slots.length), (c!"RAUC_REPOS", upTo p.repos.length)]

/-- a slot state in words -/
def stateWord : Option Select.State → Str
  | some .booted => c!"booted"
  | some .active => c!"active"
  | some .inactive => c!"inactive"
  | none => c!"(null)"

/-- the boot state of a slot in words; nothing for slots without boot name -/
def bootWord (s : RSlot) : Str :=
  if s.bootname = none then [] else if s.bootState = some true then c!"good" else if s.bootState = some false then c!"bad" else c!"unknown"

/-- `RAUC_SLOT_*_<N>` -/
def slotFields : List (Str × (RSlot → Str)) :=
  [(c!"RAUC_SLOT_STATE", fun s => stateWord s.state), (c!"RAUC_SLOT_CLASS", fun s => s.sclass.getD c!"(null)"),
   (c!"RAUC_SLOT_DEVICE", fun s => s.device.getD c!"(null)"), (c!"RAUC_SLOT_TYPE", fun s => s.typ.getD c!"(null)"),
   (c!"RAUC_SLOT_BOOTNAME", fun s => s.bootname.getD []), (c!"RAUC_SLOT_PARENT", fun s => s.parent.getD []),
   (c!"RAUC_SLOT_MOUNTPOINT", fun s => s.mountPoint.getD []), (c!"RAUC_SLOT_BOOT_STATUS", bootWord)]

/-- a signed number in decimal -/
def signedDec (n : Int) : Str := (if n < 0 then ['-'] else []) ++ toDec n.natAbs

/-- `RAUC_SLOT_STATUS_*_<N>` -/
def detailFields : List (Str × (SlotStatus → Str)) :=
  [(c!"RAUC_SLOT_STATUS_BUNDLE_COMPATIBLE", fun s => s.bundleCompatible.getD []),
   (c!"RAUC_SLOT_STATUS_BUNDLE_VERSION", fun s => s.bundleVersion.getD []),
   (c!"RAUC_SLOT_STATUS_BUNDLE_DESCRIPTION", fun s => s.bundleDescription.getD []),
   (c!"RAUC_SLOT_STATUS_BUNDLE_BUILD", fun s => s.bundleBuild.getD []),
   (c!"RAUC_SLOT_STATUS_BUNDLE_HASH", fun s => s.bundleHash.getD []),
   (c!"RAUC_SLOT_STATUS_CHECKSUM_SHA256", fun s => s.digest.getD []),
   (c!"RAUC_SLOT_STATUS_CHECKSUM_SIZE", fun s => signedDec s.size),
   (c!"RAUC_SLOT_STATUS_INSTALLED_TIMESTAMP", fun s => (s.installedTimestamp.map DateTime.fmt).getD []),
   (c!"RAUC_SLOT_STATUS_INSTALLED_COUNT", fun s => toDec s.installedCount),
   (c!"RAUC_SLOT_STATUS_ACTIVATED_TIMESTAMP", fun s => (s.activatedTimestamp.map DateTime.fmt).getD []),
   (c!"RAUC_SLOT_STATUS_ACTIVATED_COUNT", fun s => toDec s.activatedCount),
   (c!"RAUC_SLOT_STATUS_STATUS", fun s => s.status.getD [])]

/-- `RAUC_REPO_*_<N>`; a variable is missing if the repository has no such attribute -/
def repoFields : List (Str × (RepoView → Option Str)) :=
  [(c!"RAUC_REPO_NAME", fun r => some r.name), (c!"RAUC_REPO_PATH", fun r => r.path), (c!"RAUC_REPO_TYPE", fun r => r.typ),
   (c!"RAUC_REPO_PARENT_CLASS", fun r => r.parentClass), (c!"RAUC_REPO_ARTIFACTS", fun r => some (upTo r.artifacts.length))]

/-- `RAUC_REPO_ARTIFACT_*_<N>_<M>` -/
def artifactFields : List (Str × (ArtifactView → Str)) :=
  [(c!"RAUC_REPO_ARTIFACT_NAME", fun a => a.name), (c!"RAUC_REPO_ARTIFACT_INSTANCES", fun a => upTo a.instances.length)]

/-- `RAUC_REPO_ARTIFACT_INSTANCE_*_<N>_<M>_<K>`: the references in repositories with parents, whether it is active in the others -/
def instanceFields : List (Str × (RepoView → Instance → Option Str)) :=
  [(c!"RAUC_REPO_ARTIFACT_INSTANCE_CHECKSUM", fun _ x => some x.checksum),
   (c!"RAUC_REPO_ARTIFACT_INSTANCE_REFERENCES", fun r x => if r.parentClass.isSome then some (join ' ' x.refs) else none),
   (c!"RAUC_REPO_ARTIFACT_INSTANCE_ACTIVE", fun r x => if r.parentClass.isSome then none else some (if x.refs = [] then c!"0" else c!"1"))]

/-- `NAME_<N>...` -/
def numbered (base : Str) (l : List Nat) : Str := base ++ l.flatMap (fun n => '_' :: toDec n)

/-- `rauc status` prints variable `k` with value `v`. -/
inductive StatusVar (detailed : Bool) (p : Print) : Str → Str → Prop
  | system {k v : Str} : (k, v) ∈ systemVars p → StatusVar detailed p k v
  | slot {n : Nat} {s : RSlot} {f : Str × (RSlot → Str)} : p.slots[n]? = some s → f ∈ slotFields →
      StatusVar detailed p (numbered f.1 [n + 1]) (f.2 s)
  | detail {n : Nat} {s : RSlot} {st : SlotStatus} {f : Str × (SlotStatus → Str)} : detailed = true → p.slots[n]? = some s →
      s.status = some st → f ∈ detailFields → StatusVar detailed p (numbered f.1 [n + 1]) (f.2 st)
  | repo {n : Nat} {r : RepoView} {f : Str × (RepoView → Option Str)} {v : Str} : p.repos[n]? = some r → f ∈ repoFields → f.2 r = some v →
      StatusVar detailed p (numbered f.1 [n + 1]) v
  | artifact {n m : Nat} {r : RepoView} {a : ArtifactView} {f : Str × (ArtifactView → Str)} : p.repos[n]? = some r →
      r.artifacts[m]? = some a → f ∈ artifactFields → StatusVar detailed p (numbered f.1 [n + 1, m + 1]) (f.2 a)
  | inst {n m k : Nat} {r : RepoView} {a : ArtifactView} {x : Instance} {f : Str × (RepoView → Instance → Option Str)} {v : Str} :
      p.repos[n]? = some r → r.artifacts[m]? = some a → a.instances[k]? = some x → f ∈ instanceFields → f.2 r x = some v →
      StatusVar detailed p (numbered f.1 [n + 1, m + 1, k + 1]) v

/-! ## Names -/

theorem name_eq (v : Var) : v.name = numbered v.base v.idx := rfl

/-- the text after the last underscore -/
def lastPart (s : Str) : Str := (s.reverse.takeWhile (fun c => decide (c ≠ '_'))).reverse

theorem lastPart_sep (a d : Str) (h : '_' ∉ d) : lastPart (a ++ '_' :: d) = d := by
  unfold lastPart
  have : (a ++ '_' :: d).reverse = d.reverse ++ '_' :: a.reverse := by simp
  rw [this, List.takeWhile_append_of_pos]
  · simp
  · intro c hc
    have : c ≠ '_' := by rintro rfl; exact h (by simpa using hc)
    simpa using this

/-- a name that does not end with a number -/
def PlainBase (b : Str) : Prop := ∃ c ∈ lastPart b, ∀ v < 10, digitVal c ≠ some v

instance (b : Str) : Decidable (PlainBase b) := inferInstanceAs (Decidable (∃ c ∈ lastPart b, ∀ v < 10, digitVal c ≠ some v))

theorem plain_ne {b a : Str} {n : Nat} (h : PlainBase b) : b ≠ a ++ '_' :: toDec n := by
  intro e
  obtain ⟨c, hc, hn⟩ := h
  rw [e, lastPart_sep _ _ (toDec_no_us n)] at hc
  obtain ⟨v, hv, hlt⟩ := Config.toDec_digits n c hc
  exact hn v hlt hv

theorem numbered_snoc (b : Str) (l : List Nat) (n : Nat) : numbered b (l ++ [n]) = numbered b l ++ '_' :: toDec n := by
  simp [numbered]

theorem numbered_inj {a b : Str} (ha : PlainBase a) (hb : PlainBase b) (l m : List Nat) (h : numbered a l = numbered b m) :
    a = b ∧ l = m := by
  induction l using List.reverseRecOn generalizing m with
  | nil =>
    rcases List.eq_nil_or_concat m with rfl | ⟨m', n, rfl⟩
    · simp only [numbered, List.flatMap_nil, List.append_nil] at h
      exact ⟨h, rfl⟩
    · rw [List.concat_eq_append, numbered_snoc] at h
      simp only [numbered, List.flatMap_nil, List.append_nil] at h
      exact absurd h (plain_ne ha)
  | append_singleton l n ih =>
    rcases List.eq_nil_or_concat m with rfl | ⟨m', k, rfl⟩
    · rw [numbered_snoc] at h
      have h' : numbered b [] = b := by simp [numbered]
      rw [h'] at h
      exact absurd h.symm (plain_ne hb)
    · rw [List.concat_eq_append, numbered_snoc, numbered_snoc] at h
      obtain ⟨h1, h2⟩ := sep_unique (toDec_no_us n) (toDec_no_us k) h
      obtain ⟨h3, h4⟩ := ih m' h1
      exact ⟨h3, by rw [h4, toDec_inj h2, List.concat_eq_append]⟩

/-- base and numbers -/
def Var.key (v : Var) : Str × List Nat := (v.base, v.idx)

theorem names_nodup {l : List Var} (h : (l.map Var.key).Nodup) (hb : ∀ v ∈ l, PlainBase v.base) : (l.map Var.name).Nodup := by
  have h1 : l.Pairwise (fun a b => a.key ≠ b.key) := by rw [List.nodup_iff_pairwise_ne, List.pairwise_map] at h; exact h
  rw [List.nodup_iff_pairwise_ne, List.pairwise_map]
  refine List.Pairwise.imp_of_mem ?_ h1
  intro a b ha hb' hne he
  obtain ⟨e1, e2⟩ := numbered_inj (hb a ha) (hb b hb') _ _ he
  exact hne (by simp [Var.key, e1, e2])

/-! ## Loops -/

theorem mem_countFrom {α : Type} {f : Nat → α → List Var} {v : Var} {l : List α} {n : Nat} :
    v ∈ countFrom f n l ↔ ∃ i x, l[i]? = some x ∧ v ∈ f (n + i) x := by
  induction l generalizing n with
  | nil => simp [countFrom]
  | cons y r ih =>
    unfold countFrom
    rw [List.mem_append, ih]
    constructor
    · rintro (h | ⟨i, x, h1, h2⟩)
      · exact ⟨0, y, rfl, h⟩
      · exact ⟨i + 1, x, h1, by rwa [show n + (i + 1) = n + 1 + i by omega]⟩
    · rintro ⟨i, x, h1, h2⟩
      cases i with
      | zero => simp only [List.getElem?_cons_zero, Option.some.injEq] at h1; subst h1; exact Or.inl h2
      | succ i => exact Or.inr ⟨i, x, by simpa using h1, by rwa [show n + 1 + i = n + (i + 1) by omega]⟩

/-- a counted loop whose bodies put their counter at position `d` of the numbers -/
theorem nodup_countFrom {α : Type} {f : Nat → α → List Var} {l : List α} (n d : Nat)
    (h1 : ∀ i x, x ∈ l → ((f i x).map Var.key).Nodup) (h2 : ∀ i x v, v ∈ f i x → v.idx[d]? = some i) :
    ((countFrom f n l).map Var.key).Nodup := by
  induction l generalizing n with
  | nil => simp [countFrom]
  | cons y r ih =>
    unfold countFrom
    rw [List.map_append, List.nodup_append]
    refine ⟨h1 n y (by simp), ih (n + 1) (fun i x hx => h1 i x (by simp [hx])), ?_⟩
    intro a ha b hb e
    obtain ⟨v, hv, rfl⟩ := List.mem_map.1 ha
    obtain ⟨w, hw, hw'⟩ := List.mem_map.1 hb
    obtain ⟨i, x, -, hx⟩ := mem_countFrom.1 hw
    have e1 := h2 _ _ _ hv
    have e2 := h2 _ _ _ hx
    have : v.idx = w.idx := by rw [← hw'] at e; exact congrArg Prod.snd e
    rw [this, e2] at e1
    simp only [Option.some.injEq] at e1
    omega

theorem nodup_bases {a b : List Var} (P : List Str) (ha : (a.map Var.key).Nodup) (hb : (b.map Var.key).Nodup)
    (h1 : ∀ v ∈ a, v.base ∈ P) (h2 : ∀ v ∈ b, v.base ∉ P) : ((a ++ b).map Var.key).Nodup := by
  rw [List.map_append, List.nodup_append]
  refine ⟨ha, hb, ?_⟩
  intro x hx y hy e
  obtain ⟨v, hv, rfl⟩ := List.mem_map.1 hx
  obtain ⟨w, hw, rfl⟩ := List.mem_map.1 hy
  have e' : v.base = w.base := congrArg Prod.fst e
  exact h2 w hw (e' ▸ h1 v hv)

/-- the variables for a list of fields -/
def fieldVars {α : Type} (F : List (Str × (α → Option Str))) (idx : List Nat) (x : α) : List Var :=
  F.filterMap (fun f => (f.2 x).map (fun v => ⟨f.1, idx, v⟩))

theorem mem_fieldVars {α : Type} {F : List (Str × (α → Option Str))} {idx : List Nat} {x : α} {v : Var} :
    v ∈ fieldVars F idx x ↔ ∃ f ∈ F, f.2 x = some v.value ∧ v.base = f.1 ∧ v.idx = idx := by
  unfold fieldVars
  rw [List.mem_filterMap]
  constructor
  · rintro ⟨f, hf, h⟩
    obtain ⟨y, hy, rfl⟩ := Option.map_eq_some_iff.1 h
    exact ⟨f, hf, hy, rfl, rfl⟩
  · rintro ⟨f, hf, h1, h2, h3⟩
    refine ⟨f, hf, ?_⟩
    rw [h1, ← h2, ← h3]
    rfl

theorem nodup_fieldVars {α : Type} {F : List (Str × (α → Option Str))} {idx : List Nat} {x : α} (h : (F.map (·.1)).Nodup) :
    ((fieldVars F idx x).map Var.key).Nodup := by
  have h1 : ((fieldVars F idx x).map Var.key).Sublist (F.map (fun f => (f.1, idx))) := by
    unfold fieldVars
    clear h
    induction F with
    | nil => simp
    | cons f r ih =>
      rw [List.filterMap_cons]
      cases hf : f.2 x with
      | none => exact List.Sublist.trans ih (List.sublist_cons_self _ _)
      | some y => exact List.Sublist.cons_cons _ ih
  refine List.Nodup.sublist h1 ?_
  have : F.map (fun f => (f.1, idx)) = (F.map (·.1)).map (fun b => (b, idx)) := by simp
  rw [this]
  exact List.Nodup.map (fun a b e => congrArg Prod.fst e) h

/-- fields that are always present -/
def always {α : Type} (F : List (Str × (α → Str))) : List (Str × (α → Option Str)) := F.map (fun f => (f.1, fun x => some (f.2 x)))

theorem mem_always {α : Type} {F : List (Str × (α → Str))} {idx : List Nat} {x : α} {v : Var} :
    v ∈ fieldVars (always F) idx x ↔ ∃ f ∈ F, v = ⟨f.1, idx, f.2 x⟩ := by
  rw [mem_fieldVars]
  unfold always
  constructor
  · rintro ⟨f, hf, h1, h2, h3⟩
    obtain ⟨g, hg, rfl⟩ := List.mem_map.1 hf
    refine ⟨g, hg, ?_⟩
    cases v
    simp_all
  · rintro ⟨f, hf, rfl⟩
    exact ⟨_, List.mem_map_of_mem hf, rfl, rfl, rfl⟩

/-! ## The parts of the output -/

theorem stateWord_eq (s : RSlot) : pstr (stateStr s.state) = stateWord s.state := by
  unfold pstr stateStr stateWord
  split <;> simp_all

theorem bootWord_eq (s : RSlot) : bootField s = bootWord s := by
  unfold bootField bootWord
  cases s.bootname with
  | none => rfl
  | some b =>
    cases s.bootState with
    | none => rfl
    | some x => cases x <;> rfl

theorem decInt_eq (n : Int) : decInt n = signedDec n := by
  cases n with
  | ofNat n => unfold decInt signedDec; rw [if_neg (by simp)]; rfl
  | negSucc n => unfold decInt signedDec; rw [if_pos (Int.negSucc_lt_zero n)]; rfl

theorem detailVars_eq (i : Nat) (st : SlotStatus) : detailVars i st = fieldVars (always detailFields) [i] st := by
  unfold detailVars
  rw [decInt_eq]
  rfl

theorem slotVars_eq (detailed : Bool) (i : Nat) (s : RSlot) : slotVars detailed i s =
    fieldVars (always slotFields) [i] s ++
      (match detailed, s.status with | true, some st => fieldVars (always detailFields) [i] st | _, _ => []) := by
  unfold slotVars
  congr 1
  · rw [stateWord_eq, bootWord_eq]
    rfl
  · cases detailed <;> cases s.status <;> first | rfl | exact detailVars_eq _ _

theorem instanceVars_eq (r : RepoView) (i j k : Nat) (x : Instance) : instanceVars r.parentClass.isSome i j k x =
    fieldVars (instanceFields.map (fun f => (f.1, f.2 r))) [i, j, k] x := by
  obtain ⟨n, ds, p, t, c, l⟩ := r
  obtain ⟨ck, refs⟩ := x
  cases c with
  | none => cases refs <;> rfl
  | some c => rfl

theorem artifactVars_eq (hp : Bool) (i j : Nat) (a : ArtifactView) : artifactVars hp i j a =
    fieldVars (always (artifactFields.take 1)) [i, j] a ++ countFrom (instanceVars hp i j) 1 a.instances ++
      fieldVars (always (artifactFields.drop 1)) [i, j] a := rfl

theorem repoVars_eq (i : Nat) (r : RepoView) : repoVars i r =
    fieldVars (repoFields.take 4) [i] r ++ countFrom (artifactVars r.parentClass.isSome i) 1 r.artifacts ++ fieldVars (repoFields.drop 4) [i] r := by
  obtain ⟨n, ds, p, t, c, l⟩ := r
  unfold repoVars
  congr 2
  cases p <;> cases t <;> cases c <;> rfl

/-! ## Names are unique -/

def slotBases : List Str := slotFields.map (·.1) ++ detailFields.map (·.1)
def instBases : List Str := instanceFields.map (·.1)
def artBases : List Str := artifactFields.map (·.1)
def repoBases : List Str := repoFields.map (·.1)
def sysBases : List Str :=
  [c!"RAUC_SYSTEM_COMPATIBLE", c!"RAUC_SYSTEM_VARIANT", c!"RAUC_SYSTEM_VERSION", c!"RAUC_SYSTEM_BOOTED_BOOTNAME", c!"RAUC_BOOT_PRIMARY",
   c!"RAUC_SYSTEM_SLOTS", c!"RAUC_SLOTS", c!"RAUC_REPOS"]

set_option maxRecDepth 10000 in
theorem plain_all : ∀ b ∈ sysBases ++ slotBases ++ repoBases ++ artBases ++ instBases, PlainBase b := by decide +kernel

set_option maxRecDepth 10000 in
theorem nodup_all : (sysBases ++ slotBases ++ repoBases ++ artBases ++ instBases).Nodup := by decide +kernel

theorem fieldVars_base {α : Type} {F : List (Str × (α → Option Str))} {idx : List Nat} {x : α} {v : Var} (h : v ∈ fieldVars F idx x) :
    v.base ∈ F.map (·.1) ∧ v.idx = idx := by
  obtain ⟨f, hf, -, h2, h3⟩ := mem_fieldVars.1 h
  exact ⟨h2 ▸ List.mem_map_of_mem hf, h3⟩

theorem always_bases {α : Type} (F : List (Str × (α → Str))) : (always F).map (·.1) = F.map (·.1) := by simp [always]

theorem slotVars_base {d : Bool} {i : Nat} {s : RSlot} {v : Var} (h : v ∈ slotVars d i s) : v.base ∈ slotBases ∧ v.idx = [i] := by
  rw [slotVars_eq, List.mem_append] at h
  unfold slotBases
  rcases h with h | h
  · have := fieldVars_base h
    rw [always_bases] at this
    exact ⟨List.mem_append_left _ this.1, this.2⟩
  · split at h
    · have := fieldVars_base h
      rw [always_bases] at this
      exact ⟨List.mem_append_right _ this.1, this.2⟩
    · cases h

theorem instanceVars_base {r : RepoView} {i j k : Nat} {x : Instance} {v : Var} (h : v ∈ instanceVars r.parentClass.isSome i j k x) :
    v.base ∈ instBases ∧ v.idx = [i, j, k] := by
  rw [instanceVars_eq] at h
  have := fieldVars_base h
  rwa [List.map_map] at this

theorem artifactVars_base {r : RepoView} {i j : Nat} {a : ArtifactView} {v : Var} (h : v ∈ artifactVars r.parentClass.isSome i j a) :
    (v.base ∈ artBases ∧ v.idx = [i, j]) ∨ (v.base ∈ instBases ∧ ∃ k, v.idx = [i, j, k]) := by
  rw [artifactVars_eq, List.mem_append, List.mem_append] at h
  rcases h with (h | h) | h
  · have := fieldVars_base h
    rw [always_bases] at this
    exact Or.inl ⟨List.map_subset _ (List.take_subset _ _) this.1, this.2⟩
  · obtain ⟨k, x, -, hx⟩ := mem_countFrom.1 h
    have := instanceVars_base hx
    exact Or.inr ⟨this.1, _, this.2⟩
  · have := fieldVars_base h
    rw [always_bases] at this
    exact Or.inl ⟨List.map_subset _ (List.drop_subset _ _) this.1, this.2⟩

theorem repoVars_base {i : Nat} {r : RepoView} {v : Var} (h : v ∈ repoVars i r) :
    v.base ∈ repoBases ++ artBases ++ instBases ∧ v.idx[0]? = some i := by
  rw [repoVars_eq, List.mem_append, List.mem_append] at h
  rcases h with (h | h) | h
  · have := fieldVars_base h
    exact ⟨List.mem_append_left _ (List.mem_append_left _ (List.map_subset _ (List.take_subset _ _) this.1)), by rw [this.2]; rfl⟩
  · obtain ⟨j, a, -, ha⟩ := mem_countFrom.1 h
    rcases artifactVars_base ha with ⟨h1, h2⟩ | ⟨h1, k, h2⟩
    · exact ⟨List.mem_append_left _ (List.mem_append_right _ h1), by rw [h2]; rfl⟩
    · exact ⟨List.mem_append_right _ h1, by rw [h2]; rfl⟩
  · have := fieldVars_base h
    exact ⟨List.mem_append_left _ (List.mem_append_left _ (List.map_subset _ (List.drop_subset _ _) this.1)), by rw [this.2]; rfl⟩

theorem nodup_slotVars (d : Bool) (i : Nat) (s : RSlot) : ((slotVars d i s).map Var.key).Nodup := by
  have hn : slotBases.Nodup := by
    have := nodup_all
    simp only [List.append_assoc] at this
    exact (List.nodup_append.1 (List.nodup_append.1 this).2.1).1
  unfold slotBases at hn
  rw [slotVars_eq]
  obtain ⟨h1, h2, h3⟩ := List.nodup_append.1 hn
  refine nodup_bases (slotFields.map (·.1)) (nodup_fieldVars (by rwa [always_bases])) ?_ ?_ ?_
  · split
    · exact nodup_fieldVars (by rwa [always_bases])
    · simp
  · intro v hv
    have := (fieldVars_base hv).1
    rwa [always_bases] at this
  · intro v hv hm
    split at hv
    · have := (fieldVars_base hv).1
      rw [always_bases] at this
      exact h3 _ hm _ this rfl
    · cases hv

theorem disj {a b : Str} (A B : List Str) (h : (A ++ B).Nodup) (ha : a ∈ A) (hb : b ∈ B) : a ≠ b :=
  (List.nodup_append.1 h).2.2 a ha b hb

theorem art_inst : (artBases ++ instBases).Nodup := by
  have := nodup_all
  rw [List.append_assoc] at this
  exact (List.nodup_append.1 this).2.1

theorem repo_rest : (repoBases ++ (artBases ++ instBases)).Nodup := by
  have := nodup_all
  rw [List.append_assoc, List.append_assoc] at this
  exact (List.nodup_append.1 this).2.1

theorem slot_rest : (slotBases ++ (repoBases ++ artBases ++ instBases)).Nodup := by
  have := nodup_all
  simp only [List.append_assoc] at this
  rw [List.append_assoc]
  exact (List.nodup_append.1 this).2.1

theorem sys_rest : (sysBases ++ (slotBases ++ (repoBases ++ artBases ++ instBases))).Nodup := by
  have := nodup_all
  simpa only [List.append_assoc] using this

theorem nodup_artifactVars (r : RepoView) (i j : Nat) (a : ArtifactView) : ((artifactVars r.parentClass.isSome i j a).map Var.key).Nodup := by
  have hn : artBases.Nodup := (List.nodup_append.1 art_inst).1
  have hi : instBases.Nodup := (List.nodup_append.1 art_inst).2.1
  rw [artifactVars_eq, List.append_assoc]
  refine nodup_bases (artBases.take 1) (nodup_fieldVars (by decide)) ?_ ?_ ?_
  · refine nodup_bases instBases ?_ (nodup_fieldVars (by decide)) ?_ ?_
    · refine nodup_countFrom 1 2 ?_ ?_
      · intro k x _
        rw [instanceVars_eq]
        exact nodup_fieldVars (by rw [List.map_map]; exact hi)
      · intro k x v hv
        rw [(instanceVars_base hv).2]; rfl
    · intro v hv
      obtain ⟨k, x, -, hx⟩ := mem_countFrom.1 hv
      exact (instanceVars_base hx).1
    · intro v hv hm
      have := (fieldVars_base hv).1
      rw [always_bases] at this
      exact disj _ _ art_inst (List.map_subset _ (List.drop_subset 1 _) this) hm rfl
  · intro v hv
    have := (fieldVars_base hv).1
    rwa [always_bases] at this
  · intro v hv hm
    rcases List.mem_append.1 hv with hv | hv
    · obtain ⟨k, x, -, hx⟩ := mem_countFrom.1 hv
      exact disj _ _ art_inst (List.take_subset _ _ hm) (instanceVars_base hx).1 rfl
    · have := (fieldVars_base hv).1
      rw [always_bases] at this
      have h3 : (artBases.take 1 ++ artBases.drop 1).Nodup := by rw [List.take_append_drop]; exact hn
      exact disj _ _ h3 hm (by unfold artBases; rwa [← List.map_drop]) rfl

theorem nodup_repoVars (i : Nat) (r : RepoView) : ((repoVars i r).map Var.key).Nodup := by
  have hn : repoBases.Nodup := (List.nodup_append.1 repo_rest).1
  rw [repoVars_eq, List.append_assoc]
  have harts : ∀ v ∈ countFrom (artifactVars r.parentClass.isSome i) 1 r.artifacts, v.base ∈ artBases ++ instBases := by
    intro v hv
    obtain ⟨j, a, -, ha⟩ := mem_countFrom.1 hv
    rcases artifactVars_base ha with ⟨h1, -⟩ | ⟨h1, -⟩
    · exact List.mem_append_left _ h1
    · exact List.mem_append_right _ h1
  refine nodup_bases (repoBases.take 4) (nodup_fieldVars (by decide)) ?_ ?_ ?_
  · refine nodup_bases (artBases ++ instBases) ?_ (nodup_fieldVars (by decide)) harts ?_
    · refine nodup_countFrom 1 1 (fun j a _ => nodup_artifactVars r i j a) ?_
      intro j a v hv
      rcases artifactVars_base hv with ⟨-, h2⟩ | ⟨-, k, h2⟩ <;> rw [h2] <;> rfl
    · intro v hv hm
      exact disj _ _ repo_rest (List.map_subset _ (List.drop_subset 4 _) (fieldVars_base hv).1) hm rfl
  · intro v hv
    exact (fieldVars_base hv).1
  · intro v hv hm
    rcases List.mem_append.1 hv with hv | hv
    · exact disj _ _ repo_rest (List.take_subset _ _ hm) (harts v hv) rfl
    · have h3 : (repoBases.take 4 ++ repoBases.drop 4).Nodup := by rw [List.take_append_drop]; exact hn
      exact disj _ _ h3 hm (by have := (fieldVars_base hv).1; unfold repoBases; rwa [← List.map_drop]) rfl

theorem statusVars_base {d : Bool} {p : Print} {v : Var} (h : v ∈ statusVars d p) :
    v.base ∈ sysBases ++ slotBases ++ repoBases ++ artBases ++ instBases := by
  have e : sysBases ++ slotBases ++ repoBases ++ artBases ++ instBases = sysBases ++ (slotBases ++ (repoBases ++ artBases ++ instBases)) := by
    simp only [List.append_assoc]
  rw [e]
  unfold statusVars at h
  rw [List.mem_append, List.mem_append, List.mem_append] at h
  rcases h with ((h | h) | h) | h
  · refine List.mem_append_left _ ?_
    simp only [List.mem_cons, List.not_mem_nil, or_false] at h
    rcases h with rfl | rfl | rfl | rfl | rfl | rfl | rfl <;> simp [sysBases]
  · obtain ⟨i, s, -, hs⟩ := mem_countFrom.1 h
    exact List.mem_append_right _ (List.mem_append_left _ (slotVars_base hs).1)
  · obtain ⟨i, s, -, hs⟩ := mem_countFrom.1 h
    exact List.mem_append_right _ (List.mem_append_right _ (repoVars_base hs).1)
  · refine List.mem_append_left _ ?_
    simp only [List.mem_singleton] at h
    subst h
    simp [sysBases, countVar]

theorem nodup_statusVars (d : Bool) (p : Print) : ((statusVars d p).map Var.key).Nodup := by
  unfold statusVars
  rw [List.append_assoc, List.append_assoc]
  have hs : ∀ v ∈ countFrom (slotVars d) 1 p.slots, v.base ∈ slotBases := by
    intro v hv
    obtain ⟨i, s, -, hs⟩ := mem_countFrom.1 hv
    exact (slotVars_base hs).1
  have hr : ∀ v ∈ countFrom repoVars 1 p.repos, v.base ∈ repoBases ++ artBases ++ instBases := by
    intro v hv
    obtain ⟨i, s, -, hs⟩ := mem_countFrom.1 hv
    exact (repoVars_base hs).1
  have hc : ∀ v ∈ [countVar c!"RAUC_REPOS" [] p.repos.length], v.base ∈ sysBases.drop 7 := by
    intro v hv
    simp only [List.mem_singleton] at hv
    subst hv
    simp [sysBases, countVar]
  have hsys : (sysBases.take 7 ++ sysBases.drop 7).Nodup := by
    rw [List.take_append_drop]; exact (List.nodup_append.1 sys_rest).1
  refine nodup_bases (sysBases.take 7) (by simp only [List.map_cons, List.map_nil, Var.key]; decide +kernel) ?_ ?_ ?_
  · refine nodup_bases slotBases (nodup_countFrom 1 0 (fun i s _ => nodup_slotVars d i s) ?_) ?_ hs ?_
    · intro i s v hv; rw [(slotVars_base hv).2]; rfl
    · refine nodup_bases (repoBases ++ artBases ++ instBases)
        (nodup_countFrom 1 0 (fun i r _ => nodup_repoVars i r) (fun i r v hv => (repoVars_base hv).2)) (by simp) hr ?_
      intro v hv hm
      exact disj _ _ sys_rest (List.drop_subset _ _ (hc v hv)) (List.mem_append_right _ hm) rfl
    · intro v hv hm
      rcases List.mem_append.1 hv with hv | hv
      · exact disj _ _ slot_rest hm (hr v hv) rfl
      · exact disj _ _ sys_rest (List.drop_subset _ _ (hc v hv)) (List.mem_append_left _ hm) rfl
  · intro v hv
    simp only [List.mem_cons, List.not_mem_nil, or_false] at hv
    rcases hv with rfl | rfl | rfl | rfl | rfl | rfl | rfl <;> simp [sysBases]
  · intro v hv hm
    rcases List.mem_append.1 hv with hv | hv
    · exact disj _ _ sys_rest (List.take_subset _ _ hm) (List.mem_append_left _ (hs v hv)) rfl
    · rcases List.mem_append.1 hv with hv | hv
      · exact disj _ _ sys_rest (List.take_subset _ _ hm) (List.mem_append_right _ (hr v hv)) rfl
      · exact disj _ _ hsys hm (hc v hv) rfl

/-! ## C69 -/

/-- name and value of a variable -/
def Var.pair (v : Var) : Str × Str := (v.name, v.value)

theorem mem_statusVars {d : Bool} {p : Print} {k x : Str} : (k, x) ∈ (statusVars d p).map Var.pair ↔ StatusVar d p k x := by
  constructor
  · intro h
    obtain ⟨v, hv, he⟩ := List.mem_map.1 h
    obtain ⟨rfl, rfl⟩ : v.name = k ∧ v.value = x := ⟨congrArg Prod.fst he, congrArg Prod.snd he⟩
    clear h he
    unfold statusVars at hv
    rw [List.mem_append, List.mem_append, List.mem_append] at hv
    rcases hv with ((hv | hv) | hv) | hv
    · refine .system ?_
      simp only [List.mem_cons, List.not_mem_nil, or_false] at hv
      rcases hv with rfl | rfl | rfl | rfl | rfl | rfl | rfl <;>
        simp [systemVars, Var.name, pstr, upTo, numbers]
    · obtain ⟨i, s, hi, hs⟩ := mem_countFrom.1 hv
      rw [Nat.add_comm] at hs
      rw [slotVars_eq, List.mem_append] at hs
      rcases hs with hs | hs
      · obtain ⟨f, hf, rfl⟩ := mem_always.1 hs
        exact .slot hi hf
      · split at hs
        · rename_i st hst
          obtain ⟨f, hf, rfl⟩ := mem_always.1 hs
          exact .detail rfl hi hst hf
        · cases hs
    · obtain ⟨i, r, hi, hr⟩ := mem_countFrom.1 hv
      rw [Nat.add_comm] at hr
      rw [repoVars_eq, List.mem_append, List.mem_append] at hr
      have hfld : ∀ F : List (Str × (RepoView → Option Str)), F ⊆ repoFields → v ∈ fieldVars F [i + 1] r → StatusVar d p v.name v.value := by
        intro F hF h
        obtain ⟨f, hf, h1, h2, h3⟩ := mem_fieldVars.1 h
        rw [name_eq, h2, h3]
        exact .repo hi (hF hf) h1
      rcases hr with (hr | hr) | hr
      · exact hfld _ (List.take_subset _ _) hr
      · obtain ⟨j, a, hj, ha⟩ := mem_countFrom.1 hr
        rw [Nat.add_comm 1 j] at ha
        rw [artifactVars_eq, List.mem_append, List.mem_append] at ha
        rcases ha with (ha | ha) | ha
        · obtain ⟨f, hf, rfl⟩ := mem_always.1 ha
          exact .artifact hi hj (List.take_subset _ _ hf)
        · obtain ⟨k, x, hk, hx⟩ := mem_countFrom.1 ha
          rw [Nat.add_comm 1 k] at hx
          rw [instanceVars_eq] at hx
          obtain ⟨f, hf, h1, h2, h3⟩ := mem_fieldVars.1 hx
          obtain ⟨g, hg, rfl⟩ := List.mem_map.1 hf
          rw [name_eq, h2, h3]
          exact .inst hi hj hk hg h1
        · obtain ⟨f, hf, rfl⟩ := mem_always.1 ha
          exact .artifact hi hj (List.drop_subset _ _ hf)
      · exact hfld _ (List.drop_subset _ _) hr
    · refine .system ?_
      simp only [List.mem_singleton] at hv
      subst hv
      simp [systemVars, countVar, Var.name, upTo, numbers]
  · intro h
    have key : ∃ v ∈ statusVars d p, v.name = k ∧ v.value = x := by
      unfold statusVars
      simp only [List.mem_append]
      cases h with
      | system h =>
        simp only [systemVars, List.mem_cons, List.not_mem_nil, or_false, Prod.mk.injEq] at h
        rcases h with ⟨rfl, rfl⟩ | ⟨rfl, rfl⟩ | ⟨rfl, rfl⟩ | ⟨rfl, rfl⟩ | ⟨rfl, rfl⟩ | ⟨rfl, rfl⟩ | ⟨rfl, rfl⟩ | ⟨rfl, rfl⟩
        · exact ⟨⟨c!"RAUC_SYSTEM_COMPATIBLE", [], pstr p.compatible⟩, Or.inl (Or.inl (Or.inl (by simp))), by simp [Var.name], rfl⟩
        · exact ⟨⟨c!"RAUC_SYSTEM_VARIANT", [], pstr p.variant⟩, Or.inl (Or.inl (Or.inl (by simp))), by simp [Var.name], rfl⟩
        · exact ⟨⟨c!"RAUC_SYSTEM_VERSION", [], pstr p.version⟩, Or.inl (Or.inl (Or.inl (by simp))), by simp [Var.name], rfl⟩
        · exact ⟨⟨c!"RAUC_SYSTEM_BOOTED_BOOTNAME", [], pstr p.bootslot⟩, Or.inl (Or.inl (Or.inl (by simp))), by simp [Var.name], rfl⟩
        · exact ⟨⟨c!"RAUC_BOOT_PRIMARY", [], pstr p.primary⟩, Or.inl (Or.inl (Or.inl (by simp))), by simp [Var.name], rfl⟩
        · exact ⟨⟨c!"RAUC_SYSTEM_SLOTS", [], _⟩, Or.inl (Or.inl (Or.inl (by simp [pstr]))), by simp [Var.name], rfl⟩
        · exact ⟨⟨c!"RAUC_SLOTS", [], numbers p.slots.length⟩, Or.inl (Or.inl (Or.inl (by simp))), by simp [Var.name], rfl⟩
        · exact ⟨countVar c!"RAUC_REPOS" [] _, Or.inr (by simp), by simp [Var.name, countVar], rfl⟩
      | @slot n s f hi hf =>
        refine ⟨⟨f.1, [n + 1], f.2 s⟩, Or.inl (Or.inl (Or.inr (mem_countFrom.2 ⟨n, s, hi, ?_⟩))), rfl, rfl⟩
        rw [slotVars_eq, Nat.add_comm 1 n]
        exact List.mem_append_left _ (mem_always.2 ⟨f, hf, rfl⟩)
      | @detail n s st f hd hi hst hf =>
        refine ⟨⟨f.1, [n + 1], f.2 st⟩, Or.inl (Or.inl (Or.inr (mem_countFrom.2 ⟨n, s, hi, ?_⟩))), rfl, rfl⟩
        rw [slotVars_eq, Nat.add_comm 1 n, hd, hst]
        exact List.mem_append_right _ (mem_always.2 ⟨f, hf, rfl⟩)
      | @repo n r f _ hi hf hv =>
        refine ⟨⟨f.1, [n + 1], x⟩, Or.inl (Or.inr (mem_countFrom.2 ⟨n, r, hi, ?_⟩)), rfl, rfl⟩
        rw [repoVars_eq, Nat.add_comm 1 n]
        rw [← List.take_append_drop 4 repoFields, List.mem_append] at hf
        rcases hf with hf | hf
        · exact List.mem_append_left _ (List.mem_append_left _ (mem_fieldVars.2 ⟨f, hf, hv, rfl, rfl⟩))
        · exact List.mem_append_right _ (mem_fieldVars.2 ⟨f, hf, hv, rfl, rfl⟩)
      | @artifact n m r a f hi hj hf =>
        refine ⟨⟨f.1, [n + 1, m + 1], f.2 a⟩, Or.inl (Or.inr (mem_countFrom.2 ⟨n, r, hi, ?_⟩)), rfl, rfl⟩
        rw [repoVars_eq, Nat.add_comm 1 n]
        refine List.mem_append_left _ (List.mem_append_right _ (mem_countFrom.2 ⟨m, a, hj, ?_⟩))
        rw [artifactVars_eq, Nat.add_comm 1 m]
        rw [← List.take_append_drop 1 artifactFields, List.mem_append] at hf
        rcases hf with hf | hf
        · exact List.mem_append_left _ (List.mem_append_left _ (mem_always.2 ⟨f, hf, rfl⟩))
        · exact List.mem_append_right _ (mem_always.2 ⟨f, hf, rfl⟩)
      | @inst n m k r a y f _ hi hj hk hf hv =>
        refine ⟨⟨f.1, [n + 1, m + 1, k + 1], x⟩, Or.inl (Or.inr (mem_countFrom.2 ⟨n, r, hi, ?_⟩)), rfl, rfl⟩
        rw [repoVars_eq, Nat.add_comm 1 n]
        refine List.mem_append_left _ (List.mem_append_right _ (mem_countFrom.2 ⟨m, a, hj, ?_⟩))
        rw [artifactVars_eq, Nat.add_comm 1 m]
        refine List.mem_append_left _ (List.mem_append_right _ (mem_countFrom.2 ⟨k, y, hk, ?_⟩))
        rw [instanceVars_eq, Nat.add_comm 1 k]
        exact mem_fieldVars.2 ⟨(f.1, f.2 r), List.mem_map_of_mem (f := fun f => (f.1, f.2 r)) hf, hv, rfl, rfl⟩
    obtain ⟨v, hv, rfl, rfl⟩ := key
    exact List.mem_map_of_mem (f := Var.pair) hv

set_option maxRecDepth 10000 in
theorem base_chars : ∀ b ∈ sysBases ++ slotBases ++ repoBases ++ artBases ++ instBases, b ≠ [] ∧ ∀ c ∈ b,
    (('A' ≤ c ∧ c ≤ 'Z') ∨ ('0' ≤ c ∧ c ≤ '9') ∨ c = '_') := by decide +kernel

theorem digit_name {n : Nat} {c : Char} (h : c ∈ toDec n) : '0' ≤ c ∧ c ≤ '9' := by
  obtain ⟨d, hd, rfl⟩ := toBase_chars 10 (by omega) n c h
  exact (by decide : ∀ d < 10, '0' ≤ digitChar d ∧ digitChar d ≤ '9') d hd

theorem numbered_name {b : Str} (h : b ≠ [] ∧ ∀ c ∈ b, Utils.NameChar c) (l : List Nat) : numbered b l ≠ [] ∧ ∀ c ∈ numbered b l, Utils.NameChar c := by
  unfold numbered
  refine ⟨by simp [h.1], ?_⟩
  intro c hc
  rcases List.mem_append.1 hc with hc | hc
  · exact h.2 c hc
  · obtain ⟨n, -, hn⟩ := List.mem_flatMap.1 hc
    rcases List.mem_cons.1 hn with rfl | hn
    · exact Or.inr (Or.inr rfl)
    · exact Or.inr (Or.inl (digit_name hn))

/-- **C69.** The output of `rauc status --output-format=shell` is a script that assigns every documented variable exactly once, with the documented
value, and nothing else, whatever the names, paths and descriptions contain. -/
theorem C69_shell (d : Bool) (p : Print) (h : ∀ s ∈ p.slots, s.state ≠ none) :
    ∃ t vars, statusShell d p = some t ∧ Utils.Script t vars ∧ (vars.map (·.1)).Nodup ∧ ∀ k v, (k, v) ∈ vars ↔ StatusVar d p k v := by
  obtain ⟨t, ht, hs⟩ := Utils.C51_shell_output ((statusVars d p).map Var.pair) (by
    intro q hq
    obtain ⟨v, hv, rfl⟩ := List.mem_map.1 hq
    exact numbered_name (base_chars _ (statusVars_base hv)) _)
  refine ⟨t, _, ?_, hs, ?_, fun k v => mem_statusVars⟩
  · unfold statusShell
    rw [if_neg]
    · rw [List.map_map] at ht
      exact ht
    · intro e
      rw [List.any_eq_true] at e
      obtain ⟨s, h1, h2⟩ := e
      exact h s h1 (of_decide_eq_true h2)
  · rw [List.map_map]
    exact names_nodup (nodup_statusVars d p) (fun v hv => plain_all _ (statusVars_base hv))

/-- **C69.** The word lists can be read back: `RAUC_SLOTS` has the words 1 to n, and if no slot name contains a blank, the n-th word of
`RAUC_SYSTEM_SLOTS` is the name of slot n. -/
theorem C69_words (p : Print) (h : ∀ s ∈ p.slots, s.name ≠ [] ∧ ' ' ∉ s.name) :
    split ' ' (join ' ' (p.slots.map (·.name))) = p.slots.map (·.name) ∧
    split ' ' (upTo p.slots.length) = (List.range p.slots.length).map (fun i => toDec (i + 1)) := by
  constructor
  · refine split_join _ _ ?_ ?_
    · intro t ht
      obtain ⟨s, hs, rfl⟩ := List.mem_map.1 ht
      exact (h s hs).2
    · intro e
      have : ([] : Str) ∈ p.slots.map (·.name) := by rw [e]; simp
      obtain ⟨s, hs, hn⟩ := List.mem_map.1 this
      exact (h s hs).1 hn
  · refine split_join _ _ ?_ ?_
    · intro t ht hb
      obtain ⟨i, -, rfl⟩ := List.mem_map.1 ht
      exact absurd (digit_name hb).1 (by decide)
    · intro e
      have : ([] : Str) ∈ (List.range p.slots.length).map (fun i => toDec (i + 1)) := by rw [e]; simp
      obtain ⟨i, -, hn⟩ := List.mem_map.1 this
      exact toDec_ne_nil _ hn

theorem forall₂_names {d : Bool} {load : RSlot → SlotStatus} {l m : List RSlot} (h : List.Forall₂ (fun c s => Shows d c s (load s)) l m) :
    l.map (·.name) = m.map (·.name) := by
  induction h with
  | nil => rfl
  | cons ha _ ih => simp only [List.map_cons, ha.name, ih]

theorem forall₂_left {d : Bool} {load : RSlot → SlotStatus} {l m : List RSlot} (h : List.Forall₂ (fun c s => Shows d c s (load s)) l m) :
    ∀ c ∈ l, ∃ s ∈ m, Shows d c s (load s) := by
  induction h with
  | nil => simp
  | cons ha _ ih =>
    intro c hc
    rcases List.mem_cons.1 hc with rfl | hc
    · exact ⟨_, by simp, ha⟩
    · obtain ⟨s, h1, h2⟩ := ih c hc
      exact ⟨s, by simp [h1], h2⟩

theorem forall₂_right {d : Bool} {load : RSlot → SlotStatus} {l m : List RSlot} (h : List.Forall₂ (fun c s => Shows d c s (load s)) l m) :
    ∀ s ∈ m, ∃ c ∈ l, Shows d c s (load s) := by
  induction h with
  | nil => simp
  | cons ha _ ih =>
    intro c hc
    rcases List.mem_cons.1 hc with rfl | hc
    · exact ⟨_, by simp, ha⟩
    · obtain ⟨s, h1, h2⟩ := ih c hc
      exact ⟨s, by simp [h1], h2⟩

/-- what a client that asks the service has to show -/
structure Received (d : Bool) (S : Server) (shown : Print) : Prop where
  length : shown.slots.length = S.slots.length
  names : (shown.slots.map (·.name)).Nodup
  all : ∀ s ∈ S.slots, ∃ (n : Nat) (c : RSlot), shown.slots[n]? = some c ∧ Shows d c s (S.load s)
  only : ∀ (n : Nat) (c : RSlot), shown.slots[n]? = some c → ∃ s ∈ S.slots, Shows d c s (S.load s)
  compatible : shown.compatible = some (S.compatible.getD [])
  variant : shown.variant = some (S.variant.getD [])
  version : shown.version = some (S.version.getD [])
  bootslot : shown.bootslot = some (S.bootslot.getD [])
  primary : shown.primary = S.primary
  repos : shown.repos = S.repos

theorem received (iso : Str → Option DateTime) (ord : List RSlot → List RSlot) (d : Bool) (S : Server) (ho : ∀ l, (ord l).Perm l)
    (h : TableOk S.slots) (hl : ∀ s ∈ S.slots, Sendable (S.load s)) (hp : ∀ q, S.primary = some q → q ∈ S.slots.map (·.name)) :
    ∃ P, retrieveStatus iso ord d S = some P ∧ Received d S P := by
  obtain ⟨l, hl1, hl2⟩ := C69_slots_partial iso d S.load S.slots h hl
  have hnames : l.map (·.name) = S.slots.map (·.name) := forall₂_names hl2
  have hmem := forall₂_left hl2
  have hmem2 := forall₂_right hl2
  have hret : ∃ P, retrieveStatus iso ord d S = some P ∧ P.slots = ord l ∧ P.compatible = some (S.compatible.getD []) ∧
      P.variant = some (S.variant.getD []) ∧ P.version = some (S.version.getD []) ∧ P.bootslot = some (S.bootslot.getD []) ∧
      P.primary = S.primary ∧ P.repos = S.repos := by
    unfold retrieveStatus
    rw [hl1]
    refine ⟨_, rfl, rfl, rfl, rfl, rfl, rfl, ?_, rfl⟩
    simp only []
    cases hpr : S.primary with
    | none => rfl
    | some q =>
      have hq := hp q hpr
      rw [← hnames] at hq
      obtain ⟨c, hc, hn⟩ := List.mem_map.1 hq
      simp only []
      cases hf : l.find? (fun s => decide (s.name = q)) with
      | none =>
        have := List.find?_eq_none.1 hf c hc
        exact absurd (decide_eq_true hn) this
      | some x => rw [Option.map_some, of_decide_eq_true (List.find?_some (p := fun s : RSlot => decide (s.name = q)) hf)]
  obtain ⟨P, e0, e1, e2, e3, e4, e5, e6, e7⟩ := hret
  have hperm : P.slots.Perm l := e1 ▸ ho l
  refine ⟨P, e0, ?_, ?_, ?_, ?_, e2, e3, e4, e5, e6, e7⟩
  · rw [hperm.length_eq, ← List.length_map (f := fun s : RSlot => s.name), hnames, List.length_map]
  · rw [(hperm.map _).nodup_iff, hnames]
    exact h.names
  · intro s hs
    obtain ⟨c, h1, h2⟩ := hmem2 s hs
    obtain ⟨n, hn⟩ := List.mem_iff_getElem?.1 (hperm.mem_iff.2 h1)
    exact ⟨n, c, hn, h2⟩
  · intro n c hc
    exact hmem c (hperm.mem_iff.1 (List.mem_iff_getElem?.2 ⟨n, hc⟩))

theorem Received.states {d : Bool} {S : Server} {P : Print} (r : Received d S P) (hs : ∀ s ∈ S.slots, s.state ≠ none) : ∀ c ∈ P.slots, c.state ≠ none := by
  intro c hc
  obtain ⟨n, hn⟩ := List.mem_iff_getElem?.1 hc
  obtain ⟨s, h1, h2⟩ := r.only n c hn
  rw [h2.state]
  exact hs s h1

/-- **C69.** `rauc status --output-format=shell` with a service: every slot the service knows is shown, under exactly one number, with the values the service
has for it; no other slot is shown; the variables of the system, the primary slot and the artifact repositories are those of the service. -/
theorem C69_status_partial (iso : Str → Option DateTime) (ord : List RSlot → List RSlot) (d : Bool) (S : Server) (ho : ∀ l, (ord l).Perm l)
    (h : TableOk S.slots) (hl : ∀ s ∈ S.slots, Sendable (S.load s)) (hs : ∀ s ∈ S.slots, s.state ≠ none)
    (hp : ∀ q, S.primary = some q → q ∈ S.slots.map (·.name)) :
    ∃ t vars shown, raucStatus iso ord d S = some t ∧ Utils.Script t vars ∧ (vars.map (·.1)).Nodup ∧
      (∀ k v, (k, v) ∈ vars ↔ StatusVar d shown k v) ∧ Received d S shown := by
  obtain ⟨P, e0, r⟩ := received iso ord d S ho h hl hp
  obtain ⟨t, vars, h1, h2, h3, h4⟩ := C69_shell d P (r.states hs)
  exact ⟨t, vars, P, by unfold raucStatus; rw [e0]; exact h1, h2, h3, h4, r⟩

/-! ### An example and findings -/

def now1 : DateTime := ⟨2024, 5, 17, 12, 30, 1, 250⟩
def now2 : DateTime := ⟨2024, 6, 17, 12, 30, 1, 0⟩

/-- two slots and a child, the first one with an installed bundle -/
def serverEx : Server where
  compatible := some c!"it's"
  variant := none
  version := some c!"1"
  bootslot := some c!"B"
  primary := some c!"rootfs.0"
  slots := [{ name := c!"rootfs.0", sclass := some c!"rootfs", device := some c!"/dev/sda1", typ := some c!"raw", bootname := some c!"A", state := some .inactive,
              bootState := some true, extMountPoint := some c!"/mnt" },
            { name := c!"rootfs.1", sclass := some c!"rootfs", device := some c!"/dev/sda2", typ := some c!"raw", bootname := some c!"B", state := some .booted,
              bootState := some false },
            { name := c!"appfs.0", sclass := some c!"appfs", device := some c!"/dev/sda3", typ := some c!"raw", parent := some c!"rootfs.0", state := some .inactive }]
  load := fun s => if s.name = c!"rootfs.0" then { status := some c!"ok", digest := some c!"ab", sha256 := true, size := 5, installedTimestamp := some now1, installedCount := 2 } else {}

/-- the conditions of `C69_status_partial` hold for it -/
example : TableOk serverEx.slots ∧ (∀ s ∈ serverEx.slots, Sendable (serverEx.load s)) ∧ (∀ s ∈ serverEx.slots, s.state ≠ none) ∧
    (∀ q, serverEx.primary = some q → q ∈ serverEx.slots.map (·.name)) := by
  refine ⟨⟨by decide, ?_⟩, ?_, by decide, ?_⟩
  · intro s hs p hp
    simp only [serverEx, List.mem_cons, List.not_mem_nil, or_false] at hs
    rcases hs with rfl | rfl | rfl
    · cases hp
    · cases hp
    · cases hp; decide
  · intro s hs
    simp only [serverEx, List.mem_cons, List.not_mem_nil, or_false] at hs
    rcases hs with rfl | rfl | rfl
    · exact ⟨(by rintro d (h | h) <;> cases h; decide), (fun _ => rfl), (by decide), fun h => by cases h⟩
    · exact ⟨(by rintro d (h | h) <;> cases h), (fun h => by cases h), (by decide), fun h => rfl⟩
    · exact ⟨(by rintro d (h | h) <;> cases h), (fun h => by cases h), (by decide), fun h => rfl⟩
  · intro q hq; cases hq; decide

set_option maxRecDepth 100000 in
/-- the slot number 2 of the example in the output -/
example : ∃ P, retrieveStatus (fun _ => none) id true serverEx = some P ∧
    ⟨c!"RAUC_SLOT_STATE", [2], c!"booted"⟩ ∈ statusVars true P ∧ ⟨c!"RAUC_SLOT_MOUNTPOINT", [1], c!"/mnt"⟩ ∈ statusVars true P := by
  refine ⟨_, rfl, ?_, ?_⟩ <;> decide +kernel

theorem get_nil (k : Str) : Dict.get [] k = none := rfl

/-- **Finding (C69).** A slot that was activated once and then installed again (without being activated, e.g. with `activate-installed=false`) has an
activation count of 1 in the status file, but every client is told nothing about it, and `rauc status` prints 0: the service sends the count only along with the
time of activation, which the installation has removed. -/
theorem C69_count_violated (iso : Str → Option DateTime) (m : Manifest) (img : Image) (txn : Str) (s : RSlot) :
    let st := Install.updateStatus (Install.activatedStatus {} now1) c!"ok" m img txn now2
    st.activatedCount = 1 ∧ (toDict s st).get c!"activated.count" = none ∧ (statusOfDict iso (toDict s st)).activatedCount = 0 := by
  intro st
  have h13 := (toDict_status s st).2.2.2.2.2.2.2.2.2.2.2.2
  have h0 : (toDict s st).getU c!"activated.count" = none := h13
  refine ⟨rfl, ?_, ?_⟩
  · unfold toDict
    cases st.digest <;> cases st.sha256 <;> cases st.installedTimestamp <;>
      simp [get_insert, get_insertS, show st.activatedTimestamp = none from rfl, get_nil]
  · show ((toDict s st).getU _).getD 0 = 0
    rw [h0]; rfl

/-- **Finding (C69).** A client aborts if the state of a slot is not known. (The service determines the states of all slots when it
starts, main.c:2454, and does not start if it fails, so it never sends such a slot.) -/
theorem C69_abort (d : Bool) (p : Print) (h : ∃ s ∈ p.slots, s.state = none) : statusShell d p = none := by
  obtain ⟨s, h1, h2⟩ := h
  unfold statusShell
  rw [if_pos]
  rw [List.any_eq_true]
  exact ⟨s, h1, decide_eq_true h2⟩

end Rauc.StatusView
