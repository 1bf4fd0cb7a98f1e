import Verif.Model.Config
import Mathlib.Tactic.Ring
import Mathlib.Tactic.NormNum
import Mathlib.Tactic.Positivity
import Mathlib.Tactic.IntervalCases
import Mathlib.Data.List.Nodup

/-!
# C23 to C25: what loading a configuration guarantees
-/

namespace Rauc.Config

/-! ## C23 Parent links -/

/-- Specification: `r` is a direct or indirect parent of the slot named `n` in the configuration file. -/
inductive Ancestor (slots : List Slot) : Str → Str → Prop
  | parent {s p} : s ∈ slots → s.parent = some p → Ancestor slots s.name p
  | further {s p r} : s ∈ slots → s.parent = some p → Ancestor slots p r → Ancestor slots s.name r

/-- Specification: number of parent links above a slot. -/
inductive Depth (slots : List Slot) : Str → Nat → Prop
  | root {s} : s ∈ slots → s.parent = none → Depth slots s.name 0
  | child {s p k} : s ∈ slots → s.parent = some p → Depth slots p k → Depth slots s.name (k + 1)

/-- the same for a link function -/
inductive Anc (par : Links) : Str → Str → Prop
  | one {n p} : par n = some p → Anc par n p
  | more {n p r} : par n = some p → Anc par p r → Anc par n r

theorem Anc.snoc {par : Links} {a b c} (h : Anc par a b) (h2 : par b = some c) : Anc par a c := by
  induction h with
  | one h => exact .more h (.one h2)
  | more h _ ih => exact .more h (ih h2)

theorem Anc.trans {par : Links} {a b c} (h : Anc par a b) (h2 : Anc par b c) : Anc par a c := by
  induction h with
  | one h => exact .more h h2
  | more h _ ih => exact .more h (ih h2)

theorem Anc.cycle_next {par : Links} {n q} (h : Anc par n n) (hq : par n = some q) : Anc par q q := by
  cases h with
  | one h => rw [h] at hq; cases hq; exact .one h
  | more h h2 => rw [h] at hq; cases hq; exact h2.snoc h

theorem Anc.cycle {par : Links} {n p} (h : Anc par n n) (hp : Anc par n p) : Anc par p p := by
  induction hp with
  | one hq => exact h.cycle_next hq
  | more hq _ ih => exact ih (h.cycle_next hq)

theorem Anc.has_parent {par : Links} {n p} (h : Anc par n p) : par n ≠ none := by
  cases h with
  | one h => simp [h]
  | more h _ => simp [h]

/-- invariant of the link fixing -/
structure LInv (par0 par : Links) : Prop where
  none_iff : ∀ n, par n = none ↔ par0 n = none
  val : ∀ n r, par n = some r → par0 n = some r ∨ (par0 r = none ∧ Anc par0 n r)

theorem LInv.anc {par0 par} (I : LInv par0 par) {n r} (h : par n = some r) : Anc par0 n r := by
  rcases I.val n r h with h | ⟨_, h⟩
  · exact .one h
  · exact h

theorem climb_spec {par0 par} (I : LInv par0 par) : ∀ k p r, climb par k p = some r →
    par0 r = none ∧ (r = p ∨ Anc par0 p r) := by
  intro k
  induction k with
  | zero =>
    intro p r h
    simp only [climb] at h
    split at h
    · rename_i hp; cases h; exact ⟨(I.none_iff _).1 hp, Or.inl rfl⟩
    · cases h
  | succ k ih =>
    intro p r h
    simp only [climb] at h
    split at h
    · rename_i hp; cases h; exact ⟨(I.none_iff _).1 hp, Or.inl rfl⟩
    · rename_i q hp
      obtain ⟨h1, h2⟩ := ih q r h
      refine ⟨h1, Or.inr ?_⟩
      rcases h2 with rfl | h2
      · exact I.anc hp
      · exact (I.anc hp).trans h2

theorem fixLinks_spec {par0} : ∀ ns par par', LInv par0 par → fixLinks par ns = some par' →
    LInv par0 par' ∧ (∀ n ∈ ns, ∀ r, par' n = some r → par0 r = none) ∧
      (∀ n r, par n = some r → par0 r = none → ∃ r', par' n = some r' ∧ par0 r' = none) := by
  intro ns
  induction ns with
  | nil =>
    intro par par' I h
    cases h
    exact ⟨I, by simp, fun n r h1 h2 => ⟨r, h1, h2⟩⟩
  | cons n ns ih =>
    intro par par' I h
    simp only [fixLinks] at h
    split at h
    · rename_i hn
      obtain ⟨I', h1, h2⟩ := ih _ _ I h
      refine ⟨I', ?_, h2⟩
      intro m hm r hr
      rcases List.mem_cons.1 hm with rfl | hm
      · have := (I'.none_iff m).2 ((I.none_iff m).1 hn)
        rw [this] at hr; cases hr
      · exact h1 m hm r hr
    · rename_i p hn
      split at h
      · cases h
      · rename_i r hc
        obtain ⟨hr0, hr⟩ := climb_spec I _ _ _ hc
        have hanc : Anc par0 n r := by
          rcases hr with rfl | hr
          · exact I.anc hn
          · exact (I.anc hn).trans hr
        have I2 : LInv par0 (setLink par n r) := by
          constructor
          · intro m
            unfold setLink
            split
            · rename_i e; subst e
              rw [← I.none_iff m, hn]; simp
            · exact I.none_iff m
          · intro m q
            unfold setLink
            split
            · rename_i e; subst e
              intro e; cases e
              exact Or.inr ⟨hr0, hanc⟩
            · exact I.val m q
        obtain ⟨I', h1, h2⟩ := ih _ _ I2 h
        refine ⟨I', ?_, ?_⟩
        · intro m hm q hq
          rcases List.mem_cons.1 hm with rfl | hm
          · obtain ⟨r', e, e2⟩ := h2 m r (by simp [setLink]) hr0
            rw [e] at hq; cases hq; exact e2
          · exact h1 m hm q hq
        · intro m q hq hq0
          by_cases e : m = n
          · subst e
            exact h2 m r (by simp [setLink]) hr0
          · exact h2 m q (by simp [setLink, e, hq]) hq0

theorem LInv.refl (par : Links) : LInv par par := ⟨fun _ => Iff.rfl, fun _ _ h => Or.inl h⟩

theorem links_mem {slots : List Slot} {n p} (h : links slots n = some p) : ∃ s ∈ slots, s.name = n ∧ s.parent = some p := by
  unfold links at h
  cases hf : slots.find? (fun s => s.name == n) with
  | none => rw [hf] at h; simp at h
  | some s =>
    rw [hf] at h
    exact ⟨s, List.mem_of_find?_eq_some hf, by simpa using List.find?_some hf, h⟩

theorem links_eq {slots : List Slot} (hn : (slots.map (·.name)).Nodup) {s} (hs : s ∈ slots) : links slots s.name = s.parent := by
  unfold links
  induction slots with
  | nil => cases hs
  | cons t ts ih =>
    simp only [List.map_cons, List.nodup_cons] at hn
    rcases List.mem_cons.1 hs with rfl | hs
    · simp
    · have : t.name ≠ s.name := fun e => hn.1 (by rw [e]; exact List.mem_map_of_mem hs)
      rw [List.find?_cons_of_neg (by simpa using this)]
      exact ih hn.2 hs

theorem anc_ancestor {slots : List Slot} {n r} (h : Anc (links slots) n r) : Ancestor slots n r := by
  induction h with
  | one h => obtain ⟨s, hs, rfl, hp⟩ := links_mem h; exact .parent hs hp
  | more h _ ih => obtain ⟨s, hs, rfl, hp⟩ := links_mem h; exact .further hs hp ih

theorem ancestor_anc {slots : List Slot} (hn : (slots.map (·.name)).Nodup) {n r} (h : Ancestor slots n r) :
    Anc (links slots) n r := by
  induction h with
  | parent hs hp => exact .one (by rw [links_eq hn hs, hp])
  | further hs hp _ ih => exact .more (by rw [links_eq hn hs, hp]) ih

theorem resolve_cases {slots out : List Slot} (h : resolveParents slots = some out) :
    slots.all (parentOk slots) = true ∧ ∃ par, fixLinks (links slots) (slots.map (·.name)) = some par ∧
      out = slots.map (fun s => { s with parent := par s.name }) := by
  unfold resolveParents at h
  split at h
  · rename_i h1
    refine ⟨h1, ?_⟩
    split at h
    · cases h
    · rename_i par hp
      cases h
      exact ⟨par, hp, rfl⟩
  · cases h

/-- **C23.** If loading succeeds, every slot of the result is a configured slot whose only changed field is its parent; it has a
parent iff it was configured with one; that parent is a direct or indirect configured parent, is itself a slot of the result
and has no parent; and slots with a parent have no boot name. -/
theorem C23_depth_one {slots out : List Slot} (hn : (slots.map (·.name)).Nodup) (h : resolveParents slots = some out) :
    out.map (·.name) = slots.map (·.name) ∧
    ∀ t ∈ out, ∃ s ∈ slots, t = { s with parent := t.parent } ∧ (t.parent = none ↔ s.parent = none) ∧
      ∀ p, t.parent = some p → t.bootname = none ∧ Ancestor slots t.name p ∧ ∃ q ∈ out, q.name = p ∧ q.parent = none := by
  obtain ⟨hok, par, hf, rfl⟩ := resolve_cases h
  obtain ⟨I, h1, -⟩ := fixLinks_spec _ _ _ (LInv.refl _) hf
  refine ⟨by simp [List.map_map, Function.comp_def], ?_⟩
  intro t ht
  obtain ⟨s, hs, rfl⟩ := List.mem_map.1 ht
  refine ⟨s, hs, rfl, ?_, ?_⟩
  · show par s.name = none ↔ s.parent = none
    rw [I.none_iff, links_eq hn hs]
  · intro p hp
    replace hp : par s.name = some p := hp
    have hsp : s.parent ≠ none := by
      rw [← links_eq hn hs]; intro e; rw [(I.none_iff _).2 e] at hp; cases hp
    have hso := List.all_eq_true.1 hok s hs
    unfold parentOk at hso
    have hanc := anc_ancestor (I.anc hp)
    have hp0 := h1 s.name (List.mem_map_of_mem hs) p hp
    refine ⟨?_, hanc, ?_⟩
    · cases hq : s.parent with
      | none => exact absurd hq hsp
      | some q => rw [hq] at hso; simp at hso; exact hso.2
    · -- p is a slot name
      have hmem : ∀ n r, Ancestor slots n r → ∃ q ∈ slots, q.name = r := by
        intro n r ha
        induction ha with
        | @parent s p hs hp =>
          have := List.all_eq_true.1 hok s hs
          unfold parentOk at this
          rw [hp] at this
          simp at this
          obtain ⟨⟨q, hq, e⟩, -⟩ := this
          exact ⟨q, hq, e⟩
        | further _ _ _ ih => exact ih
      obtain ⟨q, hq, rfl⟩ := hmem _ _ hanc
      exact ⟨{ q with parent := par q.name }, List.mem_map.2 ⟨q, hq, rfl⟩, rfl, (I.none_iff _).2 hp0⟩

/-- **C23.** Every configuration in which some slot is its own (direct or indirect) parent is rejected. -/
theorem C23_cycle_rejected {slots : List Slot} (hn : (slots.map (·.name)).Nodup) {n} (hc : Ancestor slots n n) :
    resolveParents slots = none := by
  cases h : resolveParents slots with
  | none => rfl
  | some out =>
    exfalso
    obtain ⟨hok, par, hf, rfl⟩ := resolve_cases h
    obtain ⟨I, h1, -⟩ := fixLinks_spec _ _ _ (LInv.refl _) hf
    have hanc := ancestor_anc hn hc
    have : ∃ s ∈ slots, s.name = n := by
      cases hc with
      | parent hs _ => exact ⟨_, hs, rfl⟩
      | further hs _ _ => exact ⟨_, hs, rfl⟩
    obtain ⟨s, hs, rfl⟩ := this
    cases hp : par s.name with
    | none => exact hanc.has_parent ((I.none_iff _).1 hp)
    | some p =>
      exact (hanc.cycle (I.anc hp)).has_parent (h1 _ (List.mem_map_of_mem hs) p hp)

/-- **C23.** A parent that is not a slot, and a boot name on a slot with a parent, are errors. -/
theorem C23_missing_rejected {slots : List Slot} {s p} (hs : s ∈ slots) (hp : s.parent = some p)
    (hbad : (∀ t ∈ slots, t.name ≠ p) ∨ s.bootname ≠ none) : resolveParents slots = none := by
  cases h : resolveParents slots with
  | none => rfl
  | some out =>
    exfalso
    obtain ⟨hok, -⟩ := resolve_cases h
    have := List.all_eq_true.1 hok s hs
    unfold parentOk at this
    rw [hp] at this
    simp at this
    obtain ⟨⟨q, hq, e⟩, hb⟩ := this
    rcases hbad with hbad | hbad
    · exact hbad q hq e
    · exact hbad hb

/-- depth below a bound in a link function -/
def Up (par : Links) : Nat → Str → Prop
  | 0, n => par n = none
  | k + 1, n => par n = none ∨ ∃ p, par n = some p ∧ Up par k p

theorem Up.mono {par : Links} : ∀ {k n}, Up par k n → Up par (k + 1) n := by
  intro k
  induction k with
  | zero => intro n h; exact Or.inl h
  | succ k ih =>
    intro n h
    rcases h with h | ⟨p, hp, h⟩
    · exact Or.inl h
    · exact Or.inr ⟨p, hp, ih h⟩

theorem climb_up {par : Links} : ∀ k n, Up par k n → ∃ r, climb par k n = some r ∧ par r = none := by
  intro k
  induction k with
  | zero => intro n h; exact ⟨n, by simp only [climb]; rw [h], h⟩
  | succ k ih =>
    intro n h
    rcases h with h | ⟨p, hp, h⟩
    · exact ⟨n, by simp only [climb]; rw [h], h⟩
    · obtain ⟨r, hr, h0⟩ := ih p h
      exact ⟨r, by simp only [climb]; rw [hp]; exact hr, h0⟩

theorem up_setLink {par : Links} {n p r} (hn : par n = some p) (hr : par r = none) :
    ∀ k m, Up par k m → Up (setLink par n r) k m := by
  have hrn : r ≠ n := by rintro rfl; rw [hr] at hn; cases hn
  have h0 : ∀ m, par m = none → setLink par n r m = none := by
    intro m hm
    unfold setLink
    split
    · rename_i e; subst e; rw [hm] at hn; cases hn
    · exact hm
  intro k
  induction k with
  | zero => intro m h; exact h0 m h
  | succ k ih =>
    intro m h
    rcases h with h | ⟨q, hq, h⟩
    · exact Or.inl (h0 m h)
    · refine Or.inr ?_
      by_cases e : m = n
      · subst e
        refine ⟨r, by simp [setLink], ?_⟩
        cases k with
        | zero => exact h0 r hr
        | succ k => exact Or.inl (h0 r hr)
      · exact ⟨q, by simp [setLink, e, hq], ih q h⟩

theorem fixLinks_total : ∀ (ns : List Str) (par : Links), (∀ n ∈ ns, Up par 101 n) → ∃ par', fixLinks par ns = some par' := by
  intro ns
  induction ns with
  | nil => intro par _; exact ⟨par, rfl⟩
  | cons n ns ih =>
    intro par h
    simp only [fixLinks]
    cases hn : par n with
    | none => exact ih par (fun m hm => h m (List.mem_cons_of_mem _ hm))
    | some p =>
      have : Up par 100 p := by
        rcases h n (by simp) with h | ⟨q, hq, h⟩
        · rw [h] at hn; cases hn
        · rw [hq] at hn; cases hn; exact h
      obtain ⟨r, hr, h0⟩ := climb_up _ _ this
      simp only [hr]
      exact ih _ (fun m hm => up_setLink hn h0 _ m (h m (List.mem_cons_of_mem _ hm)))

theorem depth_up {slots : List Slot} (hn : (slots.map (·.name)).Nodup) {n k} (h : Depth slots n k) :
    Up (links slots) k n := by
  induction h with
  | root hs hp => show links slots _ = none; rw [links_eq hn hs, hp]
  | child hs hp _ ih => exact Or.inr ⟨_, by rw [links_eq hn hs, hp], ih⟩

theorem up_le {par : Links} {k n} (h : Up par k n) : ∀ j, Up par (k + j) n
  | 0 => h
  | j + 1 => (up_le h j).mono

/-- **C23.** Conversely every configuration whose chains have at most 101 links and whose children have no boot name is accepted. -/
theorem C23_accepts {slots : List Slot} (hn : (slots.map (·.name)).Nodup)
    (hd : ∀ s ∈ slots, ∃ k ≤ 101, Depth slots s.name k) (hb : ∀ s ∈ slots, s.parent ≠ none → s.bootname = none) :
    ∃ out, resolveParents slots = some out := by
  have hinv : ∀ {n k}, Depth slots n k → ∃ t ∈ slots, t.name = n := by
    intro n k h
    cases h with
    | root hs _ => exact ⟨_, hs, rfl⟩
    | child hs _ _ => exact ⟨_, hs, rfl⟩
  have hdp : ∀ {n k}, Depth slots n k → ∀ s ∈ slots, s.name = n → ∀ p, s.parent = some p → ∃ t ∈ slots, t.name = p := by
    intro n k h s hs e p hp
    have hl := links_eq hn hs
    cases h with
    | root ht h0 =>
      have := links_eq hn ht
      rw [← e, hl, hp, h0] at this; cases this
    | child ht h0 hd' =>
      have := links_eq hn ht
      rw [← e, hl, hp, h0] at this
      cases this
      exact hinv hd'
  have hok : slots.all (parentOk slots) = true := by
    rw [List.all_eq_true]
    intro s hs
    unfold parentOk
    cases hp : s.parent with
    | none => rfl
    | some p =>
      obtain ⟨k, -, hk⟩ := hd s hs
      obtain ⟨t, ht, e⟩ := hdp hk s hs rfl p hp
      simp [hb s hs (by simp [hp])]
      exact ⟨t, ht, e⟩
  obtain ⟨par, hp⟩ := fixLinks_total (slots.map (·.name)) (links slots) (by
    intro n hm
    obtain ⟨s, hs, rfl⟩ := List.mem_map.1 hm
    obtain ⟨k, hk, hk2⟩ := hd s hs
    have := up_le (depth_up hn hk2) (101 - k)
    rwa [Nat.add_sub_cancel' hk] at this)
  exact ⟨_, by unfold resolveParents; rw [if_pos hok, hp]⟩

/-- a concrete configuration with a grandparent, and one with a cycle -/
def exSlots : List Slot :=
  [{ name := c!"data.0", sclass := c!"data", parent := some (c!"app.0") },
   { name := c!"app.0", sclass := c!"app", parent := some (c!"rootfs.0") },
   { name := c!"rootfs.0", sclass := c!"rootfs", bootname := some (c!"A") }]

example : (exSlots.map (·.name)).Nodup ∧
    (resolveParents exSlots).map (fun l => l.map (·.parent)) = some [some (c!"rootfs.0"), some (c!"rootfs.0"), none] := by decide

example : (∀ s ∈ exSlots, ∃ k ≤ 101, Depth exSlots s.name k) := by
  have r : Depth exSlots (c!"rootfs.0") 0 :=
    .root (s := { name := c!"rootfs.0", sclass := c!"rootfs", bootname := some (c!"A") }) (by simp [exSlots]) rfl
  have a : Depth exSlots (c!"app.0") 1 :=
    .child (s := { name := c!"app.0", sclass := c!"app", parent := some (c!"rootfs.0") }) (by simp [exSlots]) rfl r
  have d : Depth exSlots (c!"data.0") 2 :=
    .child (s := { name := c!"data.0", sclass := c!"data", parent := some (c!"app.0") }) (by simp [exSlots]) rfl a
  intro s hs
  simp only [exSlots, List.mem_cons, List.not_mem_nil, or_false] at hs
  rcases hs with rfl | rfl | rfl
  · exact ⟨2, by omega, d⟩
  · exact ⟨1, by omega, a⟩
  · exact ⟨0, by omega, r⟩

def exCycle : List Slot :=
  [{ name := c!"a.0", sclass := c!"a", parent := some (c!"b.0") }, { name := c!"b.0", sclass := c!"b", parent := some (c!"a.0") }]

example : Ancestor exCycle (c!"a.0") (c!"a.0") ∧ (exCycle.map (·.name)).Nodup := by
  refine ⟨?_, by decide⟩
  exact .further (s := { name := c!"a.0", sclass := c!"a", parent := some (c!"b.0") }) (by simp [exCycle]) rfl
    (.parent (s := { name := c!"b.0", sclass := c!"b", parent := some (c!"a.0") }) (by simp [exCycle]) rfl)

/-! ### a loaded configuration satisfies what the boot theorems assume -/

theorem parseAll_spec {E : Env} {kf : KeyFile} : ∀ {gs l}, parseAll E kf gs = some l →
    List.Forall₂ (fun g s => parseSlot E kf g = some s) gs l := by
  intro gs
  induction gs with
  | nil => intro l h; cases h; exact .nil
  | cons g gs ih =>
    intro l h
    simp only [parseAll] at h
    split at h
    · cases h
    · rename_i s hs
      split at h
      · cases h
      · rename_i l' hl
        cases h
        exact .cons hs (ih hl)

theorem consume_ne_nil {kf : KeyFile} {g k v} (h : consumeString kf g k = some v) : v ≠ [] := by
  unfold consumeString at h
  split at h
  · cases h
  · rename_i h2
    rintro rfl
    exact h2 h

theorem parseSlot_spec {E : Env} {kf : KeyFile} {g s} (h : parseSlot E kf g = some s) :
    (∃ a, g = a ++ '.' :: s.name ∧ (isSlotGroup g = true → a = c!"slot")) ∧
    (∀ b, s.bootname = some b → b ≠ [] ∧ ∀ c ∈ b, isSpace c = false) ∧ validType s.typ = true := by
  unfold parseSlot at h
  split at h
  · rename_i a cls idx hsp
    split at h
    · cases h
    · rename_i dev hdev
      simp only [] at h
      split at h
      · cases h
      rename_i ht
      split at h
      · cases h
      split at h
      · cases h
      split at h
      · cases h
      rename_i hb
      split at h
      · split at h
        · split at h
          · cases h
            refine ⟨⟨a, ?_, ?_⟩, ?_, ?_⟩
            · have := join_split '.' g
              rw [hsp] at this
              simpa [join] using this.symm
            · intro hg
              unfold isSlotGroup at hg
              rw [hsp] at hg
              simpa using hg
            · intro b hb'
              replace hb' : consumeString kf g (c!"bootname") = some b := hb'
              refine ⟨consume_ne_nil hb', ?_⟩
              rw [hb'] at hb
              simpa using hb
            · simpa using ht
          · cases h
        · cases h
      · cases h
  · cases h

theorem noDup_spec : ∀ {seen slots}, noDuplicateBootnames seen slots = true →
    (∀ s ∈ slots, ∀ b, s.bootname = some b → b ∉ seen) ∧
    slots.Pairwise (fun s t => ∀ b, s.bootname = some b → t.bootname ≠ some b) := by
  intro seen slots
  induction slots generalizing seen with
  | nil => intro _; simp
  | cons s ss ih =>
    intro h
    simp only [noDuplicateBootnames] at h
    cases hb : s.bootname with
    | none =>
      rw [hb] at h
      obtain ⟨h1, h2⟩ := ih h
      refine ⟨?_, ?_⟩
      · intro t ht b hb2
        rcases List.mem_cons.1 ht with rfl | ht
        · rw [hb] at hb2; cases hb2
        · exact h1 t ht b hb2
      · refine List.pairwise_cons.2 ⟨?_, h2⟩
        intro t _ b hb2
        rw [hb] at hb2; cases hb2
    | some b0 =>
      rw [hb] at h
      simp at h
      obtain ⟨h1, h2⟩ := ih h.2
      refine ⟨?_, ?_⟩
      · intro t ht b hb2
        rcases List.mem_cons.1 ht with rfl | ht
        · rw [hb] at hb2; cases hb2; exact h.1
        · exact fun hm => h1 t ht b hb2 (List.mem_cons_of_mem _ hm)
      · refine List.pairwise_cons.2 ⟨?_, h2⟩
        intro t ht b hb2 hb3
        rw [hb] at hb2; cases hb2
        exact h1 t ht b0 hb3 (by simp)

theorem parse_names_nodup {E : Env} {kf : KeyFile} (hk : kf.GroupsNodup) {l} (h : parseSlots E kf = some l) :
    (l.map (·.name)).Nodup := by
  have h2 := parseAll_spec h
  have hnd : (kf.groups.filter isSlotGroup).Nodup := hk.filter _
  have hall : ∀ g ∈ kf.groups.filter isSlotGroup, isSlotGroup g = true := by
    intro g hg; exact (List.mem_filter.1 hg).2
  generalize kf.groups.filter isSlotGroup = gs at *
  clear h
  have hmem : ∀ (gs : List Str) (l : List Slot), List.Forall₂ (fun g s => parseSlot E kf g = some s) gs l →
      ∀ s ∈ l, ∃ g ∈ gs, parseSlot E kf g = some s := by
    intro gs l h
    induction h with
    | nil => simp
    | cons h1 _ ih =>
      intro s hs
      rcases List.mem_cons.1 hs with rfl | hs
      · exact ⟨_, by simp, h1⟩
      · obtain ⟨g, hg, e⟩ := ih s hs; exact ⟨g, by simp [hg], e⟩
  induction h2 with
  | nil => simp
  | @cons g s gs l h1 hr ih =>
    simp only [List.map_cons, List.nodup_cons] at hnd ⊢
    refine ⟨?_, ih hnd.2 (fun g hg => hall g (by simp [hg]))⟩
    intro hm
    obtain ⟨t, ht, e⟩ := List.mem_map.1 hm
    obtain ⟨g', hg', e'⟩ := hmem _ _ hr t ht
    obtain ⟨⟨a, ha, ha2⟩, -⟩ := parseSlot_spec h1
    obtain ⟨⟨b, hb, hb2⟩, -⟩ := parseSlot_spec e'
    have ea := ha2 (hall g (by simp))
    have eb := hb2 (hall g' (by simp [hg']))
    apply hnd.1
    rw [ha, ea, ← e, ← eb, ← hb]
    exact hg'

/-- Every configuration that loads satisfies the well-formedness hypothesis of the boot theorems (C01 to C09). -/
theorem C23_loaded_wf {E : Env} {kf : KeyFile} {repos} (hk : kf.GroupsNodup) {slots} (h : loadSlots E kf repos = some slots) :
    SlotsWF slots ∧ (∀ s ∈ slots, ∀ p, s.parent = some p → s.bootname = none ∧ ∃ q ∈ slots, q.name = p ∧ q.parent = none) ∧
    (∀ s ∈ slots, validType s.typ = true ∧ s.sclass ∉ repos) := by
  unfold loadSlots at h
  split at h
  · cases h
  rename_i l hl
  split at h
  · cases h
  rename_i out hr
  split at h
  · rename_i hd
    cases h
    simp only [Bool.and_eq_true] at hd
    have hn := parse_names_nodup hk hl
    obtain ⟨hnames, hdepth⟩ := C23_depth_one hn hr
    have hn2 : (slots.map (·.name)).Nodup := by rw [hnames]; exact hn
    have hps : ∀ s ∈ l, ∃ g, parseSlot E kf g = some s := by
      have := parseAll_spec hl
      intro s hs
      clear hl hr hd hn hnames hdepth hn2
      generalize List.filter isSlotGroup kf.groups = gs at this
      induction this with
      | nil => cases hs
      | cons h1 _ ih =>
        rcases List.mem_cons.1 hs with rfl | hs
        · exact ⟨_, h1⟩
        · exact ih hs
    obtain ⟨-, hpw⟩ := noDup_spec hd.1
    refine ⟨⟨List.Nodup.of_map _ hn2, ?_, ?_, ?_⟩, ?_, ?_⟩
    · intro s hs t ht e
      exact List.inj_on_of_nodup_map hn2 hs ht e
    · intro s hs t ht b hb hb2
      by_contra hne
      have : ∀ (l : List Slot), l.Pairwise (fun s t => ∀ b, s.bootname = some b → t.bootname ≠ some b) →
          s ∈ l → t ∈ l → False := by
        intro l hp h1 h2
        induction hp with
        | nil => cases h1
        | cons hh _ ih =>
          rcases List.mem_cons.1 h1 with rfl | h1'
          · rcases List.mem_cons.1 h2 with rfl | h2'
            · exact hne rfl
            · exact hh t h2' b hb hb2
          · rcases List.mem_cons.1 h2 with e | h2'
            · subst e; exact hh s h1' b hb2 hb
            · exact ih h1' h2'
      exact this slots hpw hs ht
    · intro t ht b hb
      obtain ⟨s, hs, e, -⟩ := hdepth t ht
      obtain ⟨g, hg⟩ := hps s hs
      refine (parseSlot_spec hg).2.1 b ?_
      rw [e] at hb
      exact hb
    · intro s hs p hp
      obtain ⟨_, _, _, _, h3⟩ := hdepth s hs
      obtain ⟨a, -, c⟩ := h3 p hp
      exact ⟨a, c⟩
    · intro t ht
      obtain ⟨s, hs, e, -⟩ := hdepth t ht
      obtain ⟨g, hg⟩ := hps s hs
      refine ⟨?_, ?_⟩
      · rw [e]; exact (parseSlot_spec hg).2.2
      · have := List.all_eq_true.1 hd.2 t ht
        simpa using this
  · cases h

/-- A key file with two boot slots and a child loads. -/
example : (loadSlots {} [(c!"system", [(c!"compatible", c!"x")]), (c!"slot.rootfs.0", [(c!"device", c!"/dev/a"), (c!"bootname", c!"A")]),
    (c!"slot.rootfs.1", [(c!"device", c!"/dev/b"), (c!"bootname", c!"B"), (c!"type", c!"ext4")]),
    (c!"slot.app.0", [(c!"device", c!"/dev/c"), (c!"parent", c!"rootfs.0"), (c!"type", c!"vfat")])] []).map
      (fun l => l.map (fun s => (s.name, s.parent))) =
    some [(c!"rootfs.0", none), (c!"rootfs.1", none), (c!"app.0", some (c!"rootfs.0"))] := by decide

/-- Finding: slots of type `jffs2`, for which update handlers exist, are rejected by every configuration. -/
theorem C23_jffs2_rejected {E : Env} {kf : KeyFile} {g} (h : kf.get g (c!"type") = some (c!"jffs2")) : parseSlot E kf g = none := by
  have hc : consumeString kf g (c!"type") = some (c!"jffs2") := by unfold consumeString; rw [h]
  unfold parseSlot
  split
  · split
    · rfl
    · rw [hc]
      simp only [Option.getD_some]
      rw [if_pos (by decide)]
  · rfl

/-! ## C24 Bundle formats -/

/-- Specification: what a word of the option means, and how it is written. -/
inductive Word where
  | fixed (f : Format)
  | plus (f : Format)
  | minus (f : Format)
deriving DecidableEq

def fname : Format → Str
  | .plain => c!"plain"
  | .verity => c!"verity"
  | .crypt => c!"crypt"

def Word.text : Word → Str
  | .fixed f => fname f
  | .plus f => '+' :: fname f
  | .minus f => '-' :: fname f

def Word.isFixed : Word → Prop
  | .fixed _ => True
  | _ => False

/-- the words of the option: the non-empty fields between spaces -/
def wordsOf (config : Str) : List Str := (split ' ' config).filter (fun t => t ≠ [])

/-- `f` is in the set after applying modifications: the last one mentioning `f` adds it, or none removes it and it was there -/
def ModResult (prev : Mask) (ws : List Word) (f : Format) : Prop :=
  (∃ a b, ws = a ++ Word.plus f :: b ∧ Word.minus f ∉ b) ∨ (prev.has f = true ∧ Word.minus f ∉ ws)

theorem formatOf_fname (f : Format) : formatOf (fname f) = some f := by cases f <;> decide

theorem formatOf_eq {t f} (h : formatOf t = some f) : t = fname f := by
  unfold formatOf at h
  split at h
  · cases h; assumption
  split at h
  · cases h; assumption
  split at h
  · cases h; assumption
  · cases h

theorem has_put (m : Mask) (f g : Format) (b : Bool) : (m.put f b).has g = if g = f then b else m.has g := by
  cases f <;> cases g <;> rfl

def applyWord (st : FmtSt) : Word → FmtSt
  | .fixed f => { st with set := true, mask := (if st.set then st.mask else Mask.zero).put f true }
  | .plus f => { st with modify := true, mask := st.mask.put f true }
  | .minus f => { st with modify := true, mask := st.mask.put f false }

theorem fmtStep_word (st : FmtSt) (w : Word) : fmtStep st w.text = some (applyWord st w) := by
  cases w with
  | fixed f => cases f <;> rfl
  | plus f => cases f <;> rfl
  | minus f => cases f <;> rfl

theorem fmtStep_inv {st st' : FmtSt} {t} (h : fmtStep st t = some st') (ht : t ≠ []) : ∃ w : Word, t = w.text := by
  unfold fmtStep at h
  rw [if_neg ht] at h
  split at h
  · cases h
  · rename_i f hf
    have e := formatOf_eq hf
    unfold tokenSign at e
    split at e
    · exact ⟨.minus f, by simp only [] at e; rw [e]; rfl⟩
    · exact ⟨.plus f, by simp only [] at e; rw [e]; rfl⟩
    · exact ⟨.fixed f, e⟩

theorem fmtLoop_words : ∀ (ts : List Str) (st st' : FmtSt), fmtLoop st ts = some st' ↔
    ∃ ws : List Word, ts.filter (fun t => t ≠ []) = ws.map Word.text ∧ st' = ws.foldl applyWord st := by
  intro ts
  induction ts with
  | nil =>
    intro st st'
    constructor
    · intro h; cases h; exact ⟨[], rfl, rfl⟩
    · rintro ⟨ws, h1, h2⟩
      cases ws with
      | nil => rw [h2]; rfl
      | cons => cases h1
  | cons t ts ih =>
    intro st st'
    by_cases ht : t = []
    · subst ht
      rw [List.filter_cons_of_neg (by simp)]
      rw [← ih]
      rfl
    · rw [List.filter_cons_of_pos (by simpa using ht)]
      constructor
      · intro h
        simp only [fmtLoop] at h
        split at h
        · cases h
        · rename_i st1 h1
          obtain ⟨w, rfl⟩ := fmtStep_inv h1 ht
          rw [fmtStep_word] at h1
          cases h1
          obtain ⟨ws, e1, e2⟩ := (ih _ _).1 h
          exact ⟨w :: ws, by rw [e1]; rfl, by rw [e2]; rfl⟩
      · rintro ⟨ws, h1, h2⟩
        cases ws with
        | nil => cases h1
        | cons w ws =>
          simp only [List.map_cons, List.cons.injEq] at h1
          simp only [fmtLoop]
          rw [h1.1, fmtStep_word]
          exact (ih _ _).2 ⟨ws, h1.2, h2⟩

theorem foldl_flags (ws : List Word) (st : FmtSt) :
    ((ws.foldl applyWord st).set = true ↔ st.set = true ∨ ∃ w ∈ ws, w.isFixed) ∧
    ((ws.foldl applyWord st).modify = true ↔ st.modify = true ∨ ∃ w ∈ ws, ¬ w.isFixed) := by
  induction ws generalizing st with
  | nil => simp
  | cons w ws ih =>
    obtain ⟨h1, h2⟩ := ih (applyWord st w)
    rw [List.foldl_cons, h1, h2]
    cases w <;> simp [applyWord, Word.isFixed]

theorem foldl_fixed (ws : List Word) (hf : ∀ w ∈ ws, w.isFixed) (st : FmtSt) (g : Format) :
    (ws.foldl applyWord st).mask.has g = true ↔
      Word.fixed g ∈ ws ∨ ((st.set = true ∨ ws = []) ∧ st.mask.has g = true) := by
  induction ws generalizing st with
  | nil => simp
  | cons w ws ih =>
    rw [List.foldl_cons, ih (fun w hw => hf w (List.mem_cons_of_mem _ hw))]
    cases w with
    | fixed f =>
      simp only [applyWord, has_put, List.mem_cons, Word.fixed.injEq]
      by_cases e : g = f
      · simp [e]
      · have hz : Mask.zero.has g = false := by cases g <;> rfl
        cases st.set <;> simp [e, hz]
    | plus f => exact absurd (hf (.plus f) (by simp)) (by simp [Word.isFixed])
    | minus f => exact absurd (hf (.minus f) (by simp)) (by simp [Word.isFixed])

theorem foldl_mod (ws : List Word) (hf : ∀ w ∈ ws, ¬ w.isFixed) (st : FmtSt) (g : Format) :
    (ws.foldl applyWord st).mask.has g = true ↔ ModResult st.mask ws g := by
  induction ws generalizing st with
  | nil => simp [ModResult]
  | cons w ws ih =>
    rw [List.foldl_cons, ih (fun w hw => hf w (List.mem_cons_of_mem _ hw))]
    unfold ModResult
    cases w with
    | fixed f => exact absurd trivial (hf (.fixed f) (by simp))
    | plus f =>
      simp only [applyWord, has_put]
      constructor
      · rintro (⟨a, b, e, h⟩ | ⟨h1, h2⟩)
        · exact Or.inl ⟨.plus f :: a, b, by rw [e]; rfl, h⟩
        · by_cases e : g = f
          · subst e; exact Or.inl ⟨[], ws, rfl, h2⟩
          · rw [if_neg e] at h1
            exact Or.inr ⟨h1, by simp [h2]⟩
      · rintro (⟨a, b, e, h⟩ | ⟨h1, h2⟩)
        · cases a with
          | nil => cases e; exact Or.inr ⟨by simp, h⟩
          | cons x a => cases e; exact Or.inl ⟨a, b, rfl, h⟩
        · refine Or.inr ⟨?_, fun hm => h2 (List.mem_cons_of_mem _ hm)⟩
          split
          · rfl
          · exact h1
    | minus f =>
      simp only [applyWord, has_put]
      constructor
      · rintro (⟨a, b, e, h⟩ | ⟨h1, h2⟩)
        · exact Or.inl ⟨.minus f :: a, b, by rw [e]; rfl, h⟩
        · by_cases e : g = f
          · simp [e] at h1
          · rw [if_neg e] at h1
            exact Or.inr ⟨h1, by simp [h2, e]⟩
      · rintro (⟨a, b, e, h⟩ | ⟨h1, h2⟩)
        · cases a with
          | nil => cases e
          | cons x a => cases e; exact Or.inl ⟨a, b, rfl, h⟩
        · simp only [List.mem_cons, Word.minus.injEq, not_or] at h2
          exact Or.inr ⟨by rw [if_neg h2.1]; exact h1, h2.2⟩

theorem mask_ne_zero (m : Mask) : m ≠ Mask.zero ↔ ∃ f, m.has f = true := by
  obtain ⟨a, b, c⟩ := m
  constructor
  · intro h
    cases a with
    | true => exact ⟨.plain, rfl⟩
    | false =>
      cases b with
      | true => exact ⟨.verity, rfl⟩
      | false =>
        cases c with
        | true => exact ⟨.crypt, rfl⟩
        | false => exact absurd rfl h
  · rintro ⟨f, hf⟩ e
    rw [e] at hf
    cases f <;> cases hf

theorem mask_ext {m m' : Mask} (h : ∀ f, m.has f = true ↔ m'.has f = true) : m = m' := by
  obtain ⟨a, b, c⟩ := m
  obtain ⟨a', b', c'⟩ := m'
  have h1 := h .plain
  have h2 := h .verity
  have h3 := h .crypt
  simp only [Mask.has] at h1 h2 h3
  rw [Bool.eq_iff_iff.2 h1, Bool.eq_iff_iff.2 h2, Bool.eq_iff_iff.2 h3]

/-- **C24.** The option succeeds with the set `m` exactly if every word is a format name, possibly signed, and either all
words are unsigned and `m` is the (non-empty) set of named formats, or all words are signed and `m` is the non-empty result of
applying them in order to the previous set. -/
theorem C24_exact (mask m : Mask) (config : Str) :
    parseBundleFormats mask config = (true, m) ↔
      ∃ ws : List Word, wordsOf config = ws.map Word.text ∧ (∃ f, m.has f = true) ∧
        (((∀ w ∈ ws, w.isFixed) ∧ ws ≠ [] ∧ ∀ f, m.has f = true ↔ Word.fixed f ∈ ws) ∨
         ((∀ w ∈ ws, ¬ w.isFixed) ∧ ∀ f, m.has f = true ↔ ModResult mask ws f)) := by
  have key : ∀ st, fmtLoop ⟨mask, false, false⟩ (split ' ' config) = some st ↔ _ := fmtLoop_words _ _
  constructor
  · intro h
    unfold parseBundleFormats at h
    split at h
    · cases h
    rename_i st hst
    split at h
    · cases h
    rename_i hsm
    split at h
    · cases h
    rename_i hz
    cases h
    obtain ⟨ws, hw, rfl⟩ := (key _).1 hst
    refine ⟨ws, hw, (mask_ne_zero _).1 hz, ?_⟩
    obtain ⟨f1, f2⟩ := foldl_flags ws ⟨mask, false, false⟩
    simp only [Bool.and_eq_true, not_and] at hsm
    by_cases hx : ∃ w ∈ ws, w.isFixed
    · have hall : ∀ w ∈ ws, w.isFixed := by
        intro w hw2
        by_contra hn
        exact hsm (f1.2 (Or.inr hx)) (f2.2 (Or.inr ⟨w, hw2, hn⟩))
      have hne : ws ≠ [] := by rintro rfl; obtain ⟨w, hw2, _⟩ := hx; cases hw2
      refine Or.inl ⟨hall, hne, ?_⟩
      intro f
      rw [foldl_fixed ws hall]
      simp [hne]
    · have hall : ∀ w ∈ ws, ¬ w.isFixed := fun w hw2 hf => hx ⟨w, hw2, hf⟩
      exact Or.inr ⟨hall, fun f => foldl_mod ws hall _ f⟩
  · rintro ⟨ws, hw, hne, hc⟩
    have hst := (key _).2 ⟨ws, hw, rfl⟩
    have hm : (ws.foldl applyWord ⟨mask, false, false⟩).mask = m := by
      apply mask_ext
      intro f
      rcases hc with ⟨hall, h1, h2⟩ | ⟨hall, h2⟩
      · rw [foldl_fixed ws hall, h2]; simp [h1]
      · rw [foldl_mod ws hall, h2]
    have hfl : ¬ ((ws.foldl applyWord ⟨mask, false, false⟩).set && (ws.foldl applyWord ⟨mask, false, false⟩).modify) = true := by
      obtain ⟨f1, f2⟩ := foldl_flags ws ⟨mask, false, false⟩
      simp only [Bool.and_eq_true, f1, f2, Bool.false_eq_true, false_or]
      rintro ⟨⟨w, hw1, hw2⟩, ⟨v, hv1, hv2⟩⟩
      rcases hc with ⟨hall, _⟩ | ⟨hall, _⟩
      · exact hv2 (hall v hv1)
      · exact hall w hw1 hw2
    unfold parseBundleFormats
    rw [hst]
    simp only []
    rw [if_neg hfl, hm, if_neg ((mask_ne_zero m).2 hne)]

/-- **C24.** A failing option leaves the previous set. -/
theorem C24_error_unchanged (mask : Mask) (config : Str) (h : (parseBundleFormats mask config).1 = false) :
    (parseBundleFormats mask config).2 = mask := by
  unfold parseBundleFormats at h ⊢
  split
  · rfl
  rename_i st hst
  simp only [hst] at h
  split
  · rfl
  split
  · rfl
  · rename_i h1 h2
    rw [if_neg h1, if_neg h2] at h
    cases h

example : parseBundleFormats ⟨true, true, true⟩ (c!"-plain  -crypt") = (true, ⟨false, true, false⟩) := by decide
example : parseBundleFormats ⟨true, true, true⟩ (c!"verity crypt") = (true, ⟨false, true, true⟩) := by decide
example : (parseBundleFormats ⟨true, true, true⟩ (c!"verity -crypt")).1 = false := by decide
example : (parseBundleFormats ⟨true, true, true⟩ (c!"-verity -crypt -plain")).1 = false := by decide

/-! ## C25 Sizes -/

/-- Specification: the multiplier exponent a suffix stands for. -/
inductive Suffix : Str → Nat → Prop
  | none : Suffix [] 0
  | k : Suffix (c!"k") 10
  | K : Suffix (c!"K") 10
  | m : Suffix (c!"m") 20
  | M : Suffix (c!"M") 20
  | g : Suffix (c!"g") 30
  | G : Suffix (c!"G") 30
  | t : Suffix (c!"t") 40
  | T : Suffix (c!"T") 40

theorem digitsAux_append_stop (b : Nat) (s rest : Str) (a k : Nat) (h : ∀ c ∈ s, ∃ v, digitVal c = some v ∧ v < b)
    (hr : ∀ c r, rest = c :: r → ∀ v, digitVal c = some v → ¬ v < b) :
    digitsAux b a k (s ++ rest) = digitsAux b a k s := by
  induction s generalizing a k with
  | nil =>
    cases rest with
    | nil => rfl
    | cons c r =>
      simp only [List.nil_append, digitsAux]
      split
      · rename_i v hv
        rw [if_neg (hr c r rfl v hv)]
      · rfl
  | cons c cs ih =>
    obtain ⟨v, hv, hb⟩ := h c (by simp)
    simp only [List.cons_append, digitsAux, hv, hb, if_true]
    exact ih _ _ (fun x hx => h x (List.mem_cons_of_mem _ hx))

theorem toDec_digits (n : Nat) : ∀ c ∈ toDec n, ∃ v, digitVal c = some v ∧ v < 10 := by
  intro c hc
  obtain ⟨d, hd, rfl⟩ := toBase_chars 10 (by omega) n c hc
  exact ⟨d, digitVal_digitChar d (by omega), hd⟩

/-- reading a decimal number followed by something that is no digit -/
theorem read_number (n : Nat) (hn : n ≤ u64max) (rest : Str) (hr : ∀ c r, rest = c :: r → ∀ v, digitVal c = some v → ¬ v < 10) :
    strtoull 10 (toDec n ++ rest) = n ∧ strtoullRest (toDec n ++ rest) = rest := by
  have hd := toDec_digits n
  have hval : (digitsAux 10 0 0 (toDec n)).1 = n := digitsAux_toBase 10 (by omega) (by omega) n
  have hlen : (digitsAux 10 0 0 (toDec n)).2 = (toDec n).length := by
    have := digitsAux_full 10 (toDec n) 0 0 hd
    simpa using this
  have hst := digitsAux_append_stop 10 (toDec n) rest 0 0 hd hr
  have hne : toDec n ≠ [] := toBase_ne_nil 10 n
  have hch : ∀ c ∈ toDec n, isSpace c = false ∧ c ≠ '-' ∧ c ≠ '+' := by
    intro c hc
    obtain ⟨d, hd, rfl⟩ := toBase_chars 10 (by omega) n c hc
    have := digitChar_facts ⟨d, by omega⟩
    exact ⟨this.2.2.2.2.1, this.2.2.1, this.2.2.2.1⟩
  generalize toDec n = s at *
  cases s with
  | nil => exact absurd rfl hne
  | cons c cs =>
    obtain ⟨h1, h2, h3⟩ := hch c (by simp)
    have hchug : chug (c :: cs ++ rest) = c :: cs ++ rest := by simp [chug, h1]
    constructor
    · unfold strtoull
      rw [hchug]
      split
      · rename_i r e; cases e; exact absurd rfl h2
      · rename_i r e; cases e; exact absurd rfl h3
      · have : strtoullBody 10 (c :: cs ++ rest) = n := by
          unfold strtoullBody
          simp only [show (10 == 16) = false from rfl, show (10 == 0) = false from rfl, Bool.or_self, Bool.and_false,
            Bool.false_eq_true, if_false, show ¬ (10 = 0) by omega]
          rw [hst, hval]
        rw [this]; omega
    · unfold strtoullRest
      rw [hchug]
      simp only []
      have : skipSign (c :: cs ++ rest) = c :: cs ++ rest := by
        unfold skipSign
        split
        · rename_i r e; cases e; exact absurd rfl h2
        · rename_i r e; cases e; exact absurd rfl h3
        · rfl
      rw [this, hst, hlen, if_neg (by simp), List.drop_left]

/-- **C25 (first part).** A decimal number with an optional suffix k, M, G or T (either case) is read as that number of
bytes whenever the result fits into 64 bits. Missing from the full property: other strings should be errors, see the following
theorems. -/
theorem C25_partial (n e : Nat) (suf : Str) (hs : Suffix suf e) (hfit : n * 2 ^ e < 2 ^ 64) :
    binarySuffixed (toDec n ++ suf) = some (n * 2 ^ e) := by
  have hn : n ≤ u64max := by
    have : n ≤ n * 2 ^ e := Nat.le_mul_of_pos_right _ (by positivity)
    unfold u64max; omega
  have hr : ∀ c r, suf = c :: r → ∀ v, digitVal c = some v → ¬ v < 10 := by
    intro c r e1 v hv
    intro hlt
    cases hs <;> cases e1 <;> (clear hfit hn; interval_cases v <;> revert hv <;> decide)
  obtain ⟨h1, h2⟩ := read_number n hn suf hr
  unfold binarySuffixed
  have hne : toDec n ++ suf ≠ [] := by
    have : toDec n ≠ [] := toBase_ne_nil 10 n
    simp [this]
  rw [if_neg hne, h1, h2]
  have : scaleShift suf = e := by cases hs <;> decide
  rw [this, Nat.mod_eq_of_lt hfit]

example : Suffix (c!"G") 30 ∧ 3 * 2 ^ 30 < 2 ^ 64 ∧ toDec 3 ++ c!"G" = c!"3G" := ⟨.G, by norm_num, by decide⟩

/-- An empty value is an error; nothing else is. -/
theorem C25_error_iff (s : Str) : binarySuffixed s = none ↔ s = [] := by
  unfold binarySuffixed
  split <;> simp_all

/-- Finding: whatever follows the number (and does not start with a digit or one of the eight suffix letters) is ignored, so
`1x` is one byte. -/
theorem C25_garbage_violated (n : Nat) (hn : n < 2 ^ 64) (c : Char) (r : Str) (hd : digitVal c = none) :
    binarySuffixed (toDec n ++ c :: r) = some n := by
  obtain ⟨h1, h2⟩ := read_number n (by unfold u64max; omega) (c :: r) (by
    intro c' r' e v hv; cases e; rw [hd] at hv; cases hv)
  unfold binarySuffixed
  rw [if_neg (by simp), h1, h2]
  have : scaleShift (c :: r) = 0 := by
    have h : ∀ x, digitVal x ≠ none → c ≠ x := by intro x hx e; rw [e] at hd; exact hx hd
    simp only [scaleShift]
    rw [if_neg, if_neg, if_neg, if_neg]
    · intro h'; rcases h' with h' | h' <;> exact h _ (by decide) h'
    · intro h'; rcases h' with h' | h' <;> exact h _ (by decide) h'
    · intro h'; rcases h' with h' | h' <;> exact h _ (by decide) h'
    · intro h'; rcases h' with h' | h' <;> exact h _ (by decide) h'
  rw [this, Nat.pow_zero, Nat.mul_one, Nat.mod_eq_of_lt hn]

example : digitVal '_' = none := by decide

/-- Findings: a string without a number is zero bytes; a product beyond 64 bits wraps around; negative numbers are huge. -/
theorem C25_concrete_violated :
    binarySuffixed (c!"abc") = some 0 ∧ binarySuffixed (c!"1x") = some 1 ∧ binarySuffixed (c!"16777216T") = some 0 ∧
    binarySuffixed (c!"-1") = some (2 ^ 64 - 1) := by decide

end Rauc.Config
