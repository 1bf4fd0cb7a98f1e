import Verif.Model.Mark

/-!
# Marking slots: C06, C07, C08
-/

namespace Rauc.Mark

open Rauc.Boot (Req)

/-- Slots an identifier may stand for, as documented: `booted` is the booted slot, `other` any other bootable root slot
of its class, everything else the slot of exactly that name, which must be bootable. -/
def Denotes (slots : List Slot) (booted : Option Slot) (ident : Str) (s : Slot) : Prop :=
  (ident = c!"booted" ∧ booted = some s) ∨
  (ident = c!"other" ∧ s ∈ slots ∧ s.bootname ≠ none ∧ s.parent = none ∧
    ∃ b, booted = some b ∧ s.sclass = b.sclass ∧ s ≠ b) ∨
  (ident ≠ c!"booted" ∧ ident ≠ c!"other" ∧ s ∈ slots ∧ s.name = ident ∧ s.bootname ≠ none)

theorem resolve_sound {slots booted ident l} (h : resolve slots booted ident = some l) :
    l ≠ [] ∧ (∀ s ∈ l, Denotes slots booted ident s) ∧ (ident ≠ c!"other" → ∃ s, l = [s]) := by
  unfold resolve at h
  split at h
  · rename_i hi
    split at h
    · simp only [Option.some.injEq] at h; subst h
      exact ⟨by simp, fun s hs => Or.inl ⟨hi, by simp at hs; simp [hs]⟩, fun _ => ⟨_, rfl⟩⟩
    · simp at h
  · rename_i h1
    split at h
    · rename_i hi
      split at h
      · rename_i b
        simp only [] at h
        split at h
        · simp at h
        · rename_i hne
          simp only [Option.some.injEq] at h; subst h
          refine ⟨fun h => hne (by simp [h]), fun s hs => Or.inr (Or.inl ?_), fun hc => absurd hi hc⟩
          have := List.mem_filter.1 hs
          simp only [Bool.and_eq_true, beq_iff_eq, Bool.not_eq_true', beq_eq_false_iff_ne] at this
          obtain ⟨hm, ⟨⟨h2, h3⟩, h4⟩, h5⟩ := this
          refine ⟨hi, hm, ?_, by simpa using h3, b, rfl, h2, h5⟩
          intro h; rw [h] at h4; simp at h4
      · simp at h
    · rename_i h2
      split at h
      · split at h
        · simp at h
        · rename_i s hf
          split at h
          · simp at h
          · rename_i hb
            simp only [Option.some.injEq] at h; subst h
            have hn := List.find?_some hf
            have hm := List.mem_of_find?_eq_some hf
            refine ⟨by simp, fun t ht => Or.inr (Or.inr ?_), fun _ => ⟨_, rfl⟩⟩
            simp at ht; subst ht
            refine ⟨h1, h2, hm, by simpa using hn, ?_⟩
            intro h; rw [h] at hb; simp at hb
      · simp at h

theorem markBads_calls (ok : Nat → Bool) (i : Nat) (l : List Slot) :
    (∀ c ∈ (markBads ok i l).1, ∃ s ∈ l, c.1 = .setState s false) ∧
    ((markBads ok i l).2 = true → (markBads ok i l).1 = l.map (fun s => (.setState s false, true))) ∧
    ((markBads ok i l).2 = false → ∃ c ∈ (markBads ok i l).1, c.2 = false) := by
  induction l generalizing i with
  | nil => simp [markBads]
  | cons s ss ih =>
    simp only [markBads]
    obtain ⟨h1, h2, h3⟩ := ih (i + 1)
    split
    · refine ⟨?_, ?_, ?_⟩
      · intro c hc
        rcases List.mem_cons.1 hc with rfl | hc
        · exact ⟨s, by simp, rfl⟩
        · obtain ⟨t, ht, he⟩ := h1 c hc
          exact ⟨t, List.mem_cons_of_mem _ ht, he⟩
      · intro h; simp [h2 h]
      · intro h
        obtain ⟨c, hc, he⟩ := h3 h
        exact ⟨c, List.mem_cons_of_mem _ hc, he⟩
    · exact ⟨by intro c hc; simp at hc; subst hc; exact ⟨s, by simp, rfl⟩, by simp, by simp⟩

/-- kind of request issued for a state word -/
def kindOf (state : Str) (s : Slot) : Option Req :=
  if state = c!"good" then some (.setState s true)
  else if state = c!"bad" then some (.setState s false)
  else if state = c!"active" then some (.setPrimary s)
  else none

/-- the shape of every run -/
theorem markRun_shape (ok : Nat → Bool) (slots : List Slot) (booted : Option Slot) (plf : Bool) (state ident : Str) :
    ∀ c ∈ (markRun ok slots booted plf state ident).1,
      (∃ s, Denotes slots booted ident s ∧ kindOf state s = some c.1) ∨
      (plf = true ∧ state = c!"good" ∧ ident = c!"booted" ∧ ∃ s, Denotes slots booted (c!"other") s ∧
        c.1 = .setState s false) := by
  intro c hc
  unfold markRun at hc
  split at hc
  · simp at hc
  · rename_i l hl
    have hd := (resolve_sound hl).2.1
    split at hc
    · rename_i hg
      split at hc
      · rename_i s
        have hds := hd s (by simp)
        split at hc
        · split at hc
          · rename_i hp
            simp only [] at hc
            rcases List.mem_cons.1 hc with rfl | hc
            · left; exact ⟨s, hds, by simp [kindOf, hg]⟩
            · right
              refine ⟨hp.1, hg, hp.2, ?_⟩
              unfold markOtherBad at hc
              split at hc
              · simp at hc
              · rename_i l' hl'
                obtain ⟨t, ht, he⟩ := (markBads_calls ok 1 l').1 c hc
                exact ⟨t, (resolve_sound hl').2.1 t ht, he⟩
          · simp at hc; subst hc
            left; exact ⟨s, hds, by simp [kindOf, hg]⟩
        · simp at hc; subst hc
          left; exact ⟨s, hds, by simp [kindOf, hg]⟩
      · simp at hc
    · rename_i hg
      split at hc
      · rename_i hb
        obtain ⟨t, ht, he⟩ := (markBads_calls ok 0 l).1 c hc
        left; exact ⟨t, hd t ht, by rw [he]; simp [kindOf, hb]⟩
      · rename_i hb
        split at hc
        · rename_i ha
          split at hc
          · rename_i s
            have hds := hd s (by simp)
            split at hc <;> (simp at hc; subst hc; left; exact ⟨s, hds, by simp [kindOf, ha]⟩)
          · simp at hc
        · simp at hc

/-- C06: every backend request of a mark command is for a slot the identifier stands for and of the requested
kind - except the additional mark-bad of other slots for late fallback prevention. -/
theorem C06_only_denoted_slots (ok : Nat → Bool) (slots : List Slot) (booted : Option Slot) (plf : Bool) (state ident : Str) :
    ∀ c ∈ (markRun ok slots booted plf state ident).1,
      (∃ s, Denotes slots booted ident s ∧ kindOf state s = some c.1) ∨
      (plf = true ∧ state = c!"good" ∧ ident = c!"booted" ∧ ∃ s, Denotes slots booted (c!"other") s ∧
        c.1 = .setState s false) :=
  markRun_shape ok slots booted plf state ident

/-- C06: a slot given by name is the only one touched. -/
theorem C06_by_name (ok : Nat → Bool) (slots : List Slot) (booted : Option Slot) (plf : Bool) (state ident : Str)
    (h1 : ident ≠ c!"booted") (h2 : ident ≠ c!"other") (hwf : SlotsWF slots) :
    ∀ c ∈ (markRun ok slots booted plf state ident).1, ∀ c' ∈ (markRun ok slots booted plf state ident).1,
      c.1.slot = c'.1.slot ∧ c.1.slot ∈ slots ∧ c.1.slot.name = ident ∧ c.1.slot.bootname ≠ none := by
  have key : ∀ c ∈ (markRun ok slots booted plf state ident).1,
      c.1.slot ∈ slots ∧ c.1.slot.name = ident ∧ c.1.slot.bootname ≠ none := by
    intro c hc
    rcases markRun_shape ok slots booted plf state ident c hc with ⟨s, hd, hk⟩ | ⟨_, _, hi, _⟩
    · have hs : c.1.slot = s := by
        unfold kindOf at hk
        repeat' split at hk
        all_goals simp at hk
        all_goals rw [← hk]; rfl
      rw [hs]
      rcases hd with ⟨h, _⟩ | ⟨h, _⟩ | ⟨_, _, h⟩
      · exact absurd h h1
      · exact absurd h h2
      · exact h
    · exact absurd hi h1
  intro c hc c' hc'
  obtain ⟨a1, a2, a3⟩ := key c hc
  obtain ⟨b1, b2, _⟩ := key c' hc'
  exact ⟨hwf.name_inj _ a1 _ b1 (a2.trans b2.symm), a1, a2, a3⟩

/-- C06: mark-good and mark-active issue at most one request that makes a slot good or primary; mark-active issues
no other request, mark-good none but those of late fallback prevention. -/
theorem C06_at_most_one (ok : Nat → Bool) (slots : List Slot) (booted : Option Slot) (plf : Bool) (state ident : Str) :
    ((markRun ok slots booted plf state ident).1.filter
      (fun c => match c.1 with | .setState _ g => g | .setPrimary _ => true)).length ≤ 1 ∧
    (state = c!"active" → (markRun ok slots booted plf state ident).1.length ≤ 1) ∧
    (state = c!"good" → plf = false → (markRun ok slots booted plf state ident).1.length ≤ 1) := by
  have hz : ∀ i l, ((markBads ok i l).1.filter
      (fun c => match c.1 with | .setState _ g => g | .setPrimary _ => true)) = [] := by
    intro i l
    apply List.filter_eq_nil_iff.2
    intro c hc
    obtain ⟨s, _, he⟩ := (markBads_calls ok i l).1 c hc
    simp [he]
  unfold markRun
  split
  · simp
  · rename_i l hl
    split
    · rename_i hg
      subst hg
      split
      · split
        · split
          · rename_i hp
            refine ⟨?_, by simp, fun _ h => absurd hp.1 (by simp [h])⟩
            simp only [List.filter_cons_of_pos]
            have : (markOtherBad ok 1 slots booted).1.filter
                (fun c => match c.1 with | .setState _ g => g | .setPrimary _ => true) = [] := by
              unfold markOtherBad
              split
              · rfl
              · exact hz _ _
            simp [this]
          · simp
        · simp
      · simp
    · split
      · rename_i hb
        subst hb
        refine ⟨by simp [hz], by simp, by simp⟩
      · rename_i hg hb
        split
        · split
          · split <;> simp
          · simp
        · simp

/-- C06: success is reported only if every request succeeded and at least one slot was marked. -/
theorem C06_success_is_true (ok : Nat → Bool) (slots : List Slot) (booted : Option Slot) (plf : Bool) (state ident : Str)
    (l : List Slot) (h : (markRun ok slots booted plf state ident).2 = some l) :
    l ≠ [] ∧ (∀ s ∈ l, Denotes slots booted ident s ∧
      ∃ r, kindOf state s = some r ∧ (r, true) ∈ (markRun ok slots booted plf state ident).1) ∧
    ∀ c ∈ (markRun ok slots booted plf state ident).1, c.2 = true := by
  have bads : ∀ i l, (markBads ok i l).2 = true → ∀ c ∈ (markBads ok i l).1, c.2 = true := by
    intro i l hh c hc
    rw [(markBads_calls ok i l).2.1 hh] at hc
    obtain ⟨s, _, rfl⟩ := List.mem_map.1 hc
    rfl
  unfold markRun at h ⊢
  split at h
  · simp at h
  · rename_i l' hl
    have hne := (resolve_sound hl).1
    have hd := (resolve_sound hl).2.1
    split at h
    · rename_i hg
      split at h
      · rename_i s
        have hds := hd s (by simp)
        split at h
        · rename_i hok
          split at h
          · rename_i hp
            simp only [] at h
            split at h
            · rename_i hr
              simp only [Option.some.injEq] at h; subst h
              simp only [hg, hok, hp, and_self, if_true]
              refine ⟨by simp, ?_, ?_⟩
              · intro t ht; simp at ht; subst ht
                exact ⟨by rw [← hp.2]; exact hds, _, rfl, by simp⟩
              · intro c hc
                rcases List.mem_cons.1 hc with rfl | hc
                · rfl
                · unfold markOtherBad at hr hc
                  cases hrs : resolve slots booted (c!"other") with
                  | none => rw [hrs] at hr; simp at hr
                  | some lo => rw [hrs] at hr hc; exact bads _ _ hr c hc
            · simp at h
          · rename_i hp
            simp only [Option.some.injEq] at h; subst h
            simp only [hg, hok, if_true, hp, if_false]
            refine ⟨by simp, ?_, by simp⟩
            intro t ht; simp at ht; subst ht
            exact ⟨hds, _, rfl, by simp⟩
        · simp at h
      · simp at h
    · rename_i hg
      split at h
      · rename_i hb
        simp only [] at h
        split at h
        · rename_i hr
          simp only [Option.some.injEq] at h; subst h
          simp only [hb, if_true]
          refine ⟨hne, ?_, ?_⟩
          · intro t ht
            refine ⟨hd t ht, _, rfl, ?_⟩
            have := (markBads_calls ok 0 l').2.1 hr
            rw [if_neg (by decide)]
            simp only []
            rw [this]
            exact List.mem_map.2 ⟨t, ht, rfl⟩
          · rw [if_neg (by decide)]
            exact bads _ _ hr
        · simp at h
      · split at h
        · rename_i ha
          split at h
          · rename_i s
            have hds := hd s (by simp)
            split at h
            · rename_i hok
              simp only [Option.some.injEq] at h; subst h
              simp only [ha, hok, if_true]
              rw [if_neg (by decide), if_neg (by decide)]
              refine ⟨by simp, ?_, by simp⟩
              intro t ht; simp at ht; subst ht
              exact ⟨hds, _, rfl, by simp⟩
            · simp at h
          · simp at h
        · simp at h

/-! ## C07 -/

/-- C07: with late fallback prevention, a successful mark-good of the booted slot marks the booted slot good and
then every other bootable root slot of its class bad, and nothing else. -/
theorem C07_success (ok : Nat → Bool) (slots : List Slot) (b : Slot) (l : List Slot)
    (h : (markRun ok slots (some b) true (c!"good") (c!"booted")).2 = some l) :
    ∃ bads : List Slot, (markRun ok slots (some b) true (c!"good") (c!"booted")).1 =
        (.setState b true, true) :: bads.map (fun s => (.setState s false, true)) ∧
      ∀ s, s ∈ bads ↔ (s ∈ slots ∧ s.bootname ≠ none ∧ s.parent = none ∧ s.sclass = b.sclass ∧ s ≠ b) := by
  have hres : resolve slots (some b) (c!"booted") = some [b] := rfl
  simp only [markRun, hres] at h ⊢
  simp only [if_true] at h ⊢
  cases hok : ok 0 with
  | false => simp [hok] at h
  | true =>
    simp only [hok, and_self, if_true] at h ⊢
    unfold markOtherBad at h ⊢
    cases hr : resolve slots (some b) (c!"other") with
    | none => rw [hr] at h; simp at h
    | some bads =>
      rw [hr] at h
      simp only [] at h ⊢
      split at h
      · rename_i hb
        refine ⟨bads, by rw [(markBads_calls ok 1 bads).2.1 hb], ?_⟩
        intro s
        constructor
        · intro hs
          rcases (resolve_sound hr).2.1 s hs with ⟨h, _⟩ | ⟨_, h1, h2, h3, b', hb', h4, h5⟩ | ⟨_, h, _⟩
          · exact absurd h (by decide)
          · simp only [Option.some.injEq] at hb'; subst hb'; exact ⟨h1, h2, h3, h4, h5⟩
          · exact absurd rfl h
        · intro ⟨h1, h2, h3, h4, h5⟩
          have : resolve slots (some b) (c!"other") =
              (if (slots.filter (fun s => s.sclass == b.sclass && s.parent.isNone && s.bootname.isSome && !(s == b))).isEmpty
                then none else some (slots.filter (fun s => s.sclass == b.sclass && s.parent.isNone && s.bootname.isSome && !(s == b)))) := rfl
          rw [this] at hr
          split at hr
          · simp at hr
          · simp only [Option.some.injEq] at hr
            rw [← hr]
            refine List.mem_filter.2 ⟨h1, ?_⟩
            cases hbn : s.bootname with
            | none => exact absurd hbn h2
            | some x => simp [h3, h4, h5]
      · simp at h

/-- C07: whatever happens, a mark-good never marks the booted slot bad, -/
theorem C07_never_booted (ok : Nat → Bool) (slots : List Slot) (b : Slot) (plf : Bool) (ident : Str) (o : Bool) :
    (.setState b false, o) ∉ (markRun ok slots (some b) plf (c!"good") ident).1 := by
  intro h
  rcases markRun_shape ok slots (some b) plf (c!"good") ident _ h with ⟨s, _, hk⟩ | ⟨_, _, _, s, hd, he⟩
  · simp [kindOf] at hk
  · simp only [Req.setState.injEq, and_true] at he
    subst he
    rcases hd with ⟨h, _⟩ | ⟨_, _, _, _, b', hb', _, h5⟩ | ⟨_, h, _⟩
    · exact absurd h (by decide)
    · simp only [Option.some.injEq] at hb'; exact h5 hb'
    · exact absurd rfl h

/-- and without the option a mark-good marks no slot bad at all. -/
theorem C07_off (ok : Nat → Bool) (slots : List Slot) (booted : Option Slot) (ident : Str) (s : Slot) (o : Bool) :
    (.setState s false, o) ∉ (markRun ok slots booted false (c!"good") ident).1 := by
  intro h
  rcases markRun_shape ok slots booted false (c!"good") ident _ h with ⟨t, _, hk⟩ | ⟨h, _⟩
  · simp [kindOf] at hk
  · simp at h

/-- FINDING: with the option set and no other bootable slot of the class, mark-good reports an error although
the booted slot was successfully marked good. -/
theorem C07_single_slot (s : Slot) :
    markRun (fun _ => true) [s] (some s) true (c!"good") (c!"booted") = ([(.setState s true, true)], none) := by
  simp [markRun, resolve, markOtherBad]

/-! ## C08 -/

theorem C08_failure (saveOk : Bool) (now : DateTime) (st : StatusSt) :
    markActive false saveOk now st = (false, st) := rfl

/-- C08: on success the counter grows by one (as a 32 bit number), the time stamp is set, nothing else changes, in memory;
on disk the same if the status could be saved. -/
theorem C08_success (saveOk : Bool) (now : DateTime) (st : StatusSt) (h : st.mem.activatedCount < 2 ^ 32 - 1) :
    ∃ st', markActive true saveOk now st = (true, st') ∧
      st'.mem.activatedCount = st.mem.activatedCount + 1 ∧ st'.mem.activatedTimestamp = some now ∧
      { st'.mem with activatedCount := st.mem.activatedCount, activatedTimestamp := st.mem.activatedTimestamp } = st.mem ∧
      (saveOk = true → st'.disk = st'.mem) ∧ (saveOk = false → st'.disk = st.disk) := by
  refine ⟨_, rfl, ?_, rfl, rfl, ?_, ?_⟩
  · show (st.mem.activatedCount + 1) % 2 ^ 32 = _
    omega
  · intro h; simp [h]
  · intro h; simp [h]

/-! ### non-vacuity -/

def sA : Slot := { name := c!"rootfs.0", sclass := c!"rootfs", bootname := some (c!"A") }
def sB : Slot := { name := c!"rootfs.1", sclass := c!"rootfs", bootname := some (c!"B") }
def sC : Slot := { name := c!"rescue.0", sclass := c!"rescue", bootname := some (c!"R") }

example : markRun (fun _ => true) [sA, sB, sC] (some sA) true (c!"good") (c!"booted") =
    ([(.setState sA true, true), (.setState sB false, true)], some [sA]) := by decide
example : markRun (fun n => n == 0) [sA, sB, sC] (some sA) true (c!"good") (c!"booted") =
    ([(.setState sA true, true), (.setState sB false, false)], none) := by decide
example : markRun (fun _ => true) [sA, sB, sC] (some sA) false (c!"active") (c!"rescue.0") =
    ([(.setPrimary sC, true)], some [sC]) := by decide

end Rauc.Mark
