import Verif.Model.Install

/-!
# Lemmas on the events of an installation
-/

namespace Rauc.Install

open Rauc.Select (Plan Target)

/-- the events of handling one slot -/
theorem slotPlan_cases (w : World) (m : Manifest) (txn : Str) (img : Image) (s : Slot) (h : List Ev) :
    (w.stuck h s.name = true ∧ slotPlan w m txn img s h = (h, false)) ∨
    (w.stuck h s.name = false ∧ skips s img ((w.cur h).mem s.name) = true ∧ ∃ st b, st.status = some (c!"ok") ∧ st.digest = img.digest ∧
      slotPlan w m txn img s h = (h ++ [.setMem s.name st, .save s.name b], b)) ∨
    (w.stuck h s.name = false ∧ skips s img ((w.cur h).mem s.name) = false ∧ w.cfg.perSlot = false ∧ ∃ st, st.status = some (c!"pending") ∧
      slotPlan w m txn img s h = (h ++ [.setMem s.name st, .save s.name false], false)) ∨
    (w.stuck h s.name = false ∧ skips s img ((w.cur h).mem s.name) = false ∧ w.cfg.perSlot = false ∧
      ∃ st st' k a b, st.status = some (c!"pending") ∧
        st'.status = some (if a then c!"ok" else c!"failed") ∧ st'.digest = img.digest ∧
        slotPlan w m txn img s h =
          (h ++ [.setMem s.name st, .save s.name true, .writeStart s img k, .writeEnd s img a, .setMem s.name st', .save s.name b], a && b)) ∨
    (w.stuck h s.name = false ∧ skips s img ((w.cur h).mem s.name) = false ∧ w.cfg.perSlot = true ∧
      ∃ st' k a b, st'.status = some (if a then c!"ok" else c!"failed") ∧ st'.digest = img.digest ∧
        slotPlan w m txn img s h =
          (h ++ [.writeStart s img k, .writeEnd s img a, .setMem s.name st', .save s.name b], a && b)) := by
  have e : slotPlan w m txn img s h = slotPlan w m txn img s h := rfl
  conv at e => rhs; unfold slotPlan
  simp only [] at e
  by_cases h1 : w.stuck h s.name = true
  · exact Or.inl ⟨h1, by rw [e, if_pos h1]⟩
  · rw [if_neg h1] at e
    rw [Bool.not_eq_true] at h1
    right
    by_cases h2 : skips s img ((w.cur h).mem s.name) = true
    · rw [if_pos h2] at e
      simp only [List.append_assoc, List.cons_append, List.nil_append] at e
      exact Or.inl ⟨h1, h2, _, _, by rfl, by rfl, e⟩
    · rw [if_neg h2] at e
      rw [Bool.not_eq_true] at h2
      right
      cases h3 : w.cfg.perSlot with
      | true =>
        simp only [h3, Bool.not_true, Bool.false_and, Bool.false_eq_true, ↓reduceIte, List.append_assoc, List.cons_append,
          List.nil_append] at e
        exact Or.inr (Or.inr ⟨h1, h2, rfl, _, _, _, _, by rfl, by rfl, e⟩)
      | false =>
        simp only [h3, Bool.not_false, Bool.true_and, Bool.false_eq_true, ↓reduceIte] at e
        split at e
        · simp only [List.append_assoc, List.cons_append, List.nil_append] at e
          exact Or.inl ⟨h1, h2, rfl, _, by rfl, e⟩
        · simp only [List.append_assoc, List.cons_append, List.nil_append] at e
          exact Or.inr (Or.inl ⟨h1, h2, rfl, _, _, _, _, _, by rfl, by rfl, by rfl, e⟩)

theorem replay_append (c : Cfg) (st : St) (a b : List Ev) : replay c st (a ++ b) = replay c (replay c st a) b :=
  List.foldl_append

theorem cur_append (w : World) (a b : List Ev) : w.cur (a ++ b) = replay w.cfg (w.cur a) b := replay_append _ _ _ _

/-- induction over the loop: a property of the appended events and the result -/
theorem plansLoop_ind (w : World) (m : Manifest) (txn : Str) (P : List Plan → List Ev → List Ev → Bool → Prop)
    (nil : ∀ h, P [] h [] true)
    (slotFail : ∀ p s hd ps h evs, p.target = .slot s hd → slotPlan w m txn p.image s h = (h ++ evs, false) →
      P (p :: ps) h evs false)
    (slotOk : ∀ p s hd ps h evs evs' b, p.target = .slot s hd → slotPlan w m txn p.image s h = (h ++ evs, true) →
      P ps (h ++ evs) evs' b → P (p :: ps) h (evs ++ evs') b)
    (repoFail : ∀ p n ps h, p.target = .repo n → P (p :: ps) h [.artifactStart n p.image, .artifactEnd n p.image false] false)
    (repoOk : ∀ p n ps h evs' b, p.target = .repo n →
      P ps (h ++ [.artifactStart n p.image, .artifactEnd n p.image true]) evs' b →
      P (p :: ps) h (.artifactStart n p.image :: .artifactEnd n p.image true :: evs') b) :
    ∀ plans h, ∃ evs b, plansLoop w m txn plans h = (h ++ evs, b) ∧ P plans h evs b := by
  intro plans
  induction plans with
  | nil => intro h; exact ⟨[], true, by simp [plansLoop], nil h⟩
  | cons p ps ih =>
    intro h
    unfold plansLoop
    cases hp : p.target with
    | slot s hd =>
      simp only []
      have ext : ∃ evs b, slotPlan w m txn p.image s h = (h ++ evs, b) := by
        rcases slotPlan_cases w m txn p.image s h with ⟨-, e⟩ | ⟨-, -, _, _, -, -, e⟩ | ⟨-, -, -, _, -, e⟩ |
          ⟨-, -, -, _, _, _, _, _, -, -, -, e⟩ | ⟨-, -, -, _, _, _, _, -, -, e⟩
        · exact ⟨[], false, by rw [e, List.append_nil]⟩
        · exact ⟨_, _, e⟩
        · exact ⟨_, _, e⟩
        · exact ⟨_, _, e⟩
        · exact ⟨_, _, e⟩
      obtain ⟨evs, b, e⟩ := ext
      rw [e]
      cases b with
      | false => exact ⟨evs, false, by simp, slotFail p s hd ps h evs hp e⟩
      | true =>
        simp only [↓reduceIte]
        obtain ⟨evs', b', e', hP⟩ := ih (h ++ evs)
        exact ⟨evs ++ evs', b', by rw [e', List.append_assoc], slotOk p s hd ps h evs evs' b' hp e hP⟩
    | repo n =>
      simp only []
      by_cases hok : w.ok (h ++ [Ev.artifactStart n p.image]) = true
      · simp only [hok, ↓reduceIte]
        obtain ⟨evs', b', e', hP⟩ := ih (h ++ [.artifactStart n p.image, .artifactEnd n p.image true])
        refine ⟨_, b', ?_, repoOk p n ps h evs' b' hp hP⟩
        simp only [List.append_assoc, List.cons_append, List.nil_append] at e' ⊢
        exact e'
      · rw [Bool.not_eq_true] at hok
        simp only [hok, Bool.false_eq_true, ↓reduceIte]
        refine ⟨_, false, ?_, repoFail p n ps h hp⟩
        simp

/-- what follows the loop over the plans -/
inductive Tail (w : World) (hist : List Ev) (boot : Option Slot) : Bool → List Ev → Outcome → Prop
  | loopFailed : Tail w hist boot false [] .failed
  | pruneFailed : Tail w hist boot true [.prune false] .failed
  | done : boot = none ∨ w.cfg.activateInstalled = false → Tail w hist boot true [.prune true] .ok
  | primaryFailed (s : Slot) : boot = some s → w.cfg.activateInstalled = true →
      Tail w hist boot true [.prune true, .setPrimary s false] .failed
  | activated (s : Slot) (st : SlotStatus) (b : Bool) : boot = some s → w.cfg.activateInstalled = true →
      st.status = ((w.cur (hist ++ [.prune true, .setPrimary s true])).mem s.name).status →
      st.digest = ((w.cur (hist ++ [.prune true, .setPrimary s true])).mem s.name).digest →
      Tail w hist boot true [.prune true, .setPrimary s true, .setMem s.name st, .save s.name b] .ok

theorem markActive_shape (w : World) (s : Slot) (h : List Ev) :
    markActive w s h = (h ++ [.setPrimary s false], false) ∨
    ∃ st b, st.status = ((w.cur (h ++ [.setPrimary s true])).mem s.name).status ∧
      st.digest = ((w.cur (h ++ [.setPrimary s true])).mem s.name).digest ∧
      markActive w s h = (h ++ [.setPrimary s true, .setMem s.name st, .save s.name b], true) := by
  have e : markActive w s h = markActive w s h := rfl
  conv at e => rhs; unfold markActive
  split at e
  · simp only [List.append_assoc, List.cons_append, List.nil_append] at e
    exact Or.inr ⟨_, _, by rfl, by rfl, e⟩
  · exact Or.inl e

theorem updateSlots_shape (w : World) (m : Manifest) (txn : Str) (plans : List Plan) (boot : Option Slot) (h : List Ev) :
    ∃ evs b tail o, plansLoop w m txn plans h = (h ++ evs, b) ∧
      updateSlots w m txn plans boot h = (h ++ evs ++ tail, o) ∧ Tail w (h ++ evs) boot b tail o := by
  obtain ⟨evs, b, hl, -⟩ := plansLoop_ind w m txn (fun _ _ _ _ => True) (fun _ => trivial) (fun _ _ _ _ _ _ _ _ => trivial)
    (fun _ _ _ _ _ _ _ _ _ _ _ => trivial) (fun _ _ _ _ _ => trivial) (fun _ _ _ _ _ _ _ _ => trivial) plans h
  refine ⟨evs, b, ?_⟩
  unfold updateSlots
  simp only [hl]
  cases b with
  | false => exact ⟨[], .failed, trivial, by simp, .loopFailed⟩
  | true =>
    simp only [↓reduceIte]
    cases hp : w.ok (h ++ evs) with
    | false => exact ⟨[.prune false], .failed, trivial, by simp, .pruneFailed⟩
    | true =>
      cases boot with
      | none => exact ⟨[.prune true], .ok, trivial, by simp, .done (Or.inl rfl)⟩
      | some s =>
        simp only [↓reduceIte]
        cases ha : w.cfg.activateInstalled with
        | false => exact ⟨[.prune true], .ok, trivial, by simp, .done (Or.inr ha)⟩
        | true =>
          simp only [↓reduceIte]
          rcases markActive_shape w s (h ++ evs ++ [Ev.prune true]) with e | ⟨st, b, h1, h2, e⟩
          · exact ⟨[.prune true, .setPrimary s false], .failed, trivial, by rw [e]; simp [ofBool], .primaryFailed s rfl ha⟩
          · refine ⟨[.prune true, .setPrimary s true, .setMem s.name st, .save s.name b], .ok, trivial, by rw [e]; simp [ofBool],
              .activated s st b rfl ha ?_ ?_⟩
            · simpa using h1
            · simpa using h2

theorem defaultHandler_shape (w : World) (m : Manifest) (txn : Str) (h : List Ev) :
    (∃ o, o ≠ .ok ∧ defaultHandler w m txn h = (h, o)) ∨
    ∃ plans boot, Select.makePlans w.cfg.variant w.group w.cfg.repos w.artifactsOk m.images = some plans ∧
      bootMarkSlot plans = some boot ∧ preChecks w plans = .ok ∧
      ((∃ s, boot = some s ∧ defaultHandler w m txn h = (h ++ [.markBad s false], .failed)) ∨
       ∃ pre evs b tail o, pre = boot.toList.map (fun s => Ev.markBad s true) ∧
         plansLoop w m txn plans (h ++ pre) = (h ++ pre ++ evs, b) ∧
         defaultHandler w m txn h = (h ++ pre ++ evs ++ tail, o) ∧ Tail w (h ++ pre ++ evs) boot b tail o) := by
  unfold defaultHandler
  cases hp : Select.makePlans w.cfg.variant w.group w.cfg.repos w.artifactsOk m.images with
  | none => exact Or.inl ⟨.failed, by simp, rfl⟩
  | some plans =>
    simp only []
    cases hb : bootMarkSlot plans with
    | none => exact Or.inl ⟨.abort, by simp, rfl⟩
    | some boot =>
      simp only []
      cases hc : preChecks w plans with
      | failed => exact Or.inl ⟨.failed, by simp, rfl⟩
      | abort => exact Or.inl ⟨.abort, by simp, rfl⟩
      | ok =>
        right
        refine ⟨plans, boot, rfl, hb, hc, ?_⟩
        simp only []
        cases boot with
        | none =>
          right
          obtain ⟨evs, b, tail, o, h1, h2, h3⟩ := updateSlots_shape w m txn plans none h
          exact ⟨[], evs, b, tail, o, rfl, by simpa using h1, by simpa using h2, by simpa using h3⟩
        | some s =>
          simp only []
          by_cases hok : w.ok h = true
          · right
            obtain ⟨evs, b, tail, o, h1, h2, h3⟩ := updateSlots_shape w m txn plans (some s) (h ++ [.markBad s true])
            exact ⟨[.markBad s true], evs, b, tail, o, rfl, h1, by rw [if_pos hok, h2], h3⟩
          · left
            exact ⟨s, rfl, by rw [if_neg hok]⟩

end Rauc.Install
