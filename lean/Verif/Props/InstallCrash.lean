import Verif.Props.Install

/-!
# C14, C15: the slot status never claims more than the slot holds
-/

namespace Rauc.Install

open Rauc.Select (Plan Target makePlans)

/-! ## Specification -/

/-- Wherever the status of a slot says `ok`, the slot holds completely the image whose digest is recorded. -/
def Sound (st : St) : Prop :=
  ∀ n, ((st.disk n).status = some (c!"ok") → st.content n = some (st.disk n).digest) ∧
    ((st.mem n).status = some (c!"ok") → st.content n = some (st.mem n).digest)

/-- States reached with a shared status file by any number of installations (of any bundles, with any outcomes, on any
configuration), activations by `mark`, and crashes at any point of them followed by a restart. -/
inductive Reach : St → Prop
  | init {st : St} : Sound st → Reach st
  | install (w : World) (a : Args) (c : Checked) (inner : Option Manifest) : w.cfg.perSlot = false → Reach w.st0 →
      Reach (replay w.cfg w.st0 (install w a c inner).1)
  | installCrash (w : World) (a : Args) (c : Checked) (inner : Option Manifest) (pre : List Ev) : w.cfg.perSlot = false →
      Reach w.st0 → pre <+: (install w a c inner).1 → Reach (restart (replay w.cfg w.st0 pre))
  | mark (w : World) (s : Slot) : w.cfg.perSlot = false → Reach w.st0 →
      Reach (replay w.cfg w.st0 (markActive w s []).1)
  | markCrash (w : World) (s : Slot) (pre : List Ev) : w.cfg.perSlot = false → Reach w.st0 →
      pre <+: (markActive w s []).1 → Reach (restart (replay w.cfg w.st0 pre))

/-! ## Lemmas -/

/-- sound at every point of a sequence of events -/
def SoundAll (c : Cfg) (st : St) : List Ev → Prop
  | [] => Sound st
  | e :: es => Sound st ∧ SoundAll c (apply c st e) es

theorem SoundAll.start {c : Cfg} {st : St} {evs : List Ev} (h : SoundAll c st evs) : Sound st := by
  cases evs with
  | nil => exact h
  | cons e es => exact h.1

theorem SoundAll.append {c : Cfg} {st : St} {a b : List Ev} (h : SoundAll c st a) (h' : SoundAll c (replay c st a) b) :
    SoundAll c st (a ++ b) := by
  induction a generalizing st with
  | nil => exact h'
  | cons e es ih => exact ⟨h.1, ih h.2 h'⟩

theorem SoundAll.prefix {c : Cfg} {st : St} {evs pre : List Ev} (h : SoundAll c st evs) (hp : pre <+: evs) :
    Sound (replay c st pre) := by
  induction pre generalizing st evs with
  | nil => exact h.start
  | cons e pre ih =>
    cases evs with
    | nil => exact absurd hp (by simp)
    | cons x evs =>
      rw [List.cons_prefix_cons] at hp
      obtain ⟨rfl, hp⟩ := hp
      exact ih h.2 hp

theorem SoundAll.end {c : Cfg} {st : St} {evs : List Ev} (h : SoundAll c st evs) : Sound (replay c st evs) :=
  h.prefix (List.prefix_refl _)

/-- events that do not touch statuses or slots -/
def Ev.neutral : Ev → Bool
  | .setMem .. | .save .. | .writeStart .. | .writeEnd .. => false
  | _ => true

theorem apply_neutral {c : Cfg} {st : St} {e : Ev} (h : e.neutral = true) :
    (apply c st e).disk = st.disk ∧ (apply c st e).mem = st.mem ∧ (apply c st e).content = st.content := by
  cases e
  all_goals first
    | (simp only [Ev.neutral, Bool.false_eq_true] at h; done)
    | exact ⟨rfl, rfl, rfl⟩
    | (rename_i b; cases b <;> exact ⟨rfl, rfl, rfl⟩)

theorem sound_congr {st st' : St} (h : Sound st) (h1 : st'.disk = st.disk) (h2 : st'.mem = st.mem)
    (h3 : st'.content = st.content) : Sound st' := by
  intro n
  rw [h1, h2, h3]
  exact h n

theorem soundAll_neutral {c : Cfg} {st : St} {evs : List Ev} (hn : ∀ e ∈ evs, e.neutral = true) (h : Sound st) :
    SoundAll c st evs := by
  induction evs generalizing st with
  | nil => exact h
  | cons e es ih =>
    obtain ⟨h1, h2, h3⟩ := apply_neutral (c := c) (st := st) (hn e (by simp))
    exact ⟨h, ih (fun x hx => hn x (List.mem_cons_of_mem _ hx)) (sound_congr h h1 h2 h3)⟩

theorem sound_setMem {c : Cfg} {st : St} {n : Str} {s : SlotStatus} (h : Sound st)
    (hs : s.status = some (c!"ok") → st.content n = some s.digest) : Sound (apply c st (.setMem n s)) := by
  intro k
  refine ⟨(h k).1, ?_⟩
  simp only [apply, upd]
  split
  · rename_i hk; rw [hk]; exact hs
  · exact (h k).2

theorem sound_save {c : Cfg} (hc : c.perSlot = false) {st : St} {n : Str} {b : Bool} (h : Sound st) :
    Sound (apply c st (.save n b)) := by
  cases b with
  | false => exact h
  | true =>
    intro k
    simp only [apply, hc, Bool.false_eq_true, ↓reduceIte]
    exact ⟨(h k).2, (h k).2⟩

theorem sound_writeStart {c : Cfg} (hc : c.perSlot = false) {st : St} {s : Slot} {img : Image} {k : Bool} (h : Sound st)
    (h1 : (st.mem s.name).status ≠ some (c!"ok")) (h2 : (st.disk s.name).status ≠ some (c!"ok")) :
    Sound (apply c st (.writeStart s img k)) := by
  intro n
  simp only [apply, hc, Bool.false_and, Bool.false_eq_true, ↓reduceIte, upd]
  split
  · rename_i hn; subst hn
    exact ⟨fun x => absurd x h2, fun x => absurd x h1⟩
  · exact h n

theorem sound_writeEnd {c : Cfg} {st : St} {s : Slot} {img : Image} {b : Bool} (h : Sound st)
    (h1 : (st.mem s.name).status ≠ some (c!"ok")) (h2 : (st.disk s.name).status ≠ some (c!"ok")) :
    Sound (apply c st (.writeEnd s img b)) := by
  cases b with
  | false => exact h
  | true =>
    intro n
    simp only [apply, upd]
    split
    · rename_i hn; subst hn
      exact ⟨fun x => absurd x h2, fun x => absurd x h1⟩
    · exact h n

theorem slotPlan_sound {w : World} (hc : w.cfg.perSlot = false) {m : Manifest} {txn : Str} {img : Image} {s : Slot}
    {h evs : List Ev} {b : Bool} (he : slotPlan w m txn img s h = (h ++ evs, b)) (hs : Sound (w.cur h)) :
    SoundAll w.cfg (w.cur h) evs := by
  rcases slotPlan_cases w m txn img s h with ⟨-, e⟩ | ⟨-, hsk, st, b', h1, h2, e⟩ | ⟨-, -, -, st, h1, e⟩ |
    ⟨-, -, -, st, st', k, a, b', h1, h2, h3, e⟩ | ⟨-, -, hps, st', k, a, b', -, -, e⟩ <;>
    rw [he] at e <;> simp only [Prod.mk.injEq] at e <;> obtain ⟨e1, e2⟩ := e
  · have : evs = [] := by simpa using e1
    subst this; exact hs
  · have := List.append_cancel_left e1
    subst this
    rw [skips_iff] at hsk
    have hA : Sound (apply w.cfg (w.cur h) (.setMem s.name st)) := sound_setMem hs (fun _ => by
      rw [(hs s.name).2 hsk.2.1, hsk.2.2, h2])
    exact ⟨hs, hA, sound_save hc hA⟩
  · have := List.append_cancel_left e1
    subst this
    have hA : Sound (apply w.cfg (w.cur h) (.setMem s.name st)) := sound_setMem hs (fun x => by
      rw [h1] at x; exact absurd x (by decide))
    exact ⟨hs, hA, sound_save hc hA⟩
  · have := List.append_cancel_left e1
    subst this
    have pend : st.status ≠ some (c!"ok") := by rw [h1]; decide
    have hA : Sound (apply w.cfg (w.cur h) (.setMem s.name st)) := sound_setMem hs (fun x => absurd x pend)
    have hB : Sound (apply w.cfg (apply w.cfg (w.cur h) (.setMem s.name st)) (.save s.name true)) := sound_save hc hA
    generalize hst : apply w.cfg (apply w.cfg (w.cur h) (.setMem s.name st)) (.save s.name true) = s2 at hB
    have m2 : (s2.mem s.name).status ≠ some (c!"ok") := by
      rw [← hst]; simpa [apply, hc, upd] using pend
    have d2 : (s2.disk s.name).status ≠ some (c!"ok") := by
      rw [← hst]; simpa [apply, hc, upd] using pend
    have hC : Sound (apply w.cfg s2 (.writeStart s img k)) := sound_writeStart hc hB m2 d2
    have m3 : ((apply w.cfg s2 (.writeStart s img k)).mem s.name).status ≠ some (c!"ok") := m2
    have d3 : ((apply w.cfg s2 (.writeStart s img k)).disk s.name).status ≠ some (c!"ok") := by
      simpa [apply, hc] using d2
    have hD : Sound (apply w.cfg (apply w.cfg s2 (.writeStart s img k)) (.writeEnd s img a)) := sound_writeEnd hC m3 d3
    have hE : Sound (apply w.cfg (apply w.cfg (apply w.cfg s2 (.writeStart s img k)) (.writeEnd s img a)) (.setMem s.name st')) := by
      apply sound_setMem hD
      intro x
      cases a with
      | false => rw [h2] at x; exact absurd x (by decide)
      | true => simp [apply, upd, h3]
    refine ⟨hs, hA, ?_⟩
    rw [hst]
    exact ⟨hB, hC, hD, hE, sound_save hc hE⟩
  · rw [hc] at hps; exact absurd hps (by simp)

theorem plansLoop_sound {w : World} (hc : w.cfg.perSlot = false) (m : Manifest) (txn : Str) (plans : List Plan) (h : List Ev)
    (hs : Sound (w.cur h)) :
    ∃ evs b, plansLoop w m txn plans h = (h ++ evs, b) ∧ SoundAll w.cfg (w.cur h) evs := by
  obtain ⟨evs, b, h1, h2⟩ := plansLoop_ind w m txn (fun _ h evs _ => Sound (w.cur h) → SoundAll w.cfg (w.cur h) evs)
    (fun h hs => hs)
    (fun p s hd ps h evs _ he hs => slotPlan_sound hc he hs)
    (fun p s hd ps h evs evs' b _ he ih hs => by
      have h1 := slotPlan_sound hc he hs
      refine h1.append ?_
      rw [← cur_append]
      exact ih (by rw [cur_append]; exact h1.end))
    (fun p n ps h _ hs => soundAll_neutral (by simp [Ev.neutral]) hs)
    (fun p n ps h evs' b _ ih hs => by
      have h1 : SoundAll w.cfg (w.cur h) [.artifactStart n p.image, .artifactEnd n p.image true] :=
        soundAll_neutral (by simp [Ev.neutral]) hs
      have := h1.append (b := evs') (by rw [← cur_append]; exact ih (by rw [cur_append]; exact h1.end))
      exact this)
    plans h
  exact ⟨evs, b, h1, h2 hs⟩

theorem soundAll_activate {w : World} (hc : w.cfg.perSlot = false) {h : List Ev} {s : Slot} {st : SlotStatus} {b : Bool}
    (hs : Sound (w.cur h)) (h1 : st.status = ((w.cur (h ++ [.setPrimary s true])).mem s.name).status)
    (h2 : st.digest = ((w.cur (h ++ [.setPrimary s true])).mem s.name).digest) :
    SoundAll w.cfg (w.cur h) [.setPrimary s true, .setMem s.name st, .save s.name b] := by
  have e : (w.cur (h ++ [.setPrimary s true])) = apply w.cfg (w.cur h) (.setPrimary s true) := by
    rw [cur_append]; rfl
  rw [e] at h1 h2
  have hA : Sound (apply w.cfg (w.cur h) (.setPrimary s true)) := hs
  have hB : Sound (apply w.cfg (apply w.cfg (w.cur h) (.setPrimary s true)) (.setMem s.name st)) :=
    sound_setMem hA (fun x => by rw [h1] at x; rw [h2]; exact (hA s.name).2 x)
  exact ⟨hs, hA, hB, sound_save hc hB⟩

theorem defaultHandler_sound {w : World} (hc : w.cfg.perSlot = false) (m : Manifest) (txn : Str) (h : List Ev)
    (hs : Sound (w.cur h)) :
    ∃ evs, (defaultHandler w m txn h).1 = h ++ evs ∧ SoundAll w.cfg (w.cur h) evs := by
  rcases defaultHandler_shape w m txn h with ⟨o, -, e⟩ | ⟨plans, boot, hp, hb, -, ⟨s, rfl, e⟩ | ⟨pre0, evs0, b0, tail, o, hpre, hl, e, ht⟩⟩
  · exact ⟨[], by rw [e]; simp, hs⟩
  · exact ⟨_, by rw [e], soundAll_neutral (by simp [Ev.neutral]) hs⟩
  · have hpreS : SoundAll w.cfg (w.cur h) pre0 := soundAll_neutral (by
      rw [hpre]; intro e he; rw [List.mem_map] at he; obtain ⟨s, -, rfl⟩ := he; rfl) hs
    have h1 : Sound (w.cur (h ++ pre0)) := by rw [cur_append]; exact hpreS.end
    obtain ⟨evs, bb, hl', hq⟩ := plansLoop_sound hc m txn plans (h ++ pre0) h1
    rw [hl] at hl'
    simp only [Prod.mk.injEq] at hl'
    have := List.append_cancel_left hl'.1
    subst this
    refine ⟨pre0 ++ evs0 ++ tail, by rw [e]; simp, ?_⟩
    have h2 : SoundAll w.cfg (w.cur h) (pre0 ++ evs0) := hpreS.append (by rw [← cur_append]; exact hq)
    refine h2.append ?_
    rw [← cur_append, ← List.append_assoc]
    have h3 : Sound (w.cur (h ++ pre0 ++ evs0)) := by
      rw [List.append_assoc, cur_append]; exact h2.end
    cases ht with
    | loopFailed => exact h3
    | pruneFailed => exact soundAll_neutral (by simp [Ev.neutral]) h3
    | done _ => exact soundAll_neutral (by simp [Ev.neutral]) h3
    | primaryFailed s _ _ => exact soundAll_neutral (by simp [Ev.neutral]) h3
    | activated s st b' _ _ hx hy =>
      have h4 : Sound (w.cur (h ++ pre0 ++ evs0 ++ [.prune true])) := by
        rw [cur_append]; exact h3
      have := soundAll_activate hc (h := h ++ pre0 ++ evs0 ++ [.prune true]) (b := b') h4 (by simpa using hx) (by simpa using hy)
      refine ⟨h3, ?_⟩
      rw [cur_append] at this
      exact this

/-! ### The whole installation -/

theorem mounted_sound {w : World} (hc : w.cfg.perSlot = false) (a : Args) (m : Manifest) (h : List Ev) (hs : Sound (w.cur h)) :
    ∃ evs, (mounted w a m h).1 = h ++ evs ∧ SoundAll w.cfg (w.cur h) evs := by
  have hnd : ∀ (en : Bool) (mk : Bool → Ev) (g : List Ev), (∀ b, (mk b).neutral = true) →
      ∃ evs, (handler w en mk g).1 = g ++ evs ∧ ∀ e ∈ evs, e.neutral = true := by
    intro en mk g hmk
    unfold handler
    cases en with
    | false => exact ⟨[], by simp, by simp⟩
    | true => exact ⟨[mk (w.ok g)], by simp, by simp [hmk]⟩
  obtain ⟨e1, he1, hn1⟩ := hnd w.cfg.preHandler .preHandler h (fun _ => rfl)
  have hcm : ∀ g, ∃ evs, (compatStep w a m g).1 = g ++ evs ∧ ∀ e ∈ evs, e.neutral = true := by
    intro g
    unfold compatStep
    split
    · exact ⟨[.installCheck (w.ok g)], rfl, by simp [Ev.neutral]⟩
    · exact ⟨[], by simp, by simp⟩
  have hs1 : SoundAll w.cfg (w.cur h) e1 := soundAll_neutral hn1 hs
  unfold mounted
  simp only []
  split
  · exact ⟨e1, he1, hs1⟩
  · rw [he1]
    obtain ⟨e2, he2, hn2⟩ := hcm (h ++ e1)
    have hs2 : SoundAll w.cfg (w.cur h) (e1 ++ e2) :=
      hs1.append (soundAll_neutral hn2 hs1.end)
    split
    · exact ⟨e1 ++ e2, by rw [he2, List.append_assoc], hs2⟩
    · split
      · exact ⟨e1 ++ e2, by rw [he2, List.append_assoc], hs2⟩
      · rw [he2]
        have hs3 : ∃ e3, (mainStep w a m (h ++ e1 ++ e2)).1 = h ++ e1 ++ e2 ++ e3 ∧
            SoundAll w.cfg (w.cur (h ++ e1 ++ e2)) e3 := by
          have hsx : Sound (w.cur (h ++ e1 ++ e2)) := by
            rw [List.append_assoc, cur_append]; exact hs2.end
          unfold mainStep
          split
          · exact ⟨_, by simp only [List.append_assoc]; rfl, soundAll_neutral (by simp [Ev.neutral]) hsx⟩
          · exact defaultHandler_sound hc m a.transaction _ hsx
        obtain ⟨e3, he3, hs3⟩ := hs3
        have hs4 : SoundAll w.cfg (w.cur h) (e1 ++ e2 ++ e3) := by
          refine hs2.append ?_
          rw [← cur_append, ← List.append_assoc]
          exact hs3
        split
        · obtain ⟨e4, he4, hn4⟩ := hnd w.cfg.postHandler .postHandler (mainStep w a m (h ++ e1 ++ e2)).1 (fun _ => rfl)
          refine ⟨e1 ++ e2 ++ e3 ++ e4, ?_, hs4.append (soundAll_neutral hn4 hs4.end)⟩
          rw [he4, he3]; simp
        · exact ⟨e1 ++ e2 ++ e3, by rw [he3]; simp, hs4⟩

theorem install_sound {w : World} (hc : w.cfg.perSlot = false) (a : Args) (c : Checked) (inner : Option Manifest)
    (hs : Sound w.st0) : SoundAll w.cfg w.st0 (install w a c inner).1 := by
  unfold install
  simp only []
  split
  · exact soundAll_neutral (by simp [Ev.neutral]) hs
  · split
    · exact soundAll_neutral (by simp [Ev.neutral]) hs
    · split
      · exact soundAll_neutral (by simp [Ev.neutral]) hs
      · have hm : ∃ evs, (mountBundle w c inner ([.extMounts true] ++ [.check true])).1 = evs ∧ ∀ e ∈ evs, e.neutral = true := by
          unfold mountBundle
          split
          · split <;> exact ⟨_, rfl, by simp [Ev.neutral]⟩
          · split
            · simp only []
              split <;> exact ⟨_, rfl, by simp [Ev.neutral]⟩
            · exact ⟨_, rfl, by simp [Ev.neutral]⟩
        obtain ⟨evs, he, hn⟩ := hm
        rw [he]
        have h1 : SoundAll w.cfg w.st0 evs := soundAll_neutral hn hs
        split
        · exact h1
        · rename_i m _
          obtain ⟨e2, he2, hs2⟩ := mounted_sound hc a m evs h1.end
          have h3 : SoundAll w.cfg w.st0 (evs ++ e2) := h1.append hs2
          split
          · rw [he2]; exact h3
          · simp only []
            rw [he2]
            exact h3.append (soundAll_neutral (by simp [Ev.neutral]) h3.end)

theorem markActive_sound {w : World} (hc : w.cfg.perSlot = false) (s : Slot) (hs : Sound w.st0) :
    SoundAll w.cfg w.st0 (markActive w s []).1 := by
  rcases markActive_shape w s [] with e | ⟨st, b, h1, h2, e⟩
  · rw [e]; exact soundAll_neutral (by simp [Ev.neutral]) hs
  · rw [e]
    exact soundAll_activate hc (h := []) (b := b) hs h1 h2

theorem sound_restart {st : St} (h : Sound st) : Sound (restart st) := fun n => ⟨(h n).1, (h n).1⟩

theorem Reach.sound {st : St} (h : Reach st) : Sound st := by
  induction h with
  | init h => exact h
  | install w a c inner hc _ ih => exact (install_sound hc a c inner ih).end
  | installCrash w a c inner pre hc _ hp ih => exact sound_restart ((install_sound hc a c inner ih).prefix hp)
  | mark w s hc _ ih => exact (markActive_sound hc s ih).end
  | markCrash w s pre hc _ hp ih => exact sound_restart ((markActive_sound hc s ih).prefix hp)

/-! ## C14 -/

/-- With a shared status file: after any history of installations, activations and crashes, and at every single point of
the next installation, a slot whose status says `ok` holds the complete image recorded there. In particular a slot whose
write was started and not completed is not recorded as ok. -/
theorem C14_shared (w : World) (hr : Reach w.st0) (hc : w.cfg.perSlot = false) (a : Args) (c : Checked) (inner : Option Manifest)
    (pre : List Ev) (hp : pre <+: (install w a c inner).1) (n : Str) :
    (((replay w.cfg w.st0 pre).disk n).status = some (c!"ok") →
      (replay w.cfg w.st0 pre).content n = some ((replay w.cfg w.st0 pre).disk n).digest) ∧
    ((replay w.cfg w.st0 pre).content n = none → ((replay w.cfg w.st0 pre).disk n).status ≠ some (c!"ok")) := by
  have := (install_sound hc a c inner hr.sound).prefix hp n
  refine ⟨this.1, fun h1 h2 => ?_⟩
  rw [this.1 h2] at h1
  exact absurd h1 (by simp)

/-- Hence an incomplete slot is never skipped, by whatever bundle. -/
theorem C14_shared_not_skipped (w : World) (hr : Reach w.st0) (m : Manifest) (txn : Str) (img : Image) (s : Slot)
    (hi : w.st0.content s.name = none) (hok : (slotPlan w m txn img s []).2 = true) :
    Ev.writeEnd s img true ∈ (slotPlan w m txn img s []).1 := by
  have hns : skips s img ((w.cur []).mem s.name) = false := by
    rw [Bool.eq_false_iff]
    intro h
    rw [skips_iff] at h
    have := (hr.sound s.name).2 h.2.1
    rw [hi] at this
    exact absurd this (by simp)
  rcases slotPlan_cases w m txn img s [] with ⟨-, e⟩ | ⟨-, hsk, st, b', h1, h2, e⟩ | ⟨-, -, -, st, h1, e⟩ |
    ⟨-, -, -, st, st', k, a, b', h1, h2, h3, e⟩ | ⟨-, -, hps, st', k, a, b', -, -, e⟩
  · rw [e] at hok; exact absurd hok (by simp)
  · rw [hns] at hsk; exact absurd hsk (by simp)
  · rw [e] at hok; exact absurd hok (by simp)
  · rw [e] at hok ⊢
    simp only [Bool.and_eq_true] at hok
    simp [hok.1]
  · rw [e] at hok ⊢
    simp only [Bool.and_eq_true] at hok
    simp [hok.1]

/-- With status files on the slots themselves: when an installation is interrupted before the write completed, and the
machine restarts, installing the same image again does not skip the slot. (Partial: the status found may still say `ok`
and describe the image that was there before, see `C14_per_slot_violated`.) -/
theorem C14_per_slot_partial (w : World) (hc : w.cfg.perSlot = true) (hl : w.st0.mem = w.st0.disk) (m : Manifest) (txn : Str)
    (img : Image) (s : Slot) (pre : List Ev) (hp : pre <+: (slotPlan w m txn img s []).1) (hw : ∃ k, Ev.writeStart s img k ∈ pre)
    (hinc : (replay w.cfg w.st0 pre).content s.name = none) :
    skips s img ((restart (replay w.cfg w.st0 pre)).mem s.name) = false := by
  have fld : ∀ st : SlotStatus, st.status ≠ some (c!"ok") → skips s img st = false := by
    intro st h
    rw [Bool.eq_false_iff]
    intro h'
    exact h ((skips_iff _ _ _).mp h').2.1
  obtain ⟨k0, hw⟩ := hw
  rcases slotPlan_cases w m txn img s [] with ⟨-, e⟩ | ⟨-, hsk, st, b', h1, h2, e⟩ | ⟨-, -, hps, st, h1, e⟩ |
    ⟨-, -, hps, st, st', k, a, b', h1, h2, h3, e⟩ | ⟨-, hns, hps, st', k, a, b', h1, h2, e⟩
  · rw [e] at hp; simp only [List.prefix_nil] at hp; rw [hp] at hw; simp at hw
  · rw [e] at hp
    have := List.IsPrefix.subset hp hw
    simp at this
  · rw [hc] at hps; exact absurd hps (by simp)
  · rw [hc] at hps; exact absurd hps (by simp)
  · rw [e] at hp
    simp only [List.nil_append] at hp
    have hns' : skips s img (w.st0.disk s.name) = false := by rw [← hl]; exact hns
    have key : ∀ d : Str → SlotStatus, d = w.st0.disk ∨ d = upd w.st0.disk s.name {} → skips s img (d s.name) = false := by
      rintro d (rfl | rfl)
      · exact hns'
      · exact fld _ (by simp [upd])
    have hdisk : (apply w.cfg w.st0 (.writeStart s img k)).disk = w.st0.disk ∨
        (apply w.cfg w.st0 (.writeStart s img k)).disk = upd w.st0.disk s.name {} := by
      cases k <;> simp [apply, hc]
    cases pre with
    | nil => simp at hw
    | cons x pre =>
      rw [List.cons_prefix_cons] at hp
      obtain ⟨rfl, hp⟩ := hp
      cases pre with
      | nil => exact key _ hdisk
      | cons y pre =>
        rw [List.cons_prefix_cons] at hp
        obtain ⟨rfl, hp⟩ := hp
        have ha : a = false := by
          cases a with
          | false => rfl
          | true =>
            have hcont : ∀ l : List Ev, l <+: [.setMem s.name st', .save s.name b'] → ∀ x : St,
                (replay w.cfg x l).content = x.content := by
              intro l hl x
              have hsub : ∀ e ∈ l, (∃ st, e = Ev.setMem s.name st) ∨ ∃ b, e = Ev.save s.name b := by
                intro e he
                have := List.IsPrefix.subset hl he
                simp only [List.mem_cons, List.not_mem_nil, or_false] at this
                rcases this with rfl | rfl
                · exact Or.inl ⟨_, rfl⟩
                · exact Or.inr ⟨_, rfl⟩
              clear hl
              induction l generalizing x with
              | nil => rfl
              | cons e l ih =>
                have := ih (apply w.cfg x e) (fun e' he' => hsub e' (List.mem_cons_of_mem _ he'))
                rw [show replay w.cfg x (e :: l) = replay w.cfg (apply w.cfg x e) l from rfl, this]
                rcases hsub e (by simp) with ⟨st, rfl⟩ | ⟨b, rfl⟩
                · rfl
                · cases b with
                  | false => rfl
                  | true =>
                    simp only [apply, hc, ↓reduceIte]
                    split <;> rfl
            have := hcont pre hp (apply w.cfg (apply w.cfg w.st0 (.writeStart s img k)) (.writeEnd s img true))
            rw [show replay w.cfg w.st0 (.writeStart s img k :: .writeEnd s img true :: pre) =
              replay w.cfg (apply w.cfg (apply w.cfg w.st0 (.writeStart s img k)) (.writeEnd s img true)) pre from rfl, this] at hinc
            simp [apply, upd] at hinc
        subst ha
        cases pre with
        | nil => exact key _ hdisk
        | cons z pre =>
          rw [List.cons_prefix_cons] at hp
          obtain ⟨rfl, hp⟩ := hp
          cases pre with
          | nil => exact key _ hdisk
          | cons u pre =>
            rw [List.cons_prefix_cons] at hp
            obtain ⟨rfl, hp⟩ := hp
            rw [List.prefix_nil] at hp
            subst hp
            cases b' with
            | false => exact key _ hdisk
            | true =>
              by_cases hm : w.cfg.mountable s.name = true
              · apply fld
                simp only [restart, replay, List.foldl_cons, List.foldl_nil]
                have : ((apply w.cfg (apply w.cfg (apply w.cfg (apply w.cfg w.st0 (.writeStart s img k)) (.writeEnd s img false))
                  (.setMem s.name st')) (.save s.name true)).disk s.name) = st' := by
                  simp [apply, hc, hm, upd]
                rw [this, h1]
                decide
              · have : (restart (replay w.cfg w.st0 [.writeStart s img k, .writeEnd s img false, .setMem s.name st', .save s.name true])).mem
                    = (apply w.cfg w.st0 (.writeStart s img k)).disk := by
                  simp [restart, replay, apply, hc, hm]
                rw [this]
                exact key _ hdisk

/-! ### Concrete cases -/

/-- slot `rootfs.1` (install-same=false) with status files on the slots; it holds `d0` and says so -/
def exPerSlot : World :=
  { exWorld with
    cfg := { perSlot := true, mountable := fun _ => true }
    st0 :=
      { disk := fun _ => { status := some (c!"ok"), digest := some (c!"d0") }
        mem := fun _ => { status := some (c!"ok"), digest := some (c!"d0") }
        content := fun _ => some (some (c!"d0"))
        mounted := false } }

def exSlot1 : Slot := { name := c!"rootfs.1", sclass := c!"rootfs", bootname := some (c!"B"), typ := c!"raw", installSame := false }

/-- Installing `d1` is interrupted while writing; the old status file is still readable. Then the slot is incomplete but
recorded as ok, and installing the old image `d0` again is skipped. -/
theorem C14_per_slot_violated :
    let pre := (slotPlan exPerSlot (exManifest [exRoot]) [] exRoot exSlot1 []).1.take 1
    let st := restart (replay exPerSlot.cfg exPerSlot.st0 pre)
    st.content (c!"rootfs.1") = none ∧ (st.disk (c!"rootfs.1")).status = some (c!"ok") ∧
    skips exSlot1 { exRoot with digest := some (c!"d0") } (st.mem (c!"rootfs.1")) = true := by
  decide

example : Reach exSt := .init (fun n => ⟨by simp [exSt], by simp [exSt]⟩)

/-- a crash in the middle of a write leaves `pending` -/
example :
    let pre := (install exWorld {} ⟨some { exManifest [exRoot] with compatible := [] }, false⟩ none).1.take 7
    (trace pre, ((replay exWorld.cfg exSt pre).disk (c!"rootfs.1")).status) =
      ([(c!"mount", [], true), (c!"bad", c!"rootfs.1", true), (c!"start", c!"rootfs.1", true)], some (c!"pending")) := by
  decide

/-! ## C15 -/

/-- If an image with a digest is handled successfully without being written, then install-same is off, the status is ok and
the recorded digest is that of the image; with a shared status file (after any history) the slot holds this very image. -/
theorem C15_skip (w : World) (m : Manifest) (txn : Str) (img : Image) (s : Slot) (h : List Ev) (d : Str) (hd : img.digest = some d)
    (hok : (slotPlan w m txn img s h).2 = true) :
    ∃ evs, (slotPlan w m txn img s h).1 = h ++ evs ∧
      (Ev.writeEnd s img true ∈ evs ∨
        (s.installSame = false ∧ ((w.cur h).mem s.name).status = some (c!"ok") ∧ ((w.cur h).mem s.name).digest = some d ∧
          (Sound (w.cur h) → (w.cur h).content s.name = some (some d)))) := by
  rcases slotPlan_cases w m txn img s h with ⟨-, e⟩ | ⟨-, hsk, st, b', h1, h2, e⟩ | ⟨-, -, -, st, h1, e⟩ |
    ⟨-, -, -, st, st', k, a, b', h1, h2, h3, e⟩ | ⟨-, -, hps, st', k, a, b', -, -, e⟩
  · rw [e] at hok; exact absurd hok (by simp)
  · rw [skips_iff] at hsk
    refine ⟨_, by rw [e], Or.inr ⟨hsk.1, hsk.2.1, by rw [hsk.2.2, hd], fun hs => ?_⟩⟩
    rw [(hs s.name).2 hsk.2.1, hsk.2.2, hd]
  · rw [e] at hok; exact absurd hok (by simp)
  · rw [e] at hok
    simp only [Bool.and_eq_true] at hok
    exact ⟨_, by rw [e], Or.inl (by simp [hok.1])⟩
  · rw [e] at hok
    simp only [Bool.and_eq_true] at hok
    exact ⟨_, by rw [e], Or.inl (by simp [hok.1])⟩

/-- with install-same enabled the image is always written -/
theorem C15_install_same (w : World) (m : Manifest) (txn : Str) (img : Image) (s : Slot) (h : List Ev) (hs : s.installSame = true)
    (hok : (slotPlan w m txn img s h).2 = true) :
    ∃ evs, (slotPlan w m txn img s h).1 = h ++ evs ∧ Ev.writeEnd s img true ∈ evs := by
  rcases slotPlan_cases w m txn img s h with ⟨-, e⟩ | ⟨-, hsk, st, b', h1, h2, e⟩ | ⟨-, -, -, st, h1, e⟩ |
    ⟨-, -, -, st, st', k, a, b', h1, h2, h3, e⟩ | ⟨-, -, hps, st', k, a, b', -, -, e⟩
  · rw [e] at hok; exact absurd hok (by simp)
  · rw [skips_iff, hs] at hsk; exact absurd hsk.1 (by simp)
  · rw [e] at hok; exact absurd hok (by simp)
  · rw [e] at hok
    simp only [Bool.and_eq_true] at hok
    exact ⟨_, by rw [e], by simp [hok.1]⟩
  · rw [e] at hok
    simp only [Bool.and_eq_true] at hok
    exact ⟨_, by rw [e], by simp [hok.1]⟩

/-- An image without digest (allowed for images installed by a hook, without a file): after one successful installation
every later one is skipped, whatever the new bundle's hook would do. -/
theorem C15_no_digest_violated :
    let img : Image := { slotclass := c!"rootfs", hooks := { install := true } }
    let r := slotPlan exWorld (exManifest [img]) [] img exSlot1 []
    r.2 = true ∧
    let st := replay exWorld.cfg exWorld.st0 r.1
    (st.mem (c!"rootfs.1")).digest = none ∧
    skips exSlot1 { img with hooks := { install := true, postInstall := true } } (st.mem (c!"rootfs.1")) = true := by
  decide

end Rauc.Install
