import Verif.Lemmas.Install

/-!
# C13 – C15: order of marking and writing, crash safety of the slot status, skipping
-/

namespace Rauc.Install

open Rauc.Select (Plan Target makePlans)

/-! ## Specification -/

/-- events by which an image is brought to its place -/
def Ev.isWrite : Ev → Bool
  | .writeStart .. | .writeEnd .. | .artifactStart .. | .artifactEnd .. | .customStart | .customEnd _ => true
  | _ => false

def Ev.isFailedWrite : Ev → Bool
  | .writeEnd _ _ false | .artifactEnd _ _ false => true
  | _ => false

/-- requests to the boot loader -/
def Ev.isBoot : Ev → Bool
  | .markBad .. | .setPrimary .. => true
  | _ => false

def Ev.isMountEv : Ev → Bool
  | .mount .. | .umount .. => true
  | _ => false

/-- After the events `h`, the events `evs` carried out a plan: the image was written completely, or the slot was found to
hold it already at some moment (install-same is off, the status says ok and the digests are equal). -/
def CarriedOut (w : World) (h evs : List Ev) (p : Plan) : Prop :=
  match p.target with
  | .slot s _ => Ev.writeEnd s p.image true ∈ evs ∨
      (s.installSame = false ∧ ∃ pre, pre <+: evs ∧ ((w.cur (h ++ pre)).mem s.name).status = some (c!"ok") ∧
        ((w.cur (h ++ pre)).mem s.name).digest = p.image.digest)
  | .repo n => Ev.artifactEnd n p.image true ∈ evs

/-- the plans of a run of the default handler -/
abbrev plansOf (w : World) (m : Manifest) : Option (List Plan) :=
  makePlans w.cfg.variant w.group w.cfg.repos w.artifactsOk m.images

/-! ## Lemmas -/

theorem skips_iff (s : Slot) (img : Image) (st : SlotStatus) :
    skips s img st = true ↔ s.installSame = false ∧ st.status = some (c!"ok") ∧ st.digest = img.digest := by
  simp only [skips, Bool.and_eq_true, Bool.not_eq_true', beq_iff_eq]
  constructor
  · rintro ⟨⟨a, b⟩, c⟩; exact ⟨a, b, c.symm⟩
  · rintro ⟨a, b, c⟩; exact ⟨⟨a, b⟩, c.symm⟩

theorem CarriedOut.mono {w : World} {h evs evs' : List Ev} {p : Plan} (hc : CarriedOut w h evs p) :
    CarriedOut w h (evs ++ evs') p := by
  unfold CarriedOut at *
  split at hc
  · rename_i s hd ht
    rcases hc with hc | ⟨a, pre, b, c⟩
    · exact Or.inl (List.mem_append_left _ hc)
    · exact Or.inr ⟨a, pre, b.trans (List.prefix_append _ _), c⟩
  · rename_i n ht
    exact List.mem_append_left _ hc

theorem CarriedOut.shift {w : World} {h evs evs' : List Ev} {p : Plan} (hc : CarriedOut w (h ++ evs) evs' p) :
    CarriedOut w h (evs ++ evs') p := by
  unfold CarriedOut at *
  split at hc
  · rename_i s hd ht
    rcases hc with hc | ⟨a, pre, b, c⟩
    · exact Or.inl (List.mem_append_right _ hc)
    · refine Or.inr ⟨a, evs ++ pre, (List.prefix_append_right_inj evs).mpr b, ?_⟩
      rwa [← List.append_assoc]
  · rename_i n ht
    exact List.mem_append_right _ hc

theorem slotPlan_post {w : World} {m : Manifest} {txn : Str} {p : Plan} {s : Slot} {hd : Handlers.Handler} {h evs : List Ev}
    {b : Bool} (ht : p.target = .slot s hd) (he : slotPlan w m txn p.image s h = (h ++ evs, b)) :
    (∀ e ∈ evs, e.isBoot = false ∧ e.isMountEv = false) ∧
    (b = true → CarriedOut w h evs p ∧ ∀ e ∈ evs, e.isFailedWrite = false) := by
  rcases slotPlan_cases w m txn p.image s h with ⟨-, e⟩ | ⟨-, hs, st, b', -, -, e⟩ | ⟨-, -, -, st, -, e⟩ |
    ⟨-, -, -, st, st', k, a, b', -, -, -, e⟩ | ⟨-, -, -, st', k, a, b', -, -, e⟩ <;>
    rw [he] at e <;> simp only [Prod.mk.injEq] at e <;> obtain ⟨e1, e2⟩ := e
  · have : evs = [] := by simpa using e1
    subst this
    exact ⟨by simp, by intro h; rw [h] at e2; exact absurd e2 (by simp)⟩
  · have := List.append_cancel_left e1
    subst this
    refine ⟨by simp [Ev.isBoot, Ev.isMountEv], fun _ => ⟨?_, by simp [Ev.isFailedWrite]⟩⟩
    rw [skips_iff] at hs
    simp only [CarriedOut, ht]
    exact Or.inr ⟨hs.1, [], by simp, by simpa using hs.2⟩
  · have := List.append_cancel_left e1
    subst this
    exact ⟨by simp [Ev.isBoot, Ev.isMountEv], by intro h; rw [h] at e2; exact absurd e2 (by simp)⟩
  · have := List.append_cancel_left e1
    subst this
    refine ⟨by simp [Ev.isBoot, Ev.isMountEv], ?_⟩
    intro hb
    rw [hb, eq_comm, Bool.and_eq_true] at e2
    obtain ⟨rfl, rfl⟩ := e2
    exact ⟨by simp [CarriedOut, ht], by simp [Ev.isFailedWrite]⟩
  · have := List.append_cancel_left e1
    subst this
    refine ⟨by simp [Ev.isBoot, Ev.isMountEv], ?_⟩
    intro hb
    rw [hb, eq_comm, Bool.and_eq_true] at e2
    obtain ⟨rfl, rfl⟩ := e2
    exact ⟨by simp [CarriedOut, ht], by simp [Ev.isFailedWrite]⟩

theorem plansLoop_post (w : World) (m : Manifest) (txn : Str) (plans : List Plan) (h : List Ev) :
    ∃ evs b, plansLoop w m txn plans h = (h ++ evs, b) ∧
      (∀ e ∈ evs, e.isBoot = false ∧ e.isMountEv = false) ∧
      (b = true → (∀ p ∈ plans, CarriedOut w h evs p) ∧ ∀ e ∈ evs, e.isFailedWrite = false) := by
  apply plansLoop_ind w m txn (fun plans h evs b =>
    (∀ e ∈ evs, e.isBoot = false ∧ e.isMountEv = false) ∧
      (b = true → (∀ p ∈ plans, CarriedOut w h evs p) ∧ ∀ e ∈ evs, e.isFailedWrite = false))
  · intro h; simp
  · intro p s hd ps h evs ht he
    exact ⟨(slotPlan_post ht he).1, by simp⟩
  · intro p s hd ps h evs evs' b ht he ih
    have hp := slotPlan_post ht he
    refine ⟨?_, ?_⟩
    · intro e hm
      rcases List.mem_append.mp hm with hm | hm
      · exact hp.1 e hm
      · exact ih.1 e hm
    · intro hb
      obtain ⟨c, d⟩ := ih.2 hb
      obtain ⟨c', d'⟩ := hp.2 rfl
      refine ⟨?_, ?_⟩
      · intro q hq
        rcases List.mem_cons.mp hq with rfl | hq
        · exact c'.mono
        · exact (c q hq).shift
      · intro e hm
        rcases List.mem_append.mp hm with hm | hm
        · exact d' e hm
        · exact d e hm
  · intro p n ps h ht
    exact ⟨by simp [Ev.isBoot, Ev.isMountEv], by simp⟩
  · intro p n ps h evs' b ht ih
    refine ⟨?_, ?_⟩
    · intro e hm
      simp only [List.mem_cons] at hm
      rcases hm with rfl | rfl | hm
      · simp [Ev.isBoot, Ev.isMountEv]
      · simp [Ev.isBoot, Ev.isMountEv]
      · exact ih.1 e hm
    · intro hb
      obtain ⟨c, d⟩ := ih.2 hb
      refine ⟨?_, ?_⟩
      · intro q hq
        rcases List.mem_cons.mp hq with rfl | hq
        · simp [CarriedOut, ht]
        · exact (c q hq).shift
      · intro e hm
        simp only [List.mem_cons] at hm
        rcases hm with rfl | rfl | hm
        · simp [Ev.isFailedWrite]
        · simp [Ev.isFailedWrite]
        · exact d e hm

theorem bootMarkSlot_unique {plans : List Plan} {boot : Option Slot} (h : bootMarkSlot plans = some boot) :
    plans.filterMap bootTarget = boot.toList := by
  unfold bootMarkSlot at h
  split at h
  · rename_i e; rw [e]; cases h; rfl
  · rename_i e; rw [e]; cases h; rfl
  · exact absurd h (by simp)

theorem bootMarkSlot_mem {plans : List Plan} {boot : Option Slot} (h : bootMarkSlot plans = some boot) {p : Plan} {s : Slot}
    {hd : Handlers.Handler} (hp : p ∈ plans) (ht : p.target = .slot s hd) (h1 : s.parent = none) (h2 : s.bootname ≠ none) :
    boot = some s := by
  have hm : s ∈ plans.filterMap bootTarget := by
    rw [List.mem_filterMap]
    refine ⟨p, hp, ?_⟩
    have : s.bootname.isSome = true := by rw [Option.isSome_iff_ne_none]; exact h2
    simp [bootTarget, ht, h1, this]
  rw [bootMarkSlot_unique h] at hm
  simpa using hm

/-! ## C13 -/

/-- When an image is written (or an artifact installed) during a run of the default handler, every boot slot that is a
target of this run has been marked bad before. -/
theorem C13_bad_first (w : World) (m : Manifest) (txn : Str) (h : List Ev) :
    ∃ evs, (defaultHandler w m txn h).1 = h ++ evs ∧
      ∀ plans p b hd, plansOf w m = some plans → p ∈ plans → p.target = .slot b hd → b.parent = none → b.bootname ≠ none →
        ∀ pre e post, evs = pre ++ e :: post → e.isWrite = true → Ev.markBad b true ∈ pre := by
  rcases defaultHandler_shape w m txn h with ⟨o, -, e⟩ | ⟨plans, boot, hp, hb, -, ⟨s, rfl, e⟩ | ⟨pre0, evs0, b0, tail, o, hpre, hl, e, ht⟩⟩
  · exact ⟨[], by rw [e]; simp, by intro _ _ _ _ _ _ _ _ _ pre e post he; simp at he⟩
  · refine ⟨_, by rw [e], ?_⟩
    intro _ _ _ _ _ _ _ _ _ pre e post he hw
    cases pre with
    | nil => simp only [List.nil_append, List.cons.injEq] at he; rw [← he.1] at hw; exact absurd hw (by simp [Ev.isWrite])
    | cons x pre => simp at he
  · refine ⟨pre0 ++ evs0 ++ tail, by rw [e]; simp, ?_⟩
    intro plans' p b hd hpl hpm htg h1 h2 pre x post he hw
    rw [plansOf, hp] at hpl
    cases hpl
    have := bootMarkSlot_mem hb hpm htg h1 h2
    subst this
    have hpre' : pre0 = [.markBad b true] := by simpa using hpre
    subst hpre'
    cases pre with
    | nil =>
      simp only [List.cons_append, List.nil_append, List.cons.injEq] at he
      rw [← he.1] at hw; exact absurd hw (by simp [Ev.isWrite])
    | cons y pre =>
      simp only [List.cons_append, List.nil_append, List.cons.injEq] at he
      rw [← he.1]; simp

/-- The boot loader is asked to boot from a slot only after this slot had been marked bad and every image of the run was
written completely (or was already there), without any failure; nothing is written afterwards. -/
theorem C13_active_last (w : World) (m : Manifest) (txn : Str) (h : List Ev) :
    ∃ evs, (defaultHandler w m txn h).1 = h ++ evs ∧
      ∀ pre b r post, evs = pre ++ Ev.setPrimary b r :: post →
        Ev.markBad b true ∈ pre ∧ (∀ e ∈ post, e.isWrite = false) ∧ (∀ e ∈ pre, e.isFailedWrite = false) ∧
        (∀ plans p, plansOf w m = some plans → p ∈ plans → CarriedOut w h pre p) := by
  rcases defaultHandler_shape w m txn h with ⟨o, -, e⟩ | ⟨plans, boot, hp, hb, -, ⟨s, rfl, e⟩ | ⟨pre0, evs0, b0, tail, o, hpre, hl, e, ht⟩⟩
  · exact ⟨[], by rw [e]; simp, by intro pre _ _ post he; simp at he⟩
  · refine ⟨_, by rw [e], ?_⟩
    intro pre b r post he
    cases pre with
    | nil => simp at he
    | cons x pre => simp at he
  · obtain ⟨evs, bb, hl', hq1, hq2⟩ := plansLoop_post w m txn plans (h ++ pre0)
    rw [hl] at hl'
    simp only [Prod.mk.injEq] at hl'
    obtain ⟨e1, rfl⟩ := hl'
    have := List.append_cancel_left e1
    subst this
    refine ⟨pre0 ++ evs0 ++ tail, by rw [e]; simp, ?_⟩
    intro pre b r post he
    -- the request is not among the first events
    have hno : ∀ x ∈ pre0 ++ evs0, ¬ ∃ b r, x = Ev.setPrimary b r := by
      rintro x hx ⟨b, r, rfl⟩
      rcases List.mem_append.mp hx with hx | hx
      · rw [hpre, List.mem_map] at hx
        obtain ⟨s, -, hs⟩ := hx
        exact absurd hs (by simp)
      · exact absurd (hq1 _ hx).1 (by simp [Ev.isBoot])
    -- so the prefix covers them
    have hsplit : ∃ t, pre = pre0 ++ evs0 ++ t ∧ tail = t ++ Ev.setPrimary b r :: post := by
      rcases List.append_eq_append_iff.mp he with ⟨a, ha, hb'⟩ | ⟨a, ha, hb'⟩
      · exact ⟨a, ha, hb'⟩
      · cases a with
        | nil => exact ⟨[], by simpa using ha.symm, by simpa using hb'.symm⟩
        | cons y a =>
          simp only [List.cons_append, List.cons.injEq] at hb'
          exact absurd ⟨b, r, hb'.1.symm⟩ (hno y (by rw [ha]; simp))
    obtain ⟨t, rfl, ht2⟩ := hsplit
    have fin : ∀ s, boot = some s → b0 = true → tail = Ev.prune true :: Ev.setPrimary s r :: post → s = b →
        t = [.prune true] → Ev.markBad b true ∈ pre0 ++ evs0 ++ t ∧ (∀ e ∈ pre0 ++ evs0 ++ t, e.isFailedWrite = false) ∧
        (∀ plans p, plansOf w m = some plans → p ∈ plans → CarriedOut w h (pre0 ++ evs0 ++ t) p) := by
      rintro s rfl rfl - rfl rfl
      have hpre' : pre0 = [.markBad s true] := by simpa using hpre
      refine ⟨by rw [hpre']; simp, ?_, ?_⟩
      · intro e he
        simp only [List.mem_append, List.mem_cons, List.not_mem_nil, or_false] at he
        rcases he with (he | he) | rfl
        · rw [hpre'] at he; simp only [List.mem_cons, List.not_mem_nil, or_false] at he; rw [he]; rfl
        · exact (hq2 rfl).2 e he
        · rfl
      · intro plans' p hpl hpm
        rw [plansOf, hp] at hpl
        cases hpl
        exact ((hq2 rfl).1 p hpm).shift.mono
    cases ht with
    | loopFailed => simp at ht2
    | pruneFailed =>
      cases t with
      | nil => simp at ht2
      | cons y t => simp at ht2
    | done _ =>
      cases t with
      | nil => simp at ht2
      | cons y t => simp at ht2
    | primaryFailed s hs _ =>
      cases t with
      | nil => simp at ht2
      | cons y t =>
        cases t with
        | nil =>
          simp only [List.cons_append, List.nil_append, List.cons.injEq, Ev.setPrimary.injEq] at ht2
          obtain ⟨rfl, ⟨rfl, rfl⟩, rfl⟩ := ht2
          have := fin s hs rfl rfl rfl rfl
          exact ⟨this.1, by simp, this.2⟩
        | cons z t => simp at ht2
    | activated s st b' hs _ _ _ =>
      cases t with
      | nil => simp at ht2
      | cons y t =>
        cases t with
        | nil =>
          simp only [List.cons_append, List.nil_append, List.cons.injEq, Ev.setPrimary.injEq] at ht2
          obtain ⟨rfl, ⟨rfl, rfl⟩, rfl⟩ := ht2
          have := fin s hs rfl rfl rfl rfl
          exact ⟨this.1, by simp [Ev.isWrite], this.2⟩
        | cons z t =>
          cases t with
          | nil => simp at ht2
          | cons u t =>
            cases t with
            | nil => simp at ht2
            | cons v t => simp at ht2

/-- If the default handler does not succeed, no slot was activated. -/
theorem C13_failure_not_activated (w : World) (m : Manifest) (txn : Str) (h : List Ev)
    (hf : (defaultHandler w m txn h).2 ≠ .ok) :
    ∃ evs, (defaultHandler w m txn h).1 = h ++ evs ∧ ∀ b, Ev.setPrimary b true ∉ evs := by
  rcases defaultHandler_shape w m txn h with ⟨o, -, e⟩ | ⟨plans, boot, hp, hb, -, ⟨s, rfl, e⟩ | ⟨pre0, evs0, b0, tail, o, hpre, hl, e, ht⟩⟩
  · exact ⟨[], by rw [e]; simp, by simp⟩
  · exact ⟨_, by rw [e], by simp⟩
  · obtain ⟨evs, bb, hl', hq1, -⟩ := plansLoop_post w m txn plans (h ++ pre0)
    rw [hl] at hl'
    simp only [Prod.mk.injEq] at hl'
    have := List.append_cancel_left hl'.1
    subst this
    refine ⟨pre0 ++ evs0 ++ tail, by rw [e]; simp, ?_⟩
    intro b hm
    rw [e] at hf
    simp only [List.mem_append] at hm
    rcases hm with (hm | hm) | hm
    · rw [hpre, List.mem_map] at hm
      obtain ⟨s, -, hs⟩ := hm
      exact absurd hs (by simp)
    · exact absurd (hq1 _ hm).1 (by simp [Ev.isBoot])
    · cases ht <;> simp_all

/-- If it succeeds, all images are in place, and the boot slot among the targets was activated unless activation is
switched off. -/
theorem C13_success (w : World) (m : Manifest) (txn : Str) (h : List Ev)
    (hs : (defaultHandler w m txn h).2 = .ok) :
    ∃ evs plans, (defaultHandler w m txn h).1 = h ++ evs ∧ plansOf w m = some plans ∧
      (∀ p ∈ plans, CarriedOut w h evs p) ∧
      ∀ p b hd, p ∈ plans → p.target = .slot b hd → b.parent = none → b.bootname ≠ none →
        w.cfg.activateInstalled = true → Ev.setPrimary b true ∈ evs := by
  rcases defaultHandler_shape w m txn h with ⟨o, ho, e⟩ | ⟨plans, boot, hp, hb, -, ⟨s, rfl, e⟩ | ⟨pre0, evs0, b0, tail, o, hpre, hl, e, ht⟩⟩
  · rw [e] at hs; exact absurd hs ho
  · rw [e] at hs; exact absurd hs (by simp)
  · obtain ⟨evs, bb, hl', hq1, hq2⟩ := plansLoop_post w m txn plans (h ++ pre0)
    rw [hl] at hl'
    simp only [Prod.mk.injEq] at hl'
    obtain ⟨e1, rfl⟩ := hl'
    have := List.append_cancel_left e1
    subst this
    refine ⟨pre0 ++ evs0 ++ tail, plans, by rw [e]; simp, hp, ?_, ?_⟩
    · have hb0 : b0 = true := by rw [e] at hs; cases ht <;> simp_all
      intro p hpm
      exact ((hq2 hb0).1 p hpm).shift.mono
    · intro p b hd hpm htg h1 h2 ha
      have := bootMarkSlot_mem hb hpm htg h1 h2
      subst this
      rw [e] at hs
      cases ht <;> simp_all

/-! ### Concrete runs -/

def exSlots : List Slot :=
  [{ name := c!"rootfs.0", sclass := c!"rootfs", bootname := some (c!"A"), typ := c!"raw" },
   { name := c!"rootfs.1", sclass := c!"rootfs", bootname := some (c!"B"), typ := c!"raw", installSame := false },
   { name := c!"appfs.0", sclass := c!"appfs", parent := some (c!"rootfs.0"), typ := c!"raw" },
   { name := c!"appfs.1", sclass := c!"appfs", parent := some (c!"rootfs.1"), typ := c!"raw" }]

/-- the target group when the system runs from `rootfs.0` -/
def exGroup (cls : Str) : Option Slot :=
  if cls = c!"rootfs" then exSlots[1]? else if cls = c!"appfs" then exSlots[3]? else none

def exRoot : Image := { slotclass := c!"rootfs", digest := some (c!"d1"), filename := some (c!"rootfs.img"), typ := some (c!"raw") }
def exApp : Image := { slotclass := c!"appfs", digest := some (c!"d2"), filename := some (c!"appfs.img"), typ := some (c!"raw") }

def exSt : St := ⟨fun _ => {}, fun _ => {}, fun _ => none, false⟩

/-- everything succeeds -/
def exWorld : World :=
  { cfg := {}, st0 := exSt, ok := fun _ => true, keeps := fun _ => true, now := fun _ => ⟨2024, 1, 1, 0, 0, 0, 0⟩,
    stuck := fun _ _ => false, fileExists := fun _ => true, deviceExists := fun _ => true, repoExists := fun _ => true,
    slotMounted := fun _ => false, artifactsOk := true, group := exGroup }

def exManifest (l : List Image) : Manifest := { compatible := c!"x", images := l }

/-- an observation of the events for examples -/
def Ev.key : Ev → Str × Str × Bool
  | .markBad s ok => (c!"bad", s.name, ok)
  | .setPrimary s ok => (c!"active", s.name, ok)
  | .writeStart s _ _ => (c!"start", s.name, true)
  | .writeEnd s _ ok => (c!"end", s.name, ok)
  | .mount ok => (c!"mount", [], ok)
  | .umount ok => (c!"umount", [], ok)
  | .postHandler ok => (c!"post", [], ok)
  | _ => ([], [], true)

def trace (l : List Ev) : List (Str × Str × Bool) := (l.map Ev.key).filter (fun k => !k.1.isEmpty)

example : trace (defaultHandler exWorld (exManifest [exRoot, exApp]) [] []).1 =
    [(c!"bad", c!"rootfs.1", true), (c!"start", c!"rootfs.1", true), (c!"end", c!"rootfs.1", true),
     (c!"start", c!"appfs.1", true), (c!"end", c!"appfs.1", true), (c!"active", c!"rootfs.1", true)] ∧
    (defaultHandler exWorld (exManifest [exRoot, exApp]) [] []).2 = .ok := by decide

/-- A bundle with an image for a child slot only: the boot slot of the group is neither marked bad before the write nor
activated after it. -/
theorem C13_child_only_violated :
    trace (defaultHandler exWorld (exManifest [exApp]) [] []).1 =
      [(c!"start", c!"appfs.1", true), (c!"end", c!"appfs.1", true)] ∧
    (defaultHandler exWorld (exManifest [exApp]) [] []).2 = .ok ∧
    ∃ r ∈ exSlots, r.bootname = some (c!"B") ∧ ∃ a ∈ exSlots, a.name = c!"appfs.1" ∧ a.parent = some r.name := by
  refine ⟨by decide, by decide, ?_⟩
  exact ⟨{ name := c!"rootfs.1", sclass := c!"rootfs", bootname := some (c!"B"), typ := c!"raw", installSame := false }, by decide, rfl,
    { name := c!"appfs.1", sclass := c!"appfs", parent := some (c!"rootfs.1"), typ := c!"raw" }, by decide, rfl, rfl⟩

/-- A failing post-install handler makes the installation fail although the slot is already activated. -/
theorem C13_post_handler_violated :
    let w : World := { exWorld with
      cfg := { exWorld.cfg with postHandler := true, compatible := c!"x" }
      ok := fun h => !h.any (fun e => match e with | .setPrimary .. => true | _ => false) }
    let r := install w {} ⟨some (exManifest [exRoot]), false⟩ none
    r.2 = .failed ∧ (c!"active", c!"rootfs.1", true) ∈ trace r.1 ∧ (c!"post", [], false) ∈ trace r.1 := by
  decide

end Rauc.Install
