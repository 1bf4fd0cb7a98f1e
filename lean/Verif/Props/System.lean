import Verif.Lemmas.System
import Verif.Props.BootKeep
import Verif.Props.Select

/-!
# C68: an update is atomic, from the boot loader's data to the content of the slots

Joins C01 to C03 (boot loader), C09, C10 (target selection), C12 (plans) and C13, C14 (order and records of the writes).
-/

namespace Rauc.System

open Rauc.Boot
open Rauc.Install (World Args Checked St replay restart install plansOf Reach Sound)
open Rauc.Select (Plan Target InBootedGroup HasRoot UniqueNames FlatParents targetGroup stateOf)

/-! ## Specification -/

/-- the boot slot among the targets of an installation -/
def BootTarget (plans : List Plan) (t : Slot) : Prop :=
  ∃ p ∈ plans, ∃ hd, p.target = .slot t hd ∧ t.parent = none ∧ t.bootname ≠ none

/-- Everything the bundle is for is in place: each target slot holds the complete image, and the status file says so; the
artifacts are installed. -/
def Complete (plans : List Plan) (pre : List Install.Ev) (st : St) : Prop :=
  ∀ p ∈ plans,
    match p.target with
    | .slot s _ => st.content s.name = some p.image.digest ∧ (st.disk s.name).status = some (c!"ok") ∧
        (st.disk s.name).digest = p.image.digest
    | .repo n => Install.Ev.artifactEnd n p.image true ∈ pre

/-- no slot and no status file was touched -/
def Unchanged (st0 st : St) : Prop := st.content = st0.content ∧ st.disk = st0.disk

/-- What is assumed of an installation: the slots come from a configuration, the status file is shared, the state is one
reached by a history of installations, the manifest `m` asks for no custom handler, and leads to the plans `plans`. -/
structure Update (slots : List Slot) (w : World) (c : Checked) (inner : Option Manifest) (m : Manifest) (plans : List Plan) : Prop where
  wf : SlotsWF slots
  group : ∀ cls s, w.group cls = some s → s ∈ slots ∧ s.sclass = cls
  shared : w.cfg.perSlot = false
  reach : Reach w.st0
  manifest : (c.manifest <|> inner) = some m
  noHandler : m.handlerName = none
  plans : plansOf w m = some plans

/-- what is needed of a boot loader backend; `P` restricts its data before, `Q` after the slot was marked bad -/
structure Atomic (B : Backend) (P Q : List Slot → B.Env → Slot → Prop) : Prop where
  sticks : MarkBadSticks B P
  keeps : BadKeepsPrimary B P
  crash : CrashSafe B Q
  act : ActivateMakesPrimary B Q
  weaken : ∀ slots env s, P slots env s → Q slots env s
  after : ∀ (slots : List Slot) (env : B.Env) (s : Slot) (rd : Str → Bool) (ts : List B.Txn), P slots env s →
    B.setState rd slots env s false = some ts → Q slots (B.appAll env ts) s

/-! ## Backends -/

theorem atomic_uboot (cfg : Boot.Cfg) (hc : cfg.WF) : Atomic (uboot cfg) anyEnv anyEnv where
  sticks := C01_uboot cfg
  keeps := keeps_uboot cfg
  crash := C03_uboot cfg hc
  act := C02_uboot cfg hc
  weaken := fun _ _ _ _ => trivial
  after := fun _ _ _ _ _ _ _ => trivial

theorem atomic_grub : Atomic grub anyEnv anyEnv where
  sticks := C01_grub
  keeps := keeps_grub
  crash := C03_grub
  act := C02_grub
  weaken := fun _ _ _ _ => trivial
  after := fun _ _ _ _ _ _ _ => trivial

theorem atomic_barebox (cfg : Boot.Cfg) (hc : cfg.WF) : Atomic (barebox cfg) anyEnv anyEnv where
  sticks := C01_barebox cfg
  keeps := keeps_barebox cfg
  crash := C03_barebox cfg
  act := C02_barebox cfg hc
  weaken := fun _ _ _ _ => trivial
  after := fun _ _ _ _ _ _ _ => trivial

theorem sticks_mono {B : Backend} {P P' : List Slot → B.Env → Slot → Prop} (h : ∀ slots env s, P' slots env s → P slots env s)
    (hs : MarkBadSticks B P) : MarkBadSticks B P' :=
  fun slots hwf s hm env rd ts hP => hs slots hwf s hm env rd ts (h _ _ _ hP)

theorem atomic_efi (cfg : Boot.Cfg) (fresh : EfiEnv → Str) (hf : FreshOK fresh) :
    Atomic (efi cfg fresh) (EfiReady cfg) (EfiNoNext cfg) where
  sticks := sticks_mono (fun _ _ _ h => h.1) (C01_efi_partial cfg fresh hf)
  keeps := keeps_efi cfg fresh hf
  crash := fun slots hwf env rd r ts hr hP => C03_efi cfg fresh hf slots hwf env rd r ts hr hP.1
  act := C02_efi_partial cfg fresh hf
  weaken := fun _ _ _ h => h.2.1
  after := by
    intro slots env s rd ts hP hts
    refine ⟨?_, ?_⟩
    · obtain ⟨bn, e, hb, hen, hn⟩ := efi_mod_prefix hf hP.1.1 hts
      have := (hn ts.length).1
      rw [List.take_length] at this
      exact this
    · intro hc
      obtain ⟨bn, pre, e, all, hb, h1, h3, he, hpre, rfl⟩ := efiModify_cases hf hts
      have h0 := hP.2.1.2 hc
      rcases hpre with ⟨rfl, -⟩ | ⟨rfl, -⟩ <;>
        simpa [Backend.appAll, efi, efiApp] using h0

/-! ## Lemmas -/

theorem neutral_unchanged {w : World} {pre : List Install.Ev} (h : ∀ e ∈ pre, e.neutral = true) (st : St) :
    Unchanged st (replay w.cfg st pre) := by
  induction pre generalizing st with
  | nil => exact ⟨rfl, rfl⟩
  | cons e es ih =>
    obtain ⟨h1, h2⟩ := ih (fun x hx => h x (List.mem_cons_of_mem _ hx)) (Install.apply w.cfg st e)
    obtain ⟨a1, a2, a3⟩ := Install.apply_neutral (c := w.cfg) (st := st) (h e (by simp))
    refine ⟨h1.trans ?_, h2.trans ?_⟩ <;> assumption

theorem Interrupted.prefix {B : Backend} {slots : List Slot} {env env' : B.Env} {evs pre : List Install.Ev}
    (h : Interrupted B slots env evs pre env') : pre <+: evs := by
  cases h with
  | between hp _ => exact hp
  | during rd n he => exact ⟨_, he.symm⟩

/-- the boot slot is a configured slot -/
theorem BootTarget.mem {slots : List Slot} {w : World} {c : Checked} {inner : Option Manifest} {m : Manifest} {plans : List Plan}
    (U : Update slots w c inner m plans) {t : Slot} (ht : BootTarget plans t) : t ∈ slots := by
  obtain ⟨p, hp, hd, htg, -, -⟩ := ht
  obtain ⟨-, -, -, g, -, -⟩ := Select.C12_plan_ok _ _ _ _ _ plans U.plans p hp t hd htg
  exact (U.group _ _ g).1

theorem Update.distinct {slots : List Slot} {w : World} {c : Checked} {inner : Option Manifest} {m : Manifest} {plans : List Plan}
    (U : Update slots w c inner m plans) : Distinct plans := distinct_of_plans U.wf U.group U.plans

/-- the phases of an installation with a boot slot among its targets, whether the code finds one or more of them -/
theorem Update.phases {B : Backend} {slots : List Slot} {w : World} {a : Args} {c : Checked} {inner : Option Manifest} {m : Manifest}
    {plans : List Plan} (U : Update slots w c inner m plans) {t : Slot} (ht : BootTarget plans t) {env0 env' : B.Env}
    {pre : List Install.Ev} (hi : Interrupted B slots env0 (install w a c inner).1 pre env') :
    Phase B slots w m a.transaction plans t env0 pre env' := by
  cases hb : Install.bootMarkSlot plans with
  | some boot =>
    obtain ⟨p, hp, hd, htg, h1, h2⟩ := ht
    have := Install.bootMarkSlot_mem hb hp htg h1 h2
    subst this
    exact System.phases U.manifest U.noHandler U.plans hb hi
  | none =>
    obtain ⟨h, dh, post, hE, hq1, hq2, hd, -⟩ := install_core w a c inner m U.manifest U.noHandler
    have hdh : dh = [] := by
      rcases hd with rfl | hd
      · rfl
      have e : Install.defaultHandler w m a.transaction h = (h, .abort) := by
        have hp := U.plans
        unfold plansOf at hp
        unfold Install.defaultHandler
        simp only [hp, hb]
      rw [e] at hd
      simpa using hd
    subst hdh
    rw [hE] at hi
    have hq : ∀ e ∈ h ++ [] ++ post, quiet e := by
      intro e he
      simp only [List.append_nil, List.mem_append] at he
      rcases he with he | he
      · exact hq1 e he
      · exact hq2 e he
    obtain ⟨h1, rfl⟩ := hi.silent (fun e he => (hq e he).1)
    exact .before (fun _ => true) 0 (fun e he => ⟨(hq e (h1.subset he)).2.1, (hq e (h1.subset he)).2.2⟩) ev_zero.symm

/-- in the last phase everything is complete -/
theorem Update.complete {slots : List Slot} {w : World} {a : Args} {c : Checked} {inner : Option Manifest} {m : Manifest}
    {plans : List Plan} (U : Update slots w c inner m plans) {t : Slot} {h0 hist r pre : List Install.Ev}
    (hpre : pre <+: (install w a c inner).1)
    (hl : Install.plansLoop w m a.transaction plans h0 = (hist, true)) (he : pre = hist ++ r) (hr : ∀ e ∈ r, Closing w t hist e) :
    Complete plans pre (replay w.cfg w.st0 pre) := by
  obtain ⟨evs, b, hl1, -, hrec⟩ := plansLoop_recorded U.shared m a.transaction plans h0
  obtain ⟨evs2, b2, hl2, -, hpost⟩ := Install.plansLoop_post w m a.transaction plans h0
  rw [hl] at hl1 hl2
  simp only [Prod.mk.injEq] at hl1 hl2
  obtain ⟨e1, rfl⟩ := hl1
  obtain ⟨e2, rfl⟩ := hl2
  subst he
  intro p hp
  cases htg : p.target with
  | slot s hd =>
    simp only []
    have h1 := (hrec U.distinct rfl p hp s hd htg).1
    rw [← e1] at h1
    have h2 := closing_recorded U.shared r hr h1
    have h3 := (Install.install_sound U.shared a c inner U.reach.sound).prefix hpre s.name
    refine ⟨?_, h2.2.2.1, h2.2.2.2⟩
    have h4 := h3.1 h2.2.2.1
    rw [h4]
    exact congrArg some h2.2.2.2
  | repo n =>
    simp only []
    have := (hpost rfl).1 p hp
    unfold Install.CarriedOut at this
    rw [htg] at this
    simp only [] at this
    rw [e2]
    simp [this]

/-! ## C68 -/

/-- **C68, crash.** Power fails at any moment of an installation, between two steps or in the middle of a request to the boot
loader (and whatever can be read afterwards). If the boot loader then boots the slot the bundle is for, either nothing was
written yet, or everything is in place. -/
theorem C68_crash {B : Backend} {P Q : List Slot → B.Env → Slot → Prop} (A : Atomic B P Q) {slots : List Slot} {w : World} {a : Args}
    {c : Checked} {inner : Option Manifest} {m : Manifest} {plans : List Plan} (U : Update slots w c inner m plans) {t : Slot}
    (ht : BootTarget plans t) {env0 env' : B.Env} (hP : P slots env0 t) {pre : List Install.Ev}
    (hi : Interrupted B slots env0 (install w a c inner).1 pre env') (rd : Str → Bool) (hp : B.getPrimary rd slots env' = some t) :
    Unchanged w.st0 (replay w.cfg w.st0 pre) ∨ Complete plans pre (replay w.cfg w.st0 pre) := by
  cases U.phases ht hi with
  | before rd' n hn _ => exact Or.inl (neutral_unchanged (fun e he => (hn e he).1) _)
  | writing rd' ts hts he =>
    subst he
    exact absurd hp (A.sticks slots U.wf t (ht.mem U) env0 rd' ts hP hts [] (by simp) rd).2
  | activating rd' rd2 ts n h0 hist r hts _ hl he hr => exact Or.inr (U.complete hi.prefix hl he hr)

/-- **C68, fallback.** If another slot `r` is primary when the installation starts, then whenever the power fails the boot
loader boots `r`, or the new slot with everything in place. There is always something to boot. -/
theorem C68_fallback {B : Backend} {P Q : List Slot → B.Env → Slot → Prop} (A : Atomic B P Q) {slots : List Slot} {w : World} {a : Args}
    {c : Checked} {inner : Option Manifest} {m : Manifest} {plans : List Plan} (U : Update slots w c inner m plans) {t r : Slot}
    (ht : BootTarget plans t) (hrt : r ≠ t) {env0 env' : B.Env} (hP : P slots env0 t)
    (h0 : B.getPrimary allRd slots env0 = some r) {pre : List Install.Ev}
    (hi : Interrupted B slots env0 (install w a c inner).1 pre env') :
    B.getPrimary allRd slots env' = some r ∨
    (B.getPrimary allRd slots env' = some t ∧ Complete plans pre (replay w.cfg w.st0 pre)) := by
  have keep : ∀ rd ts, B.setState rd slots env0 t false = some ts → B.getPrimary allRd slots (B.appAll env0 ts) = some r :=
    fun rd ts hts => A.keeps slots U.wf t (ht.mem U) r hrt env0 rd ts hP hts allRd h0
  cases U.phases ht hi with
  | before rd n _ he =>
    left
    subst he
    unfold Backend.ev
    cases hts : B.txns rd slots env0 (.setState t false) with
    | none => exact h0
    | some ts =>
      have := (A.crash slots U.wf env0 rd (.setState t false) ts (ht.mem U) (A.weaken _ _ _ hP) (by simp) hts n allRd).1
      rcases this with e | e
      · exact e.trans h0
      · exact e.trans (keep rd ts hts)
  | writing rd ts hts he =>
    left
    subst he
    exact keep rd ts hts
  | activating rd rd2 ts n h1 hist rr hts he hl hpre hr =>
    have hc := U.complete hi.prefix hl hpre hr
    subst he
    unfold Backend.ev
    cases hts2 : B.txns rd2 slots (B.appAll env0 ts) (.setPrimary t) with
    | none => exact Or.inl (keep rd ts hts)
    | some ts2 =>
      have hQ := A.after slots env0 t rd ts hP hts
      have := (A.crash slots U.wf (B.appAll env0 ts) rd2 (.setPrimary t) ts2 (ht.mem U) hQ (by simp) hts2 n allRd).1
      rcases this with e | e
      · exact Or.inl (e.trans (keep rd ts hts))
      · exact Or.inr ⟨e.trans (A.act slots U.wf t (ht.mem U) (B.appAll env0 ts) rd2 ts2 hQ hts2).1, hc⟩

/-- **C68, success.** An installation that reports success (with `activate-installed`) leaves the new slot primary and
everything in place. -/
theorem C68_success {B : Backend} {P Q : List Slot → B.Env → Slot → Prop} (A : Atomic B P Q) {slots : List Slot} {w : World} {a : Args}
    {c : Checked} {inner : Option Manifest} {m : Manifest} {plans : List Plan} (U : Update slots w c inner m plans) {t : Slot}
    (ht : BootTarget plans t) {env0 env' : B.Env} (hP : P slots env0 t) (hact : w.cfg.activateInstalled = true)
    (hs : EnvSteps B slots env0 (install w a c inner).1 env') (hok : (install w a c inner).2 = .ok) :
    B.getPrimary allRd slots env' = some t ∧
    Complete plans (install w a c inner).1 (replay w.cfg w.st0 (install w a c inner).1) := by
  obtain ⟨h, dh, post, hE, hq1, hq2, -, hfin⟩ := install_core w a c inner m U.manifest U.noHandler
  obtain ⟨hd, hdo⟩ := hfin hok
  rcases Install.defaultHandler_shape w m a.transaction h with ⟨o, ho, e⟩ | ⟨plans', boot, hp', hb', -, ⟨s, rfl, e⟩ |
    ⟨pre0, evs0, b0, tail, o, hpre, hl, e, htl⟩⟩
  · rw [e] at hdo; exact absurd hdo ho
  · rw [e] at hdo; simp at hdo
  · have hpl := U.plans
    rw [plansOf, hp'] at hpl
    cases hpl
    obtain ⟨p, hp, hdl, htg, h1, h2⟩ := ht
    have := Install.bootMarkSlot_mem hb' hp htg h1 h2
    subst this
    have htm : t ∈ slots := BootTarget.mem U ⟨p, hp, hdl, htg, h1, h2⟩
    have hpre' : pre0 = [.markBad t true] := by simpa using hpre
    subst hpre'
    have hd' : dh = [.markBad t true] ++ evs0 ++ tail := by
      rw [e] at hd
      apply List.append_cancel_left (as := h)
      rw [← hd]; simp
    have hpost := Install.plansLoop_post w m a.transaction plans (h ++ [.markBad t true])
    rw [hl] at hpost
    obtain ⟨evs, b, hl', hq3, -⟩ := hpost
    simp only [Prod.mk.injEq] at hl'
    have := List.append_cancel_left hl'.1
    subst this
    rw [e] at hdo
    simp only [] at hdo
    subst hdo
    cases htl with
    | done hx =>
      rcases hx with hx | hx
      · simp at hx
      · rw [hact] at hx; simp at hx
    | activated s st b' hss _ hst hdg =>
      cases hss
      have hEv : (install w a c inner).1 = h ++ (.markBad t true :: (evs0 ++ (.prune true :: (.setPrimary t true ::
          (.setMem t.name st :: .save t.name b' :: post))))) := by
        rw [hE, hd']; simp
      constructor
      · rw [hEv] at hs
        obtain ⟨e1, s1, s2⟩ := hs.split
        have := s1.silent (fun e he => (hq1 e he).1)
        subst this
        cases s2 with
        | cons s3 s4 =>
          have hbad : ∃ rd ts, B.setState rd slots e1 t false = some ts ∧ ‹B.Env› = B.appAll e1 ts := by
            cases s3 with
            | badOk _ rd ts hts => exact ⟨rd, ts, hts, rfl⟩
            | other _ h => simp [reqOf] at h
          obtain ⟨rd, ts, hts, rfl⟩ := hbad
          obtain ⟨e2, s5, s6⟩ := s4.split
          have := s5.silent (fun e he => reqOf_none (hq3 e he).1)
          subst this
          cases s6 with
          | cons s7 s8 =>
            cases s7 with
            | other _ _ =>
              cases s8 with
              | cons s9 s10 =>
                have := s10.silent (by
                  intro e he
                  simp only [List.mem_cons] at he
                  rcases he with rfl | rfl | he
                  · rfl
                  · rfl
                  · exact (hq2 e he).1)
                subst this
                cases s9 with
                | primaryOk _ rd2 ts2 hts2 =>
                  exact (A.act slots U.wf t htm _ rd2 ts2 (A.after slots e1 t rd ts hP hts) hts2).1
                | other _ h => simp [reqOf] at h
      · refine U.complete (t := t) (r := .prune true :: .setPrimary t true :: .setMem t.name st :: .save t.name b' :: post)
          (List.prefix_refl _) hl (by rw [hEv]; simp) ?_
        have hcur : (w.cur (h ++ [.markBad t true] ++ evs0 ++ [.prune true, .setPrimary t true])).mem t.name =
            (w.cur (h ++ [.markBad t true] ++ evs0)).mem t.name := by
          rw [Install.cur_append]; rfl
        rw [hcur] at hst hdg
        intro e he
        simp only [List.mem_cons] at he
        rcases he with rfl | rfl | rfl | rfl | he
        · exact Or.inl rfl
        · exact Or.inl rfl
        · exact Or.inr (Or.inr ⟨st, rfl, hst, hdg⟩)
        · exact Or.inr (Or.inl ⟨b', rfl⟩)
        · exact Or.inl (hq2 e he).2.1

/-- **C68, what is left alone.** At every moment of an installation, a slot that is not one of its targets holds what it held,
and its recorded status is the one it had when the installation started. -/
theorem C68_untouched {slots : List Slot} {w : World} {a : Args} {c : Checked} {inner : Option Manifest} {m : Manifest}
    {plans : List Plan} (U : Update slots w c inner m plans) {pre : List Install.Ev} (hpre : pre <+: (install w a c inner).1)
    (n : Str) (hn : ∀ p ∈ plans, ∀ s hd, p.target = .slot s hd → s.name ≠ n) :
    (replay w.cfg w.st0 pre).content n = w.st0.content n ∧
    (w.st0.disk n = w.st0.mem n → (replay w.cfg w.st0 pre).disk n = w.st0.disk n) := by
  have hfr : ∀ e ∈ pre, about e ≠ some n := by
    intro e he hk
    obtain ⟨plans', hp', p, hp, s, hd, htg, hnm⟩ := install_about w a c inner m U.manifest U.noHandler e (hpre.subset he) n hk
    have := U.plans
    rw [hp'] at this
    cases this
    exact hn p hp s hd htg hnm
  obtain ⟨-, f2, f3⟩ := replay_frame (c := w.cfg) pre w.st0 hfr
  exact ⟨f2, fun h => (f3 h).trans h.symm⟩

/-- **C68, the running system.** The system runs from the root slot `b`, and the targets are selected accordingly. At every
moment of the installation the slots of the running system hold what they held. -/
theorem C68_running_untouched {slots : List Slot} {w : World} {a : Args} {c : Checked} {inner : Option Manifest} {m : Manifest}
    {plans : List Plan} (U : Update slots w c inner m plans) (hf : FlatParents slots) (status : Slot → SlotStatus)
    (realpath : Str → Option Str) (bs : Str) (b : Slot) (hb : Select.findBooted realpath bs slots = some b) (hroot : b.parent = none)
    (hg : w.group = targetGroup false (stateOf b) status slots) {pre : List Install.Ev} (hpre : pre <+: (install w a c inner).1)
    (s : Slot) (hs : s ∈ slots) (hin : InBootedGroup slots b s) :
    (replay w.cfg w.st0 pre).content s.name = w.st0.content s.name := by
  refine (C68_untouched U hpre s.name ?_).1
  intro p hp s' hd htg hn
  obtain ⟨-, -, -, g, -, -⟩ := Select.C12_plan_ok _ _ _ _ _ plans U.plans p hp s' hd htg
  have : s' = s := U.wf.name_inj s' (U.group _ _ g).1 s hs hn
  subst this
  rw [hg] at g
  refine Select.C09_partial realpath bs false status slots ?_ hf (stateOf b) ?_ b hb hroot _ s' g hin
  · exact U.wf.name_inj
  · simp [Select.slotStates, hb]

/-- **C68.** The system runs from its primary slot `b`. Whenever the power fails during an installation, the device boots
either `b`, all slots of which hold what they held, or the new slot with everything in place. -/
theorem C68_atomic {B : Backend} {P Q : List Slot → B.Env → Slot → Prop} (A : Atomic B P Q) {slots : List Slot} {w : World} {a : Args}
    {c : Checked} {inner : Option Manifest} {m : Manifest} {plans : List Plan} (U : Update slots w c inner m plans)
    (hf : FlatParents slots) (status : Slot → SlotStatus) (realpath : Str → Option Str) (bs : Str) (b : Slot)
    (hb : Select.findBooted realpath bs slots = some b) (hroot : b.parent = none)
    (hg : w.group = targetGroup false (stateOf b) status slots) {t : Slot} (ht : BootTarget plans t) {env0 env' : B.Env}
    (hP : P slots env0 t) (h0 : B.getPrimary allRd slots env0 = some b) {pre : List Install.Ev}
    (hi : Interrupted B slots env0 (install w a c inner).1 pre env') :
    (B.getPrimary allRd slots env' = some b ∧ ∀ s ∈ slots, InBootedGroup slots b s →
      (replay w.cfg w.st0 pre).content s.name = w.st0.content s.name) ∨
    (B.getPrimary allRd slots env' = some t ∧ t ≠ b ∧ Complete plans pre (replay w.cfg w.st0 pre)) := by
  have hbt : b ≠ t := by
    rintro rfl
    obtain ⟨p, hp, hd, htg, -, -⟩ := ht
    obtain ⟨-, -, -, g, -, -⟩ := Select.C12_plan_ok _ _ _ _ _ plans U.plans p hp b hd htg
    rw [hg] at g
    exact Select.C09_partial realpath bs false status slots U.wf.name_inj hf (stateOf b) (by simp [Select.slotStates, hb]) b hb hroot _ b g
      (Or.inl rfl)
  rcases C68_fallback A U ht hbt hP h0 hi with h | ⟨h1, h2⟩
  · exact Or.inl ⟨h, fun s hs hin => C68_running_untouched U hf status realpath bs b hb hroot hg hi.prefix s hs hin⟩
  · exact Or.inr ⟨h1, Ne.symm hbt, h2⟩

/-! ### Any number of updates -/

/-- the device boots a root slot, and neither it nor one of its children is half written -/
def Bootable (B : Backend) (slots : List Slot) (st : St) (env : B.Env) : Prop :=
  ∃ r ∈ slots, r.parent = none ∧ B.getPrimary allRd slots env = some r ∧
    ∀ s ∈ slots, HasRoot slots s r → st.content s.name ≠ none

/-- The life of a device: any number of installations, each started on the system booted from the primary slot, each with a
boot slot among its targets and an image for every slot below it, and each ending at any moment (completed, failed or by
power loss) with a restart. -/
inductive Life (B : Backend) (P : List Slot → B.Env → Slot → Prop) (slots : List Slot) (st0 : St) (env0 : B.Env) : St → B.Env → Prop
  | start : Life B P slots st0 env0 st0 env0
  | update {env env' : B.Env} (w : World) (a : Args) (c : Checked) (inner : Option Manifest) (m : Manifest) (plans : List Plan)
      (status : Slot → SlotStatus) (realpath : Str → Option Str) (bs : Str) (b t : Slot) (pre : List Install.Ev) :
      Life B P slots st0 env0 w.st0 env →
      w.cfg.perSlot = false → (c.manifest <|> inner) = some m → m.handlerName = none → plansOf w m = some plans →
      B.getPrimary allRd slots env = some b → Select.findBooted realpath bs slots = some b →
      w.group = targetGroup false (stateOf b) status slots →
      BootTarget plans t → (∀ s ∈ slots, HasRoot slots s t → IsTarget plans s.name) → P slots env t →
      Interrupted B slots env (install w a c inner).1 pre env' →
      Life B P slots st0 env0 (restart (replay w.cfg w.st0 pre)) env'

/-- **C68, any number of updates.** If the device boots a complete system in the beginning, it always does. -/
theorem C68_life {B : Backend} {P Q : List Slot → B.Env → Slot → Prop} (A : Atomic B P Q) {slots : List Slot} (hwf : SlotsWF slots)
    (hf : FlatParents slots) {st0 st : St} {env0 env : B.Env} (h0 : Reach st0) (hb0 : Bootable B slots st0 env0)
    (h : Life B P slots st0 env0 st env) : Bootable B slots st env := by
  suffices hh : Reach st ∧ Bootable B slots st env from hh.2
  induction h with
  | start => exact ⟨h0, hb0⟩
  | update w a c inner m plans status realpath bs b t pre _ hsh hm hnh hpl hprim hboot hg ht hcov hP hi ih =>
    obtain ⟨hr, r, hrm, hrp, hrprim, hrc⟩ := ih
    rw [hprim] at hrprim
    cases hrprim
    have hgr : ∀ cls s, w.group cls = some s → s ∈ slots ∧ s.sclass = cls := by
      intro cls s hcs
      rw [hg] at hcs
      exact ⟨(Select.targetGroup_facts hcs).1, (Select.targetGroup_facts hcs).2.1⟩
    have U : Update slots w c inner m plans := ⟨hwf, hgr, hsh, hr, hm, hnh, hpl⟩
    refine ⟨.installCrash w a c inner pre hsh hr hi.prefix, ?_⟩
    rcases C68_atomic A U hf status realpath bs b hboot hrp hg ht hP hprim hi with ⟨h1, h2⟩ | ⟨h1, -, h2⟩
    · refine ⟨b, hrm, hrp, h1, ?_⟩
      intro s hs hroot
      have : (replay w.cfg w.st0 pre).content s.name ≠ none := by
        rw [h2 s hs (Or.inr ⟨b, hroot, Or.inl ⟨hrp, rfl⟩⟩)]
        exact hrc s hs hroot
      exact this
    · refine ⟨t, ht.mem U, ?_, h1, ?_⟩
      · obtain ⟨p, hp, hd, htg, x, -⟩ := ht
        exact x
      · intro s hs hroot
        obtain ⟨p, hp, s', hd, htg, hn⟩ := hcov s hs hroot
        have := h2 p hp
        rw [htg] at this
        simp only [] at this
        have hc : (replay w.cfg w.st0 pre).content s.name ≠ none := by
          rw [← hn, this.1]
          simp
        exact hc

/-- Without a boot slot among the targets an installation never changes what the boot loader boots. -/
theorem C68_no_boot_slot {B : Backend} {slots : List Slot} {w : World} {a : Args} {c : Checked} {inner : Option Manifest} {m : Manifest}
    {plans : List Plan} (U : Update slots w c inner m plans) (hn : ∀ t, ¬ BootTarget plans t) {env0 env' : B.Env}
    {pre : List Install.Ev} (hi : Interrupted B slots env0 (install w a c inner).1 pre env') : env' = env0 := by
  have hb : Install.bootMarkSlot plans = some none := by
    have hempty : plans.filterMap Install.bootTarget = [] := by
      rw [List.filterMap_eq_nil_iff]
      intro p hp
      unfold Install.bootTarget
      split
      · rename_i s hd htg
        split
        · rename_i hc
          simp only [Bool.and_eq_true, Option.isNone_iff_eq_none, Option.isSome_iff_ne_none] at hc
          exact absurd ⟨p, hp, hd, htg, hc.1, hc.2⟩ (hn s)
        · rfl
      · rfl
    unfold Install.bootMarkSlot
    rw [hempty]
  refine (hi.silent ?_).2
  obtain ⟨h, dh, post, hE, hq1, hq2, hd, -⟩ := install_core w a c inner m U.manifest U.noHandler
  intro e he
  rw [hE] at he
  simp only [List.mem_append] at he
  rcases he with (he | he) | he
  · exact (hq1 e he).1
  · rcases hd with rfl | hd
    · simp at he
    rcases Install.defaultHandler_shape w m a.transaction h with ⟨o, -, e'⟩ | ⟨plans', boot, hp', hb', -, ⟨s, rfl, e'⟩ |
      ⟨pre0, evs0, b0, tail, o, hpre, hl, e', htl⟩⟩
    · rw [e'] at hd
      have : dh = [] := by simpa using hd
      subst this; simp at he
    · have hpl := U.plans
      rw [plansOf, hp'] at hpl
      cases hpl
      rw [hb] at hb'; simp at hb'
    · have hpl := U.plans
      rw [plansOf, hp'] at hpl
      cases hpl
      rw [hb] at hb'
      simp only [Option.some.injEq] at hb'
      subst hb'
      have hpre' : pre0 = [] := by simpa using hpre
      subst hpre'
      have hpost := Install.plansLoop_post w m a.transaction plans (h ++ [])
      rw [hl] at hpost
      obtain ⟨evs, b, hl', hq3, -⟩ := hpost
      simp only [Prod.mk.injEq] at hl'
      have := List.append_cancel_left hl'.1
      subst this
      have hd' : dh = evs0 ++ tail := by
        rw [e'] at hd
        apply List.append_cancel_left (as := h)
        rw [← hd]; simp
      rw [hd'] at he
      rcases List.mem_append.1 he with he | he
      · exact reqOf_none (hq3 e he).1
      · cases htl with
        | loopFailed => simp at he
        | pruneFailed => simp only [List.mem_cons, List.not_mem_nil, or_false] at he; subst he; rfl
        | done _ => simp only [List.mem_cons, List.not_mem_nil, or_false] at he; subst he; rfl
        | primaryFailed s hs _ => simp at hs
        | activated s st b' hs => simp at hs
  · exact (hq2 e he).1

/-! ### Concrete cases, and where C68 ends -/

/-- a run in which every request reads everything and all transactions of the successful ones take effect -/
def envRun (B : Backend) (slots : List Slot) : B.Env → List Install.Ev → Option B.Env
  | env, [] => some env
  | env, e :: es =>
    match e with
    | .markBad s true => (B.setState allRd slots env s false).bind (fun ts => envRun B slots (B.appAll env ts) es)
    | .setPrimary s true => (B.setPrimary allRd slots env s).bind (fun ts => envRun B slots (B.appAll env ts) es)
    | _ => envRun B slots env es

theorem envRun_steps {B : Backend} {slots : List Slot} {env env' : B.Env} {evs : List Install.Ev} (h : envRun B slots env evs = some env') :
    EnvSteps B slots env evs env' := by
  induction evs generalizing env with
  | nil => simp only [envRun, Option.some.injEq] at h; subst h; exact .nil _
  | cons e es ih =>
    cases e with
    | markBad s b =>
      cases b with
      | true =>
        simp only [envRun, Option.bind_eq_some_iff] at h
        obtain ⟨ts, h1, h2⟩ := h
        exact .cons (.badOk _ _ _ _ h1) (ih h2)
      | false =>
        simp only [envRun] at h
        have := EnvStep.badFailed (B := B) (slots := slots) env s allRd 0
        rw [ev_zero] at this
        exact .cons this (ih h)
    | setPrimary s b =>
      cases b with
      | true =>
        simp only [envRun, Option.bind_eq_some_iff] at h
        obtain ⟨ts, h1, h2⟩ := h
        exact .cons (.primaryOk _ _ _ _ h1) (ih h2)
      | false =>
        simp only [envRun] at h
        have := EnvStep.primaryFailed (B := B) (slots := slots) env s allRd 0
        rw [ev_zero] at this
        exact .cons this (ih h)
    | _ => exact .cons (.other _ _ rfl) (ih (by simpa only [envRun] using h))

open Rauc.Install (exSlots exWorld exManifest exRoot exApp exSt exGroup)

def exW : World := { exWorld with cfg := { compatible := c!"x" } }

def exChecked (l : List Image) : Checked := ⟨some (exManifest l), false⟩

def exT : Slot := { name := c!"rootfs.1", sclass := c!"rootfs", bootname := some (c!"B"), typ := c!"raw", installSame := false }

def exB : Slot := { name := c!"rootfs.0", sclass := c!"rootfs", bootname := some (c!"A"), typ := c!"raw" }

theorem exSlots_wf : SlotsWF exSlots where
  nodup := by decide
  name_inj := by decide
  bootname_inj := by
    intro s hs t ht b h1 h2
    have : ∀ s ∈ exSlots, ∀ t ∈ exSlots, s.bootname = t.bootname → s.bootname ≠ none → s = t := by decide
    exact this s hs t ht (by rw [h1, h2]) (by rw [h1]; simp)
  bootname_ok := by
    intro s hs b hb
    have : ∀ s ∈ exSlots, ∀ b ∈ s.bootname, b ≠ [] ∧ ∀ c ∈ b, isSpace c = false := by decide
    exact this s hs b hb

theorem exGroup_ok (cls : Str) (s : Slot) (h : exGroup cls = some s) : s ∈ exSlots ∧ s.sclass = cls := by
  unfold exGroup at h
  split at h
  · rename_i hc
    simp only [exSlots, List.getElem?_cons_succ, List.getElem?_cons_zero, Option.some.injEq] at h
    subst h; subst hc
    exact ⟨by decide, rfl⟩
  · split at h
    · rename_i hc
      simp only [exSlots, List.getElem?_cons_succ, List.getElem?_cons_zero, Option.some.injEq] at h
      subst h; subst hc
      exact ⟨by decide, rfl⟩
    · simp at h

theorem exSound : Reach exW.st0 := by
  refine .init (fun n => ⟨fun h => ?_, fun h => ?_⟩) <;> simp [exW, exWorld, exSt] at h

def exA : Slot := { name := c!"appfs.1", sclass := c!"appfs", parent := some (c!"rootfs.1"), typ := c!"raw" }

def exPlans : List Plan := [⟨exRoot, .slot exT .imgToRaw⟩, ⟨exApp, .slot exA .imgToRaw⟩]

theorem exUpdate : Update exSlots exW (exChecked [exRoot, exApp]) none (exManifest [exRoot, exApp]) exPlans :=
  ⟨exSlots_wf, exGroup_ok, rfl, exSound, rfl, rfl, by decide⟩

theorem exBoot : BootTarget exPlans exT := ⟨_, List.mem_cons_self, .imgToRaw, rfl, rfl, by decide⟩

/-- the hypotheses of the theorems are met: an update of `rootfs` and `appfs` started on the system booted from `rootfs.0` -/
example : Update exSlots exW (exChecked [exRoot, exApp]) none (exManifest [exRoot, exApp]) exPlans ∧ BootTarget exPlans exT ∧
    (uboot {}).getPrimary allRd exSlots ubEx = some exB ∧
    (∀ s ∈ exSlots, HasRoot exSlots s exT → IsTarget exPlans s.name) ∧
    (install exW {} (exChecked [exRoot, exApp]) none).2 = .ok := by
  refine ⟨exUpdate, exBoot, by decide, ?_, by decide⟩
  intro s hs hr
  have : ∀ s ∈ exSlots, (s.parent = none ∧ exT = s) ∨ s.parent = some exT.name → s.name = exT.name ∨ s.name = exA.name := by decide
  rcases this s hs (hr.imp_right And.left) with h | h
  · exact ⟨_, List.mem_cons_self, exT, _, rfl, h.symm⟩
  · exact ⟨_, List.mem_cons_of_mem _ List.mem_cons_self, exA, _, rfl, h.symm⟩

/-- the target selection of the example is the one of a system booted from `rootfs.0` -/
example : Select.findBooted some (c!"A") exSlots = some exB ∧ exB.parent = none ∧ FlatParents exSlots ∧
    (∀ cls ∈ [c!"rootfs", c!"appfs"], targetGroup false (stateOf exB) (fun _ => {}) exSlots cls = exGroup cls) := by
  exact ⟨by decide, rfl, Select.flat_of (by decide), by decide⟩

/-- the run of the example: after it, `rootfs.1` is primary -/
example : ((envRun (uboot {}) exSlots ubEx (install exW {} (exChecked [exRoot, exApp]) none).1).map
    ((uboot {}).getPrimary allRd exSlots)) = some (some exT) := by decide


/-- a device whose slots all hold something -/
def exFull : World := { exW with st0 := { exSt with content := fun _ => some none } }

theorem exFull_reach : Reach exFull.st0 := by
  refine .init (fun n => ⟨fun h => ?_, fun h => ?_⟩) <;> simp [exFull, exW, exWorld, exSt] at h

/-- `rootfs.1` is primary: it was installed, the device was not restarted yet -/
def exEnvB : KvEnv := fun k =>
  if k = kOrder then some (c!"B A") else if k = kLeft (c!"A") then some (c!"3")
  else if k = kLeft (c!"B") then some (c!"3") else none

/-- FINDING: a bundle for a child slot only. Its boot slot is not marked bad (C13_child_only_violated), so if it is primary, a
power loss during the write makes the device boot a system whose child slot is half written. -/
theorem C68_child_only_violated :
    ∃ (w : World) (env env' : KvEnv) (pre : List Install.Ev),
      Update exSlots w (exChecked [exApp]) none (exManifest [exApp]) [⟨exApp, .slot exA .imgToRaw⟩] ∧
      Interrupted (uboot {}) exSlots env (install w {} (exChecked [exApp]) none).1 pre env' ∧
      (uboot {}).getPrimary allRd exSlots env' = some exT ∧ exA.parent = some exT.name ∧
      w.st0.content exA.name ≠ none ∧ (replay w.cfg w.st0 pre).content exA.name = none := by
  refine ⟨exFull, exEnvB, exEnvB, (install exFull {} (exChecked [exApp]) none).1.take 6, ⟨exSlots_wf, exGroup_ok, rfl, exFull_reach,
    rfl, rfl, by decide⟩, ?_, by decide, rfl, by decide, by decide⟩
  refine .between (List.take_prefix _ _) (.mkSilent _ ?_)
  decide

/-- the state after a power loss while `appfs.1` was written: `rootfs.1` is complete -/
def exLost : St := restart (replay exFull.cfg exFull.st0 ((install exFull {} (exChecked [exRoot, exApp]) none).1.take 13))

/-- FINDING: the theorem on any number of updates (`C68_life`) needs bundles with an image for every slot of the group. After a
power loss while the child slot was written, a bundle without an image for the child slot installs successfully and is
activated, although the status file says that the child slot is incomplete. -/
theorem C68_partial_bundle_violated :
    ∃ (w : World) (env' : KvEnv),
      Reach w.st0 ∧ Update exSlots w (exChecked [exRoot]) none (exManifest [exRoot]) [⟨exRoot, .slot exT .imgToRaw⟩] ∧
      EnvSteps (uboot {}) exSlots ubEx (install w {} (exChecked [exRoot]) none).1 env' ∧
      (install w {} (exChecked [exRoot]) none).2 = .ok ∧
      (uboot {}).getPrimary allRd exSlots env' = some exT ∧ exA.parent = some exT.name ∧
      (replay w.cfg w.st0 (install w {} (exChecked [exRoot]) none).1).content exA.name = none ∧
      ((replay w.cfg w.st0 (install w {} (exChecked [exRoot]) none).1).disk exA.name).status = some (c!"pending") := by
  have hr : Reach exLost := .installCrash exFull {} (exChecked [exRoot, exApp]) none _ rfl exFull_reach (List.take_prefix _ _)
  have U : Update exSlots { exFull with st0 := exLost } (exChecked [exRoot]) none (exManifest [exRoot])
      [⟨exRoot, .slot exT .imgToRaw⟩] := ⟨exSlots_wf, exGroup_ok, rfl, hr, rfl, rfl, by decide⟩
  have hx : (envRun (uboot {}) exSlots ubEx (install { exFull with st0 := exLost } {} (exChecked [exRoot]) none).1).isSome = true := by
    decide
  obtain ⟨env', he⟩ := Option.isSome_iff_exists.1 hx
  have hs := envRun_steps he
  have hok : (install { exFull with st0 := exLost } {} (exChecked [exRoot]) none).2 = .ok := by decide
  refine ⟨{ exFull with st0 := exLost }, env', hr, U, hs, hok, ?_, rfl, by decide, by decide⟩
  exact (C68_success (atomic_uboot {} ⟨by decide, by decide⟩) U ⟨_, List.mem_cons_self, .imgToRaw, rfl, rfl, by decide⟩ trivial rfl hs hok).1

end Rauc.System
