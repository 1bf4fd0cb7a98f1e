import Verif.Props.EndToEnd
import Verif.Props.BootName
import Verif.Props.Config

/-!
# C100: a whole update, from the configuration on

Joins C23 (configuration), C56 (which slot is running), C09 and C12 (targets), C68 (order of writing and activation) and C98 (what is on the slots).
-/

namespace Rauc.WholeUpdate

open Rauc.Boot (Backend allRd)
open Rauc.System (Update Atomic BootTarget Interrupted Complete Bootable IsTarget)
open Rauc.Select (Plan targetGroup InBootedGroup HasRoot FlatParents)
open Rauc.EndToEnd (Device DevSteps SlotData Honest Covered OnSlot Shown Backed Only)
open Rauc.BootName (OnlySlot bootName runningStates Backends)
open Rauc.Install (World Args Checked St plansOf install replay restart)

/-! ## Specification -/

/-- A device: its slots were read from an accepted configuration file, it runs from the root slot `b` (which is recognised by the kernel
command line alone), its slot status file is shared. -/
structure Booted (slots : List Slot) (state : Slot → Select.State) (b : Slot) : Prop where
  /-- the key file was accepted, config_file.c:702-985 -/
  config : ∃ (E : Config.Env) (kf : KeyFile) (repos : List Str), kf.GroupsNodup ∧ Config.loadSlots E kf repos = some slots
  /-- the running slot, C56 -/
  running : ∃ (realpath : Str → Option Str) (be : Backends) (cmdline n : Str), bootName realpath be slots (some cmdline) = some n ∧
    OnlySlot realpath n b slots ∧ runningStates realpath be slots (some cmdline) = some state
  root : b.parent = none

/-- An installation on this device: of a bundle without a custom handler, the targets selected for the running system. -/
structure Installs (slots : List Slot) (state : Slot → Select.State) (w : World) (c : Checked) (inner : Option Manifest) (plans : List Plan) : Prop where
  shared : w.cfg.perSlot = false
  bundle : ∃ m, (c.manifest <|> inner) = some m ∧ m.handlerName = none ∧ plansOf w m = some plans
  targets : ∃ status, w.group = targetGroup false state status slots

/-- All images are of the kinds C98 speaks of, and the manifest tells the truth about the files of the bundle (C61: it does if `rauc bundle`
made it). -/
def Plain (D : Device) (plans : List Plan) : Prop :=
  ∀ p ∈ plans, ∀ s hd, p.target = .slot s hd → ∃ ty data, Honest D p.image data ∧ Covered p.image (D.target s) ty

/-- The slot has what the image is: the file itself in the right form if it was written, in any case a file with the same digest. -/
def HasImage (D : Device) (pre : List Install.Ev) (p : Plan) (s : Slot) (y : SlotData) : Prop :=
  ∀ ty data, Honest D p.image data → Covered p.image (D.target s) ty →
    ((s.installSame = true ∨ Install.Ev.writeEnd s p.image true ∈ pre) → OnSlot D.T ty (D.target s).slotType data y) ∧
    ∃ data', Create.shaHex D.T data' = Create.shaHex D.T data ∧ Shown D.T data' y

/-! ## Proofs -/

theorem Booted.facts {slots : List Slot} {state : Slot → Select.State} {b : Slot} (h : Booted slots state b) :
    SlotsWF slots ∧ FlatParents slots ∧ ∃ realpath n, Select.findBooted realpath n slots = some b ∧ state = Select.stateOf b := by
  obtain ⟨E, kf, repos, h1, h2⟩ := h.config
  obtain ⟨realpath, be, cmdline, n, h3, h4, h5⟩ := h.running
  obtain ⟨g1, g2, -⟩ := Config.C23_loaded_wf h1 h2
  refine ⟨g1, fun s hs p hp => (g2 s hs p hp).2, realpath, n, BootName.findBooted_only h4, ?_⟩
  unfold runningStates Select.slotStates at h5
  rw [h3] at h5
  simp only [BootName.findBooted_only h4, Option.some.injEq] at h5
  exact h5.symm

theorem Installs.update {slots : List Slot} {state : Slot → Select.State} {b : Slot} {w : World} {c : Checked} {inner : Option Manifest} {plans : List Plan}
    (hb : Booted slots state b) (h : Installs slots state w c inner plans) (hr : Install.Reach w.st0) : ∃ m, Update slots w c inner m plans := by
  obtain ⟨m, h1, h2, h3⟩ := h.bundle
  obtain ⟨status, hg⟩ := h.targets
  refine ⟨m, hb.facts.1, ?_, h.shared, hr, h1, h2, h3⟩
  intro cls s hcs
  rw [hg] at hcs
  exact ⟨(Select.targetGroup_facts hcs).1, (Select.targetGroup_facts hcs).2.1⟩

/-- `System.C68_fallback` with the reason why everything is in place: all plans were carried out -/
theorem fallback {B : Backend} {P Q : List Slot → B.Env → Slot → Prop} (A : Atomic B P Q) {slots : List Slot} {w : World} {a : Args}
    {c : Checked} {inner : Option Manifest} {m : Manifest} {plans : List Plan} (U : Update slots w c inner m plans) {t r : Slot}
    (ht : BootTarget plans t) (hrt : r ≠ t) {env0 env' : B.Env} (hP : P slots env0 t)
    (h0 : B.getPrimary allRd slots env0 = some r) {pre : List Install.Ev}
    (hi : Interrupted B slots env0 (install w a c inner).1 pre env') :
    B.getPrimary allRd slots env' = some r ∨
    (B.getPrimary allRd slots env' = some t ∧ Complete plans pre (replay w.cfg w.st0 pre) ∧
      ∀ p ∈ plans, ∀ s hd, p.target = .slot s hd → s.installSame = true → Install.Ev.writeEnd s p.image true ∈ pre) := by
  by_cases hp : B.getPrimary allRd slots env' = some r
  · exact Or.inl hp
  right
  rcases System.C68_fallback A U ht hrt hP h0 hi with h | ⟨h1, h2⟩
  · exact absurd h hp
  refine ⟨h1, h2, ?_⟩
  have keep : ∀ rd ts, B.setState rd slots env0 t false = some ts → B.getPrimary allRd slots (B.appAll env0 ts) = some r :=
    fun rd ts hts => A.keeps slots U.wf t (ht.mem U) r hrt env0 rd ts hP hts allRd h0
  cases U.phases ht hi with
  | before rd n _ he =>
    exfalso
    apply hp
    subst he
    unfold Backend.ev
    cases hts : B.txns rd slots env0 (.setState t false) with
    | none => exact h0
    | some ts =>
      have := (A.crash slots U.wf env0 rd (.setState t false) ts (ht.mem U) (A.weaken _ _ _ hP) (by simp) hts n allRd).1
      rcases this with e | e
      · exact e.trans h0
      · exact e.trans (keep rd ts hts)
  | writing rd ts hts he =>
    exfalso
    apply hp
    subst he
    exact keep rd ts hts
  | activating rd rd2 ts n h3 hist rr hts he hl hpre hr =>
    intro p hp s hd htg hs
    obtain ⟨evs2, b2, hl2, -, hpost⟩ := Install.plansLoop_post w m a.transaction plans h3
    rw [hl] at hl2
    simp only [Prod.mk.injEq] at hl2
    obtain ⟨rfl, rfl⟩ := hl2
    have hco := (hpost rfl).1 p hp
    unfold Install.CarriedOut at hco
    rw [htg] at hco
    simp only [] at hco
    rcases hco with h4 | ⟨h4, -⟩
    · rw [hpre]; simp [h4]
    · rw [hs] at h4; cases h4

/-- slots that are not targets keep what they hold -/
theorem dev_untouched {slots : List Slot} {w : World} {a : Args} {c : Checked} {inner : Option Manifest} {m : Manifest}
    {plans : List Plan} (U : Update slots w c inner m plans) {D : Device} {n : Str} (hn : ¬ IsTarget plans n)
    {pre : List Install.Ev} (hpre : pre <+: (install w a c inner).1) {dev dev' : Str → SlotData} (hdev : DevSteps D dev pre dev') : dev' n = dev n := by
  have hw := EndToEnd.install_writes (a := a) U.manifest U.noHandler U.plans
  have hab : ∀ e ∈ pre, System.about e ≠ some n ∧ (e ≠ .customStart ∧ ∀ b, e ≠ .customEnd b) := by
    intro e he
    refine ⟨fun h => ?_, (hw e (hpre.subset he)).1⟩
    obtain ⟨plans', h1, h2⟩ := System.install_about w a c inner m U.manifest U.noHandler e (hpre.subset he) n h
    rw [U.plans] at h1
    cases h1
    exact hn h2
  clear hpre hw
  induction pre generalizing dev with
  | nil => cases hdev; rfl
  | cons e es ih =>
    cases hdev with
    | cons h1 h2 =>
      obtain ⟨a1, a2⟩ := hab e (by simp)
      rw [ih h2 (fun x hx => hab x (List.mem_cons_of_mem _ hx)), EndToEnd.dev_frame h1 a1 a2]

/-- **C100, one update.** On a device with an accepted configuration, running from its primary root slot `b`, a bundle for another boot slot `t` is installed, and the power fails at any
moment (also in the middle of a write or of a request to the boot loader; or the installation comes to its end). Then the boot loader boots `b`, and
every slot of the running system - the boot slot and those below it - holds, byte for byte, what it held. Or it boots `t`, and every slot the
bundle is for has what the author put into the bundle. -/
theorem C100_update {B : Backend} {P Q : List Slot → B.Env → Slot → Prop} (A : Atomic B P Q) {slots : List Slot} {state : Slot → Select.State} {b : Slot}
    (hb : Booted slots state b) {w : World} {a : Args} {c : Checked} {inner : Option Manifest} {plans : List Plan} (hin : Installs slots state w c inner plans)
    (hr : Install.Reach w.st0) {t : Slot} (ht : BootTarget plans t) {env0 env' : B.Env} (hP : P slots env0 t) (h0 : B.getPrimary allRd slots env0 = some b)
    (D : Device) (hpl : Plain D plans) {dev dev' : Str → SlotData} (hdev0 : ∀ n, Backed D.T w.st0 dev n)
    {pre : List Install.Ev} (hi : Interrupted B slots env0 (install w a c inner).1 pre env') (hdev : DevSteps D dev pre dev') :
    (B.getPrimary allRd slots env' = some b ∧ ∀ s ∈ slots, InBootedGroup slots b s → dev' s.name = dev s.name) ∨
    (B.getPrimary allRd slots env' = some t ∧ t ≠ b ∧ ∀ p ∈ plans, ∀ s hd, p.target = .slot s hd → HasImage D pre p s (dev' s.name)) ∨
    EndToEnd.Clash D.sha := by
  obtain ⟨m, U⟩ := hin.update hb hr
  obtain ⟨hwf, hf, realpath, n, hfb, rfl⟩ := hb.facts
  obtain ⟨status, hg⟩ := hin.targets
  have notT : ∀ s ∈ slots, InBootedGroup slots b s → ¬ IsTarget plans s.name := by
    rintro s hs hib ⟨p, hp, s', hd, htg, hnm⟩
    obtain ⟨-, -, -, g, -, -⟩ := Select.C12_plan_ok _ _ _ _ _ plans U.plans p hp s' hd htg
    have : s' = s := U.wf.name_inj s' (U.group _ _ g).1 s hs hnm
    subst this
    rw [hg] at g
    exact Select.C09_partial realpath n false status slots U.wf.name_inj hf (Select.stateOf b) (by simp [Select.slotStates, hfb]) b hfb hb.root _ s' g hib
  have hbm : b ∈ slots := List.mem_of_find?_eq_some hfb
  have hbt : b ≠ t := by
    rintro rfl
    obtain ⟨p, hp, hd, htg, -, -⟩ := ht
    exact notT b hbm (Or.inl rfl) ⟨p, hp, b, hd, htg, rfl⟩
  rcases fallback A U ht hbt hP h0 hi with h | ⟨h1, h2, h3⟩
  · exact Or.inl ⟨h, fun s hs hib => dev_untouched U (notT s hs hib) hi.prefix hdev⟩
  · by_cases hcol : EndToEnd.Clash D.sha
    · exact Or.inr (Or.inr hcol)
    refine Or.inr (Or.inl ⟨h1, Ne.symm hbt, ?_⟩)
    intro p hp s hd htg ty data hh hc
    have O := EndToEnd.only_of_update (a := a) U D hp htg hh hc hi.prefix
    have hcont := h2 p hp
    rw [htg] at hcont
    simp only [] at hcont
    constructor
    · intro hw
      have hmem : Install.Ev.writeEnd s p.image true ∈ pre := by
        rcases hw with hs | hw
        · exact h3 p hp s hd htg hs
        · exact hw
      rcases EndToEnd.fresh_steps (c := w.cfg) (st := w.st0) O hdev (Or.inr (Or.inr hmem)) with h | h | h
      · rw [hcont.1] at h; cases h
      · exact h
      · exact absurd h hcol
    · rcases EndToEnd.backed_steps (c := w.cfg) O hdev (hdev0 s.name) with h | h
      · exact h _ (by rw [hcont.1, hh.digest])
      · exact absurd h hcol

/-! ## Any number of updates -/

/-- The life of a device: any number of updates, each started on the system booted from the primary slot, each with a boot slot among its targets
and an image for every slot below it, and each ending at any moment with a restart. -/
inductive Life (B : Backend) (P : List Slot → B.Env → Slot → Prop) (T : Create.Tools) (sha : EndToEnd.Sha) (slots : List Slot) (st0 : St) (env0 : B.Env)
    (dev0 : Str → SlotData) : St → B.Env → (Str → SlotData) → Prop
  | start : Life B P T sha slots st0 env0 dev0 st0 env0 dev0
  | update {env env' : B.Env} {dev dev' : Str → SlotData} (state : Slot → Select.State) (w : World) (a : Args) (c : Checked) (inner : Option Manifest)
      (plans : List Plan) (b t : Slot) (files : Create.Dir) (target : Slot → Rauc.Update.Target) (pre : List Install.Ev) :
      Life B P T sha slots st0 env0 dev0 w.st0 env dev → B.getPrimary allRd slots env = some b → Booted slots state b →
      Installs slots state w c inner plans → BootTarget plans t → (∀ s ∈ slots, HasRoot slots s t → IsTarget plans s.name) → P slots env t →
      Plain ⟨T, sha, files, target⟩ plans → Interrupted B slots env (install w a c inner).1 pre env' → DevSteps ⟨T, sha, files, target⟩ dev pre dev' →
      Life B P T sha slots st0 env0 dev0 (restart (replay w.cfg w.st0 pre)) env' dev'

/-- **C100, any number of updates.** A device that boots a complete system in the beginning always does: whatever it boots, none of the slots of this system is half written, and a slot that was
ever written by RAUC holds the file with the digest in its status. -/
theorem C100_life {B : Backend} {P Q : List Slot → B.Env → Slot → Prop} (A : Atomic B P Q) {T : Create.Tools} {sha : EndToEnd.Sha} {slots : List Slot}
    (hwf : SlotsWF slots) (hf : FlatParents slots) {st0 st : St} {env0 env : B.Env} {dev0 dev : Str → SlotData} (h0 : Install.Sound st0)
    (hb0 : Bootable B slots st0 env0) (hd0 : ∀ n, Backed T st0 dev0 n) (h : Life B P T sha slots st0 env0 dev0 st env dev) :
    (∃ r ∈ slots, r.parent = none ∧ B.getPrimary allRd slots env = some r ∧
      ∀ s ∈ slots, HasRoot slots s r → ∃ d, st.content s.name = some d ∧ ∀ dg, d = some dg → ∃ data, Create.shaHex T data = dg ∧ Shown T data (dev s.name)) ∨
    EndToEnd.Clash sha := by
  have key : ((Install.Reach st ∧ Bootable B slots st env) ∧ ∀ n, EndToEnd.Life T sha n st dev) := by
    induction h with
    | start => exact ⟨⟨.init h0, hb0⟩, fun n => .start h0 (hd0 n)⟩
    | @update env env' dev dev' state w a c inner plans b t files target pre _ hprim hbo hin ht hcov hP hpl hi hdev ih =>
      obtain ⟨⟨hr, hbt⟩, hl⟩ := ih
      obtain ⟨m, U⟩ := hin.update hbo hr
      obtain ⟨-, -, realpath, n, hfb, rfl⟩ := hbo.facts
      obtain ⟨status, hg⟩ := hin.targets
      refine ⟨⟨.installCrash w a c inner pre U.shared hr hi.prefix, ?_⟩, fun x => ?_⟩
      · exact System.C68_life A hwf hf hr hbt (System.Life.update w a c inner m plans status realpath n b t pre .start U.shared U.manifest U.noHandler U.plans hprim hfb hg
          ht hcov hP hi)
      · exact EndToEnd.Life.install pre true (hl x) U (fun p hp s hd htg _ => hpl p hp s hd htg) hi.prefix hdev
  obtain ⟨⟨hr, r, hrm, hrp, hprim, hcont⟩, hl⟩ := key
  by_cases hcol : EndToEnd.Clash sha
  · exact Or.inr hcol
  refine Or.inl ⟨r, hrm, hrp, hprim, ?_⟩
  intro s hs hroot
  obtain ⟨d, hd⟩ := Option.ne_none_iff_exists'.1 (hcont s hs hroot)
  refine ⟨d, hd, ?_⟩
  rintro dg rfl
  rcases (hl s.name).inv with ⟨-, hb⟩ | h
  · exact hb dg hd
  · exact absurd h hcol

end Rauc.WholeUpdate
