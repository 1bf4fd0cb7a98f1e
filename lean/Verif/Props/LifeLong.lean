import Verif.Props.Authentic
import Verif.Props.Trust
import Verif.Props.InstallChecks
import Verif.Props.Semver

/-!
# C103: a device only ever boots complete systems from the factory or from releases for it

Joins C101 (any bundle may be offered), C102 (whose signatures count), C100 and C68 (any number of interrupted updates), C16, C17 and C22 (which releases are for the device), C12 (images for slots).
-/

namespace Rauc.LifeLong

open Rauc.Bundle (Crypto Source Dev MountEnv AccessResults installMount checkBundle)
open Rauc.Create (Tools Dir openFile loadText)
open Rauc.EndToEnd (Device DevSteps DevStep SlotData Honest Covered OnSlot Sha)
open Rauc.WholeUpdate (Booted)
open Rauc.Boot (Backend allRd)
open Rauc.System (Update Atomic BootTarget Interrupted IsTarget Bootable)
open Rauc.Select (Plan HasRoot RightVariant FlatParents)
open Rauc.Authenticity
open Rauc.Install (World Args Checked install plansOf replay restart St)

/-! ## Specification -/

/-- what does not change during the life of a device: its slots, what the handlers look at in their configuration, `compatible`, `min-bundle-version`, `variant-*` -/
structure Site where
  slots : List Slot
  target : Slot → Rauc.Update.Target
  compatible : Str
  limit : Option Str
  variant : Option Str
  /-- the class of the slots a system is booted from -/
  system : Str

/-- The usual arrangement: systems are booted from the slots of one class, below each of which there is at most one slot of every other class of the system. -/
structure Layout (S : Site) : Prop where
  some_system : ∃ s ∈ S.slots, s.sclass = S.system
  systems : ∀ s ∈ S.slots, s.sclass = S.system → s.parent = none ∧ s.bootname ≠ none
  classes : ∀ s ∈ S.slots, ∀ s' ∈ S.slots, ∀ r r', s.sclass = s'.sclass → HasRoot S.slots s r → HasRoot S.slots s' r' → r.sclass = S.system → r'.sclass = S.system
  single : ∀ s ∈ S.slots, ∀ s' ∈ S.slots, ∀ r, s.sclass = s'.sclass → HasRoot S.slots s r → HasRoot S.slots s' r → r.sclass = S.system → s = s'

/-- The release is for this device: it says so (or brings a program that decides, an install-check hook), and it is not older than the limit. -/
structure ForSite (S : Site) (R : Release) : Prop where
  compatible : R.manifest.installCheck = false → R.manifest.compatible = S.compatible
  version : ∀ lim, S.limit = some lim → ∃ v pl pv, R.manifest.version = some v ∧ Semver.parse lim = some pl ∧ Semver.parse v = some pv ∧ Semver.Ver.LE pl.ver pv.ver

/-- The slot holds an image from a release for this device, byte for byte: the one for the slot's class and for the variant of the device. -/
def Released (S : Site) (T : Tools) (releases : Release → Prop) (s : Slot) (y : SlotData) : Prop :=
  ∃ R i ty data, releases R ∧ ForSite S R ∧ i ∈ R.manifest.images ∧ i.slotclass = s.sclass ∧ RightVariant S.variant R.manifest.images i ∧ Stated T R.files i data ∧
    i.typ = some ty ∧ OnSlot T ty (S.target s).slotType data y

/-- Somebody has offered a bundle, which is checked with (`K`, `cfg`) and mounted as device `d`. `c` and `inner` are the manifest of the checked bundle and the one in a plain bundle, `F` the files that can be
read. The bundle file or server and everything the kernel reads from it are arbitrary (`seen` collects the blocks). -/
def Offered (T : Tools) (seen : Bytes → Prop) (K : Crypto) (cfg : Bundle.Config) (d : Dev) (c : Checked) (inner : Option Manifest) (F : Dir) : Prop :=
  ∃ (running : Str) (acc : AccessResults) (e : MountEnv) (src : Source) (req : Option Str) (b : Bundle.Bundle),
    d ∈ (installMount K cfg (loadText T) running acc e src req).1 ∧ checkBundle K cfg (loadText T) {} acc src = some b ∧ c.manifest = b.manifest ∧ Shows T seen b.stream d F ∧
    ∀ mi, inner = some mi → (openFile F c!"manifest.raucm").bind (loadText T) = some mi

/-- One attempt to install something, on a device that runs from its primary slot (recognised from the kernel command line), in state `w.st0`. -/
structure Attempt (B : Backend) (P : List Slot → B.Env → Slot → Prop) (S : Site) (T : Tools) (seen : Bytes → Prop) (devs : Dev → Prop) (trust : Crypto → Bundle.Config → Prop) (env : B.Env)
    (w : World) (a : Args) (c : Checked) (inner : Option Manifest) (F : Dir) (pre : List Install.Ev) : Prop where
  shared : w.cfg.perSlot = false
  site : w.cfg.compatible = S.compatible ∧ w.cfg.minBundleVersion = S.limit ∧ w.cfg.variant = S.variant
  options : a.ignoreCompatible = false ∧ a.ignoreVersionLimit = false
  running : ∃ state status b, B.getPrimary allRd S.slots env = some b ∧ Booted S.slots state b ∧ w.group = Select.targetGroup false state status S.slots
  offer : Install.Ev.mount true ∈ (install w a c inner).1 → ∃ K cfg d, trust K cfg ∧ devs d ∧ Offered T seen K cfg d c inner F
  /-- what is assumed about the boot loader's data (`P`, nothing except for EFI) -/
  ready : ∀ t ∈ S.slots, t.sclass = S.system → P S.slots env t
  /-- a handler can only be successful if it could read its file -/
  reads : ∀ s i, Install.Ev.writeEnd s i true ∈ pre → ∃ g x, i.filename = some g ∧ openFile F g = some x

/-- The life of a device: any number of attempts to install whatever was offered. Each of them ends at any moment (it is refused, it fails, it succeeds, or the power fails), followed by a restart. -/
inductive Life (B : Backend) (P : List Slot → B.Env → Slot → Prop) (S : Site) (T : Tools) (sha : Sha) (seen : Bytes → Prop) (devs : Dev → Prop) (trust : Crypto → Bundle.Config → Prop)
    (st0 : St) (env0 : B.Env) (dev0 : Str → SlotData) : St → B.Env → (Str → SlotData) → Prop
  | start : Life B P S T sha seen devs trust st0 env0 dev0 st0 env0 dev0
  | attempt {env env' : B.Env} {dev dev' : Str → SlotData} {w : World} {a : Args} {c : Checked} {inner : Option Manifest} {F : Dir} {pre : List Install.Ev} :
      Life B P S T sha seen devs trust st0 env0 dev0 w.st0 env dev → Attempt B P S T seen devs trust env w a c inner F pre →
      Interrupted B S.slots env (install w a c inner).1 pre env' → DevSteps ⟨T, sha, F, S.target⟩ dev pre dev' →
      Life B P S T sha seen devs trust st0 env0 dev0 (restart (replay w.cfg w.st0 pre)) env' dev'

/-- what is assumed of releases: they are for a whole system, have no custom handler, and all images are archives or plain images (C98), about which the manifest tells the truth -/
structure Careful (S : Site) (T : Tools) (R : Release) : Prop where
  whole : ∀ s ∈ S.slots, ∀ r, HasRoot S.slots s r → r.sclass = S.system → Select.ClassInManifest R.manifest.images s.sclass
  noHandler : R.manifest.handlerName = none
  kinds : ∀ i ∈ R.manifest.images, ∀ s ∈ S.slots, s.sclass = i.slotclass → ∃ ty, Covered i (S.target s) ty
  stated : ∀ i ∈ R.manifest.images, ∀ g, i.filename = some g → ∃ data, Stated T R.files i data

/-! ## Proofs -/

/-- nothing happens to slots or to the boot loader's data -/
def Still (e : Install.Ev) : Prop := System.reqOf e = none ∧ System.about e = none ∧ e ≠ .customStart ∧ ∀ b, e ≠ .customEnd b

theorem still_of_unmounted {w : World} {a : Args} {c : Checked} {inner : Option Manifest} (h : Install.Ev.mount true ∉ (install w a c inner).1 ∨ (c.manifest <|> inner) = none) :
    ∀ e ∈ (install w a c inner).1, Still e := by
  rcases Install.install_shape w a c inner with ⟨x, y, hx, hy, -⟩ | ⟨-, ⟨t, hx, htt⟩, -⟩ | ⟨-, m', e1, e2, u, hm', hx, -⟩
  · rw [hx]
    rcases hy with rfl | ⟨b, rfl⟩ <;> simp [Still, System.reqOf, System.about]
  · rw [hx]
    rcases htt with rfl | ⟨-, -, b, rfl⟩ <;> simp [Still, System.reqOf, System.about]
  · rcases h with h | h
    · exact absurd (by rw [hx]; simp) h
    · rw [hm'] at h; cases h

theorem still_of_no_plans {w : World} {a : Args} {c : Checked} {inner : Option Manifest} {m : Manifest} (hm : (c.manifest <|> inner) = some m) (hh : m.handlerName = none)
    (hp : plansOf w m = none) : ∀ e ∈ (install w a c inner).1, Still e := by
  obtain ⟨h, dh, post, hE, hq1, hq2, hd, -⟩ := System.install_core w a c inner m hm hh
  have hdh : dh = [] := by
    rcases hd with rfl | hd
    · rfl
    have e : Install.defaultHandler w m a.transaction h = (h, .failed) := by
      unfold plansOf at hp
      unfold Install.defaultHandler
      simp only [hp]
    rw [e] at hd
    simpa using hd
  subst hdh
  rw [hE]
  intro e he
  have hq : System.quiet e := by
    simp only [List.append_nil, List.mem_append] at he
    rcases he with he | he
    · exact hq1 e he
    · exact hq2 e he
  refine ⟨hq.1, System.quiet_about hq.2.1, ?_, ?_⟩
  · rintro rfl; have := hq.2.2; simp [Install.Ev.isWrite] at this
  · rintro b rfl; have := hq.2.2; simp [Install.Ev.isWrite] at this

/-- where the content of a slot is from -/
theorem origin {D : Device} {n : Str} {Good : SlotData → Prop} {c : Install.Cfg} {x0 : SlotData} {evs : List Install.Ev}
    (hc : ∀ e ∈ evs, e ≠ .customStart ∧ ∀ b, e ≠ .customEnd b)
    (hw : ∀ s i, Install.Ev.writeEnd s i true ∈ evs → s.name = n → ∀ dev dev', DevStep D dev (.writeEnd s i true) dev' → Good (dev' n))
    {st : St} {dev dev' : Str → SlotData} (h : DevSteps D dev evs dev') (h0 : st.content n = none ∨ dev n = x0 ∨ Good (dev n)) :
    (replay c st evs).content n = none ∨ dev' n = x0 ∨ Good (dev' n) := by
  induction evs generalizing st dev with
  | nil => cases h; exact h0
  | cons e es ih =>
    cases h with
    | @cons _ dev1 _ _ _ h1 h2 =>
      refine ih (fun x hx => hc x (List.mem_cons_of_mem _ hx)) (fun s i hm => hw s i (List.mem_cons_of_mem _ hm)) (st := Install.apply c st e) h2 ?_
      by_cases ha : System.about e = some n
      · cases e with
        | setMem k st' =>
          have e1 : dev1 = dev := h1
          rw [e1]
          exact h0
        | writeStart s i k =>
          left
          simp only [System.about, Option.some.injEq] at ha
          simp [Install.apply, Install.upd, ha]
        | writeEnd s i b =>
          simp only [System.about, Option.some.injEq] at ha
          cases b with
          | false =>
            have e1 : dev1 = dev := h1
            rw [e1]
            exact h0
          | true => exact Or.inr (Or.inr (hw s i (by simp) ha dev dev1 h1))
        | _ => simp [System.about] at ha
      · rw [EndToEnd.dev_frame h1 ha (hc e (by simp)), (System.apply_frame ha).2.1]
        exact h0

theorem version_le {lim v : Str} (h : Semver.lessEqual lim v = some true) : ∃ pl pv, Semver.parse lim = some pl ∧ Semver.parse v = some pv ∧ Semver.Ver.LE pl.ver pv.ver := by
  have : Semver.checkVersionLimits (some lim) false (some v) = true := by simp [Semver.checkVersionLimits, h]
  obtain ⟨v', pm, pv, h1, h2, h3, h4⟩ := (Semver.C22_fails_closed lim (some v)).1 this
  cases h1
  exact ⟨pm, pv, h2, h3, h4⟩

/-- a bundle for a whole system is installed to a whole system -/
theorem whole_system {S : Site} (hL : Layout S) (hu : Select.UniqueNames S.slots) (hf : FlatParents S.slots) {images : List Image}
    (hw : ∀ s ∈ S.slots, ∀ r, HasRoot S.slots s r → r.sclass = S.system → Select.ClassInManifest images s.sclass) {state : Slot → Select.State} {status : Slot → SlotStatus} {variant : Option Str}
    {repos : List Str} {ok : Bool} {plans : List Plan} (h : Select.makePlans variant (Select.targetGroup false state status S.slots) repos ok images = some plans) :
    ∃ t ∈ S.slots, t.sclass = S.system ∧ BootTarget plans t ∧ ∀ s ∈ S.slots, HasRoot S.slots s t → IsTarget plans s.name := by
  have plan : ∀ s ∈ S.slots, ∀ r, HasRoot S.slots s r → r.sclass = S.system →
      ∃ p ∈ plans, ∃ t hd, p.target = .slot t hd ∧ Select.targetGroup false state status S.slots s.sclass = some t := by
    intro s hs r hr hrs
    have hone := Select.C12_exactly_once _ _ _ _ _ _ h s.sclass
    rw [if_pos (decide_eq_true (show ∃ i ∈ images, i.artifact = none ∧ i.slotclass = s.sclass from hw s hs r hr hrs))] at hone
    obtain ⟨p, hp⟩ := List.exists_mem_of_length_pos (by rw [hone]; exact Nat.one_pos)
    simp only [List.mem_filter, Bool.and_eq_true, decide_eq_true_eq] at hp
    obtain ⟨hp, hsp, hcl⟩ := hp
    cases ht : p.target with
    | repo n => rw [Select.isSlotPlan, ht] at hsp; exact absurd hsp (by simp)
    | slot t hd =>
      obtain ⟨-, -, -, g, -⟩ := Select.C12_plan_ok _ _ _ _ _ _ h p hp t hd ht
      rw [hcl] at g
      exact ⟨p, hp, t, hd, ht, g⟩
  obtain ⟨s0, hs0, hc0⟩ := hL.some_system
  obtain ⟨p, hp, t, hd, ht, hg⟩ := plan s0 hs0 s0 (Or.inl ⟨(hL.systems s0 hs0 hc0).1, rfl⟩) hc0
  obtain ⟨t1, t2, -⟩ := Select.targetGroup_facts hg
  have t3 : t.sclass = S.system := t2.trans hc0
  obtain ⟨t4, t5⟩ := hL.systems t t1 t3
  refine ⟨t, t1, t3, ⟨p, hp, hd, ht, t4, t5⟩, ?_⟩
  intro s hs hr
  obtain ⟨p', hp', s', hd', ht', hg'⟩ := plan s hs t hr t3
  obtain ⟨k1, k2, r', k3, k4, -, -⟩ := Select.C10_consistent false state status S.slots hu hf _ s' hg'
  have k5 : r'.sclass = S.system := hL.classes s hs s' k1 t r' k2.symm hr k3 t3
  have k6 : r' = t := Select.C10_one_group false state status S.slots hu hf _ _ s' t r' t hg' hg k3 (Or.inl ⟨t4, rfl⟩) (k5.trans t3.symm)
  subst k6
  have := hL.single s hs s' k1 r' k2.symm hr k3 t3
  subst this
  exact ⟨p', hp', s, hd', ht', rfl⟩

theorem still_content {c : Install.Cfg} {st : St} {evs : List Install.Ev} (h : ∀ e ∈ evs, Still e) {n : Str} : (replay c st evs).content n = st.content n := by
  induction evs generalizing st with
  | nil => rfl
  | cons e es ih =>
    have h1 : (replay c (Install.apply c st e) es).content n = (Install.apply c st e).content n := ih (fun x hx => h x (List.mem_cons_of_mem _ hx))
    have h2 := (System.apply_frame (c := c) (st := st) (e := e) (k := n) (by rw [(h e (by simp)).2.1]; simp)).2.1
    exact h1.trans h2

/-- **C103** Anybody may offer bundles to a device, any number of times, and the power may fail at any moment. The device always boots from a root slot, and each slot of the
system that it boots holds what it held in the factory or, byte for byte, an image of a release for this device - unless SHA-256 is broken or a payload had the wrong size (see C101). -/
theorem C103_life {B : Backend} {P Q : List Slot → B.Env → Slot → Prop} (A : Atomic B P Q) {S : Site} {T : Tools} (hT : ∀ b, (T.sha b).length = 32) {sha : Sha} {seen : Bytes → Prop} {devs : Dev → Prop}
    {trust : Crypto → Bundle.Config → Prop} {releases : Release → Prop} (hR : ∀ K cfg, trust K cfg → OnlyReleases T K cfg releases) (hcare : ∀ R, releases R → Careful S T R) (hL : Layout S)
    (hwf : SlotsWF S.slots) (hf : FlatParents S.slots) {st0 st : St} {env0 env : B.Env} {dev0 dev : Str → SlotData} (h0 : Install.Sound st0) (hb0 : Bootable B S.slots st0 env0)
    (h : Life B P S T sha seen devs trust st0 env0 dev0 st env dev) :
    (∃ r ∈ S.slots, r.parent = none ∧ B.getPrimary allRd S.slots env = some r ∧
      ∀ s ∈ S.slots, HasRoot S.slots s r → dev s.name = dev0 s.name ∨ Released S T releases s (dev s.name)) ∨
    Broken T seen releases ∨ (∃ d, devs d ∧ OtherDepth releases d) ∨ EndToEnd.Clash sha := by
  by_cases hex : Broken T seen releases ∨ (∃ d, devs d ∧ OtherDepth releases d) ∨ EndToEnd.Clash sha
  · exact Or.inr hex
  left
  have key : (Install.Reach st ∧ Bootable B S.slots st env) ∧
      ∀ s ∈ S.slots, st.content s.name = none ∨ dev s.name = dev0 s.name ∨ Released S T releases s (dev s.name) := by
    induction h with
    | start => exact ⟨⟨.init h0, hb0⟩, fun s _ => Or.inr (Or.inl rfl)⟩
    | @attempt env env' dev dev' w a c inner F pre _ hA hi hdev ih =>
      obtain ⟨⟨hr, hbt⟩, hinv⟩ := ih
      suffices hh : Bootable B S.slots (restart (replay w.cfg w.st0 pre)) env' ∧
          ∀ s ∈ S.slots, (replay w.cfg w.st0 pre).content s.name = none ∨ dev' s.name = dev0 s.name ∨ Released S T releases s (dev' s.name) from
        ⟨⟨.installCrash w a c inner pre hA.shared hr hi.prefix, hh.1⟩, hh.2⟩
      have silent : (∀ e ∈ (install w a c inner).1, Still e) → Bootable B S.slots (restart (replay w.cfg w.st0 pre)) env' ∧
          ∀ s ∈ S.slots, (replay w.cfg w.st0 pre).content s.name = none ∨ dev' s.name = dev0 s.name ∨ Released S T releases s (dev' s.name) := by
        intro hq
        obtain ⟨hp, rfl⟩ := hi.silent (fun e he => (hq e he).1)
        have hpre : ∀ e ∈ pre, Still e := fun e he => hq e (hp.subset he)
        refine ⟨?_, fun s hs => origin (c := w.cfg) (fun e he => (hpre e he).2.2) ?_ hdev (hinv s hs)⟩
        · obtain ⟨r, h1, h2, h3, h4⟩ := hbt
          refine ⟨r, h1, h2, h3, fun s hs hroot => ?_⟩
          change (replay w.cfg w.st0 pre).content s.name ≠ none
          rw [still_content hpre]
          exact h4 s hs hroot
        · intro s i hm _
          have := (hpre _ hm).2.1
          simp [System.about] at this
      cases hm : (c.manifest <|> inner) with
      | none => exact silent (still_of_unmounted (Or.inr hm))
      | some m =>
        by_cases hmt : Install.Ev.mount true ∈ (install w a c inner).1
        case neg => exact silent (still_of_unmounted (Or.inl hmt))
        obtain ⟨K, cfg, d, htr, hdv, running, acc, e, src, req, b, hd, hb, hc, hsh, hinn⟩ := hA.offer hmt
        rcases C101_bundle T hT (hR K cfg htr) running acc e src req hd hb hsh hinn (by rw [← hc]; exact hm) with ⟨R, hrel, hmm, hS⟩ | h | h
        case inr.inl => exact absurd (Or.inl h) hex
        case inr.inr => exact absurd (Or.inr (Or.inl ⟨d, hdv, h⟩)) hex
        have hcr := hcare R hrel
        have hnh : m.handlerName = none := by rw [hmm]; exact hcr.noHandler
        cases hp : plansOf w m with
        | none => exact silent (still_of_no_plans hm hnh hp)
        | some plans =>
          obtain ⟨state, status, bs, hprim, hbo, hg⟩ := hA.running
          obtain ⟨-, -, realpath, n, hfb, rfl⟩ := hbo.facts
          have hp' := hp
          unfold plansOf at hp'
          rw [hg] at hp'
          obtain ⟨t, ht1, ht2, ht, hcov⟩ := whole_system hL hwf.name_inj hf (images := m.images) (by rw [hmm]; exact hcr.whole) hp'
          have hP := hA.ready t ht1 ht2
          refine ⟨System.C68_life A hwf hf hr hbt (System.Life.update w a c inner m plans status realpath n bs t pre .start hA.shared hm hnh hp hprim hfb hg ht hcov hP hi), ?_⟩
          intro s hs
          have hfrom := EndToEnd.install_writes (a := a) hm hnh hp
          refine origin (c := w.cfg) (fun e he => (hfrom e (hi.prefix.subset he)).1) ?_ hdev (hinv s hs)
          intro s' i hwr hn dv dv' hst
          obtain ⟨p, hpm, hdl, htg, rfl⟩ := (hfrom _ (hi.prefix.subset hwr)).2 s' i rfl
          obtain ⟨g1, -, g3, g4, -, -⟩ := Select.C12_plan_ok _ _ _ _ _ _ hp p hpm s' hdl htg
          rw [hg] at g4
          obtain ⟨g5, g6, -⟩ := Select.targetGroup_facts g4
          have hss : s' = s := hwf.name_inj s' g5 s hs hn
          subst hss
          rw [hmm] at g1 g3
          obtain ⟨ty, hcv⟩ := hcr.kinds p.image g1 s' hs g6
          obtain ⟨g, x, hg1, hg2⟩ := hA.reads s' p.image hwr
          obtain ⟨data, hstd⟩ := hcr.stated p.image g1 g hg1
          have hh : Honest ⟨T, sha, F, S.target⟩ p.image data := honest_of (D := ⟨T, sha, F, S.target⟩) hS hstd ⟨g, x, hg1, hg2⟩
          have hon : OnSlot T ty (S.target s').slotType data (dv' s'.name) := by
            have O : EndToEnd.Only ⟨T, sha, F, S.target⟩ s'.name s' p.image ty data [.writeEnd s' p.image true] := by
              refine ⟨?_, by simp, rfl, hh, hcv⟩
              intro a1 a2 h1 _
              simp only [List.mem_singleton, Install.Ev.writeEnd.injEq, and_true] at h1
              exact h1
            rcases EndToEnd.written_event O hst with h | h
            · exact h
            · exact absurd (Or.inr (Or.inr h)) hex
          refine ⟨R, p.image, ty, data, hrel, ?_, g1, g6.symm, by rw [← hA.site.2.2]; exact g3, hstd, hcv.typ, hon⟩
          obtain ⟨l1, l2, hl⟩ := List.append_of_mem (hi.prefix.subset hwr)
          obtain ⟨k1, k2⟩ := Install.C16_checked_before_write w a c inner m hm l1 l2 _ hl (Or.inl rfl)
          constructor
          · intro hic
            rcases k1 with ⟨k1, -⟩ | ⟨-, k1 | k1⟩
            · rw [hmm] at k1
              rw [show R.manifest.installCheck = true from k1] at hic
              cases hic
            · rw [hA.options.1] at k1; cases k1
            · rw [← hA.site.1, k1, hmm]
          · intro lim hlim
            rcases k2 with k2 | k2 | ⟨lim', v, k2, k3, k4⟩
            · rw [hA.site.2.1, hlim] at k2; cases k2
            · rw [hA.options.2] at k2; cases k2
            · rw [hA.site.2.1, hlim] at k2
              cases k2
              obtain ⟨pl, pv, k5, k6, k7⟩ := version_le k4
              rw [hmm] at k3
              exact ⟨v, pl, pv, k3, k5, k6, k7⟩
  obtain ⟨⟨-, r, hrm, hrp, hprim, hcont⟩, hinv⟩ := key
  refine ⟨r, hrm, hrp, hprim, fun s hs hroot => ?_⟩
  rcases hinv s hs with h | h
  · exact absurd h (hcont s hs hroot)
  · exact h

/-- **C103, from the configuration.** The slots are those of an accepted configuration file, and signatures are verified with the keyring of the configuration in effect, at whatever time. If all those whose signatures are accepted
by this device (see C102) sign only releases, the device only ever boots complete systems from the factory or from releases for it. -/
theorem C103_configured {B : Backend} {P Q : List Slot → B.Env → Slot → Prop} (A : Atomic B P Q) {S : Site} {T : Tools} (hT : ∀ b, (T.sha b).length = 32) {sha : Sha} {seen : Bytes → Prop} {devs : Dev → Prop}
    {E : Option Str → ConfigFile.Env} {fs : Str → Context.FileState} {target : ConfigFile.Cfg → Bool} {svc : Bool} {cmd : Context.Cmd} {o : Context.Opts} {c : ConfigFile.Cfg}
    (hc : Context.start E fs target svc cmd o = some c) {O : Trust.Ossl} {W : Trust.World} (hO : Trust.Sound O W) {releases : Release → Prop}
    (hsign : ∀ now ovs base sig s chain content, Context.Base E fs svc cmd o.conf ovs base → Trust.Trusted O W now o base false sig s chain → W.signed s.cert content →
      (∀ m, loadText T content = some m → ∃ R, releases R ∧ R.manifest = m ∧ Published T R) ∧
      (∀ files m, T.unpack content = some files → (openFile files c!"manifest.raucm").bind (loadText T) = some m → ∃ R, releases R ∧ R.manifest = m ∧ R.files = files))
    (hcare : ∀ R, releases R → Careful S T R) (hL : Layout S) {Ec : Config.Env} {kf : KeyFile} {repos : List Str} (hg : kf.GroupsNodup) (hl : Config.loadSlots Ec kf repos = some S.slots)
    {st0 st : St} {env0 env : B.Env} {dev0 dev : Str → SlotData} (h0 : Install.Sound st0) (hb0 : Bootable B S.slots st0 env0)
    (h : Life B P S T sha seen devs (fun K cfg => ∃ now, K = Trust.crypto O now c ∧ cfg = Trust.bundleConfig c) st0 env0 dev0 st env dev) :
    (∃ r ∈ S.slots, r.parent = none ∧ B.getPrimary allRd S.slots env = some r ∧
      ∀ s ∈ S.slots, HasRoot S.slots s r → dev s.name = dev0 s.name ∨ Released S T releases s (dev s.name)) ∨
    Broken T seen releases ∨ (∃ d, devs d ∧ OtherDepth releases d) ∨ EndToEnd.Clash sha := by
  obtain ⟨g1, g2, -⟩ := Config.C23_loaded_wf hg hl
  refine C103_life A hT ?_ hcare hL g1 (fun s hs p hp => (g2 s hs p hp).2) h0 hb0 h
  rintro K cfg ⟨now, rfl, rfl⟩
  exact Trust.C102_releases hc hO now (fun ovs base sig s chain content => hsign now ovs base sig s chain content)

end Rauc.LifeLong
