import Verif.Props.Fallback
import Verif.Props.LifeLong

/-!
# C110: whichever slot the boot loader falls back to, its bytes are from the factory or from releases

C103 is about the primary slot, with a restart after every attempt. Here the boot loader chooses as in C109.
-/

namespace Rauc.LifeLong

open Rauc.Bundle (Crypto Dev)
open Rauc.Create (Tools Dir openFile loadText)
open Rauc.EndToEnd (Device DevSteps DevStep SlotData Honest Covered OnSlot Sha)
open Rauc.WholeUpdate (Booted)
open Rauc.Boot (Backend Req Marked)
open Rauc.System (Interrupted IsTarget BootTarget Loader Fair BootSlot Whole Good Aimed Days reqOf about)
open Rauc.Select (Plan HasRoot RightVariant FlatParents)
open Rauc.Authenticity
open Rauc.Install (World Args Checked install plansOf replay restart St)

/-! ## Specification -/

/-- One attempt to install something, while the system in `b` runs (recognised from the kernel command line), in state `w.st0`. -/
structure Try (B : Backend) (P : List Slot → B.Env → Slot → Prop) (S : Site) (T : Tools) (seen : Bytes → Prop) (devs : Dev → Prop) (trust : Crypto → Bundle.Config → Prop) (b : Slot) (env : B.Env)
    (w : World) (a : Args) (c : Checked) (inner : Option Manifest) (F : Dir) (pre : List Install.Ev) : Prop where
  shared : w.cfg.perSlot = false
  site : w.cfg.compatible = S.compatible ∧ w.cfg.minBundleVersion = S.limit ∧ w.cfg.variant = S.variant
  options : a.ignoreCompatible = false ∧ a.ignoreVersionLimit = false
  running : ∃ state status, Booted S.slots state b ∧ w.group = Select.targetGroup false state status S.slots
  offer : Install.Ev.mount true ∈ (install w a c inner).1 → ∃ K cfg d, trust K cfg ∧ devs d ∧ Offered T seen K cfg d c inner F
  /-- what is assumed about the boot loader's data (`P`, nothing except for EFI) -/
  ready : ∀ t ∈ S.slots, t.sclass = S.system → P S.slots env t
  /-- a handler can only be successful if it could read its file -/
  reads : ∀ s i, Install.Ev.writeEnd s i true ∈ pre → ∃ g x, i.filename = some g ∧ openFile F g = some x

/-- The life of a device: starts (of any slot that the boot loader may boot, or of something else), marks, and attempts to install whatever was offered, which end at any moment. After an attempt the service goes on, or it is started
again. -/
inductive Life2 (B : Backend) (P : List Slot → B.Env → Slot → Prop) (L : Loader B) (S : Site) (T : Tools) (sha : Sha) (seen : Bytes → Prop) (devs : Dev → Prop) (trust : Crypto → Bundle.Config → Prop)
    (st0 : St) (env0 : B.Env) (dev0 : Str → SlotData) : Option Slot → St → B.Env → (Str → SlotData) → Prop
  | start : Life2 B P L S T sha seen devs trust st0 env0 dev0 none st0 env0 dev0
  | boot {x st env env' dev r} : Life2 B P L S T sha seen devs trust st0 env0 dev0 x st env dev → BootSlot S.slots r → L S.slots (some r) env env' →
      Life2 B P L S T sha seen devs trust st0 env0 dev0 (some r) (restart st) env' dev
  | noBoot {x st env env' dev} : Life2 B P L S T sha seen devs trust st0 env0 dev0 x st env dev → L S.slots none env env' → Life2 B P L S T sha seen devs trust st0 env0 dev0 none (restart st) env' dev
  | mark {b st env dev} (q : Req) (rd : Str → Bool) (n : Nat) : Life2 B P L S T sha seen devs trust st0 env0 dev0 (some b) st env dev → q.slot ∈ S.slots →
      (q.slot = b ∨ q = .setState q.slot false ∨ Good B S.slots env q.slot) → Life2 B P L S T sha seen devs trust st0 env0 dev0 (some b) st (B.ev S.slots env ⟨q, rd, n⟩) dev
  | attempt {b : Slot} {env env' : B.Env} {dev dev' : Str → SlotData} {w : World} {a : Args} {c : Checked} {inner : Option Manifest} {F : Dir} {pre : List Install.Ev} {st' : St} :
      Life2 B P L S T sha seen devs trust st0 env0 dev0 (some b) w.st0 env dev → Try B P S T seen devs trust b env w a c inner F pre →
      Interrupted B S.slots env (install w a c inner).1 pre env' → DevSteps ⟨T, sha, F, S.target⟩ dev pre dev' →
      (st' = restart (replay w.cfg w.st0 pre) ∨ (pre = (install w a c inner).1 ∧ st' = replay w.cfg w.st0 pre)) →
      Life2 B P L S T sha seen devs trust st0 env0 dev0 (some b) st' env' dev'

/-- releases have images for the systems of the class that is updated only, not for other systems that could be booted -/
def OnlySystem (S : Site) (R : Release) : Prop :=
  ∀ i ∈ R.manifest.images, ∀ s ∈ S.slots, s.sclass = i.slotclass → ∀ r, HasRoot S.slots s r → r.bootname ≠ none → r.sclass = S.system

/-! ## Proofs -/

/-- one attempt: what is in the slots, and what it was for the boot loader -/
theorem try_step {B : Backend} {P : List Slot → B.Env → Slot → Prop} {S : Site} {T : Tools} (hT : ∀ b, (T.sha b).length = 32) {sha : Sha} {seen : Bytes → Prop} {devs : Dev → Prop}
    {trust : Crypto → Bundle.Config → Prop} {releases : Release → Prop} (hR : ∀ K cfg, trust K cfg → OnlyReleases T K cfg releases) (hcare : ∀ R, releases R → Careful S T R ∧ OnlySystem S R) (hL : Layout S)
    (hwf : SlotsWF S.slots) (hf : FlatParents S.slots) (hex : ¬ (Broken T seen releases ∨ (∃ d, devs d ∧ OtherDepth releases d) ∨ EndToEnd.Clash sha)) {b : Slot} {env env' : B.Env} {dev0 dev dev' : Str → SlotData} {w : World}
    {a : Args} {c : Checked} {inner : Option Manifest} {F : Dir} {pre : List Install.Ev} (hA : Try B P S T seen devs trust b env w a c inner F pre) (hi : Interrupted B S.slots env (install w a c inner).1 pre env')
    (hdev : DevSteps ⟨T, sha, F, S.target⟩ dev pre dev') (hinv : ∀ s ∈ S.slots, w.st0.content s.name = none ∨ dev s.name = dev0 s.name ∨ Released S T releases s (dev s.name)) :
    ((∀ e ∈ (install w a c inner).1, Still e) ∨ ∃ t, Aimed B P S.slots b env w c inner t) ∧
    ∀ s ∈ S.slots, (replay w.cfg w.st0 pre).content s.name = none ∨ dev' s.name = dev0 s.name ∨ Released S T releases s (dev' s.name) := by
  have silent : (∀ e ∈ (install w a c inner).1, Still e) → ((∀ e ∈ (install w a c inner).1, Still e) ∨ ∃ t, Aimed B P S.slots b env w c inner t) ∧
      ∀ s ∈ S.slots, (replay w.cfg w.st0 pre).content s.name = none ∨ dev' s.name = dev0 s.name ∨ Released S T releases s (dev' s.name) := by
    intro hq
    have hpre : ∀ e ∈ pre, Still e := fun e he => hq e (hi.prefix.subset he)
    refine ⟨.inl hq, fun s hs => origin (c := w.cfg) (fun e he => (hpre e he).2.2) ?_ hdev (hinv s hs)⟩
    intro s i hm _
    have := (hpre _ hm).2.1
    simp [System.about] at this
  cases hm : (c.manifest <|> inner) with
  | none => exact silent (still_of_unmounted (Or.inr hm))
  | some m =>
    by_cases hmt : Install.Ev.mount true ∈ (install w a c inner).1
    case neg => exact silent (still_of_unmounted (Or.inl hmt))
    obtain ⟨K, cfg, d, htr, hdv, running, acc, e, src, req, bu, hd, hb, hc, hsh, hinn⟩ := hA.offer hmt
    rcases C101_bundle T hT (hR K cfg htr) running acc e src req hd hb hsh hinn (by rw [← hc]; exact hm) with ⟨R, hrel, hmm, hS⟩ | h | h
    case inr.inl => exact absurd (Or.inl h) hex
    case inr.inr => exact absurd (Or.inr (Or.inl ⟨d, hdv, h⟩)) hex
    obtain ⟨hcr, hos⟩ := hcare R hrel
    have hnh : m.handlerName = none := by rw [hmm]; exact hcr.noHandler
    cases hp : plansOf w m with
    | none => exact silent (still_of_no_plans hm hnh hp)
    | some plans =>
      obtain ⟨state, status, hbo, hg⟩ := hA.running
      obtain ⟨-, -, realpath, n, hfb, rfl⟩ := hbo.facts
      have hp' := hp
      unfold plansOf at hp'
      rw [hg] at hp'
      obtain ⟨t, ht1, ht2, ht, hcov⟩ := whole_system hL hwf.name_inj hf (images := m.images) (by rw [hmm]; exact hcr.whole) hp'
      have hP := hA.ready t ht1 ht2
      refine ⟨.inr ⟨t, hA.shared, ⟨m, plans, hm, hnh, hp, ht, hcov, ?_⟩, ⟨status, realpath, n, hfb, hg⟩, hP⟩, ?_⟩
      · rintro s hs ⟨p, hpm, s', hdl, htg, hn⟩ r hr hbn
        obtain ⟨g1, -, -, g4, -, -⟩ := Select.C12_plan_ok _ _ _ _ _ _ hp' p hpm s' hdl htg
        obtain ⟨g5, g6, -⟩ := Select.targetGroup_facts g4
        have hss : s' = s := hwf.name_inj s' g5 s hs hn
        subst hss
        rw [hmm] at g1
        have hrs : r.sclass = S.system := hos p.image g1 s' hs g6 r hr hbn
        obtain ⟨p0, hp0, hd0, ht0, ht0p, -⟩ := ht
        obtain ⟨-, -, -, k4, -, -⟩ := Select.C12_plan_ok _ _ _ _ _ _ hp' p0 hp0 t hd0 ht0
        exact Select.C10_one_group false _ status S.slots hwf.name_inj hf _ _ s' t r t g4 k4 hr (Or.inl ⟨ht0p, rfl⟩) (hrs.trans ht2.symm)
      · intro s hs
        have hfrom := EndToEnd.install_writes (a := a) hm hnh hp
        refine origin (c := w.cfg) (fun e he => (hfrom e (hi.prefix.subset he)).1) ?_ hdev (hinv s hs)
        intro s' i hwr hn dv dv' hst
        obtain ⟨p, hpm, hdl, htg, rfl⟩ := (hfrom _ (hi.prefix.subset hwr)).2 s' i rfl
        obtain ⟨g1, -, g3, g4, -, -⟩ := Select.C12_plan_ok _ _ _ _ _ _ hp p hpm s' hdl htg
        rw [hg] at g4
        obtain ⟨g5, g6, -⟩ := Select.targetGroup_facts g4
        have hss : s' = s := hwf.name_inj s' g5 s hs hn
        subst hss
        rw [hmm] at g1 g3
        obtain ⟨ty, hcv⟩ := hcr.kinds p.image g1 s' hs g6
        obtain ⟨g, x, hg1, hg2⟩ := hA.reads s' p.image hwr
        obtain ⟨data, hstd⟩ := hcr.stated p.image g1 g hg1
        have hh : Honest ⟨T, sha, F, S.target⟩ p.image data := honest_of (D := ⟨T, sha, F, S.target⟩) hS hstd ⟨g, x, hg1, hg2⟩
        have hon : OnSlot T ty (S.target s').slotType data (dv' s'.name) := by
          have O : EndToEnd.Only ⟨T, sha, F, S.target⟩ s'.name s' p.image ty data [.writeEnd s' p.image true] := by
            refine ⟨?_, by simp, rfl, hh, hcv⟩
            intro a1 a2 h1 _
            simp only [List.mem_singleton, Install.Ev.writeEnd.injEq, and_true] at h1
            exact h1
          rcases EndToEnd.written_event O hst with h | h
          · exact h
          · exact absurd (Or.inr (Or.inr h)) hex
        refine ⟨R, p.image, ty, data, hrel, ?_, g1, g6.symm, by rw [← hA.site.2.2]; exact g3, hstd, hcv.typ, hon⟩
        obtain ⟨l1, l2, hl⟩ := List.append_of_mem (hi.prefix.subset hwr)
        obtain ⟨k1, k2⟩ := Install.C16_checked_before_write w a c inner m hm l1 l2 _ hl (Or.inl rfl)
        constructor
        · intro hic
          rcases k1 with ⟨k1, -⟩ | ⟨-, k1 | k1⟩
          · rw [hmm] at k1
            rw [show R.manifest.installCheck = true from k1] at hic
            cases hic
          · rw [hA.options.1] at k1; cases k1
          · rw [← hA.site.1, k1, hmm]
        · intro lim hlim
          rcases k2 with k2 | k2 | ⟨lim', v, k2, k3, k4⟩
          · rw [hA.site.2.1, hlim] at k2; cases k2
          · rw [hA.options.2] at k2; cases k2
          · rw [hA.site.2.1, hlim] at k2
            cases k2
            obtain ⟨pl, pv, k5, k6, k7⟩ := version_le k4
            rw [hmm] at k3
            exact ⟨v, pl, pv, k3, k5, k6, k7⟩

/-- each slot of the system in `r` holds what it held in the factory, or an image of a release for this device -/
def FromRelease (S : Site) (T : Tools) (releases : Release → Prop) (dev0 dev : Str → SlotData) (r : Slot) : Prop :=
  ∀ s ∈ S.slots, HasRoot S.slots s r → dev s.name = dev0 s.name ∨ Released S T releases s (dev s.name)

/-- **C110** Anybody may offer bundles to a device, at any time, the power may fail at any moment, and the boot loader may fall back to any slot that is not bad. Each slot of the running system, and of every system that the boot loader may
boot or that RAUC calls good or primary, holds what it held in the factory or, byte for byte, an image of a release for this device - unless SHA-256 is broken or a payload had the wrong size (see C101). -/
theorem C110_fallback {B : Backend} {P : List Slot → B.Env → Slot → Prop} {Bad : List Slot → Slot → B.Env → Prop} (M : Marked B P Bad) {L : Loader B} {S : Site} {T : Tools} (hT : ∀ b, (T.sha b).length = 32) {sha : Sha}
    {seen : Bytes → Prop} {devs : Dev → Prop} {trust : Crypto → Bundle.Config → Prop} {releases : Release → Prop} (hR : ∀ K cfg, trust K cfg → OnlyReleases T K cfg releases)
    (hcare : ∀ R, releases R → Careful S T R ∧ OnlySystem S R) (hL : Layout S) (hwf : SlotsWF S.slots) (hf : FlatParents S.slots) (hfair : Fair L S.slots Bad) {st0 st : St} {env0 env : B.Env} {dev0 dev : Str → SlotData}
    (h0 : Install.Sound st0) (hb0 : ∀ r, BootSlot S.slots r → Whole S.slots st0 r ∨ Bad S.slots r env0) {x : Option Slot} (h : Life2 B P L S T sha seen devs trust st0 env0 dev0 x st env dev) :
    ((∀ b, x = some b → FromRelease S T releases dev0 dev b) ∧ (∀ r env', BootSlot S.slots r → L S.slots (some r) env env' → FromRelease S T releases dev0 dev r) ∧
      ∀ r, Good B S.slots env r → FromRelease S T releases dev0 dev r) ∨
    Broken T seen releases ∨ (∃ d, devs d ∧ OtherDepth releases d) ∨ EndToEnd.Clash sha := by
  by_cases hex : Broken T seen releases ∨ (∃ d, devs d ∧ OtherDepth releases d) ∨ EndToEnd.Clash sha
  · exact Or.inr hex
  left
  have key : Days B P L S.slots st0 env0 x st env ∧ ∀ s ∈ S.slots, st.content s.name = none ∨ dev s.name = dev0 s.name ∨ Released S T releases s (dev s.name) := by
    induction h with
    | start => exact ⟨.start, fun s _ => .inr (.inl rfl)⟩
    | boot _ hr hl ih => exact ⟨.boot ih.1 hr hl, ih.2⟩
    | noBoot _ hl ih => exact ⟨.noBoot ih.1 hl, ih.2⟩
    | mark q rd n _ h1 h2 ih => exact ⟨.mark q rd n ih.1 h1 h2, ih.2⟩
    | @attempt b env env' dev dev' w a c inner F pre st' _ hA hi hdev hst ih =>
      obtain ⟨hk, ho⟩ := try_step hT hR hcare hL hwf hf hex hA hi hdev ih.2
      have hcont : st'.content = (replay w.cfg w.st0 pre).content := by
        rcases hst with rfl | ⟨-, rfl⟩ <;> rfl
      refine ⟨?_, fun s hs => by rw [hcont]; exact ho s hs⟩
      rcases hk with hk | ⟨t, ht⟩
      · obtain ⟨hp, rfl⟩ := hi.silent (fun e he => (hk e he).1)
        exact .refused w a c inner pre st' ih.1 hA.shared hp (fun e he => ⟨(hk e he).1, (hk e he).2.1⟩) hst
      · exact .install w a c inner pre st' ih.1 ht hi hst
  have fin : ∀ r, Whole S.slots st r → FromRelease S T releases dev0 dev r := fun r hr s hs hroot => (key.2 s hs).resolve_left (hr s hs hroot)
  obtain ⟨k1, k2, k3⟩ := System.C109_fallback M hwf hf hfair (.init h0) hb0 key.1
  exact ⟨fun b hb => fin b (k1 b hb), fun r env' hr hl => fin r (k2 r env' hr hl), fun r hr => fin r (k3 r hr)⟩

/-- **C110, from the configuration.** The slots are those of an accepted configuration file, and signatures are verified with the keyring of the configuration in effect, at whatever time. If all those whose signatures are accepted
by this device (see C102) sign only releases, whatever the device boots or falls back to is from the factory or from releases for it. -/
theorem C110_configured {B : Backend} {P : List Slot → B.Env → Slot → Prop} {Bad : List Slot → Slot → B.Env → Prop} (M : Marked B P Bad) {L : Loader B} {S : Site} {T : Tools} (hT : ∀ b, (T.sha b).length = 32) {sha : Sha}
    {seen : Bytes → Prop} {devs : Dev → Prop} {E : Option Str → ConfigFile.Env} {fs : Str → Context.FileState} {target : ConfigFile.Cfg → Bool} {svc : Bool} {cmd : Context.Cmd} {o : Context.Opts} {c : ConfigFile.Cfg}
    (hc : Context.start E fs target svc cmd o = some c) {O : Trust.Ossl} {W : Trust.World} (hO : Trust.Sound O W) {releases : Release → Prop}
    (hsign : ∀ now ovs base sig s chain content, Context.Base E fs svc cmd o.conf ovs base → Trust.Trusted O W now o base false sig s chain → W.signed s.cert content →
      (∀ m, loadText T content = some m → ∃ R, releases R ∧ R.manifest = m ∧ Published T R) ∧
      (∀ files m, T.unpack content = some files → (openFile files c!"manifest.raucm").bind (loadText T) = some m → ∃ R, releases R ∧ R.manifest = m ∧ R.files = files))
    (hcare : ∀ R, releases R → Careful S T R ∧ OnlySystem S R) (hL : Layout S) {Ec : Config.Env} {kf : KeyFile} {repos : List Str} (hg : kf.GroupsNodup) (hl : Config.loadSlots Ec kf repos = some S.slots)
    (hfair : Fair L S.slots Bad) {st0 st : St} {env0 env : B.Env} {dev0 dev : Str → SlotData}
    (h0 : Install.Sound st0) (hb0 : ∀ r, BootSlot S.slots r → Whole S.slots st0 r ∨ Bad S.slots r env0) {x : Option Slot}
    (h : Life2 B P L S T sha seen devs (fun K cfg => ∃ now, K = Trust.crypto O now c ∧ cfg = Trust.bundleConfig c) st0 env0 dev0 x st env dev) :
    ((∀ b, x = some b → FromRelease S T releases dev0 dev b) ∧ (∀ r env', BootSlot S.slots r → L S.slots (some r) env env' → FromRelease S T releases dev0 dev r) ∧
      ∀ r, Good B S.slots env r → FromRelease S T releases dev0 dev r) ∨
    Broken T seen releases ∨ (∃ d, devs d ∧ OtherDepth releases d) ∨ EndToEnd.Clash sha := by
  obtain ⟨g1, g2, -⟩ := Config.C23_loaded_wf hg hl
  refine C110_fallback M hT ?_ hcare hL g1 (fun s hs p hp => (g2 s hs p hp).2) hfair h0 hb0 h
  rintro K cfg ⟨now, rfl, rfl⟩
  exact Trust.C102_releases hc hO now (fun ovs base sig s chain content => hsign now ovs base sig s chain content)

end Rauc.LifeLong
