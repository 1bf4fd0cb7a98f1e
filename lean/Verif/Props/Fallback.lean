import Verif.Props.System
import Verif.Model.BootScript

/-!
# C109: whichever slot the boot loader falls back to, it holds a complete system

C68 and C103 are about the primary slot, with a restart after every installation. Here the boot loader counts failed attempts and boots any slot that is not marked bad, the running system marks slots good and bad and
changes the active slot, and installations follow each other with or without a restart.
-/

namespace Rauc.System

open Rauc.Boot
open Rauc.Install (World Args Checked St replay restart install plansOf Reach Sound)
open Rauc.Select (Plan Target InBootedGroup HasRoot UniqueNames FlatParents targetGroup stateOf)

/-! ## Specification -/

/-- a slot that systems are booted from -/
def BootSlot (slots : List Slot) (r : Slot) : Prop := r ∈ slots ∧ r.parent = none ∧ r.bootname ≠ none

/-- neither the slot nor one of its children is half written -/
def Whole (slots : List Slot) (st : St) (r : Slot) : Prop := ∀ s ∈ slots, HasRoot slots s r → st.content s.name ≠ none

/-- RAUC calls this slot good or primary -/
def Good (B : Backend) (slots : List Slot) (env : B.Env) (r : Slot) : Prop :=
  BootSlot slots r ∧ ((∃ rd, B.getState rd env r = some true) ∨ ∃ rd, B.getPrimary rd slots env = some r)

/-- the boot loader, started with some data, may boot a slot, or something that is no slot (a rescue system) or nothing, and leave some data -/
abbrev Loader (B : Backend) := List Slot → Option Slot → B.Env → B.Env → Prop

/-- the boot loader does not boot bad slots, and bad slots stay bad -/
structure Fair {B : Backend} (L : Loader B) (slots : List Slot) (Bad : List Slot → Slot → B.Env → Prop) : Prop where
  off : ∀ r env env', BootSlot slots r → L slots (some r) env env' → ¬ Bad slots r env
  keep : ∀ x env env', L slots x env env' → ∀ s, BootSlot slots s → Bad slots s env → Bad slots s env'

/-- An installation while the system in `b` runs: for the slots selected accordingly, among them one boot slot `t`; the bundle has an image for every slot of the system in `t`, and for no other slot of a bootable system. -/
structure Aimed (B : Backend) (P : List Slot → B.Env → Slot → Prop) (slots : List Slot) (b : Slot) (env : B.Env) (w : World) (c : Checked) (inner : Option Manifest) (t : Slot) : Prop where
  shared : w.cfg.perSlot = false
  bundle : ∃ m plans, (c.manifest <|> inner) = some m ∧ m.handlerName = none ∧ plansOf w m = some plans ∧ BootTarget plans t ∧
    (∀ s ∈ slots, HasRoot slots s t → IsTarget plans s.name) ∧
    (∀ s ∈ slots, IsTarget plans s.name → ∀ r, HasRoot slots s r → r.bootname ≠ none → r = t)
  running : ∃ status realpath bs, Select.findBooted realpath bs slots = some b ∧ w.group = targetGroup false (stateOf b) status slots
  ready : P slots env t

/-- What can happen to a device; the first index is the slot whose system is running, if any. -/
inductive Days (B : Backend) (P : List Slot → B.Env → Slot → Prop) (L : Loader B) (slots : List Slot) (st0 : St) (env0 : B.Env) : Option Slot → St → B.Env → Prop
  | start : Days B P L slots st0 env0 none st0 env0
  /-- at any moment the device is switched on, or restarts; the boot loader chooses a slot -/
  | boot {x : Option Slot} {st : St} {env env' : B.Env} {r : Slot} : Days B P L slots st0 env0 x st env → BootSlot slots r → L slots (some r) env env' →
      Days B P L slots st0 env0 (some r) (restart st) env'
  | noBoot {x : Option Slot} {st : St} {env env' : B.Env} : Days B P L slots st0 env0 x st env → L slots none env env' → Days B P L slots st0 env0 none (restart st) env'
  /-- some or all of a request to mark the running system good, a system that is good or primary good or active, or any slot bad -/
  | mark {b : Slot} {st : St} {env : B.Env} (q : Req) (rd : Str → Bool) (n : Nat) : Days B P L slots st0 env0 (some b) st env → q.slot ∈ slots →
      (q.slot = b ∨ q = .setState q.slot false ∨ Good B slots env q.slot) → Days B P L slots st0 env0 (some b) st (B.ev slots env ⟨q, rd, n⟩)
  /-- some or all of an installation; the service goes on with what it has in memory, or is started again -/
  | install {b t : Slot} {env env' : B.Env} (w : World) (a : Args) (c : Checked) (inner : Option Manifest) (pre : List Install.Ev) (st' : St) : Days B P L slots st0 env0 (some b) w.st0 env →
      Aimed B P slots b env w c inner t → Interrupted B slots env (install w a c inner).1 pre env' →
      (st' = restart (replay w.cfg w.st0 pre) ∨ (pre = (install w a c inner).1 ∧ st' = replay w.cfg w.st0 pre)) → Days B P L slots st0 env0 (some b) st' env'

  /-- some or all of an attempt to install something that was refused before a slot was written or the boot loader was asked for something -/
  | refused {x : Option Slot} {env : B.Env} (w : World) (a : Args) (c : Checked) (inner : Option Manifest) (pre : List Install.Ev) (st' : St) : Days B P L slots st0 env0 x w.st0 env →
      w.cfg.perSlot = false → pre <+: (install w a c inner).1 → (∀ e ∈ (install w a c inner).1, reqOf e = none ∧ about e = none) →
      (st' = restart (replay w.cfg w.st0 pre) ∨ (pre = (install w a c inner).1 ∧ st' = replay w.cfg w.st0 pre)) → Days B P L slots st0 env0 x st' env

/-! ## Proofs -/

theorem whole_content {slots : List Slot} {st st' : St} {r : Slot} (h : Whole slots st r) (hc : ∀ s ∈ slots, HasRoot slots s r → st'.content s.name = st.content s.name) : Whole slots st' r := by
  intro s hs hr
  rw [hc s hs hr]
  exact h s hs hr

theorem untouched_content {c : Install.Cfg} {st : St} {evs : List Install.Ev} (h : ∀ e ∈ evs, about e = none) : (replay c st evs).content = st.content := by
  funext n
  induction evs generalizing st with
  | nil => rfl
  | cons e es ih =>
    have h1 : (replay c (Install.apply c st e) es).content n = (Install.apply c st e).content n := ih (fun x hx => h x (List.mem_cons_of_mem _ hx))
    exact h1.trans (apply_frame (c := c) (st := st) (e := e) (k := n) (by rw [h e (by simp)]; simp)).2.1

/-- requests for a slot keep what is bad bad, unless they revive it -/
theorem keep_request {B : Backend} {P : List Slot → B.Env → Slot → Prop} {Bad : List Slot → Slot → B.Env → Prop} (M : Marked B P Bad) {slots : List Slot} (hwf : SlotsWF slots) {r : Slot} (hr : r ∈ slots)
    {env : B.Env} (h : Bad slots r env) {q : Req} (hq : q.slot ∈ slots) (hne : q.slot ≠ r ∨ q = .setState q.slot false) (rd : Str → Bool) (n : Nat) : Bad slots r (B.ev slots env ⟨q, rd, n⟩) := by
  refine M.keep slots hwf r hr env ⟨q, rd, n⟩ h hq ?_
  rintro (e | e)
  · change q = _ at e
    subst e
    rcases hne with h | h
    · exact h rfl
    · simp at h
  · change q = _ at e
    subst e
    rcases hne with h | h
    · exact h rfl
    · simp at h

/-- **C109.** In the beginning every boot slot holds a complete system or is marked bad. Then, whatever happened, the running system is complete, and so is every system that the
boot loader may boot, and every system that RAUC calls good or primary. -/
theorem C109_fallback {B : Backend} {P : List Slot → B.Env → Slot → Prop} {Bad : List Slot → Slot → B.Env → Prop} (M : Marked B P Bad) {L : Loader B} {slots : List Slot} (hwf : SlotsWF slots) (hf : FlatParents slots)
    (hL : Fair L slots Bad)
    {st0 : St} {env0 : B.Env} (h0 : Reach st0) (hb0 : ∀ r, BootSlot slots r → Whole slots st0 r ∨ Bad slots r env0) {x : Option Slot} {st : St} {env : B.Env} (h : Days B P L slots st0 env0 x st env) :
    (∀ b, x = some b → Whole slots st b) ∧ (∀ r env', BootSlot slots r → L slots (some r) env env' → Whole slots st r) ∧ ∀ r, Good B slots env r → Whole slots st r := by
  have whole : ∀ {st : St} {env : B.Env}, (∀ r, BootSlot slots r → Whole slots st r ∨ Bad slots r env) → ∀ r, Good B slots env r → Whole slots st r := by
    rintro st env hi r ⟨hr, hg⟩
    rcases hi r hr with h | h
    · exact h
    · rcases hg with ⟨rd, hg⟩ | ⟨rd, hg⟩
      · exact absurd hg (M.off slots hwf r hr.1 env rd h).1
      · exact absurd hg (M.off slots hwf r hr.1 env rd h).2
  suffices hh : Reach st ∧ (∀ b, x = some b → BootSlot slots b ∧ Whole slots st b) ∧ ∀ r, BootSlot slots r → Whole slots st r ∨ Bad slots r env from
    ⟨fun b hb => (hh.2.1 b hb).2, fun r env' hr hl => (hh.2.2 r hr).resolve_right (hL.off r env env' hr hl), whole hh.2.2⟩
  induction h with
  | start => exact ⟨h0, by simp, hb0⟩
  | @boot x st env env' r _ hB hl ih =>
    obtain ⟨i1, i2, i3⟩ := ih
    refine ⟨?_, ?_, ?_⟩
    · exact .init (Install.sound_restart i1.sound)
    · rintro b e
      cases e
      exact ⟨hB, (i3 r hB).resolve_right (hL.off r env env' hB hl)⟩
    · intro r' hr'
      rcases i3 r' hr' with h | h
      · exact .inl h
      · exact .inr (hL.keep _ env env' hl r' hr' h)
  | @noBoot x st env env' _ hl ih =>
    obtain ⟨i1, i2, i3⟩ := ih
    refine ⟨.init (Install.sound_restart i1.sound), by simp, ?_⟩
    intro r' hr'
    rcases i3 r' hr' with h | h
    · exact .inl h
    · exact .inr (hL.keep _ env env' hl r' hr' h)
  | @mark b st env q rd n _ hq hc ih =>
    obtain ⟨i1, i2, i3⟩ := ih
    refine ⟨i1, i2, ?_⟩
    intro r hr
    rcases i3 r hr with h | h
    · exact .inl h
    · by_cases e : q.slot = r
      · rcases hc with h1 | h1 | h1
        · exact .inl (by rw [← e, h1]; exact (i2 b rfl).2)
        · exact .inr (keep_request M hwf hr.1 h hq (.inr h1) rd n)
        · exact .inl (whole i3 r (e ▸ h1))
      · exact .inr (keep_request M hwf hr.1 h hq (.inl e) rd n)
  | @refused x env w a c inner pre st' _ hsh hp hq hst ih =>
    obtain ⟨i1, i2, i3⟩ := ih
    have hcont : st'.content = w.st0.content := by
      have := untouched_content (c := w.cfg) (st := w.st0) (fun e he => (hq e (hp.subset he)).2)
      rcases hst with rfl | ⟨-, rfl⟩
      · exact this
      · exact this
    have hreach : Reach st' := by
      rcases hst with rfl | ⟨rfl, rfl⟩
      · exact .installCrash w a c inner pre hsh i1 hp
      · exact .install w a c inner hsh i1
    exact ⟨hreach, fun b hb => ⟨(i2 b hb).1, whole_content (i2 b hb).2 (fun s _ _ => by rw [hcont])⟩,
      fun r hr => (i3 r hr).imp_left (fun h => whole_content h (fun s _ _ => by rw [hcont]))⟩
  | @install b t env env' w a c inner pre st' _ hA hi hst ih =>
    obtain ⟨i1, i2, i3⟩ := ih
    obtain ⟨hbs, hbw⟩ := i2 b rfl
    obtain ⟨m, plans, hm, hnh, hpl, ht, hcov, honly⟩ := hA.bundle
    obtain ⟨status, realpath, bs, hfb, hg⟩ := hA.running
    have hgr : ∀ cls s, w.group cls = some s → s ∈ slots ∧ s.sclass = cls := by
      intro cls s hcs
      rw [hg] at hcs
      exact ⟨(Select.targetGroup_facts hcs).1, (Select.targetGroup_facts hcs).2.1⟩
    have U : Update slots w c inner m plans := ⟨hwf, hgr, hA.shared, i1, hm, hnh, hpl⟩
    have htm : t ∈ slots := ht.mem U
    have hcont : st'.content = (replay w.cfg w.st0 pre).content := by
      rcases hst with rfl | ⟨-, rfl⟩ <;> rfl
    have hreach : Reach st' := by
      rcases hst with rfl | ⟨rfl, rfl⟩
      · exact .installCrash w a c inner pre hA.shared i1 hi.prefix
      · exact .install w a c inner hA.shared i1
    -- the systems in other slots are left alone
    have hother : ∀ r, BootSlot slots r → r ≠ t → Whole slots w.st0 r → Whole slots st' r := by
      intro r hr hrt hw
      refine whole_content hw (fun s hs hroot => ?_)
      rw [hcont]
      refine (C68_untouched U hi.prefix s.name ?_).1
      intro p hp s' hd htg hn
      exact hrt (honly s hs ⟨p, hp, s', hd, htg, hn⟩ r hroot hr.2.2)
    have hbt : b ≠ t := by
      rintro rfl
      obtain ⟨p, hp, hd, htg, -, -⟩ := ht
      obtain ⟨-, -, -, g, -, -⟩ := Select.C12_plan_ok _ _ _ _ _ plans U.plans p hp b hd htg
      rw [hg] at g
      exact Select.C09_partial realpath bs false status slots U.wf.name_inj hf (stateOf b) (by simp [Select.slotStates, hfb]) b hfb hbs.2.1 _ b g (Or.inl rfl)
    refine ⟨hreach, ?_, ?_⟩
    · rintro b' e
      cases e
      exact ⟨hbs, hother b hbs hbt hbw⟩
    · intro r hr
      have hmk : ∀ rd ts, B.setState rd slots env t false = some ts → r ≠ t → Bad slots r env → Bad slots r (B.appAll env ts) := by
        intro rd ts hts hrt hbad
        have := keep_request M hwf hr.1 hbad (q := .setState t false) htm (.inl (Ne.symm hrt)) rd ts.length
        unfold Backend.ev at this
        change Bad slots r (match B.setState rd slots env t false with | none => env | some ts' => B.appAll env (ts'.take ts.length)) at this
        rw [hts] at this
        simpa using this
      cases U.phases ht hi with
      | before rd n hn he =>
        subst he
        have hsame : st'.content = w.st0.content := by rw [hcont]; exact (neutral_unchanged (fun e he => (hn e he).1) _).1
        rcases i3 r hr with h | h
        · exact .inl (whole_content h (fun s _ _ => by rw [hsame]))
        · exact .inr (keep_request M hwf hr.1 h (q := .setState t false) htm (.inr rfl) rd n)
      | writing rd ts hts he =>
        subst he
        by_cases hrt : r = t
        · subst hrt
          exact .inr (M.mark slots hwf r htm env rd ts hA.ready hts)
        · rcases i3 r hr with h | h
          · exact .inl (hother r hr hrt h)
          · exact .inr (hmk rd ts hts hrt h)
      | activating rd rd2 ts n h1 hist rr hts he hl hpre hrr =>
        subst he
        by_cases hrt : r = t
        · subst hrt
          left
          have hc := U.complete hi.prefix hl hpre hrr
          intro s hs hroot
          obtain ⟨p, hp, s', hd, htg, hn⟩ := hcov s hs hroot
          have := hc p hp
          rw [htg] at this
          simp only [] at this
          rw [hcont, ← hn, this.1]
          simp
        · rcases i3 r hr with h | h
          · exact .inl (hother r hr hrt h)
          · exact .inr (keep_request M hwf hr.1 (hmk rd ts hts hrt h) (q := .setPrimary t) htm (.inl (Ne.symm hrt)) rd2 n)

/-! ## The boot loaders -/

/-- U-Boot with this script, as long as it finds a slot. -/
def ubootLoader (names : List Str) : Loader (uboot cfg) := fun _ x env env' => ∃ r bn, x = some r ∧ r.bootname = some bn ∧ ubootSh names env = (some bn, env')

/-- GRUB: a slot is only booted if its variable `_OK` is 1, and these variables are left as they are, or set to 0 (contrib/grub.conf:4-5, 26, 33-41). The rest, in particular the variables `_TRY`, is arbitrary. -/
def grubLoader : Loader grub := fun _ x env env' =>
  (∀ r, x = some r → ∃ bn v, r.bootname = some bn ∧ env (gOk bn) = some v ∧ strtoull 0 (chomp v) = 1) ∧ ∀ bn, env' (gOk bn) = env (gOk bn) ∨ env' (gOk bn) = some c!"0"

/-- barebox: a slot is only booted if its priority is not zero; priorities are left as they are. The numbers of remaining attempts are arbitrary. (barebox's bootchooser is not part of /repo, docs/integration.rst describes it; it must not be configured to reset priorities.) -/
def bareboxLoader : Loader (barebox cfg) := fun _ x env env' =>
  (∀ r, x = some r → ∃ bn p a, r.bootname = some bn ∧ env bn = some (p, a) ∧ p % 2 ^ 32 ≠ 0) ∧ ∀ bn p a, env' bn = some (p, a) → ∃ a', env bn = some (p, a')

/-- EFI: a slot is only booted if the boot order or the one-time choice names it; the firmware forgets the one-time choice. (The firmware is not part of /repo; docs/integration.rst describes it.) -/
def efiLoader : Loader (efi cfg fresh) := fun _ x env env' =>
  (∀ r, x = some r → ∃ bn e, r.bootname = some bn ∧ (e ∈ efiBo env ∨ e ∈ efiNx env) ∧ e.name = bn) ∧ (env' = env ∨ env' = { env with next := none })

theorem _root_.Rauc.Boot.Marked.mono {B : Backend} {P P' : List Slot → B.Env → Slot → Prop} {Bad : List Slot → Slot → B.Env → Prop} (h : Marked B P Bad) (hp : ∀ slots env s, P' slots env s → P slots env s) : Marked B P' Bad :=
  ⟨fun slots hwf s hs env rd ts h' => h.mark slots hwf s hs env rd ts (hp _ _ _ h'), h.keep, h.off⟩

/-- the counter of the slot is there, and zero -/
def UbZero (_ : List Slot) (s : Slot) (env : KvEnv) : Prop := ∀ bn, s.bootname = some bn → ∃ v, env (kLeft bn) = some v ∧ v ≠ [] ∧ strtoull 16 (chomp v) = 0

theorem UbZero.inv {slots : List Slot} {s : Slot} {env : KvEnv} (h : UbZero slots s env) : UbInv slots s env := by
  intro bn hb v hv
  obtain ⟨v', h1, -, h2⟩ := h bn hb
  rw [h1] at hv; cases hv
  exact h2

theorem marked_uboot_zero (cfg : Boot.Cfg) : Marked (uboot cfg) anyEnv UbZero := by
  have h0 : strtoull 16 (chomp (toHex 0)) = 0 := strtoull_chomp_toHex 0 (by decide)
  refine ⟨?_, ?_, ?_⟩
  · intro slots hwf s hs env rd ts _ hts bn hbn
    have hfin : ∀ e : KvEnv, ubootApp e (kLeft bn, toHex 0) (kLeft bn) = some (toHex 0) := by
      intro e
      simp [ubootApp, toHex_nil]
    obtain ⟨bt, hbt, hc⟩ := ubootSetState_cases hts
    rw [hbn] at hbt; injection hbt with hbt; subst hbt
    rcases hc with ⟨h, _⟩ | ⟨_, _, rfl⟩ | ⟨_, o, _, rfl⟩
    · cases h
    · exact ⟨_, hfin env, toHex_nil 0, h0⟩
    · exact ⟨_, hfin _, toHex_nil 0, h0⟩
  · intro slots hwf s hs env e hi hes hnr bn hbn
    unfold Backend.ev
    cases htx : (uboot cfg).txns e.rd slots env e.req with
    | none => exact hi bn hbn
    | some ts =>
      rcases uboot_ev_left cfg hwf hs hbn env e.req e.rd hes hnr ts htx e.done with h | h
      · obtain ⟨v, hv, h1, h2⟩ := hi bn hbn
        exact ⟨v, h.trans hv, h1, h2⟩
      · exact ⟨toHex 0, h, toHex_nil 0, h0⟩
  · intro slots hwf s hs env rd hi
    exact (marked_uboot cfg).off slots hwf s hs env rd hi.inv

theorem shDefault_some {k d k' v : Str} {env : KvEnv} (h : env k' = some v) (hv : v ≠ []) : shDefault k d env k' = some v := by
  unfold shDefault
  cases hn : env k with
  | none =>
    simp only
    rw [kvSet_ne _ _ _ _ (by rintro rfl; rw [hn] at h; cases h)]
    exact h
  | some v' =>
    simp only
    split
    · rename_i he
      rw [kvSet_ne _ _ _ _ (by rintro rfl; rw [hn] at h; cases h; exact hv he)]
      exact h
    · exact h

theorem shDefaults_some {k' v : Str} (names : List Str) {env : KvEnv} (h : env k' = some v) (hv : v ≠ []) : names.foldl (fun e bn => shDefault (kLeft bn) c!"3" e) env k' = some v := by
  induction names generalizing env with
  | nil => exact h
  | cons n l ih => exact ih (shDefault_some h hv)

/-- the script does not boot a slot whose counter is zero, and does not change such counters -/
theorem ubootSh_zero {names : List Str} {env env' : KvEnv} {t bn v : Str} (h : ubootSh names env = (some t, env')) (hv : env (kLeft bn) = some v) (hn : v ≠ []) (hz : strtoull 16 (chomp v) = 0) : bn ≠ t ∧ env' (kLeft bn) = some v := by
  unfold ubootSh at h
  simp only at h
  have hk := shDefaults_some names (shDefault_some (k := kOrder) (d := join ' ' names) hv hn) hn
  generalize names.foldl (fun e bn => shDefault (kLeft bn) c!"3" e) (shDefault kOrder (join ' ' names) env) = e at h hk
  split at h
  · rename_i t' hf
    have := List.find?_some hf
    simp only [Bool.and_eq_true, decide_eq_true_eq] at this
    simp only [Prod.mk.injEq, Option.some.injEq] at h
    obtain ⟨rfl, rfl⟩ := h
    have hne : bn ≠ t' := by
      rintro rfl
      have h2 := this.2
      simp only [shLeft, hk, hz] at h2
      omega
    exact ⟨hne, by rw [kvSet_ne _ _ _ _ (fun hk => hne (kLeft_inj hk))]; exact hk⟩
  · simp at h

theorem fair_uboot (cfg : Boot.Cfg) (names : List Str) (slots : List Slot) : Fair (B := uboot cfg) (ubootLoader names) slots UbZero where
  off := by
    rintro r env env' - ⟨r', bn, e, hb, hsh⟩ hz
    cases e
    obtain ⟨v, h1, h2, h3⟩ := hz bn hb
    exact (ubootSh_zero hsh h1 h2 h3).1 rfl
  keep := by
    rintro x env env' ⟨r, t, -, -, hsh⟩ s - hz bn hb
    obtain ⟨v, h1, h2, h3⟩ := hz bn hb
    exact ⟨v, (ubootSh_zero hsh h1 h2 h3).2, h2, h3⟩

/-- **C109 for U-Boot** with the script of /repo. Missing: what happens after the script found no slot (see `C109_uboot_reset_violated`). -/
theorem C109_uboot_partial (cfg : Boot.Cfg) (names : List Str) {slots : List Slot} (hwf : SlotsWF slots) (hf : FlatParents slots) {st0 : St} {env0 : KvEnv} (h0 : Reach st0)
    (hb0 : ∀ r, BootSlot slots r → Whole slots st0 r ∨ UbZero slots r env0) {x : Option Slot} {st : St} {env : KvEnv} (h : Days (uboot cfg) anyEnv (ubootLoader names) slots st0 env0 x st env) :
    (∀ b, x = some b → Whole slots st b) ∧ (∀ r env', BootSlot slots r → ubootLoader (cfg := cfg) names slots (some r) env env' → Whole slots st r) ∧ ∀ r, Good (uboot cfg) slots env r → Whole slots st r :=
  C109_fallback (marked_uboot_zero cfg) hwf hf (fair_uboot cfg names slots) h0 hb0 h

theorem fair_grub (slots : List Slot) : Fair (B := grub) grubLoader slots GrInv := by
  refine ⟨?_, ?_⟩
  · rintro r env env' - ⟨hb, -⟩ hbad
    obtain ⟨bn, v, h1, h2, h3⟩ := hb r rfl
    exact hbad bn h1 v h2 h3
  · rintro x env env' ⟨-, hk⟩ s - hbad bn hb v hv
    rcases hk bn with h | h
    · exact hbad bn hb v (h ▸ hv)
    · rw [h] at hv
      cases hv
      decide

/-- **C109 for GRUB.** `GrInv`: the slot's variable `_OK` is not 1. -/
theorem C109_grub {slots : List Slot} (hwf : SlotsWF slots) (hf : FlatParents slots) {st0 : St} {env0 : KvEnv} (h0 : Reach st0)
    (hb0 : ∀ r, BootSlot slots r → Whole slots st0 r ∨ GrInv slots r env0) {x : Option Slot} {st : St} {env : KvEnv} (h : Days grub anyEnv grubLoader slots st0 env0 x st env) :
    (∀ b, x = some b → Whole slots st b) ∧ (∀ r env', BootSlot slots r → grubLoader slots (some r) env env' → Whole slots st r) ∧ ∀ r, Good grub slots env r → Whole slots st r := by
  exact C109_fallback marked_grub hwf hf (fair_grub slots) h0 hb0 h

theorem fair_barebox (cfg : Boot.Cfg) (slots : List Slot) : Fair (B := barebox cfg) bareboxLoader slots BbInv := by
  refine ⟨?_, ?_⟩
  · rintro r env env' - ⟨hb, -⟩ hbad
    obtain ⟨bn, p, a, h1, h2, h3⟩ := hb r rfl
    exact h3 (hbad bn h1 p a h2)
  · rintro x env env' ⟨-, hk⟩ s - hbad bn hb p a hv
    obtain ⟨a', h⟩ := hk bn p a hv
    exact hbad bn hb p a' h

/-- GRUB with this script -/
def grubScript (names : List Str) : Loader grub := fun _ x env env' =>
  (∃ r bn, x = some r ∧ r.bootname = some bn ∧ grubSh names env = (some bn, env')) ∨ (x = none ∧ grubSh names env = (none, env'))

theorem setVar_ok (v : Str → Str) (n w : Str) (b : Str) : setVar v (gTry n) w (gOk b) = v (gOk b) := by
  unfold setVar
  rw [if_neg (gOk_ne_gTry b n)]

theorem grubShScan_ok {names ts : List Str} {v v' : Str → Str} {x : Option Str} (h : grubShScan names ts v = (x, v')) : (∀ b, v' (gOk b) = v (gOk b)) ∧ ∀ t, x = some t → shNum (v (gOk t)) = 1 := by
  induction ts generalizing v with
  | nil =>
    cases h
    exact ⟨fun _ => rfl, by simp⟩
  | cons t ts ih =>
    unfold grubShScan at h
    split at h
    · split at h
      · rename_i hk
        cases h
        exact ⟨fun b => setVar_ok v t _ b, by rintro _ ⟨⟩; exact hk.1⟩
      · obtain ⟨i1, i2⟩ := ih h
        exact ⟨fun b => (i1 b).trans (setVar_ok v t _ b), fun t' ht => by rw [← setVar_ok v t c!"1" t']; exact i2 t' ht⟩
    · exact ih h

theorem grubReset_ok (names : List Str) (v : Str → Str) (b : Str) : grubReset names v (gOk b) = v (gOk b) := by
  unfold grubReset
  induction names generalizing v with
  | nil => rfl
  | cons n l ih =>
    rw [List.foldl_cons, ih]
    split
    · exact setVar_ok v n _ b
    · rfl

theorem grubScript_loader {names : List Str} {slots : List Slot} {x : Option Slot} {env env' : KvEnv} (h : grubScript names slots x env env') : grubLoader slots x env env' := by
  have hord : ∀ b, gOk b ≠ gOrder := by
    intro b e
    have := congrArg List.getLast? e
    simp [gOk, gOrder] at this
  have hvar : ∀ b, some (grubVars names env (gOk b)) = env (gOk b) ∨ grubVars names env (gOk b) = c!"0" := by
    intro b
    unfold grubVars
    cases he : env (gOk b) with
    | some v => exact .inl rfl
    | none => exact .inr (if_neg (hord b))
  have hsave : ∀ v, (∀ b, v (gOk b) = grubVars names env (gOk b)) → ∀ b, grubSave names v env (gOk b) = env (gOk b) ∨ grubSave names v env (gOk b) = some c!"0" := by
    intro v hv b
    unfold grubSave
    split
    · rw [hv b]
      rcases hvar b with h | h
      · exact .inl h
      · exact .inr (by rw [h])
    · exact .inl rfl
  cases hsc : grubShScan names (split ' ' (chomp (grubVars names env gOrder))) (grubVars names env) with
  | mk y v =>
    obtain ⟨k1, k2⟩ := grubShScan_ok hsc
    rcases h with ⟨r, bn, rfl, hb, hsh⟩ | ⟨rfl, hsh⟩
    · unfold grubSh at hsh
      rw [hsc] at hsh
      cases y with
      | none => simp at hsh
      | some t =>
        simp only [Prod.mk.injEq, Option.some.injEq] at hsh
        obtain ⟨rfl, rfl⟩ := hsh
        refine ⟨?_, hsave v k1⟩
        rintro r' ⟨⟩
        have := k2 t rfl
        rcases hvar t with h | h
        · exact ⟨t, _, hb, h.symm, this⟩
        · rw [h] at this
          exact absurd this (by decide)
    · unfold grubSh at hsh
      rw [hsc] at hsh
      cases y with
      | some t => simp at hsh
      | none =>
        simp only [Prod.mk.injEq, true_and] at hsh
        subst hsh
        exact ⟨by simp, hsave _ (fun b => (grubReset_ok names v b).trans (k1 b))⟩

theorem fair_grub_script (names : List Str) (slots : List Slot) : Fair (B := grub) (grubScript names) slots GrInv :=
  ⟨fun r env env' hr h => (fair_grub slots).off r env env' hr (grubScript_loader h), fun x env env' h => (fair_grub slots).keep x env env' (grubScript_loader h)⟩

/-- **C109 for GRUB** with the script of /repo. -/
theorem C109_grub_script (names : List Str) {slots : List Slot} (hwf : SlotsWF slots) (hf : FlatParents slots) {st0 : St} {env0 : KvEnv} (h0 : Reach st0)
    (hb0 : ∀ r, BootSlot slots r → Whole slots st0 r ∨ GrInv slots r env0) {x : Option Slot} {st : St} {env : KvEnv} (h : Days grub anyEnv (grubScript names) slots st0 env0 x st env) :
    (∀ b, x = some b → Whole slots st b) ∧ (∀ r env', BootSlot slots r → grubScript names slots (some r) env env' → Whole slots st r) ∧ ∀ r, Good grub slots env r → Whole slots st r :=
  C109_fallback marked_grub hwf hf (fair_grub_script names slots) h0 hb0 h

/-- Both slots are ok, `A` first: it is booted, then `B` when `A` was not marked good, then the rescue system, then `A` again; `B` is not, if it is not ok. -/
example : let env : KvEnv := fun k => if k = gOrder then some c!"A B" else if k = gOk c!"A" ∨ k = gOk c!"B" then some c!"1" else none
    let bad : KvEnv := fun k => if k = gOrder then some c!"A B" else if k = gOk c!"A" then some c!"1" else none
    let sh := grubSh [c!"A", c!"B"]
    (sh env).1 = some c!"A" ∧ (sh (sh env).2).1 = some c!"B" ∧ (sh (sh (sh env).2).2).1 = none ∧ (sh (sh (sh (sh env).2).2).2).1 = some c!"A" ∧
    (sh bad).1 = some c!"A" ∧ (sh (sh bad).2).1 = none ∧ (sh (sh (sh bad).2).2).1 = some c!"A" := by
  decide

/-- **C109 for barebox.** `BbInv`: the slot's priority is zero. -/
theorem C109_barebox (cfg : Boot.Cfg) {slots : List Slot} (hwf : SlotsWF slots) (hf : FlatParents slots) {st0 : St} {env0 : BbEnv} (h0 : Reach st0)
    (hb0 : ∀ r, BootSlot slots r → Whole slots st0 r ∨ BbInv slots r env0) {x : Option Slot} {st : St} {env : BbEnv} (h : Days (barebox cfg) anyEnv bareboxLoader slots st0 env0 x st env) :
    (∀ b, x = some b → Whole slots st b) ∧ (∀ r env', BootSlot slots r → bareboxLoader (cfg := cfg) slots (some r) env env' → Whole slots st r) ∧ ∀ r, Good (barebox cfg) slots env r → Whole slots st r := by
  exact C109_fallback (marked_barebox cfg) hwf hf (fair_barebox cfg slots) h0 hb0 h

/-- **C109 for EFI.** `EfiInv`: neither the boot order nor the one-time choice names the slot. Installations need data as in C68 (`EfiReady`). -/
theorem C109_efi_partial (cfg : Boot.Cfg) (fresh : EfiEnv → Str) (hfr : FreshOK fresh) {slots : List Slot} (hwf : SlotsWF slots) (hf : FlatParents slots) {st0 : St} {env0 : EfiEnv} (h0 : Reach st0)
    (hb0 : ∀ r, BootSlot slots r → Whole slots st0 r ∨ EfiInv slots r env0) {x : Option Slot} {st : St} {env : EfiEnv} (h : Days (efi cfg fresh) (EfiReady cfg) efiLoader slots st0 env0 x st env) :
    (∀ b, x = some b → Whole slots st b) ∧ (∀ r env', BootSlot slots r → efiLoader (cfg := cfg) (fresh := fresh) slots (some r) env env' → Whole slots st r) ∧ ∀ r, Good (efi cfg fresh) slots env r → Whole slots st r := by
  refine C109_fallback ((marked_efi cfg fresh hfr).mono (fun _ _ _ h => h.1)) hwf hf ⟨?_, ?_⟩ h0 hb0 h
  · rintro r env env' - ⟨hb, -⟩ hbad
    obtain ⟨bn, e, h1, h2, h3⟩ := hb r rfl
    rcases h2 with h2 | h2
    · exact (hbad.2 bn h1).1 e h2 h3
    · exact (hbad.2 bn h1).2 e h2 h3
  · rintro x env env' ⟨-, rfl | rfl⟩ s - hbad
    · exact hbad
    · refine ⟨hbad.1, fun bn hb => ⟨(hbad.2 bn hb).1, ?_⟩⟩
      intro e he
      simp [efiNx] at he

/-! ## Example -/

open Rauc.Install (exSlots exWorld exManifest exRoot exApp exSt exGroup)

/-- an update of both slots of a system, started on the system booted from `rootfs.0` -/
def exDay : World := { exFull with group := targetGroup false (stateOf exB) (fun _ => {}) exSlots }

/-- the boot loader booted `A`: two attempts are left -/
def exDay1 : KvEnv := kvSet ubEx (kLeft c!"A") c!"2"

theorem exDay_aimed : Aimed (uboot {}) anyEnv exSlots exB exDay1 exDay (exChecked [exRoot, exApp]) none exT := by
  refine ⟨rfl, ⟨exManifest [exRoot, exApp], exPlans, rfl, rfl, by decide, exBoot, ?_, ?_⟩, ⟨fun _ => {}, some, c!"A", by decide, rfl⟩, trivial⟩
  · intro s hs hr
    have : ∀ s ∈ exSlots, (s.parent = none ∧ exT = s) ∨ s.parent = some exT.name → s.name = exT.name ∨ s.name = exA.name := by decide
    rcases this s hs (hr.imp_right And.left) with h | h
    · exact ⟨_, List.mem_cons_self, exT, _, rfl, h.symm⟩
    · exact ⟨_, List.mem_cons_of_mem _ List.mem_cons_self, exA, _, rfl, h.symm⟩
  · rintro s hs ⟨p, hp, s', hd, htg, hn⟩ r hr hb
    have h1 : s.name = exT.name ∨ s.name = exA.name := by
      have : ∀ p ∈ exPlans, ∀ s', (∃ hd, p.target = .slot s' hd) → s' = exT ∨ s' = exA := by
        intro p hp s' ⟨hd, h⟩
        simp only [exPlans, List.mem_cons, List.not_mem_nil, or_false] at hp
        rcases hp with rfl | rfl <;> cases h
        · exact .inl rfl
        · exact .inr rfl
      rcases this p hp s' ⟨hd, htg⟩ with rfl | rfl
      · exact .inl hn.symm
      · exact .inr hn.symm
    have h2 : ∀ s ∈ exSlots, s.name = exT.name ∨ s.name = exA.name → ∀ r ∈ exSlots, (s.parent = none ∧ r = s) ∨ s.parent = some r.name → r.bootname ≠ none → r = exT := by decide
    rcases hr with ⟨h3, rfl⟩ | ⟨h3, h4⟩
    · exact h2 r hs h1 r hs (.inl ⟨h3, rfl⟩) hb
    · exact h2 s hs h1 r h4 (.inr h3) hb

def exNames : List Str := [c!"A", c!"B"]

/-- The hypotheses of `C109_uboot_partial` are met: the device boots `A`, an installation ends anywhere, and the device is switched on again; the script chooses. -/
example (pre : List Install.Ev) (env' : KvEnv) (hi : Interrupted (uboot {}) exSlots exDay1 (install exDay {} (exChecked [exRoot, exApp]) none).1 pre env') (r : Slot) (hr : BootSlot exSlots r) (bn : Str)
    (hbn : r.bootname = some bn) (hsh : (ubootSh exNames env').1 = some bn) :
    Days (uboot {}) anyEnv (ubootLoader exNames) exSlots exFull.st0 ubEx (some r) (restart (restart (replay exDay.cfg exDay.st0 pre))) (ubootSh exNames env').2 ∧ Whole exSlots (replay exDay.cfg exDay.st0 pre) r := by
  have hfull : ∀ r, BootSlot exSlots r → Whole exSlots exFull.st0 r ∨ UbZero exSlots r ubEx := by
    intro r _
    left
    intro s _ _
    simp [exFull]
  have e1 : ubootSh exNames ubEx = (some c!"A", exDay1) := by
    have h1 : (ubootSh exNames ubEx).1 = some c!"A" := by decide
    have h2 : (ubootSh exNames ubEx).2 = exDay1 := rfl
    rw [← h1, ← h2]
  have h1 : Days (uboot {}) anyEnv (ubootLoader exNames) exSlots exFull.st0 ubEx (some exB) (restart exFull.st0) exDay1 :=
    .boot .start ⟨by decide, rfl, by decide⟩ ⟨exB, c!"A", rfl, rfl, e1⟩
  have h2 := Days.install exDay {} (exChecked [exRoot, exApp]) none pre _ h1 exDay_aimed hi (.inl rfl)
  have hl : ubootLoader (cfg := {}) exNames exSlots (some r) env' (ubootSh exNames env').2 := ⟨r, bn, rfl, hbn, by rw [← hsh]⟩
  exact ⟨Days.boot h2 hr hl, (C109_uboot_partial {} exNames exSlots_wf (Select.flat_of (by decide)) exFull_reach hfull h2).2.1 r _ hr hl⟩

/-- There are such runs: when `rootfs.1` has been written and `appfs.1` has not, the script boots `A`, and `B` is not good; after the whole installation it boots `B`, and `A` when the attempts of `B` are used up. -/
example : let pre := (install exDay {} (exChecked [exRoot, exApp]) none).1.take 13
    let sh := fun env => (ubootSh exNames env).2
    (envRun (uboot {}) exSlots exDay1 pre).map (fun env => ((ubootSh exNames env).1, (uboot {}).getState allRd env exT)) = some (some c!"A", some false) ∧
    (replay exDay.cfg exDay.st0 pre).content exT.name ≠ none ∧ (replay exDay.cfg exDay.st0 pre).content exA.name = none ∧
    (envRun (uboot {}) exSlots exDay1 (install exDay {} (exChecked [exRoot, exApp]) none).1).map (fun env => ((ubootSh exNames env).1, (ubootSh exNames (sh (sh (sh env)))).1)) = some (some c!"B", some c!"A") := by
  decide

/-- FINDING: a power loss leaves `B` half written and marked bad; then the running system, the only good one, is marked bad too. That removes the last name from BOOT_ORDER, and with it the variable. The script
takes both slots for its default, finds no attempts left, and gives both slots new ones: `B` is good, and when the attempts of `A` are used up, it is booted although `appfs.1` is half written. -/
theorem C109_uboot_reset_violated : ∃ (st : St) (env : KvEnv),
    Days (uboot {}) anyEnv (ubootLoader exNames) exSlots exFull.st0 ubEx (some exB) st env ∧ (∀ r, BootSlot exSlots r → Whole exSlots exFull.st0 r) ∧ exA.parent = some exT.name ∧ exT.bootname = some c!"B" ∧
    st.content exA.name = none ∧ (ubootSh exNames env).1 = none ∧
    let sh := fun env => (ubootSh exNames env).2
    (uboot {}).getState allRd (sh (sh env)) exT = some true ∧ (ubootSh exNames (sh env)).1 = some c!"A" ∧ (ubootSh exNames (sh (sh (sh (sh env))))).1 = some c!"B" := by
  have hfull : ∀ r, BootSlot exSlots r → Whole exSlots exFull.st0 r := by
    intro r _ s _ _
    simp [exFull]
  have e1 : ubootSh exNames ubEx = (some c!"A", exDay1) := by
    have h1 : (ubootSh exNames ubEx).1 = some c!"A" := by decide
    have h2 : (ubootSh exNames ubEx).2 = exDay1 := rfl
    rw [← h1, ← h2]
  have h1 : Days (uboot {}) anyEnv (ubootLoader exNames) exSlots exFull.st0 ubEx (some exB) (restart exFull.st0) exDay1 :=
    .boot .start ⟨by decide, rfl, by decide⟩ ⟨exB, c!"A", rfl, rfl, e1⟩
  let pre := (install exDay {} (exChecked [exRoot, exApp]) none).1.take 13
  have hrun : ∃ env', envRun (uboot {}) exSlots exDay1 pre = some env' := Option.isSome_iff_exists.1 (by decide)
  obtain ⟨env', he⟩ := hrun
  have h2 := Days.install exDay {} (exChecked [exRoot, exApp]) none pre _ h1 exDay_aimed (.between (List.take_prefix _ _) (envRun_steps he)) (.inl rfl)
  have hB0 : BootSlot exSlots exB := ⟨by decide, rfl, by decide⟩
  have e2 : (ubootSh exNames env').1 = some c!"A" := by
    have : (envRun (uboot {}) exSlots exDay1 pre).map (fun env => (ubootSh exNames env).1) = some (some c!"A") := by decide
    rw [he] at this
    simpa using this
  have h3 := Days.boot h2 hB0 (env' := (ubootSh exNames env').2) ⟨exB, c!"A", rfl, rfl, by rw [← e2]⟩
  have h4 := Days.mark (.setState exB false) allRd 2 h3 (by decide) (.inl rfl)
  have key : (envRun (uboot {}) exSlots exDay1 pre).map (fun e =>
      let env := (uboot {}).ev exSlots (ubootSh exNames e).2 ⟨.setState exB false, allRd, 2⟩
      let sh := fun env => (ubootSh exNames env).2
      ((ubootSh exNames env).1, (uboot {}).getState allRd (sh (sh env)) exT, (ubootSh exNames (sh env)).1, (ubootSh exNames (sh (sh (sh (sh env))))).1)) =
      some (none, some true, some c!"A", some c!"B") := by decide
  rw [he] at key
  simp only [Option.map_some, Option.some.injEq, Prod.mk.injEq] at key
  exact ⟨_, _, h4, hfull, rfl, rfl, by decide, key.1, key.2.1, key.2.2.1, key.2.2.2⟩

end Rauc.System
