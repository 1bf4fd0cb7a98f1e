import Verif.Model.StreamSession
import Mathlib.Tactic.Tauto
import Mathlib.Tactic.CasesM
import Mathlib.Data.List.Induction

/-!
# C87 — a streaming session leaves nothing behind and never waits for a helper nobody told to end
-/

namespace Rauc.StreamSession

/-! ## Specification -/

/-- Nothing of the session is left: RAUC waited for the helper (or never started one), its end of the socket and the device are closed (the socket exactly once), the kernel has no device of it. -/
structure Clean (s : St) : Prop where
  helper : s.helper = .absent ∨ s.helper = .reaped
  sock : s.sock = false
  fd : s.fd = false
  device : s.mine = none
  once : s.badClose = false

/-- RAUC waits for the helper, which does not know that it should end. -/
def Stuck (s : St) : Prop := (s.pc = .stopWait ∨ s.pc = .freeWait) ∧ s.helper = .running

/-- the session is over (for RAUC) -/
def Over (s : St) : Prop := s.pc = .done ∨ s.pc = .exited ∨ s.pc = .dead

/-! ## Invariant -/

/-- everything is closed and RAUC knows no device -/
def Idle (s : St) : Prop :=
  s.srvSock = false ∧ s.devSock = false ∧ s.index = none ∧ s.mine = none ∧ s.sock = false ∧ s.fd = false

def Some' (h : Helper) : Prop := h = .running ∨ h = .ended

/-- the socket belongs to the server, no device -/
def Talk (s : St) : Prop :=
  s.srvProc = true ∧ s.srvSock = true ∧ s.devSock = false ∧ s.index = none ∧ s.mine = none ∧ s.sock = true ∧ s.fd = false ∧ Some' s.helper

/-- the setup failed after the device was connected -/
def Half (s : St) : Prop :=
  s.srvProc = true ∧ s.srvSock = true ∧ s.devSock = false ∧ (∃ i, s.index = some i ∧ s.mine = some i) ∧ s.sock = true ∧ s.fd = false ∧ s.onClose = false ∧ Some' s.helper

/-- the socket belongs to the device -/
def Own (s : St) : Prop :=
  s.srvProc = true ∧ s.srvSock = false ∧ s.devSock = true ∧ s.sock = true ∧ Some' s.helper

/-- the device is used by the mount only -/
def Used (s : St) : Prop :=
  Own s ∧ s.fd = false ∧ s.onClose = true ∧ ∃ i, s.index = some i ∧ ((s.mine = some i ∧ s.held = true) ∨ (s.mine = none ∧ s.helper = .ended))

def Told (s : St) : Prop := Idle s ∧ s.srvProc = true ∧ s.helper = .ended

def At (C : Cfg) (s : St) : Prop :=
  match s.pc with
  | .socketpair => Idle s ∧ s.srvProc = false ∧ s.helper = .absent ∧ s.onClose = false ∧ s.mounted = false
  | .prepare | .spawn => s.srvSock = false ∧ s.devSock = false ∧ s.index = none ∧ s.mine = none ∧ s.sock = true ∧ s.fd = false ∧ s.srvProc = false ∧ s.helper = .absent ∧ s.onClose = false ∧ s.mounted = false
  | .configure | .check | .mkdir => Talk s ∧ s.onClose = false ∧ s.mounted = false
  | .setup | .connect => Own s ∧ s.index = none ∧ s.mine = none ∧ s.fd = false ∧ s.onClose = false ∧ s.mounted = false
  | .openDev => Own s ∧ (∃ i, s.index = some i ∧ s.mine = some i) ∧ s.fd = false ∧ s.onClose = false ∧ s.mounted = false
  | .reconf => Own s ∧ (∃ i, s.index = some i ∧ s.mine = some i) ∧ s.fd = true ∧ s.onClose = false ∧ s.mounted = false
  | .mapMount => Own s ∧ (∃ i, s.index = some i ∧ s.mine = some i) ∧ s.fd = true ∧ s.onClose = true ∧ s.mounted = false
  | .closeFd => Own s ∧ (∃ i, s.index = some i ∧ s.mine = some i) ∧ s.fd = true ∧ s.onClose = true ∧ (C.umountOk = true → s.mounted = false → s.held = false)
  | .inUse | .umount => Used s
  | .rmNetlink | .rmSend => Used s ∧ (C.umountOk = true → s.mine = none)
  | .stopSend | .stopWait => Told s
  | .freeDev => (Idle s ∧ s.srvProc = false ∧ (s.helper = .absent ∨ s.helper = .reaped)) ∨ Talk s ∨ Half s ∨ (Used s ∧ (C.umountOk = true → s.mine = none))
  | .freeSend => Half s ∨ Used s
  | .freeStop => (Idle s ∧ s.srvProc = false ∧ (s.helper = .absent ∨ s.helper = .reaped)) ∨ Talk s ∨ Told s ∨
      (C.netlinkOk = false ∧ (Half s ∨ (Used s ∧ (C.umountOk = true → s.mine = none))))
  | .freeWait => Told s ∨ (C.netlinkOk = false ∧
      ((s.srvProc = true ∧ s.sock = false ∧ s.fd = false ∧ s.helper = .ended ∧ s.onClose = false ∧ s.index.isSome = true) ∨ (Used s ∧ (C.umountOk = true → s.mine = none))))
  | .done => s.srvProc = false ∧ s.fd = false ∧ (s.helper = .absent ∨ s.helper = .reaped) ∧
      (Idle s ∨ (C.netlinkOk = false ∧ ((s.sock = false ∧ s.onClose = false ∧ s.index.isSome = true) ∨
        (s.index.isSome = true ∧ (C.umountOk = true → s.mine = none) ∧ s.onClose = true ∧ (s.mine.isSome = true → s.held = true)))))
  | .exited => s.sock = false ∧ s.fd = false ∧ s.onClose = true ∧ (s.mine.isSome = true → s.held = true) ∧ (s.helper = .running → s.mine.isSome = true)
  | .dead => s.sock = false ∧ s.fd = false ∧ (s.onClose = true → s.mine.isSome = true → s.held = true) ∧ (s.helper = .running → s.mine.isSome = true)

def Inv (C : Cfg) (s : St) : Prop := s.badClose = false ∧ At C s

theorem start_inv (C : Cfg) (o : Nat → Bool) : Inv C (start o) := by
  simp [Inv, At, start, Idle]

/-! ### What the parts do -/

theorem tell_helper (s : St) : (tell s).helper ≠ .running := by
  unfold tell; split <;> simp_all

theorem tell_eq (s : St) (h : Some' s.helper) : tell s = { s with helper := .ended } := by
  unfold tell; rcases h with h | h <;> simp [h]; cases s; simp_all

/-- RAUC is gone -/
def Gone (s : St) : Prop :=
  s.sock = false ∧ s.fd = false ∧ (s.onClose = true → s.mine.isSome = true → s.held = true) ∧ (s.helper = .running → s.mine.isSome = true)

theorem settle_gone (s : St) (hs : s.sock = false) (hf : s.fd = false) : Gone (settle s) ∧ (settle s).pc = s.pc ∧ (settle s).badClose = s.badClose ∧ (settle s).onClose = s.onClose := by
  obtain ⟨pc, sp, ss, ds, ix, mo, sk, fd, bc, mi, oc, he, ot, fo, hp⟩ := s
  simp only at hs hf; subst hs hf
  cases oc <;> cases he <;> cases mi <;> cases hp <;> simp [settle, autoClose, eof, tell, Gone]

theorem die_spec (s : St) : Gone (die s) ∧ (die s).pc = .dead ∧ (die s).badClose = s.badClose := by
  have := settle_gone { s with pc := .dead, sock := false, fd := false } rfl rfl
  exact ⟨this.1, this.2.1, this.2.2.1⟩

theorem setupFailed_none (s : St) (h : Own s) (hi : s.index = none) (hm : s.mine = none) :
    Talk (setupFailed s) ∧ (setupFailed s).pc = .freeDev ∧ (setupFailed s).badClose = s.badClose := by
  obtain ⟨pc, sp, ss, ds, ix, mo, sk, fd, bc, mi, oc, he, ot, fo, hp⟩ := s
  obtain ⟨h1, h2, h3, h4, h5⟩ := h
  simp only at h1 h2 h3 h4 h5 hi hm; subst h1 h2 h3 h4 hi hm
  simp [setupFailed, settle, autoClose, eof, Talk, h5]

theorem setupFailed_some (s : St) (h : Own s) (hi : ∃ i, s.index = some i ∧ s.mine = some i) (hc : s.onClose = false) :
    Half (setupFailed s) ∧ (setupFailed s).pc = .freeDev ∧ (setupFailed s).badClose = s.badClose := by
  obtain ⟨pc, sp, ss, ds, ix, mo, sk, fd, bc, mi, oc, he, ot, fo, hp⟩ := s
  obtain ⟨h1, h2, h3, h4, h5⟩ := h
  obtain ⟨i, hi, hm⟩ := hi
  simp only at h1 h2 h3 h4 h5 hi hm hc; subst h1 h2 h3 h4 hi hm hc
  simp [setupFailed, settle, autoClose, eof, Half, h5]

theorem settle_used (s : St) (h : Own s) (hf : s.fd = false) (hc : s.onClose = true)
    (hi : ∃ i, s.index = some i ∧ (s.mine = some i ∨ (s.mine = none ∧ s.helper = .ended))) :
    Used (settle s) ∧ (settle s).pc = s.pc ∧ (settle s).badClose = s.badClose ∧ (settle s).mounted = s.mounted ∧ (s.held = false → (settle s).mine = none) := by
  obtain ⟨pc, sp, ss, ds, ix, mo, sk, fd, bc, mi, oc, he, ot, fo, hp⟩ := s
  obtain ⟨h1, h2, h3, h4, h5⟩ := h
  obtain ⟨i, hi, hm⟩ := hi
  simp only at h1 h2 h3 h4 h5 hi hf hc hm; subst h1 h2 h3 h4 hi hf hc
  rcases hm with hm | ⟨hm, hh⟩ <;> subst hm <;> try subst hh
  all_goals cases he
  all_goals rcases h5 with h5 | h5 <;> simp_all [settle, autoClose, eof, tell, Used, Own, Some']

theorem removeDevice_used (s : St) (h : Used s) : Told (removeDevice s) ∧ (removeDevice s).badClose = s.badClose := by
  obtain ⟨pc, sp, ss, ds, ix, mo, sk, fd, bc, mi, oc, he, ot, fo, hp⟩ := s
  obtain ⟨⟨h1, h2, h3, h4, h5⟩, hf, hc, i, hi, hm⟩ := h
  simp only at h1 h2 h3 h4 h5 hi hf hc hm; subst h1 h2 h3 h4 hi hf hc
  rcases hm with ⟨hm, hh⟩ | ⟨hm, hh⟩ <;> subst hm hh
  · rcases h5 with h5 | h5 <;> subst h5 <;> simp [removeDevice, disconnect, tell, closeSock, settle, autoClose, eof, Told, Idle]
  · by_cases ho : ot i = true <;> simp [removeDevice, disconnect, tell, closeSock, settle, autoClose, eof, Told, Idle, ho]

theorem removeDevice_half (s : St) (h : Half s) : Talk (removeDevice s) ∧ (removeDevice s).badClose = s.badClose := by
  obtain ⟨pc, sp, ss, ds, ix, mo, sk, fd, bc, mi, oc, he, ot, fo, hp⟩ := s
  obtain ⟨h1, h2, h3, ⟨i, hi, hm⟩, h4, h5, h6, h7⟩ := h
  simp only at h1 h2 h3 h4 h5 hi hm h6 h7; subst h1 h2 h3 h4 hi hm h5 h6
  rcases h7 with h7 | h7 <;> subst h7 <;> simp [removeDevice, disconnect, tell, Talk, Some']

theorem stopSend_talk (s : St) (h : Talk s) : Told (stopSend s) ∧ (stopSend s).badClose = s.badClose := by
  obtain ⟨pc, sp, ss, ds, ix, mo, sk, fd, bc, mi, oc, he, ot, fo, hp⟩ := s
  obtain ⟨h1, h2, h3, h4, h5, h6, h7, h8⟩ := h
  simp only at h1 h2 h3 h4 h5 h6 h7 h8; subst h1 h2 h3 h4 h5 h6 h7
  rcases h8 with h8 | h8 <;> subst h8 <;> simp [stopSend, closeSock, settle, autoClose, eof, tell, Told, Idle]

theorem stopSend_half (s : St) (h : Half s) :
    let t := stopSend s
    t.srvProc = true ∧ t.sock = false ∧ t.fd = false ∧ t.helper = .ended ∧ t.onClose = false ∧ t.index.isSome = true ∧ t.badClose = s.badClose := by
  obtain ⟨pc, sp, ss, ds, ix, mo, sk, fd, bc, mi, oc, he, ot, fo, hp⟩ := s
  obtain ⟨h1, h2, h3, ⟨i, hi, hm⟩, h4, h5, h6, h7⟩ := h
  simp only at h1 h2 h3 h4 h5 hi hm h6 h7; subst h1 h2 h3 h4 hi hm h5 h6
  rcases h7 with h7 | h7 <;> subst h7 <;> simp [stopSend, closeSock, settle, autoClose, eof, tell]

theorem stopSend_same (s : St) (h : s.srvSock = false) : stopSend s = s := by
  simp [stopSend, h]

theorem rauc_inv (C : Cfg) (fails : Bool) (idx : Nat) (keep : Bool) (s : St) (h : Inv C s) : Inv C (raucStep C fails idx keep s) := by
  obtain ⟨hb, h⟩ := h
  cases hp : s.pc <;> simp only [At, hp] at h <;> simp only [raucStep, hp]
  case socketpair =>
    split
    · refine ⟨hb, .inl ?_⟩; simp_all [Idle]
    · refine ⟨hb, ?_⟩; simp_all [At, Idle]
  case prepare =>
    split
    · simp [Inv, At, closeSock, settle, autoClose, eof, tell, h, hb, Idle]
    · exact ⟨hb, h⟩
  case spawn =>
    split
    · simp [Inv, At, closeSock, settle, autoClose, eof, tell, h, hb, Idle]
    · simp [Inv, At, h, hb, Talk, Some']
  case configure =>
    split
    · have := die_spec s
      refine ⟨this.2.2.trans hb, ?_⟩
      simp only [At, this.2.1]; exact this.1
    · split
      · exact ⟨hb, .inr (.inl h.1)⟩
      · exact ⟨hb, h⟩
  case check =>
    split
    · exact ⟨hb, .inr (.inl h.1)⟩
    · exact ⟨hb, h⟩
  case mkdir =>
    split
    · exact ⟨hb, .inr (.inl h.1)⟩
    · obtain ⟨⟨h1, h2, h3, h4, h5, h6, h7, h8⟩, h9, h10⟩ := h
      simp [Inv, At, Own, *]
  case setup =>
    split
    · have := setupFailed_none s h.1 h.2.1 h.2.2.1
      refine ⟨this.2.2.trans hb, ?_⟩
      simp only [At, this.2.1]; exact .inr (.inl this.1)
    · exact ⟨hb, h⟩
  case connect =>
    split
    · have := setupFailed_none s h.1 h.2.1 h.2.2.1
      refine ⟨this.2.2.trans hb, ?_⟩
      simp only [At, this.2.1]; exact .inr (.inl this.1)
    · exact ⟨hb, h.1, ⟨idx, rfl, rfl⟩, h.2.2.2⟩
  case openDev =>
    split
    · have := setupFailed_some s h.1 h.2.1 h.2.2.2.1
      refine ⟨this.2.2.trans hb, ?_⟩
      simp only [At, this.2.1]; exact .inr (.inr (.inl this.1))
    · exact ⟨hb, h.1, h.2.1, rfl, h.2.2.2⟩
  case reconf =>
    split
    · have := setupFailed_some s h.1 h.2.1 h.2.2.2.1
      refine ⟨this.2.2.trans hb, ?_⟩
      simp only [At, this.2.1]; exact .inr (.inr (.inl this.1))
    · exact ⟨hb, h.1, h.2.1, h.2.2.1, rfl, h.2.2.2.2⟩
  case mapMount =>
    split
    · exact ⟨hb, h.1, h.2.1, h.2.2.1, h.2.2.2.1, fun hu _ => by simp [hu]⟩
    · exact ⟨hb, h.1, h.2.1, h.2.2.1, h.2.2.2.1, fun _ hm => by simp at hm⟩
  case closeFd =>
    obtain ⟨h1, ⟨i, hi, hm⟩, h3, h4, h5⟩ := h
    have hu := settle_used { s with pc := .closeFd, fd := false } h1 rfl h4 ⟨i, hi, .inl hm⟩
    obtain ⟨u1, u2, u3, u4, u5⟩ := hu
    split
    · rename_i hmt
      refine ⟨u3.trans hb, .inr (.inr (.inr ⟨u1, fun hum => u5 (h5 hum ?_)⟩))⟩
      have : s.mounted = (settle { s with pc := .closeFd, fd := false }).mounted := u4.symm
      rw [this]; simpa using hmt
    · split
      · have hg := settle_gone { settle { s with pc := .closeFd, fd := false } with sock := false, pc := .exited } rfl u1.2.1
        refine ⟨hg.2.2.1.trans (u3.trans hb), ?_⟩
        simp only [At, hg.2.1]
        have hoc := hg.2.2.2.trans u1.2.2.1
        exact ⟨hg.1.1, hg.1.2.1, hoc, hg.1.2.2.1 hoc, hg.1.2.2.2⟩
      · exact ⟨u3.trans hb, u1⟩
  case inUse => exact ⟨hb, h⟩
  case umount =>
    split
    · rename_i hf
      exact ⟨hb, .inr (.inr (.inr ⟨h, fun hu => by simp [hu] at hf⟩))⟩
    · obtain ⟨h1, h2, h3, i, hi, hm⟩ := h
      have hu := settle_used { s with pc := .umount, mounted := false, held := keep && !C.umountOk } h1 h2 h3 ⟨i, hi, hm.imp And.left id⟩
      exact ⟨hu.2.2.1.trans hb, hu.1, fun hok => hu.2.2.2.2 (by simp [hok])⟩
  case rmNetlink =>
    obtain ⟨⟨_, _, _, i, hi, _⟩, _⟩ := id h
    rw [if_neg (by simp [hi])]
    split
    · exact ⟨hb, .inr (.inr (.inr h))⟩
    · exact ⟨hb, h⟩
  case rmSend =>
    have := removeDevice_used s h.1
    exact ⟨this.2.trans hb, this.1⟩
  case stopSend =>
    rw [if_pos h.2.1, stopSend_same s h.1.1]
    exact ⟨hb, h⟩
  case stopWait =>
    rw [if_neg (by simp [h.2.2])]
    exact ⟨hb, .inl ⟨h.1, rfl, .inr rfl⟩⟩
  case freeDev =>
    split
    · rename_i hn
      refine ⟨hb, ?_⟩
      rcases h with h | h | h | h
      · exact .inl h
      · exact .inr (.inl h)
      · obtain ⟨_, _, _, ⟨i, hi, _⟩, _⟩ := h; simp [hi] at hn
      · obtain ⟨⟨_, _, _, i, hi, _⟩, _⟩ := h; simp [hi] at hn
    · rename_i hn
      have h' : Half s ∨ (Used s ∧ (C.umountOk = true → s.mine = none)) := by
        rcases h with h | h | h | h
        · simp [h.1.2.2.1] at hn
        · simp [h.2.2.2.1] at hn
        · exact .inl h
        · exact .inr h
      split
      · rename_i hf
        refine ⟨hb, .inr (.inr (.inr ⟨by simp_all, h'⟩))⟩
      · exact ⟨hb, h'.imp id And.left⟩
  case freeSend =>
    rcases h with h | h
    · have := removeDevice_half s h
      exact ⟨this.2.trans hb, .inr (.inl this.1)⟩
    · have := removeDevice_used s h
      exact ⟨this.2.trans hb, .inr (.inr (.inl this.1))⟩
  case freeStop =>
    rcases h with h | h | h | ⟨hk, h | h⟩
    · rw [if_neg (by simp [h.2.1])]
      exact ⟨hb, h.2.1, h.1.2.2.2.2.2, h.2.2, .inl h.1⟩
    · rw [if_pos h.1]
      have := stopSend_talk s h
      exact ⟨this.2.trans hb, .inl this.1⟩
    · rw [if_pos h.2.1, stopSend_same s h.1.1]
      exact ⟨hb, .inl h⟩
    · rw [if_pos h.1]
      obtain ⟨a1, a2, a3, a4, a5, a6, a7⟩ := stopSend_half s h
      exact ⟨a7.trans hb, .inr ⟨hk, .inl ⟨a1, a2, a3, a4, a5, a6⟩⟩⟩
    · rw [if_pos h.1.1.1, stopSend_same s h.1.1.2.1]
      exact ⟨hb, .inr ⟨hk, .inr h⟩⟩
  case freeWait =>
    split
    · exact ⟨hb, by simpa only [At, hp] using h⟩
    · rcases h with h | ⟨hk, h | h⟩
      · exact ⟨hb, rfl, h.1.2.2.2.2.2, .inr rfl, .inl h.1⟩
      · exact ⟨hb, rfl, h.2.2.1, .inr rfl, .inr ⟨hk, .inl ⟨h.2.1, h.2.2.2.2.1, h.2.2.2.2.2⟩⟩⟩
      · obtain ⟨⟨_, h2, h3, i, hi, hm⟩, hu⟩ := h
        refine ⟨hb, rfl, h2, .inr rfl, .inr ⟨hk, .inr ⟨by simp [hi], hu, h3, fun hs => ?_⟩⟩⟩
        rcases hm with hm | hm
        · exact hm.2
        · have : s.mine.isSome = true := hs
          simp [hm.1] at this
  all_goals exact ⟨hb, by simpa only [At, hp] using h⟩

theorem others_inv (C : Cfg) (s : St) (o : Nat → Bool) (h : Inv C s) : Inv C { s with others := o } := by
  obtain ⟨hb, h⟩ := h
  refine ⟨hb, ?_⟩
  cases hp : s.pc <;> simp only [At, hp] at h ⊢ <;> exact h

theorem tell_inv (C : Cfg) (s : St) (h : Inv C s) : Inv C (tell s) := by
  unfold tell
  split
  · rename_i hr
    obtain ⟨hb, h⟩ := h
    refine ⟨hb, ?_⟩
    cases hp : s.pc <;> simp only [At, hp] at h ⊢ <;> simp_all only [Idle, Talk, Half, Own, Used, Told, Some'] <;> casesm* _ ∧ _, _ ∨ _, ∃ _, _ <;> grind
  · exact h

theorem unmounted_inv (C : Cfg) (s : St) (h : Inv C s) : Inv C (settle { s with held := false }) := by
  obtain ⟨hb, h⟩ := h
  obtain ⟨pc, sp, ss, ds, ix, mo, sk, fd, bc, mi, oc, he, ot, fo, hp⟩ := s
  simp only at hb
  subst hb
  cases pc <;> simp only [Inv, At, Idle, Talk, Half, Own, Used, Told, Some', settle, eof, autoClose, tell] at h ⊢ <;> grind

theorem step_inv (C : Cfg) (s : St) (e : Ev) (h : Inv C s) : Inv C (step C s e) := by
  cases e with
  | rauc f i k => exact rauc_inv C f i k s h
  | otherConnects i =>
    simp only [step]; split
    · exact h
    · exact others_inv C s _ h
  | otherDisconnects i => exact others_inv C s _ h
  | helperDies => exact tell_inv C s h
  | kill =>
    simp only [step]; split
    · exact h
    · have := die_spec s
      refine ⟨this.2.2.trans h.1, ?_⟩
      simp only [At, this.2.1]; exact this.1
  | unmounted => exact unmounted_inv C s h

theorem run_inv (C : Cfg) (o : Nat → Bool) (evs : List Ev) : Inv C (run C (start o) evs) := by
  unfold run
  have : ∀ s, Inv C s → Inv C (evs.foldl (step C) s) := by
    induction evs with
    | nil => exact fun s h => h
    | cons e es ih => exact fun s h => ih _ (step_inv C s e h)
  exact this _ (start_inv C o)

/-! ## Theorems -/

/-- **C87 (nothing is left).** Whatever fails, whenever the helper dies and whatever other processes do, and whatever the bundle was opened for: when RAUC has released the bundle, nothing of the
session is left - if the netlink socket could be opened while it was released. -/
theorem C87_clean_partial (C : Cfg) (hn : C.netlinkOk = true) (o : Nat → Bool) (evs : List Ev) (hd : (run C (start o) evs).pc = .done) :
    Clean (run C (start o) evs) := by
  have h := run_inv C o evs
  generalize run C (start o) evs = s at h hd ⊢
  obtain ⟨hb, h⟩ := h
  simp only [At, hd, hn] at h
  obtain ⟨h1, h2, h3, h4 | ⟨h4, _⟩⟩ := h
  · exact ⟨h3, h4.2.2.2.2.1, h2, h4.2.2.2.1, hb⟩
  · simp at h4

/-- **C87 (no hang).** RAUC never waits for a helper which does not know that it should end - if the netlink socket can be opened while the bundle is released, or unmounting works. -/
theorem C87_not_stuck_partial (C : Cfg) (hn : C.netlinkOk = true ∨ C.umountOk = true) (o : Nat → Bool) (evs : List Ev) : ¬ Stuck (run C (start o) evs) := by
  have h := run_inv C o evs
  generalize run C (start o) evs = s at h
  rintro ⟨hp, hr⟩
  obtain ⟨hb, h⟩ := h
  rcases hp with hp | hp <;> simp only [At, hp] at h
  · simp [h.2.2] at hr
  · rcases h with h | ⟨hk, h | h⟩
    · simp [h.2.2] at hr
    · simp [h.2.2.2.1] at hr
    · obtain ⟨⟨_, _, _, i, hi, hm⟩, hu⟩ := h
      rcases hn with hn | hn
      · simp [hn] at hk
      · rcases hm with hm | hm
        · simp [hu hn] at hm
        · simp [hm.2] at hr

/-- **C87 (without netlink).** Even if the netlink socket cannot be opened while the bundle is released: if unmounting works, the helper is gone and waited for, and the kernel has no device of
the session any more unless setting it up failed after it was connected. -/
theorem C87_helper_partial (C : Cfg) (hu : C.umountOk = true) (o : Nat → Bool) (evs : List Ev) (hd : (run C (start o) evs).pc = .done) :
    let s := run C (start o) evs
    (s.helper = .absent ∨ s.helper = .reaped) ∧ s.fd = false ∧ s.badClose = false ∧ (s.mine.isSome = true → s.onClose = false) := by
  have h := run_inv C o evs
  generalize run C (start o) evs = s at h hd ⊢
  obtain ⟨hb, h⟩ := h
  simp only [At, hd] at h
  obtain ⟨h1, h2, h3, h4⟩ := h
  refine ⟨h3, h2, hb, fun hs => ?_⟩
  rcases h4 with h4 | ⟨_, h4 | h4⟩
  · simp [h4.2.2.2.1] at hs
  · exact h4.2.1
  · simp [h4.2.1 hu] at hs

/-- **C87 (closed once).** At no moment of any session, whatever happens, was a descriptor closed which RAUC did not have open. -/
theorem C87_closed_once (C : Cfg) (o : Nat → Bool) (evs : List Ev) : (run C (start o) evs).badClose = false := (run_inv C o evs).1

/-- **C87 (killed).** If RAUC is killed (or aborts itself because the helper died while it was configured), device and helper do not survive it longer than the mount - unless it was killed between
connecting the device and asking the kernel to disconnect it with its last user. -/
theorem C87_killed_partial (C : Cfg) (o : Nat → Bool) (evs : List Ev) (hd : (run C (start o) evs).pc = .dead) (hc : (run C (start o) evs).onClose = true ∨ (run C (start o) evs).mine = none)
    (hm : (run C (start o) evs).held = false) :
    let s := run C (start o) evs
    s.sock = false ∧ s.fd = false ∧ s.mine = none ∧ s.helper ≠ .running := by
  have h := run_inv C o evs
  generalize run C (start o) evs = s at h hd hc hm ⊢
  obtain ⟨hb, h⟩ := h
  simp only [At, hd] at h
  obtain ⟨h1, h2, h3, h4⟩ := h
  have hmine : s.mine = none := by
    rcases hc with hc | hc
    · cases hq : s.mine with
      | none => rfl
      | some i => have := h3 hc (by simp [hq]); simp [this] at hm
    · exact hc
  exact ⟨h1, h2, hmine, fun hr => by simpa [hmine] using h4 hr⟩

/-- **C87 (`rauc mount`).** After `rauc mount` ended successfully, device and helper exist no longer than something uses the device. -/
theorem C87_mount (C : Cfg) (o : Nat → Bool) (evs : List Ev) (hd : (run C (start o) evs).pc = .exited) :
    let s := run C (start o) evs
    s.sock = false ∧ s.fd = false ∧ (s.held = false → s.mine = none ∧ s.helper ≠ .running) := by
  have h := run_inv C o evs
  generalize run C (start o) evs = s at h hd ⊢
  obtain ⟨hb, h⟩ := h
  simp only [At, hd] at h
  obtain ⟨h1, h2, h3, h4, h5⟩ := h
  refine ⟨h1, h2, fun hm => ?_⟩
  have hmine : s.mine = none := by
    cases hq : s.mine with
    | none => rfl
    | some i => have := h4 (by simp [hq]); simp [this] at hm
  exact ⟨hmine, fun hr => by simpa [hmine] using h5 hr⟩

/-! ### Every session ends -/

/-- statements RAUC still has to execute, at most -/
def rank : Pc → Nat
  | .socketpair => 22 | .prepare => 21 | .spawn => 20 | .configure => 19 | .check => 18 | .mkdir => 17 | .setup => 16 | .connect => 15 | .openDev => 14 | .reconf => 13
  | .mapMount => 12 | .closeFd => 11 | .inUse => 10 | .umount => 9 | .rmNetlink => 8 | .rmSend => 7 | .stopSend => 6 | .stopWait => 5
  | .freeDev => 4 | .freeSend => 3 | .freeStop => 2 | .freeWait => 1
  | .done => 0 | .exited => 0 | .dead => 0

@[simp] theorem tell_pc (s : St) : (tell s).pc = s.pc := by unfold tell; split <;> rfl
@[simp] theorem settle_pc (s : St) : (settle s).pc = s.pc := by
  unfold settle eof autoClose; repeat' split
  all_goals simp
@[simp] theorem setupFailed_pc (s : St) : (setupFailed s).pc = .freeDev := by simp [setupFailed]
@[simp] theorem die_pc (s : St) : (die s).pc = .dead := by simp [die]

theorem rauc_rank (C : Cfg) (f : Bool) (i : Nat) (k : Bool) (s : St) (h : ¬ Stuck s) : rank (raucStep C f i k s).pc ≤ rank s.pc - 1 := by
  unfold raucStep
  dsimp only
  unfold Stuck at h
  cases hp : s.pc <;> simp only [hp] at h ⊢ <;> (repeat' split) <;> simp_all [rank]

theorem env_pc (C : Cfg) (s : St) (e : Ev) (h : ∀ f i k, e ≠ .rauc f i k) : rank (step C s e).pc ≤ rank s.pc := by
  cases e with
  | rauc f i k => exact absurd rfl (h f i k)
  | otherConnects i => simp only [step]; split <;> simp
  | otherDisconnects i => simp [step]
  | helperDies => simp [step]
  | kill => simp only [step]; split <;> simp [rank]
  | unmounted => simp [step]

/-- how often it was RAUC's turn -/
def turns : List Ev → Nat
  | [] => 0
  | .rauc .. :: es => turns es + 1
  | _ :: es => turns es

theorem turns_append (a b : List Ev) : turns (a ++ b) = turns a + turns b := by
  induction a with
  | nil => simp [turns]
  | cons e es ih => cases e <;> simp [turns, ih] <;> omega

/-- **C87 (every session ends).** After RAUC had 22 turns the session is over, whatever happened in between - if the netlink socket can be opened while the bundle is released, or unmounting works. -/
theorem C87_ends_partial (C : Cfg) (hn : C.netlinkOk = true ∨ C.umountOk = true) (o : Nat → Bool) (evs : List Ev) (ht : 22 ≤ turns evs) : Over (run C (start o) evs) := by
  have key : ∀ evs, rank (run C (start o) evs).pc ≤ 22 - turns evs := by
    intro evs
    induction evs using List.reverseRecOn with
    | nil => simp [run, start, rank, turns]
    | append_singleton es e ih =>
      have hs := C87_not_stuck_partial C hn o es
      have hr : run C (start o) (es ++ [e]) = step C (run C (start o) es) e := by simp [run]
      rw [hr, turns_append]
      cases e with
      | rauc f i k =>
        have := rauc_rank C f i k _ hs
        simp only [step, turns]; omega
      | otherConnects i => have := env_pc C (run C (start o) es) (.otherConnects i) (by simp); simp only [turns]; omega
      | otherDisconnects i => have := env_pc C (run C (start o) es) (.otherDisconnects i) (by simp); simp only [turns]; omega
      | helperDies => have := env_pc C (run C (start o) es) .helperDies (by simp); simp only [turns]; omega
      | kill => have := env_pc C (run C (start o) es) .kill (by simp); simp only [turns]; omega
      | unmounted => have := env_pc C (run C (start o) es) .unmounted (by simp); simp only [turns]; omega
  have h0 : rank (run C (start o) evs).pc = 0 := by have := key evs; omega
  revert h0
  unfold Over
  generalize (run C (start o) evs).pc = p
  cases p <;> simp [rank]

/-! ### Devices of other processes -/

theorem others_step (C : Cfg) (hr : C.reuse = false) (s : St) (e : Ev) (hf : s.foreign = []) (ho : ∀ i, s.index = some i → s.others i = false) :
    (step C s e).foreign = [] ∧ ∀ i, (step C s e).index = some i → (step C s e).others i = false := by
  have ht : ∀ s : St, (tell s).foreign = s.foreign ∧ (tell s).index = s.index ∧ (tell s).others = s.others := by
    intro s; unfold tell; split <;> simp
  have hs : ∀ s : St, (settle s).foreign = s.foreign ∧ (settle s).index = s.index ∧ (settle s).others = s.others := by
    intro s; unfold settle eof autoClose; (repeat' split) <;> simp [ht]
  have hc : ∀ s : St, (closeSock s).foreign = s.foreign ∧ (closeSock s).index = s.index ∧ (closeSock s).others = s.others := by
    intro s; unfold closeSock; split <;> simp [hs]
  have hd : ∀ s : St, (die s).foreign = s.foreign ∧ (die s).index = s.index ∧ (die s).others = s.others := by
    intro s; unfold die; simp [hs]
  have hsf : ∀ s : St, (setupFailed s).foreign = s.foreign ∧ (setupFailed s).index = s.index ∧ (setupFailed s).others = s.others := by
    intro s; unfold setupFailed; simp [hs]
  have hst : ∀ s : St, (stopSend s).foreign = s.foreign ∧ (stopSend s).index = s.index ∧ (stopSend s).others = s.others := by
    intro s; unfold stopSend; split <;> simp [hc, ht]
  have hrm : (removeDevice s).foreign = [] ∧ (removeDevice s).index = none := by
    unfold removeDevice
    cases hi : s.index with
    | none => dsimp only; split <;> simp [hc, hf]
    | some i =>
      have := ho i hi
      dsimp only
      unfold disconnect
      simp only [this, Bool.false_eq_true, if_false]
      (repeat' split) <;> simp [hc, ht, hf]
  cases e with
  | rauc f i k =>
    simp only [step]
    unfold raucStep
    dsimp only
    split
    all_goals ((repeat' split) <;> simp_all)
  | otherConnects i =>
    simp only [step]
    split
    · exact ⟨hf, ho⟩
    · rename_i hn
      refine ⟨hf, fun j hj => ?_⟩
      have hj' : s.index = some j := hj
      simp only [hr, hj', Bool.or_eq_true, Bool.and_eq_true] at hn
      simp [ho j hj']
      rintro rfl; simp at hn
  | otherDisconnects i => exact ⟨hf, fun j hj => by simp [step, ho j hj]⟩
  | helperDies => simp [step, ht, hf]; exact ho
  | kill => simp only [step]; split; · exact ⟨hf, ho⟩
            · simp [hd, hf]; exact ho
  | unmounted => simp [step, hs, hf]; exact ho

/-- **C87 (others).** No session ever disconnects the device of another process - if the kernel gives nobody the number of this session's device while RAUC remembers it. -/
theorem C87_others_partial (C : Cfg) (hr : C.reuse = false) (o : Nat → Bool) (evs : List Ev) : (run C (start o) evs).foreign = [] := by
  have : ∀ s : St, s.foreign = [] → (∀ i, s.index = some i → s.others i = false) → (evs.foldl (step C) s).foreign = [] := by
    induction evs with
    | nil => exact fun s h _ => h
    | cons e es ih =>
      intro s hf ho
      have := others_step C hr s e hf ho
      exact ih _ this.1 this.2
  exact this _ rfl (by simp [start])

/-! ### The mounted bundle stays usable -/

/-- nobody interferes: it is only RAUC's turn, or other processes handle their own devices -/
def Calm (evs : List Ev) : Prop := ∀ e ∈ evs, e ≠ .helperDies ∧ e ≠ .kill ∧ e ≠ .unmounted

/-- what holds while the bundle is being opened, mounted and used -/
def Alive (s : St) : Prop :=
  match s.pc with
  | .socketpair | .prepare | .spawn => s.mounted = false
  | .configure | .check | .mkdir | .setup | .connect => s.mounted = false ∧ s.helper = .running
  | .openDev => s.mounted = false ∧ s.helper = .running ∧ s.mine.isSome = true
  | .reconf | .mapMount => s.mounted = false ∧ s.helper = .running ∧ s.mine.isSome = true ∧ s.fd = true
  | .closeFd => s.helper = .running ∧ s.mine.isSome = true ∧ s.fd = true ∧ (s.mounted = true → s.held = true)
  | .inUse | .umount => s.helper = .running ∧ s.mine.isSome = true ∧ s.held = true
  | .exited => s.helper = .running ∧ s.mine.isSome = true ∧ s.held = true
  | _ => True

theorem alive_step (C : Cfg) (s : St) (e : Ev) (h1 : e ≠ .helperDies) (h2 : e ≠ .kill) (h3 : e ≠ .unmounted) (h : Alive s) : Alive (step C s e) := by
  cases e with
  | rauc f i k =>
    simp only [step]
    cases hp : s.pc <;> simp only [Alive, hp] at h <;> simp only [raucStep, hp]
    case closeFd =>
      obtain ⟨a, b, c, d⟩ := h
      by_cases hm : s.mounted = true
      · have hd := d hm
        cases hmi : s.mine with
        | none => simp [hmi] at b
        | some i =>
          have e1 : settle { s with pc := .closeFd, fd := false } = { s with pc := .closeFd, fd := false } := by
            simp [settle, autoClose, eof, hd, hmi]
          rw [← hmi, e1]
          simp only [hm, Bool.not_true, Bool.false_eq_true, if_false]
          split
          · simp [settle, autoClose, eof, hd, hmi, Alive, a]
          · simp [Alive, a, hmi, hd]
      · have hm' : s.mounted = false := by simpa using hm
        have e2 : (settle { s with pc := .closeFd, fd := false }).mounted = false := by
          unfold settle eof autoClose tell; (repeat' split) <;> simp [hm']
        simp [e2, Alive]
    all_goals (repeat' split) <;> simp_all [Alive]
  | otherConnects i => simp only [step]; split <;> first | exact h | (cases hp : s.pc <;> simp_all [Alive])
  | otherDisconnects i => simp only [step]; cases hp : s.pc <;> simp_all [Alive]
  | helperDies => exact absurd rfl h1
  | kill => exact absurd rfl h2
  | unmounted => exact absurd rfl h3

/-- **C87 (the mounted bundle is served).** While nobody kills RAUC or the helper or unmounts the bundle: as long as the installation uses the mounted bundle - and after `rauc mount` ended - the
helper runs and the device is connected to it. -/
theorem C87_served (C : Cfg) (o : Nat → Bool) (evs : List Ev) (hc : Calm evs) (hp : (run C (start o) evs).pc = .inUse ∨ (run C (start o) evs).pc = .exited) :
    let s := run C (start o) evs
    s.helper = .running ∧ s.mine.isSome = true ∧ s.held = true := by
  have : ∀ (evs : List Ev) (s : St), Calm evs → Alive s → Alive (evs.foldl (step C) s) := by
    intro evs
    induction evs with
    | nil => exact fun s _ h => h
    | cons e es ih =>
      intro s hc h
      have he := hc e (by simp)
      exact ih _ (fun e he => hc e (by simp [he])) (alive_step C s e he.1 he.2.1 he.2.2 h)
  have h := this evs (start o) hc (by simp [Alive, start])
  change Alive (run C (start o) evs) at h
  generalize run C (start o) evs = s at h hp ⊢
  rcases hp with hp | hp <;> simpa only [Alive, hp] using h

/-! ### What the code does not guarantee -/

/-- all statements of an installation up to the unmounting work; the kernel chooses device 0 -/
def upTo (n : Nat) : List Ev := List.replicate n (Ev.rauc false 0 false)

/-- **C87 violated (hang).** The bundle cannot be unmounted and the netlink socket cannot be opened: RAUC waits for the helper, which keeps serving the mounted device. -/
theorem C87_finding_hang : Stuck (run ⟨.install, false, false, false⟩ (start fun _ => false) (upTo 13 ++ [.rauc true 0 false, .rauc true 0 false, .rauc false 0 false])) := by
  simp [Stuck, run, upTo, List.replicate, step, raucStep, start, settle, autoClose, eof, stopSend]

/-- **C87 violated (socket).** The bundle was unmounted, but the netlink socket could not be opened: RAUC's end of the socket stays open for ever (nbd.c:57-61 only logs the error, :63 frees the
structure with the number of the descriptor). -/
theorem C87_finding_socket : let s := run ⟨.install, false, true, false⟩ (start fun _ => false) (upTo 14 ++ [.rauc true 0 false, .rauc true 0 false] ++ upTo 2)
    s.pc = .done ∧ s.sock = true ∧ s.mine = none ∧ s.helper = .reaped := by
  simp [run, upTo, List.replicate, step, raucStep, start, settle, autoClose, eof, stopSend, tell]

/-- **C87 violated (device).** The connected device could not be opened (or configured to go away), and the netlink socket could not be opened afterwards: the device stays connected, to nothing. -/
theorem C87_finding_device : let s := run ⟨.install, false, true, false⟩ (start fun _ => false) (upTo 8 ++ [.rauc true 0 false, .rauc true 0 false] ++ upTo 2)
    s.pc = .done ∧ s.mine = some 0 ∧ s.helper = .reaped ∧ s.sock = false := by
  simp [run, upTo, List.replicate, step, raucStep, start, settle, autoClose, eof, stopSend, tell, setupFailed, closeSock]

/-- **C87 violated (foreign device).** After unmounting, the kernel disconnects the device by itself (that is what it was asked for); if another process gets its number before RAUC disconnects
"its" device by number, the other process loses its device. -/
theorem C87_finding_foreign : (run ⟨.install, true, true, true⟩ (start fun _ => false) (upTo 14 ++ [.otherConnects 0] ++ upTo 2)).foreign = [0] := by
  simp [run, upTo, List.replicate, step, raucStep, start, settle, autoClose, eof, stopSend, tell, removeDevice, disconnect, closeSock]

/-- **C87 violated (killed).** RAUC is killed right after connecting the device: device and helper stay. -/
theorem C87_finding_killed : let s := run ⟨.install, true, true, false⟩ (start fun _ => false) (upTo 8 ++ [.kill])
    s.pc = .dead ∧ s.mine = some 0 ∧ s.helper = .running ∧ s.held = false := by
  simp [run, upTo, List.replicate, step, raucStep, start, settle, autoClose, eof, die]

/-! ### Satisfiable -/

/-- a whole installation -/
example : let s := run ⟨.install, true, true, true⟩ (start fun i => i == 3) (upTo 20)
    s.pc = .done ∧ s.helper = .reaped ∧ s.mine = none ∧ s.sock = false ∧ s.others 3 = true := by
  simp [run, upTo, List.replicate, step, raucStep, start, settle, autoClose, eof, stopSend, tell, removeDevice, disconnect, closeSock]

/-- `rauc mount`: the helper keeps serving the mounted bundle; after `umount` it ends -/
example : let s := run ⟨.mount, true, true, true⟩ (start fun _ => false) (upTo 12)
    s.pc = .exited ∧ s.helper = .running ∧ s.mine = some 0 ∧ s.held = true ∧ (step ⟨.mount, true, true, true⟩ s .unmounted).helper = .ended := by
  simp [run, upTo, List.replicate, step, raucStep, start, settle, autoClose, eof, tell]

end Rauc.StreamSession
