import Verif.Model.SlotMount
import Verif.Props.Update
import Verif.Props.Status

/-!
# C88 — slots are mounted by RAUC only while it works on them; per-slot status files
-/

namespace Rauc.SlotMount

/-! ## Specification -/

/-- unmounting never fails during the operation -/
def Op.Unmounts : Op → Prop
  | .query f => f.umount = true
  | .install i => i.fLoad.umount = true ∧ i.fSave.umount = true ∧ ∀ h, i.o h .umount = true
  | .activate _ f g _ => f.umount = true ∧ g.umount = true

/-- RAUC's idea of its mount is right, and a slot that is mounted has a status loaded -/
def Inv (s : St) : Prop := s.mounts = (if s.mp then 1 else 0) ∧ (s.mp = true → s.mem.isSome = true)

/-! ## The parts -/

theorem load_mem (C : Cfg) (f : Faults) (s : St) : (load C f s).mem.isSome = true := by
  unfold load
  split
  · assumption
  · simp only
    split
    · simp
    · split
      · simp
      · unfold mountSlot umountSlot useError
        cases hm : s.mp <;> cases hf : f.mount <;> cases hu : f.umount <;> simp

theorem load_loaded (C : Cfg) (f : Faults) (s : St) (h : s.mem.isSome = true) : load C f s = s := by
  unfold load; rw [if_pos h]

theorem load_file (C : Cfg) (f : Faults) (s : St) : (load C f s).file = s.file := by
  unfold load mountSlot umountSlot useError
  split
  · rfl
  · cases hm : s.mp <;> cases hf : f.mount <;> cases hu : f.umount <;> cases C.mountable <;> cases C.ext <;> simp

theorem load_inv (C : Cfg) (f : Faults) (s : St) (h : Inv s) : Inv (load C f s) ∧ ((load C f s).alive = s.alive) ∧ (f.umount = true → s.mp = false → (load C f s).mp = false) := by
  obtain ⟨h1, h2⟩ := h
  by_cases hm : s.mem.isSome = true
  · rw [load_loaded C f s hm]; exact ⟨⟨h1, h2⟩, rfl, fun _ h => h⟩
  · have hmp : s.mp = false := by
      cases hq : s.mp
      · rfl
      · exact absurd (h2 hq) hm
    unfold load mountSlot umountSlot useError Inv
    rw [if_neg hm]
    simp only [hmp] at h1 ⊢
    cases hf : f.mount <;> cases hu : f.umount <;> cases C.mountable <;> cases C.ext <;> simp [h1, hmp]

/-- what saving does -/
theorem save_spec (C : Cfg) (f : Faults) (s : St) (h : Inv s) (hm : s.mem.isSome = true) :
    Inv (save C f s).1 ∧ (save C f s).1.alive = s.alive ∧ (save C f s).1.mem = s.mem ∧
    ((save C f s).1.file = s.file ∨ (save C f s).1.file = s.mem.map writeLocal) ∧
    (s.mp = true → (save C f s).1 = s) ∧
    (f.umount = true → s.mp = false → (save C f s).1.mp = false) ∧
    ((save C f s).2 = .noError → s.mp = true) ∧
    ((save C f s).2 = .ok → C.mountable = true → (save C f s).1.file = s.mem.map writeLocal ∧ (save C f s).1.mp = false) := by
  obtain ⟨h1, h2⟩ := h
  obtain ⟨st, hst⟩ := Option.isSome_iff_exists.1 hm
  unfold save mountSlot umountSlot Inv
  simp only [hst]
  cases hmp : s.mp <;> simp only [hmp] at h1 <;> cases hf : f.mount <;> cases hw : f.write <;> cases hu : f.umount <;> cases C.mountable <;> simp [h1, hst, hmp]

theorem useError_spec (r : Res) (s : St) : (useError r s).mp = s.mp ∧ (useError r s).mounts = s.mounts ∧ (useError r s).mem = s.mem ∧ (useError r s).file = s.file ∧
    (r ≠ .noError → useError r s = s) := by
  unfold useError
  split <;> simp_all

theorem mountedAfter_eq (tr : List Update.Ev) : mountedAfter tr = Update.mounted tr := rfl

/-- a handler that leaves the slot mounted failed, because unmounting failed -/
theorem handler_left (img : Image) (t : Update.Target) (o : List Update.Ev → Update.Step → Bool) (tr : List Update.Ev) (r : Bool)
    (h : Update.updateSlot img t o = some (tr, r)) (hm : mountedAfter tr = true) : (Update.Step.umount, false) ∈ tr ∧ r = false := by
  cases hi : img.hooks.install with
  | false => exact (Update.C58_unmounted hi h).1 hm
  | true =>
    have := Update.C58_install_hook hi h
    subst this
    revert hm
    cases r <;> simp [mountedAfter]

/-- the outcomes in the trace are those of the environment -/
theorem run_outcome (o : List Update.Ev → Update.Step → Bool) (p : Update.Prog) : ∀ (h : List Update.Ev), (∀ e ∈ h, e.1 = .umount → e.2 = true) → (∀ h, o h .umount = true) →
    ∀ e ∈ (p.run o h).1, e.1 = .umount → e.2 = true := by
  induction p with
  | ret b => intro h hh _; exact hh
  | act s y n ihy ihn =>
    intro h hh ho
    unfold Update.Prog.run
    split
    · refine ihy _ ?_ ho
      intro e he hs
      rcases List.mem_append.1 he with he | he
      · exact hh e he hs
      · simp only [List.mem_singleton] at he; subst he; rfl
    · rename_i hf
      refine ihn _ ?_ ho
      intro e he hs
      rcases List.mem_append.1 he with he | he
      · exact hh e he hs
      · simp only [List.mem_singleton] at he; subst he
        simp only at hs; subst hs
        simp [ho] at hf

theorem handler_clean (img : Image) (t : Update.Target) (o : List Update.Ev → Update.Step → Bool) (tr : List Update.Ev) (r : Bool)
    (h : Update.updateSlot img t o = some (tr, r)) (ho : ∀ h, o h .umount = true) : mountedAfter tr = false := by
  cases hm : mountedAfter tr with
  | false => rfl
  | true =>
    have hl := (handler_left img t o tr r h hm).1
    unfold Update.updateSlot at h
    rw [Option.map_eq_some_iff] at h
    obtain ⟨p, -, hp⟩ := h
    have := run_outcome o p [] (by simp) ho (.umount, false) (by rw [hp]; exact hl) rfl
    cases this

/-- saving, then using the error's message -/
theorem save_used (C : Cfg) (f : Faults) (s : St) (h : Inv s) (hm : s.mem.isSome = true) :
    let t := useError (save C f s).2 (save C f s).1
    Inv t ∧ t.mem = s.mem ∧ (t.file = s.file ∨ t.file = s.mem.map writeLocal) ∧ (s.mp = true → t.mp = true ∧ t.file = s.file) ∧
    (f.umount = true → s.mp = false → t.mp = false) ∧ (s.mp = false → t.alive = s.alive) ∧
    ((save C f s).2 = .ok → C.mountable = true → t.file = s.mem.map writeLocal ∧ t.mp = false ∧ t.alive = s.alive) := by
  obtain ⟨a, b, c, d, e, g, k, l⟩ := save_spec C f s h hm
  obtain ⟨u1, u2, u3, u4, u5⟩ := useError_spec (save C f s).2 (save C f s).1
  refine ⟨⟨by rw [u1, u2]; exact a.1, by rw [u1, u3]; exact a.2⟩, by rw [u3, c], by rw [u4]; exact d, ?_, ?_, ?_, ?_⟩
  · intro hp; rw [u1, u4, e hp]; exact ⟨hp, rfl⟩
  · intro hf hp; rw [u1]; exact g hf hp
  · intro hp
    rw [u5 (fun hn => by rw [k hn] at hp; cases hp)]; exact b
  · intro hok hmt
    obtain ⟨l1, l2⟩ := l hok hmt
    exact ⟨by rw [u4]; exact l1, by rw [u1]; exact l2, by rw [u5 (by rw [hok]; simp)]; exact b⟩

theorem map_isSome {α β : Type} {o : Option α} {f : α → β} (h : o.isSome = true) : (o.map f).isSome = true := by
  cases o <;> simp_all

theorem install_spec (C : Cfg) (i : Install) (s : St) (h : Inv s) (hal : s.alive = true) :
    let t := (install C i s).1
    Inv t ∧
    (s.mp = true → t = s ∧ (install C i s).2 = .error) ∧
    ((i.fLoad.umount = true ∧ i.fSave.umount = true ∧ ∀ h, i.o h .umount = true) → s.mp = false → t.mp = false ∧ t.alive = true) ∧
    ((install C i s).2 = .ok → C.mountable = true → t.file = t.mem.map writeLocal ∧ t.mem.isSome = true ∧ t.mp = false ∧ t.alive = true) := by
  obtain ⟨l1, l2, l3⟩ := load_inv C i.fLoad s h
  have lm := load_mem C i.fLoad s
  have lal : (load C i.fLoad s).alive = true := l2.trans hal
  have lmp : s.mp = true → load C i.fLoad s = s := fun hp => load_loaded C _ s (h.2 hp)
  intro t
  have ht : t = (install C i s).1 := rfl
  clear_value t
  unfold install at ht ⊢
  generalize load C i.fLoad s = s1 at *
  obtain ⟨mp, mounts, mem, file, alive⟩ := s1
  dsimp only at lal lm l3
  subst lal
  simp only [Bool.not_true, Bool.false_eq_true, if_false] at ht ⊢
  cases mp with
  | true =>
    simp only [if_true] at ht ⊢
    subst ht
    refine ⟨l1, fun hs => ⟨lmp hs, trivial⟩, fun hu hs => ?_, fun hq => by cases hq⟩
    have := l3 hu.1 hs; cases this
  | false =>
    have hno : s.mp = true → False := fun hq => by
      have h1 := lmp hq
      rw [← h1] at hq; cases hq
    have hmz : mounts = 0 := l1.1
    subst hmz
    simp only [Bool.false_eq_true, if_false] at ht ⊢
    by_cases hsk : i.skip (mem.getD {}) = true
    · simp only [hsk, if_true, finish] at ht ⊢
      have hI : Inv { mp := false, mounts := 0, mem := mem.map i.okStatus, file := file, alive := true } := ⟨rfl, fun hq => by cases hq⟩
      obtain ⟨a, b, c, d, e, g, k⟩ := save_used C i.fSave _ hI (map_isSome lm)
      subst ht
      refine ⟨a, fun hq => (hno hq).elim, fun hu _ => ⟨e hu.2.1 rfl, (g rfl)⟩, fun hq hmt => ?_⟩
      obtain ⟨k1, k2, k3⟩ := k hq hmt
      exact ⟨by rw [k1, b], by rw [b]; exact map_isSome lm, k2, k3⟩
    · simp only [hsk] at ht ⊢
      cases hup : Update.updateSlot i.img i.target i.o with
      | none =>
        simp only [hup] at ht ⊢
        subst ht
        exact ⟨l1, fun hq => (hno hq).elim, fun _ _ => ⟨rfl, rfl⟩, fun hq => by cases hq⟩
      | some x =>
        obtain ⟨tr, r⟩ := x
        simp only [hup] at ht ⊢
        cases r with
        | true =>
          have hl : mountedAfter tr = false := by
            cases hq : mountedAfter tr
            · rfl
            · exact absurd (handler_left _ _ _ _ _ hup hq).2 (by simp)
          simp only [hl, Bool.false_eq_true, if_false, if_true, finish] at ht ⊢
          have hI : Inv { mp := false, mounts := 0, mem := mem.map i.okStatus, file := i.after file, alive := true } := ⟨rfl, fun hq => by cases hq⟩
          obtain ⟨a, b, c, d, e, g, k⟩ := save_used C i.fSave _ hI (map_isSome lm)
          subst ht
          refine ⟨a, fun hq => (hno hq).elim, fun hu _ => ⟨e hu.2.1 rfl, (g rfl)⟩, fun hq hmt => ?_⟩
          obtain ⟨k1, k2, k3⟩ := k hq hmt
          exact ⟨by rw [k1, b], by rw [b]; exact map_isSome lm, k2, k3⟩
        | false =>
          simp only [Bool.false_eq_true, if_false] at ht ⊢
          have hI : Inv { mp := mountedAfter tr, mounts := if mountedAfter tr = true then 0 + 1 else 0, mem := mem.map i.failedStatus, file := i.after file, alive := true } :=
            ⟨by simp, fun _ => map_isSome lm⟩
          obtain ⟨a, b, c, d, e, g, k⟩ := save_used C i.fSave _ hI (map_isSome lm)
          subst ht
          refine ⟨a, fun hq => (hno hq).elim, fun hu _ => ?_, fun hq => by cases hq⟩
          have hl := handler_clean _ _ _ _ _ hup hu.2.2
          exact ⟨e hu.2.1 hl, (g hl)⟩

theorem activate_spec (C : Cfg) (boot : Bool) (f g : Faults) (u : SlotStatus → SlotStatus) (s : St) (h : Inv s) (hal : s.alive = true) :
    let t := (markActive C boot f g u s).1
    Inv t ∧ (s.mp = true → t.mp = true ∧ t.file = s.file) ∧
    ((f.umount = true ∧ g.umount = true) → s.mp = false → t.mp = false ∧ t.alive = true) ∧
    (t.file = s.file ∨ t.file = t.mem.map writeLocal) := by
  obtain ⟨l1, l2, l3⟩ := load_inv C f s h
  have lm := load_mem C f s
  have lf := load_file C f s
  have lal : (load C f s).alive = true := l2.trans hal
  have lmp : s.mp = true → load C f s = s := fun hp => load_loaded C _ s (h.2 hp)
  unfold markActive
  generalize load C f s = s1 at *
  obtain ⟨mp, mounts, mem, file, alive⟩ := s1
  dsimp only at lal lm lf l3
  subst lal
  simp only [Bool.not_true, Bool.false_eq_true, if_false]
  cases boot with
  | false =>
    refine ⟨l1, fun hq => ?_, fun hu hs => ⟨l3 hu.1 hs, rfl⟩, .inl lf⟩
    have h1 := lmp hq
    rw [← h1] at hq
    exact ⟨hq, lf⟩
  | true =>
    simp only [Bool.not_true, Bool.false_eq_true, if_false]
    have hI : Inv { mp := mp, mounts := mounts, mem := mem.map u, file := file, alive := true } := ⟨l1.1, fun _ => map_isSome lm⟩
    obtain ⟨a, b, c, d, e, k, _⟩ := save_used C g _ hI (map_isSome lm)
    refine ⟨a, fun hq => ?_, fun hu hs => ⟨e hu.2 (l3 hu.1 hs), (k (l3 hu.1 hs))⟩, ?_⟩
    · have hq' : mp = true := by have h1 := lmp hq; rw [← h1] at hq; exact hq
      exact ⟨(d hq').1, (d hq').2.trans lf⟩
    · rcases c with c | c
      · exact .inl (c.trans lf)
      · right
        simp only at b c ⊢
        rw [c, b]

theorem step_inv (C : Cfg) (s : St) (op : Op) (h : Inv s) : Inv (step C s op) := by
  unfold step
  split
  · exact h
  · rename_i ha
    have ha : s.alive = true := by simpa using ha
    cases op with
    | query f => exact (load_inv C f s h).1
    | install i => exact (install_spec C i s h ha).1
    | activate b f g u => exact (activate_spec C b f g u s h ha).1

theorem run_inv (C : Cfg) (ops : List Op) : ∀ s, Inv s → Inv (run C s ops) := by
  unfold run
  induction ops with
  | nil => exact fun s h => h
  | cons e es ih => exact fun s h => ih _ (step_inv C s e h)

/-- a process starts without mounts of its own -/
def start (file : Option KeyFile) : St := { file := file }

theorem start_inv (file : Option KeyFile) : Inv (start file) := ⟨rfl, fun h => by cases h⟩

/-! ## Theorems -/

/-- **C88 (one mount).** Whatever fails, RAUC never mounts the slot twice, and it has the slot mounted exactly if it believes so. -/
theorem C88_one_mount (C : Cfg) (file : Option KeyFile) (ops : List Op) :
    (run C (start file) ops).mounts ≤ 1 ∧ ((run C (start file) ops).mounts = 1 ↔ (run C (start file) ops).mp = true) := by
  have h := (run_inv C ops _ (start_inv file)).1
  rw [h]
  split <;> simp_all

/-- **C88 (nothing stays mounted).** As long as unmounting works, RAUC survives every sequence of queries, installations and activations, whatever else fails in them, and after each of them the
slot is not mounted by RAUC. -/
theorem C88_unmounted_partial (C : Cfg) (file : Option KeyFile) (ops : List Op) (hu : ∀ op ∈ ops, op.Unmounts) :
    (run C (start file) ops).mounts = 0 ∧ (run C (start file) ops).alive = true := by
  have key : ∀ (ops : List Op) (s : St), (∀ op ∈ ops, op.Unmounts) → Inv s → s.mp = false → s.alive = true → (run C s ops).mp = false ∧ (run C s ops).alive = true := by
    intro ops
    induction ops with
    | nil => exact fun s _ _ h1 h2 => ⟨h1, h2⟩
    | cons op es ih =>
      intro s hu hI hp ha
      have hop := hu op (by simp)
      have hst : (step C s op).mp = false ∧ (step C s op).alive = true := by
        unfold step
        rw [if_neg (by simp [ha])]
        cases op with
        | query f => have := load_inv C f s hI; exact ⟨this.2.2 hop hp, this.2.1.trans ha⟩
        | install i => exact (install_spec C i s hI ha).2.2.1 hop hp
        | activate b f g u => exact (activate_spec C b f g u s hI ha).2.2.1 hop hp
      exact ih _ (fun o ho => hu o (by simp [ho])) (step_inv C s op hI) hst.1 hst.2
  have := key ops (start file) hu (start_inv file) rfl rfl
  refine ⟨?_, this.2⟩
  have h := (run_inv C ops _ (start_inv file)).1
  rw [h, this.1]; rfl

/-- **C88 (a slot that could not be unmounted is left alone).** After unmounting failed, no operation of the process changes the slot any more: installations are refused before the handler is
started, and the status file is not written. -/
theorem C88_left_alone (C : Cfg) (file : Option KeyFile) (ops : List Op) (hm : (run C (start file) ops).mounts = 1) (op : Op) :
    (step C (run C (start file) ops) op).file = (run C (start file) ops).file ∧
    (∀ i, op = .install i → (run C (start file) ops).alive = true → (install C i (run C (start file) ops)).2 = .error ∧ step C (run C (start file) ops) op = run C (start file) ops) := by
  have hI := run_inv C ops _ (start_inv file)
  have hp := (C88_one_mount C file ops).2.1 hm
  generalize run C (start file) ops = s at *
  unfold step
  by_cases ha : s.alive = true
  · rw [if_neg (by simp [ha])]
    constructor
    · cases op with
      | query f => exact load_file C f s
      | install i => exact congrArg St.file ((install_spec C i s hI ha).2.1 hp).1
      | activate b f g u => exact ((activate_spec C b f g u s hI ha).2.1 hp).2
    · rintro i rfl -
      have := (install_spec C i s hI ha).2.1 hp
      exact ⟨this.2, this.1⟩
  · rw [if_pos (by simpa using ha)]
    exact ⟨rfl, fun i _ h => absurd h ha⟩

/-- **C88 (the saved status is found again).** After a successful installation into a slot with a file system, the next process - and every later one, until something writes to the slot -
loads exactly the status the installation set (except for the transaction, which is never read back: C19). -/
theorem C88_reload (C : Cfg) (file : Option KeyFile) (ops : List Op) (i : Install) (st : SlotStatus) (hmt : C.mountable = true) (ha : (run C (start file) ops).alive = true)
    (hok : (install C i (run C (start file) ops)).2 = .ok) (hst : (install C i (run C (start file) ops)).1.mem = some st) (hw : st.WF)
    (C' : Cfg) (hmt' : C'.mountable = true) (f : Faults) (hf : f.mount = true) :
    (load C' f (start (install C i (run C (start file) ops)).1.file)).mem = some { st with installedTxn := none } := by
  have hI := run_inv C ops _ (start_inv file)
  obtain ⟨a, -, -, -⟩ := (install_spec C i _ hI ha).2.2.2 hok hmt
  rw [a, hst]
  have hr : readLocal C'.iso (writeLocal st) = { st with installedTxn := none } := status_roundtrip C'.iso [] (c!"slot") st hw
  unfold load start mountSlot umountSlot useError readStatus
  cases hc : C'.ext <;> cases hu : f.umount <;> simp [hmt', hf, hr]

/-- **C88 (only the status file).** A query never writes; an activation writes the status it leaves in memory, or nothing. -/
theorem C88_writes (C : Cfg) (file : Option KeyFile) (ops : List Op) (ha : (run C (start file) ops).alive = true) :
    (∀ f, (step C (run C (start file) ops) (.query f)).file = (run C (start file) ops).file) ∧
    (∀ b f g u, let t := step C (run C (start file) ops) (.activate b f g u)
      t.file = (run C (start file) ops).file ∨ t.file = t.mem.map writeLocal) := by
  have hI := run_inv C ops _ (start_inv file)
  generalize run C (start file) ops = s at *
  constructor
  · intro f; unfold step; rw [if_neg (by simp [ha])]; exact load_file C f s
  · intro b f g u; unfold step; rw [if_neg (by simp [ha])]; exact (activate_spec C b f g u s hI ha).2.2.2

/-- **C88 (what an installation records).** If unmounting works and the status can be saved, an installation that reached the slot leaves the status file of its result: if it is skipped or the
handler succeeds, the new status, and the installation succeeds; if the handler fails, the status of the failure, and the installation fails. -/
theorem C88_recorded (C : Cfg) (file : Option KeyFile) (ops : List Op) (i : Install) (st : SlotStatus) (hmt : C.mountable = true) (hu : ∀ op ∈ ops, op.Unmounts) (hi : (Op.install i).Unmounts)
    (hf : i.fSave.mount = true ∧ i.fSave.write = true) (hst : (load C i.fLoad (run C (start file) ops)).mem = some st) :
    let t := install C i (run C (start file) ops)
    (i.skip st = true → t.1.file = some (writeLocal (i.okStatus st)) ∧ t.2 = .ok) ∧
    (i.skip st = false → ∀ tr r, Update.updateSlot i.img i.target i.o = some (tr, r) →
      (r = true → t.1.file = some (writeLocal (i.okStatus st)) ∧ t.2 = .ok) ∧ (r = false → t.1.file = some (writeLocal (i.failedStatus st)) ∧ t.2 = .error)) ∧
    (i.skip st = false → Update.updateSlot i.img i.target i.o = none → t.1.file = (run C (start file) ops).file ∧ t.2 = .error) := by
  have hc := C88_unmounted_partial C file ops hu
  have hI := run_inv C ops _ (start_inv file)
  generalize run C (start file) ops = s at *
  have hp : s.mp = false := by
    have := hI.1
    rw [hc.1] at this
    cases hq : s.mp
    · rfl
    · rw [hq] at this; cases this
  have l3 := (load_inv C i.fLoad s hI).2.2 hi.1 hp
  have lf := load_file C i.fLoad s
  have l2 := (load_inv C i.fLoad s hI).2.1.trans hc.2
  unfold install
  generalize load C i.fLoad s = s1 at *
  obtain ⟨mp, mounts, mem, file, alive⟩ := s1
  dsimp only at l2 l3 hst lf
  subst l2 l3 hst lf
  have hI : i.fSave.umount = true := hi.2.1
  refine ⟨fun hs => ?_, fun hs tr r hup => ⟨fun hr => ?_, fun hr => ?_⟩, fun hs hup => ?_⟩
  · simp [hs, finish, save, mountSlot, umountSlot, useError, hmt, hf, hI]
  · subst hr
    have hl := handler_clean _ _ _ _ _ hup hi.2.2
    simp [hs, hup, hl, finish, save, mountSlot, umountSlot, useError, hmt, hf, hI]
  · subst hr
    have hl := handler_clean _ _ _ _ _ hup hi.2.2
    simp [hs, hup, hl, save, mountSlot, umountSlot, useError, hmt, hf, hI]
  · simp [hs, hup]

/-- **C88 (what an activation records).** An activation the boot loader refused writes nothing and fails; otherwise it succeeds, and - if unmounting works and the status can be saved - the file has
the new status. -/
theorem C88_activated (C : Cfg) (file : Option KeyFile) (ops : List Op) (b : Bool) (f g : Faults) (u : SlotStatus → SlotStatus) (st : SlotStatus) (hmt : C.mountable = true)
    (hu : ∀ op ∈ ops, op.Unmounts) (hi : (Op.activate b f g u).Unmounts) (hst : (load C f (run C (start file) ops)).mem = some st) :
    let t := markActive C b f g u (run C (start file) ops)
    (b = false → t.1.file = (run C (start file) ops).file ∧ t.2 = .error) ∧
    (b = true → t.2 = .ok ∧ (g.mount = true → g.write = true → t.1.file = some (writeLocal (u st)))) := by
  have hc := C88_unmounted_partial C file ops hu
  have hI := run_inv C ops _ (start_inv file)
  generalize run C (start file) ops = s at *
  have hp : s.mp = false := by
    have := hI.1
    rw [hc.1] at this
    cases hq : s.mp
    · rfl
    · rw [hq] at this; cases this
  have l3 := (load_inv C f s hI).2.2 hi.1 hp
  have lf := load_file C f s
  have l2 := (load_inv C f s hI).2.1.trans hc.2
  unfold markActive
  generalize load C f s = s1 at *
  obtain ⟨mp, mounts, mem, file, alive⟩ := s1
  dsimp only at l2 l3 hst lf
  subst l2 l3 hst lf
  have hI : g.umount = true := hi.2
  refine ⟨fun hb => by simp [hb], fun hb => ⟨by simp [hb], fun h1 h2 => ?_⟩⟩
  simp [hb, save, mountSlot, umountSlot, useError, hmt, hI, h1, h2]

/-! ## What the code does not guarantee -/

def ext4 : Cfg := { mountable := true, ext := false }

/-- **C88 violated (crash after a failed update).** A tar archive is installed into an ext4 slot; umount fails at the end (e.g. the slot is busy). RAUC wants to save the status "failed", finds the
slot "mounted" - which returns FALSE without an error - and dereferences the missing error (install.c:1213). -/
theorem C88_finding_crash_install :
    let i : Install := { img := { slotclass := c!"rootfs", filename := some c!"r.tar", typ := some c!"tar" }, target := { slotType := c!"ext4" }, o := fun _ s => s != .umount, after := fun _ => none,
                         skip := fun _ => false, okStatus := id, failedStatus := id, fLoad := {}, fSave := {} }
    (run ext4 (start none) [.install i]).alive = false := by
  decide +kernel

/-- **C88 violated (crash on activation).** Unmounting fails while the status is read; the slot is activated later: RAUC dereferences the missing error (mark.c:159). -/
theorem C88_finding_crash_activate : (run ext4 (start none) [.query { umount := false }, .activate true {} {} id]).alive = false := by
  decide +kernel

/-! ## Satisfiable -/

/-- a successful installation of a tar archive, with failing accesses to the status before it -/
example :
    let i : Install := { img := { slotclass := c!"rootfs", filename := some c!"r.tar", typ := some c!"tar" }, target := { slotType := c!"ext4" }, o := fun _ _ => true, after := fun _ => none,
                         skip := fun _ => false, okStatus := fun s => { s with status := some c!"ok", installedTxn := some c!"t" }, failedStatus := id, fLoad := { mount := false }, fSave := {} }
    (install ext4 i (run ext4 (start none) [.query { mount := false }])).2 = .ok ∧
    (install ext4 i (run ext4 (start none) [.query { mount := false }])).1.mem = some { status := some c!"ok", installedTxn := some c!"t" } ∧
    (load ext4 {} (start (install ext4 i (run ext4 (start none) [.query { mount := false }])).1.file)).mem = some { status := some c!"ok" } := by
  decide +kernel

/-- unmounting can fail without a crash, and the slot stays mounted -/
example : (run ext4 (start none) [.query { umount := false }]).mounts = 1 ∧ (run ext4 (start none) [.query { umount := false }]).alive = true := by
  decide +kernel

end Rauc.SlotMount
