import Verif.Model.Access

/-!
# C34: exclusive access to the bundle
-/

namespace Rauc.Access

/-! ## Specification -/

/-- Unix permissions: may the user (with some groups) write to the file, or make it writable? `root` may do anything, the owner can always change the permissions. -/
def MayWrite (w : World) (user : Nat) (inGroup : Bool) : Prop :=
  user = 0 ∨ user = w.uid ∨ (if inGroup then w.perm.getLsbD 4 else w.perm.getLsbD 1) = true

/-- A mount is trusted: it is the root file system, or one only root can provide, or a local file system on a device which belongs to root. -/
def MountTrusted (w : World) : Prop :=
  w.dev = w.rootDev ∨ w.fs = .rootPrepared ∨ (w.fs = .localFs ∧ ∃ m ∈ w.mounts, m.stat = some (w.dev, 0))

/-! ## Proofs -/

theorem perm_iff (p : Perm) :
    p &&& ~~~0o755#12 = 0 ↔ p.getLsbD 1 = false ∧ p.getLsbD 4 = false ∧ p.getLsbD 9 = false ∧ p.getLsbD 10 = false ∧ p.getLsbD 11 = false := by
  constructor
  · intro h
    have k : ∀ i, (p &&& ~~~0o755#12).getLsbD i = false := by intro i; rw [h]; simp
    refine ⟨?_, ?_, ?_, ?_, ?_⟩
    · have := k 1; rw [BitVec.getLsbD_and] at this; simpa using this
    · have := k 4; rw [BitVec.getLsbD_and] at this; simpa using this
    · have := k 9; rw [BitVec.getLsbD_and] at this; simpa using this
    · have := k 10; rw [BitVec.getLsbD_and] at this; simpa using this
    · have := k 11; rw [BitVec.getLsbD_and] at this; simpa using this
  · rintro ⟨h1, h4, h9, h10, h11⟩
    apply BitVec.eq_of_getLsbD_eq
    intro i hi
    rw [BitVec.getLsbD_and]
    have hc : i = 0 ∨ i = 1 ∨ i = 2 ∨ i = 3 ∨ i = 4 ∨ i = 5 ∨ i = 6 ∨ i = 7 ∨ i = 8 ∨ i = 9 ∨ i = 10 ∨ i = 11 := by omega
    rcases hc with rfl | rfl | rfl | rfl | rfl | rfl | rfl | rfl | rfl | rfl | rfl | rfl <;> simp_all

theorem deviceOwner_some {dev u : Nat} {l : List Mount} (h : deviceOwner dev l = some u) : ∃ m ∈ l, m.stat = some (dev, u) := by
  induction l with
  | nil => cases h
  | cons m l ih =>
    unfold deviceOwner at h
    split at h
    · obtain ⟨m', h1, h2⟩ := ih h; exact ⟨m', List.mem_cons_of_mem _ h1, h2⟩
    · rename_i r v hs
      split at h
      · obtain ⟨m', h1, h2⟩ := ih h; exact ⟨m', List.mem_cons_of_mem _ h1, h2⟩
      · rename_i hr
        cases h
        have : r = dev := by simpa using hr
        subst this
        exact ⟨m, by simp, hs⟩

theorem mountOk_trusted {w : World} (h : mountOk w = true) : MountTrusted w := by
  unfold mountOk at h
  split at h
  · rename_i e; exact Or.inl e.symm
  split at h
  · cases h
  · cases h
  · rename_i e; exact Or.inr (Or.inl e)
  · rename_i e
    split at h
    · cases h
    · rename_i u hu
      have hu0 : u = 0 := by simpa using h
      subst hu0
      exact Or.inr (Or.inr ⟨e, deviceOwner_some hu⟩)

theorem checkAccess_iff (euid : Nat) (w : World) :
    checkAccess euid w = true ↔ w.fstat = true ∧ w.fstatfs = true ∧ w.regular = true ∧ (w.uid = 0 ∨ w.uid = euid) ∧
      w.perm &&& ~~~0o755#12 = 0 ∧ w.rootStat = true ∧ mountOk w = true ∧ leaseOk w = true := by
  unfold checkAccess
  split
  · simp_all
  split
  · simp_all
  split
  · simp_all
  split
  · rename_i h
    simp only [Bool.false_eq_true, false_iff]
    rintro ⟨_, _, _, h4, _⟩
    omega
  rename_i h4
  have h4' : w.uid = 0 ∨ w.uid = euid := by omega
  split
  · rename_i h
    simp only [Bool.false_eq_true, false_iff]
    rintro ⟨_, _, _, _, h5, _⟩
    exact h h5
  rename_i h5
  have h5' : w.perm &&& ~~~0o755#12 = 0 := Decidable.not_not.1 h5
  split
  · simp_all
  split
  · simp_all
  rename_i h1 h2 h3 h6 h7
  simp only [Bool.not_eq_true', Bool.not_eq_false] at h1 h2 h3 h6 h7
  simp only [h1, h2, h3, h4', h5', h6, h7, true_and]

/-- **C34** For every answer of the kernel: if access was confirmed, the file is regular, belongs to root or the current user, cannot be written by group or others and has none of
the special bits, its mount is trusted, and during the check nobody had it open for writing. -/
theorem C34_access (euid : Nat) (w : World) (h : checkAccess euid w = true) :
    w.regular = true ∧ (w.uid = 0 ∨ w.uid = euid) ∧ w.perm.getLsbD 4 = false ∧ w.perm.getLsbD 1 = false ∧
      w.perm.getLsbD 9 = false ∧ w.perm.getLsbD 10 = false ∧ w.perm.getLsbD 11 = false ∧
      MountTrusted w ∧ w.writers = 0 ∧ w.openedSince = false := by
  obtain ⟨_, _, hr, hu, hp, _, hm, hl⟩ := (checkAccess_iff _ _).1 h
  obtain ⟨p1, p4, p9, p10, p11⟩ := (perm_iff _).1 hp
  unfold leaseOk at hl
  split at hl
  · cases hl
  rename_i h1
  split at hl
  · cases hl
  rename_i h2
  simp only [Bool.not_eq_true', Bool.not_eq_false, Bool.and_eq_true, beq_iff_eq] at h1
  exact ⟨hr, hu, p4, p1, p9, p10, p11, mountOk_trusted hm, h1.2, by simpa using h2⟩

/-- **C34** Hence nobody but root and the current user can write to the file or make it writable. -/
theorem C34_no_other_writer (euid : Nat) (w : World) (h : checkAccess euid w = true) (user : Nat) (inGroup : Bool) (hw : MayWrite w user inGroup) :
    user = 0 ∨ user = euid := by
  obtain ⟨_, hu, p4, p1, _⟩ := C34_access euid w h
  rcases hw with h | h | h
  · exact Or.inl h
  · rcases hu with h' | h'
    · exact Or.inl (h.trans h')
    · exact Or.inr (h.trans h')
  · cases inGroup <;> simp_all

/-- **C34** Conversely, a file which fulfils this on an answering system is accepted (for a local file system: if the first device found for it belongs to root). -/
theorem C34_accepts (euid : Nat) (w : World) (h1 : w.fstat = true) (h2 : w.fstatfs = true) (h3 : w.rootStat = true) (hr : w.regular = true)
    (hu : w.uid = 0 ∨ w.uid = euid)
    (hp : w.perm.getLsbD 4 = false ∧ w.perm.getLsbD 1 = false ∧ w.perm.getLsbD 9 = false ∧ w.perm.getLsbD 10 = false ∧ w.perm.getLsbD 11 = false)
    (hm : w.dev = w.rootDev ∨ w.fs = .rootPrepared ∨ (w.fs = .localFs ∧ deviceOwner w.dev w.mounts = some 0))
    (hl : w.leaseAllowed = true) (hw : w.writers = 0) (ho : w.openedSince = false) (hul : w.unlock = true) : checkAccess euid w = true := by
  refine (checkAccess_iff _ _).2 ⟨h1, h2, hr, hu, (perm_iff _).2 ⟨hp.2.1, hp.1, hp.2.2⟩, h3, ?_, ?_⟩
  · unfold mountOk
    rcases hm with h | h | ⟨h, h'⟩
    · rw [if_pos h.symm]
    · split
      · rfl
      · rw [h]
    · split
      · rfl
      · rw [h]; simp only [h']; rfl
  · unfold leaseOk
    simp [hl, hw, ho, hul]

/-- **C34** Taking ownership never gives anyone permissions: they only become fewer, the file keeps its owner or goes to root, and if that works, the owner and the permissions are
those that the check asks for. -/
theorem C34_take (euid : Nat) (e : TakeEnv) (uid : Nat) (perm : Perm) (uid' : Nat) (perm' : Perm) (ok : Bool)
    (h : takeOwnership euid e uid perm = ((uid', perm'), ok)) :
    (∀ i, perm'.getLsbD i = true → perm.getLsbD i = true) ∧ (uid' = uid ∨ (uid' = 0 ∧ euid = 0)) ∧
      (ok = true → (uid' = 0 ∨ uid' = euid) ∧ perm' &&& ~~~0o755#12 = 0) := by
  unfold takeOwnership at h
  split at h
  · simp only [Prod.mk.injEq] at h
    obtain ⟨⟨rfl, rfl⟩, rfl⟩ := h
    exact ⟨fun _ h => h, Or.inl rfl, by simp⟩
  split at h
  · simp only [Prod.mk.injEq] at h
    obtain ⟨⟨rfl, rfl⟩, rfl⟩ := h
    exact ⟨fun _ h => h, Or.inl rfl, by simp⟩
  rename_i h2
  split at h
  · simp only [Prod.mk.injEq] at h
    obtain ⟨⟨rfl, rfl⟩, rfl⟩ := h
    exact ⟨fun _ h => h, Or.inl rfl, by simp⟩
  have huid : ∀ u, (if uid ≠ 0 ∧ uid ≠ euid then 0 else uid) = u → (u = uid ∨ (u = 0 ∧ euid = 0)) ∧ (u = 0 ∨ u = euid) := by
    intro u hu
    split at hu <;> omega
  simp only at h
  split at h
  · simp only [Prod.mk.injEq] at h
    obtain ⟨⟨hu, rfl⟩, rfl⟩ := h
    exact ⟨fun _ h => h, (huid _ hu).1, by simp⟩
  · simp only [Prod.mk.injEq] at h
    obtain ⟨⟨hu, rfl⟩, rfl⟩ := h
    refine ⟨?_, (huid _ hu).1, fun _ => ⟨(huid _ hu).2, ?_⟩⟩
    · intro i hi
      rw [BitVec.getLsbD_and] at hi
      simp only [Bool.and_eq_true] at hi
      exact hi.1
    · rw [BitVec.and_assoc]
      have : (0o644#12 &&& ~~~0o755#12) = 0#12 := by decide
      rw [this]; simp

/-- **C34** For plain bundles, where access is enforced: whatever others do in between, success means that the last check succeeded, either on the original file or after taking ownership. -/
theorem C34_enforce (euid : Nat) (e : TakeEnv) (w1 : World) (w2 : Nat → Perm → World) (h : enforce euid e w1 w2 = true) :
    ∃ w, checkAccess euid w = true ∧ (w = w1 ∨ ∃ u p, w = w2 u p) := by
  unfold enforce at h
  split at h
  · rename_i h1; exact ⟨w1, h1, Or.inl rfl⟩
  · exact ⟨_, h, Or.inr ⟨_, _, rfl⟩⟩

/-! ## Examples -/

/-- an upload by user 33 with mode 0664 on an ext4 partition that belongs to root -/
def upload : World where
  fstat := true
  fstatfs := true
  rootStat := true
  regular := true
  uid := 33
  perm := 0o664#12
  dev := 7
  rootDev := 1
  fs := .localFs
  mounts := [⟨none⟩, ⟨some (3, 5)⟩, ⟨some (7, 0)⟩]
  writers := 0
  leaseAllowed := true
  openedSince := false
  unlock := true

example : checkAccess 0 upload = false := by decide
example : takeOwnership 0 ⟨true, true, true⟩ 33 0o664#12 = ((0, 0o644#12), true) := by decide
/-- after taking ownership the file is accepted -/
example : enforce 0 ⟨true, true, true⟩ upload (fun u p => { upload with uid := u, perm := p }) = true := by decide
/-- unless the user still has it open -/
example : enforce 0 ⟨true, true, true⟩ { upload with writers := 1 } (fun u p => { upload with uid := u, perm := p, writers := 1 }) = false := by decide
example : enforce 0 ⟨true, true, true⟩ { upload with fs := .unsafeFs } (fun u p => { upload with uid := u, perm := p, fs := .unsafeFs }) = false := by decide

end Rauc.Access
