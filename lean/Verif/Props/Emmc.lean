import Verif.Model.Emmc
import Verif.Props.Copy

/-!
# C43: eMMC boot partitions
-/

namespace Rauc.Emmc

open Rauc.Copy

/-! ## Specification -/

/-- the boot partition that is touched by an action -/
def Act.touches : Act → Option Nat
  | .rw i => some i
  | .ro i => some i
  | .disk i _ => some i
  | .reg _ => none

/-- the operations on boot partition `i` -/
def opsOf (i : Nat) : List Act → List Op
  | [] => []
  | .disk j op :: l => if j = i then op :: opsOf i l else opsOf i l
  | _ :: l => opsOf i l

/-- the fields of PARTITION_CONFIG: BOOT_ACK is bit 6, BOOT_PARTITION_ENABLE are bits 3 to 5 -/
def bootAck (v : UInt8) : Bool := v.toNat / 64 % 2 == 1
def bootEnable (v : UInt8) : Nat := v.toNat / 8 % 8

/-! ## The register -/

set_option maxRecDepth 100000 in
/-- **C43.** The values of the register: which partition is active is read from bits 3 to 5; the value that is written selects the partition and keeps BOOT_ACK. -/
theorem C43_register (v : UInt8) :
    (bootpart v = some .off ↔ bootEnable v = 0) ∧ (bootpart v = some (.boot 0) ↔ bootEnable v = 1) ∧ (bootpart v = some (.boot 1) ↔ bootEnable v = 2) ∧
    (bootpart v = none ↔ 2 < bootEnable v) ∧
    (∀ i, i < 2 → bootpart (newValue v i) = some (.boot i) ∧ bootAck (newValue v i) = bootAck v) := by
  have key : ∀ n : Fin 256, (bootpart (UInt8.ofNat n) = some .off ↔ bootEnable (UInt8.ofNat n) = 0) ∧ (bootpart (UInt8.ofNat n) = some (.boot 0) ↔ bootEnable (UInt8.ofNat n) = 1) ∧
      (bootpart (UInt8.ofNat n) = some (.boot 1) ↔ bootEnable (UInt8.ofNat n) = 2) ∧ (bootpart (UInt8.ofNat n) = none ↔ 2 < bootEnable (UInt8.ofNat n)) ∧
      (bootpart (newValue (UInt8.ofNat n) 0) = some (.boot 0) ∧ bootAck (newValue (UInt8.ofNat n) 0) = bootAck (UInt8.ofNat n)) ∧
      (bootpart (newValue (UInt8.ofNat n) 1) = some (.boot 1) ∧ bootAck (newValue (UInt8.ofNat n) 1) = bootAck (UInt8.ofNat n)) := by
    decide
  have hv : v = UInt8.ofNat v.toNat := (UInt8.ofNat_toNat).symm
  have := key ⟨v.toNat, v.toNat_lt⟩
  simp only at this
  rw [← hv] at this
  obtain ⟨k1, k2, k3, k4, k5, k6⟩ := this
  refine ⟨k1, k2, k3, k4, ?_⟩
  intro i hi
  have : i = 0 ∨ i = 1 := by omega
  rcases this with rfl | rfl
  · exact k5
  · exact k6

theorem bootpart_lt {v : UInt8} {i : Nat} (h : bootpart v = some (.boot i)) : i < 2 := by
  unfold bootpart at h
  split at h
  · cases h
  · injection h with h; injection h with h; omega
  · injection h with h; injection h with h; omega
  · cases h

theorem target_lt (a : Active) : target a < 2 := by
  cases a with
  | off => decide
  | boot a => exact Nat.mod_lt _ (by omega)

theorem target_ne {v : UInt8} {i : Nat} (h : bootpart v = some (.boot i)) : target (.boot i) ≠ i := by
  have := bootpart_lt h
  show (i + 1) % 2 ≠ i
  omega

/-! ## Clearing -/

/-- clearing writes only zeroes, and only below the limit -/
theorem clearSlot_within (counts : Nat → Wr) (limit fuel i total : Nat) (ht : limit > 0 → total ≤ limit) :
    ∀ op ∈ (clearSlot counts limit fuel i total).1, (∃ o w, op = .write o (List.replicate w 0)) ∧ (limit > 0 → Within total limit op) := by
  induction fuel generalizing i total with
  | zero => intro op ho; cases ho
  | succ n ih =>
    intro op ho
    unfold clearSlot at ho
    simp only [] at ho
    have hn : limit > 0 → (if limit > 0 ∧ total + 1024 > limit then limit - total else 1024) ≤ limit - total := by
      intro h; split <;> omega
    generalize (if limit > 0 ∧ total + 1024 > limit then limit - total else 1024) = m at *
    cases hc : counts i with
    | error => simp only [hc] at ho; cases ho
    | noSpace => simp only [hc] at ho; cases ho
    | bytes c =>
      simp only [hc] at ho
      split at ho
      · rw [List.mem_singleton] at ho
        subst ho
        refine ⟨⟨_, _, rfl⟩, fun h => Or.inr ⟨Nat.le_refl _, ?_⟩⟩
        rw [List.length_replicate]
        have := hn h; have := ht h; omega
      · rcases List.mem_cons.1 ho with rfl | ho
        · refine ⟨⟨_, _, rfl⟩, fun h => Or.inr ⟨Nat.le_refl _, ?_⟩⟩
          rw [List.length_replicate]
          have := hn h; have := ht h; omega
        · obtain ⟨h1, h2⟩ := ih (i + 1) _ (fun h => by have := hn h; have := ht h; omega) op ho
          exact ⟨h1, fun h => (h2 h).mono (by omega) (Nat.le_refl _)⟩

/-! ## What is done to the boot partitions -/

theorem opsOf_append (i : Nat) (a b : List Act) : opsOf i (a ++ b) = opsOf i a ++ opsOf i b := by
  induction a with
  | nil => rfl
  | cons x l ih =>
    cases x <;> simp only [List.cons_append, opsOf, ih]
    split <;> simp

theorem opsOf_map (i : Nat) (ops : List Op) : opsOf i (ops.map (Act.disk i)) = ops := by
  induction ops with
  | nil => rfl
  | cons o l ih => simp only [List.map_cons, opsOf, if_true, ih]

/-- the shape of `copyBoot`: only partition `i` is touched, it is made read-only at the end; success means that the image is complete -/
theorem copyBoot_spec (e : Env) (i limit size sector : Nat) (data : Bytes) :
    (∀ a ∈ (copyBoot e i limit size sector data).1, a.touches = some i) ∧
    (∃ l, (copyBoot e i limit size sector data).1 = l ++ [.ro i]) ∧
    (limit > 0 → ∀ op ∈ opsOf i (copyBoot e i limit size sector data).1, Within 0 limit op) ∧
    ((copyBoot e i limit size sector data).2 = true →
      (size = 0 ∨ data.length = size) ∧ (∃ l, opsOf i (copyBoot e i limit size sector data).1 = l ++ [.sync]) ∧
      ∀ d : Disk, (apply d (opsOf i (copyBoot e i limit size sector data).1)).read 0 size = data.take size) := by
  unfold copyBoot
  split
  · exact ⟨by simp [Act.touches], ⟨[], rfl⟩, fun _ op ho => by simp [opsOf] at ho, fun h => by cases h⟩
  split
  · exact ⟨by simp [Act.touches], ⟨[.rw i], rfl⟩, fun _ op ho => by simp [opsOf] at ho, fun h => by cases h⟩
  split
  · exact ⟨by simp [Act.touches], ⟨[.rw i], rfl⟩, fun _ op ho => by simp [opsOf] at ho, fun h => by cases h⟩
  simp only []
  have hcl := clearSlot_within e.counts limit e.fuel 0 0 (fun _ => by omega)
  generalize clearSlot e.counts limit e.fuel 0 0 = c at *
  have ht : ∀ (ops : List Op), ∀ a ∈ ops.map (Act.disk i), a.touches = some i := by
    intro ops a ha
    obtain ⟨o, _, rfl⟩ := List.mem_map.1 ha
    rfl
  split
  · refine ⟨?_, ⟨_, rfl⟩, ?_, fun h => by cases h⟩
    · intro a ha
      simp only [List.cons_append, List.mem_cons, List.mem_append, List.not_mem_nil, or_false] at ha
      rcases ha with rfl | ha | rfl
      · rfl
      · exact ht _ a ha
      · rfl
    · intro h op ho
      simp only [List.cons_append, opsOf, opsOf_append, opsOf_map, List.append_nil] at ho
      exact (hcl op ho).2 h
  obtain ⟨hdev1, hdev2⟩ := C49_device (!e.copyOpen) (!e.copyClose) e.faults e.io limit e.dev size sector data
  have hwithin : limit > 0 → ∀ op ∈ (copyToDev (!e.copyOpen) (!e.copyClose) e.faults e.io limit e.dev size sector data).ops, Within 0 limit op := by
    intro hl op ho
    unfold copyToDev at ho
    split at ho
    · cases ho
    split at ho
    · cases ho
    rename_i hci
    have hle : size ≤ limit := by
      unfold checkImageSize at hci
      by_cases hx : limit > 0 ∧ size > limit
      · rw [if_pos hx] at hci; simp at hci
      · omega
    simp only [] at ho
    have hw : ∀ op ∈ (copyRaw e.faults e.io size 0 sector 0 data).ops, Within 0 limit op :=
      fun op ho => ((copyRaw_within _ _ _ _ _ _ _ op ho).2 (Or.inl rfl)).mono (Nat.le_refl _) (by omega)
    split at ho
    · exact hw op ho
    · exact hw op ho
  generalize copyToDev (!e.copyOpen) (!e.copyClose) e.faults e.io limit e.dev size sector data = w at *
  -- all the remaining results
  have hmem : ∀ (tail : List Act), (∀ a ∈ tail, a = .ro i) → (∀ a ∈ .rw i :: (c.1.map (Act.disk i) ++ w.ops.map (Act.disk i)) ++ tail, a.touches = some i) := by
    intro tail htail a ha
    simp only [List.cons_append, List.mem_cons, List.mem_append] at ha
    rcases ha with rfl | (ha | ha) | ha
    · rfl
    · exact ht _ a ha
    · exact ht _ a ha
    · rw [htail a ha]; rfl
  have hops : ∀ (tail : List Act), (∀ a ∈ tail, a = .ro i) → opsOf i (.rw i :: (c.1.map (Act.disk i) ++ w.ops.map (Act.disk i)) ++ tail) = c.1 ++ w.ops := by
    intro tail htail
    have : opsOf i tail = [] := by
      induction tail with
      | nil => rfl
      | cons x l ih =>
        rw [htail x List.mem_cons_self]
        exact ih (fun a ha => htail a (List.mem_cons_of_mem _ ha))
    simp only [List.cons_append, opsOf, opsOf_append, opsOf_map, this, List.append_nil]
  have hlim : limit > 0 → ∀ op ∈ c.1 ++ w.ops, Within 0 limit op := by
    intro h op ho
    rw [List.mem_append] at ho
    exact ho.elim (fun ho => (hcl op ho).2 h) (fun ho => hwithin h op ho)
  have ro1 : ∀ a ∈ [Act.ro i], a = .ro i := by simp
  have ro2 : ∀ a ∈ [Act.ro i, Act.ro i], a = .ro i := by simp
  split
  · exact ⟨hmem _ ro1, ⟨_, rfl⟩, by rw [hops _ ro1]; exact hlim, fun h => by cases h⟩
  rename_i hwok
  split
  · exact ⟨hmem _ ro1, ⟨_, rfl⟩, by rw [hops _ ro1]; exact hlim, fun h => by cases h⟩
  split
  · refine ⟨hmem _ ro2, ⟨.rw i :: (c.1.map (Act.disk i) ++ w.ops.map (Act.disk i)) ++ [.ro i], by simp⟩, by rw [hops _ ro2]; exact hlim, fun h => by cases h⟩
  · refine ⟨hmem _ ro1, ⟨_, rfl⟩, by rw [hops _ ro1]; exact hlim, fun _ => ?_⟩
    rw [hops _ ro1]
    obtain ⟨k1, ⟨l, k2⟩, k3⟩ := hdev2 (by simpa using hwok)
    refine ⟨k1, ⟨c.1 ++ l, by rw [k2, List.append_assoc]⟩, ?_⟩
    intro d
    rw [apply_append]
    exact k3 _

/-! ## The theorems -/

/-- the possible results -/
theorem run_cases (e : Env) (v : UInt8) (limit size sector : Nat) (data : Bytes) :
    (run e v limit size sector data = ([], false)) ∨
    ∃ a, bootpart v = some a ∧
      ((run e v limit size sector data = ((copyBoot e (target a) limit size sector data).1, false)) ∨
       ((copyBoot e (target a) limit size sector data).2 = true ∧
        (run e v limit size sector data).1 = (copyBoot e (target a) limit size sector data).1 ++ [.reg (newValue v (target a))] ∧
        ((run e v limit size sector data).2 = true →
          ∃ b, bootpart (e.after v (newValue v (target a))) = some b ∧ ((a = .off ∧ b ≠ .boot 1) ∨ (a ≠ .off ∧ b ≠ a))))) := by
  unfold run
  split
  · exact Or.inl rfl
  split
  · exact Or.inl rfl
  cases hb : bootpart v with
  | none => exact Or.inl rfl
  | some a =>
    right
    refine ⟨a, rfl, ?_⟩
    simp only []
    split
    · exact Or.inl rfl
    rename_i hc
    split
    · exact Or.inl rfl
    split
    · exact Or.inl rfl
    right
    refine ⟨by simpa using hc, ?_⟩
    split
    · exact ⟨rfl, fun h => by cases h⟩
    · cases hb2 : bootpart (e.after v (newValue v (target a))) with
      | none => exact ⟨rfl, fun h => by cases h⟩
      | some b =>
        refine ⟨rfl, fun h => ⟨b, rfl, ?_⟩⟩
        simp only [decide_eq_true_eq] at h
        cases a with
        | off => exact Or.inl ⟨rfl, h⟩
        | boot i => exact Or.inr ⟨by simp, h⟩

/-- **C43.** The boot partition that is active according to the register is never touched, whatever happens -- neither written nor made writable. The other one is made read-only again at the end, and is not written beyond the size limit.
The register is written at most once, as the last action, only after the image is complete and synced in the other boot partition, with a value that selects this partition and keeps BOOT_ACK. -/
theorem C43_inactive_only (e : Env) (v : UInt8) (limit size sector : Nat) (data : Bytes) :
    (run e v limit size sector data).1 = [] ∨
    ∃ t l, t < 2 ∧ bootpart v ≠ some (.boot t) ∧ bootEnable v ≤ 2 ∧
      (∀ a ∈ l ++ [.ro t], a.touches = some t) ∧ (limit > 0 → ∀ op ∈ opsOf t l, Within 0 limit op) ∧
      ((run e v limit size sector data).1 = l ++ [.ro t] ∨
       ((run e v limit size sector data).1 = l ++ [.ro t, .reg (newValue v t)] ∧
        bootpart (newValue v t) = some (.boot t) ∧ bootAck (newValue v t) = bootAck v ∧
        (size = 0 ∨ data.length = size) ∧ (∃ l', opsOf t l = l' ++ [.sync]) ∧ ∀ d : Disk, (apply d (opsOf t l)).read 0 size = data.take size)) := by
  rcases run_cases e v limit size sector data with h | ⟨a, hb, h⟩
  · left; rw [h]
  right
  obtain ⟨c1, ⟨l, c2⟩, c3, c4⟩ := copyBoot_spec e (target a) limit size sector data
  have hne : bootpart v ≠ some (.boot (target a)) := by
    intro hcon
    rw [hb] at hcon
    injection hcon with hcon
    cases a with
    | off => cases hcon
    | boot i =>
      injection hcon with hcon
      exact target_ne hb hcon.symm
  have hen : bootEnable v ≤ 2 := by
    have := (C43_register v).2.2.2.1
    rw [hb] at this
    simp at this
    exact this
  have hol : opsOf (target a) (l ++ [.ro (target a)]) = opsOf (target a) l := by
    rw [opsOf_append]; simp [opsOf]
  rw [c2, hol] at c3 c4
  rw [c2] at c1
  refine ⟨target a, l, target_lt a, hne, hen, c1, c3, ?_⟩
  rcases h with h | ⟨hok, h, _⟩
  · left; rw [h]; exact c2
  · right
    obtain ⟨k1, k2, k3⟩ := c4 hok
    have hr := (C43_register v).2.2.2.2 (target a) (target_lt a)
    exact ⟨by rw [h, c2, List.append_assoc]; rfl, hr.1, hr.2, k1, k2, k3⟩

/-- **C43, if a boot partition was enabled before, and writing the register either works or has no effect.** Success is reported only if the selection took effect: the register then selects the boot partition that has just been written.
Missing: devices which were not enabled for booting before, and registers which change to another value, for which this is false (`C43_finding_false_success`). -/
theorem C43_success_partial (e : Env) (v : UInt8) (limit size sector : Nat) (data : Bytes) (hk : ∀ w, e.after v w = w ∨ e.after v w = v) (hon : bootEnable v ≠ 0)
    (hok : (run e v limit size sector data).2 = true) :
    ∃ t l, (run e v limit size sector data).1 = l ++ [.reg (newValue v t)] ∧ e.after v (newValue v t) = newValue v t ∧ bootpart (e.after v (newValue v t)) = some (.boot t) ∧
      ∀ d : Disk, (apply d (opsOf t l)).read 0 size = data.take size := by
  rcases run_cases e v limit size sector data with h | ⟨a, hb, h | ⟨hc, h, himp⟩⟩
  · rw [h] at hok; cases hok
  · rw [h] at hok; cases hok
  · have hr := (C43_register v).2.2.2.2 (target a) (target_lt a)
    refine ⟨target a, _, h, ?_⟩
    have heff : e.after v (newValue v (target a)) = newValue v (target a) := by
      rcases hk (newValue v (target a)) with h1 | h1
      · exact h1
      · exfalso
        obtain ⟨b, hb2, hne⟩ := himp hok
        rw [h1, hb] at hb2
        injection hb2 with hb2
        subst hb2
        rcases hne with ⟨ha, _⟩ | ⟨_, hne⟩
        · rw [ha] at hb
          exact hon ((C43_register v).1.1 hb)
        · exact hne rfl
    refine ⟨heff, by rw [heff]; exact hr.1, ?_⟩
    exact ((copyBoot_spec e (target a) limit size sector data).2.2.2 hc).2.2

/-- **C43, finding.** If the device was not enabled for booting before, and writing the register has no effect (the case that the check afterwards is there for), success is reported nevertheless, although still no boot partition is enabled: boot1 was
taken for the active one, and "not enabled" differs from it. In the same way, a register that says "not enabled" after the write is taken for success if boot0 or boot1 was active before. -/
theorem C43_finding_false_success (v : UInt8) (hv : bootEnable v ≤ 2) (e : Env) (he : e.realpath = true ∧ e.read1 = true ∧ e.writeOpen = true ∧ e.read2 = true ∧ e.ioctl = true ∧ e.read3 = true)
    (limit size sector : Nat) (data : Bytes) (hcopy : ∀ i, (copyBoot e i limit size sector data).2 = true) (hoff : ∀ w, bootEnable (e.after v w) = 0) :
    (run e v limit size sector data).2 = true ∧ ∃ l w, (run e v limit size sector data).1 = l ++ [.reg w] ∧ bootpart (e.after v w) = some .off := by
  obtain ⟨h1, h2, h3, h4, h5, h6⟩ := he
  unfold run
  rw [if_neg (by rw [h1]; simp), if_neg (by rw [h2]; simp)]
  cases hb : bootpart v with
  | none =>
    have := (C43_register v).2.2.2.1.1 hb
    omega
  | some a =>
    simp only []
    rw [if_neg (by rw [hcopy]; simp), if_neg (by rw [h3, h4]; simp), if_neg (by rw [h5]; simp), if_neg (by rw [h6]; simp)]
    have hoff' := (C43_register (e.after v (newValue v (target a)))).1.2 (hoff _)
    rw [hoff']
    refine ⟨?_, _, _, rfl, hoff'⟩
    cases a <;> simp

/-! ## Write protection -/

theorem forceRoAfter_append (env : Act → Bool × Bool) (i : Nat) (a b : List Act) (ro : Bool) :
    forceRoAfter env i (a ++ b) ro = forceRoAfter env i b (forceRoAfter env i a ro) := by
  induction a generalizing ro with
  | nil => rfl
  | cons x a ih => cases x <;> simp only [List.cons_append, forceRoAfter, ih]

theorem forceRoAfter_other (env : Act → Bool × Bool) (i : Nat) (l : List Act) (ro : Bool) (h : ∀ a ∈ l, a.touches ≠ some i) :
    forceRoAfter env i l ro = ro := by
  induction l generalizing ro with
  | nil => rfl
  | cons x l ih =>
    have hx := h x (by simp)
    have hl := fun a ha => h a (List.mem_cons_of_mem _ ha)
    cases x <;> simp only [forceRoAfter, Act.touches, ne_eq, Option.some.injEq] at hx ⊢ <;> simp [hx, ih _ hl]

/-- **C43, for kernels which take the value when it is offered.** Whatever happens during the run, the write protection of the active boot partition is not changed, and the other one is write protected at the end of every run that touched it and could open the attribute.
Missing: a kernel that refuses the value (`C43_finding_force_ro`). -/
theorem C43_protected_partial (e : Env) (v : UInt8) (limit size sector : Nat) (data : Bytes) (env : Act → Bool × Bool) (ro : Nat → Bool) :
    (∀ i, bootpart v = some (.boot i) → forceRoAfter env i (run e v limit size sector data).1 (ro i) = ro i) ∧
    (∀ i, (∃ a ∈ (run e v limit size sector data).1, a.touches = some i) → env (.ro i) = (true, true) →
      forceRoAfter env i (run e v limit size sector data).1 (ro i) = true) := by
  rcases C43_inactive_only e v limit size sector data with h | ⟨t, l, ht, hne, hen, htouch, hw, h⟩
  · rw [h]; exact ⟨fun _ _ => rfl, fun i ⟨a, ha, _⟩ => by cases ha⟩
  · have hall : ∀ a ∈ (run e v limit size sector data).1, a.touches = some t ∨ a.touches = none := by
      intro a ha
      rcases h with h | ⟨h, _⟩ <;> rw [h] at ha
      · exact Or.inl (htouch a ha)
      · rw [show l ++ [Act.ro t, .reg (newValue v t)] = (l ++ [.ro t]) ++ [.reg (newValue v t)] by simp] at ha
        rcases List.mem_append.1 ha with ha | ha
        · exact Or.inl (htouch a ha)
        · rw [List.mem_singleton.1 ha]; exact Or.inr rfl
    constructor
    · intro i hi
      refine forceRoAfter_other _ _ _ _ fun a ha hai => ?_
      rcases hall a ha with h1 | h1 <;> rw [h1] at hai
      · injection hai with hai; subst hai; exact hne hi
      · cases hai
    · rintro i ⟨a, ha, hai⟩ henv
      have : i = t := by
        rcases hall a ha with h1 | h1 <;> rw [h1] at hai
        · injection hai with hai; exact hai.symm
        · cases hai
      subst this
      rcases h with h | ⟨h, _⟩ <;> rw [h, forceRoAfter_append] <;> simp [forceRoAfter, henv, forcePart]

/-- **C43, finding.** The result of writing `force_ro` is not noticed: if the kernel refuses the value, the request reports success and the attribute keeps its value. A whole update reports success although the boot partition it has written stays writable, and
an update of a boot partition that could not be made writable is noticed only when writing to it fails. -/
theorem C43_finding_force_ro :
    (∀ old value, forcePart true false old value = (old, true)) ∧
    (run {} 0x50 0 3 512 [1, 2, 3]).2 = true ∧
    forceRoAfter (fun a => (true, decide (a = .rw 0))) 0 (run {} 0x50 0 3 512 [1, 2, 3]).1 true = false := by
  refine ⟨fun _ _ => rfl, ?_⟩
  have h := copyRaw_total (fun _ => ⟨some 8192, none⟩) (fun _ => ⟨by simp, rfl⟩) 0 512 0 (Or.inl rfl) [1, 2, 3]
  have hw : (copyToDev false false {} (fun _ => ⟨some 8192, none⟩) 0 none 3 512 [1, 2, 3]).ok = true := by
    simpa [copyToDev, checkImageSize, noFail] using h
  have hc : ∀ i, ∃ ops, copyBoot {} i 0 3 512 [1, 2, 3] = (.rw i :: List.map (Act.disk i) ops ++ [.ro i], true) := by
    intro i
    refine ⟨(copyToDev false false {} (fun _ => ⟨some 8192, none⟩) 0 none 3 512 [1, 2, 3]).ops, ?_⟩
    simp only [copyBoot, clearSlot, Bool.not_true, Bool.false_eq_true, if_false]
    rw [hw]
    simp
  have hd : ∀ (env : Act → Bool × Bool) (ops : List Op) (b : Bool), forceRoAfter env 0 (ops.map (Act.disk 0)) b = b := by
    intro env ops
    induction ops with
    | nil => intro b; rfl
    | cons x l ih => intro b; exact ih b
  have hb : bootpart 0x50 = some (.boot 1) := by decide
  have ht : target (.boot 1) = 0 := rfl
  obtain ⟨ops, hops⟩ := hc 0
  unfold run
  rw [hb]
  simp only [Bool.not_true, Bool.false_eq_true, if_false, ht, hops]
  rw [show bootpart (newValue 0x50 0) = some (.boot 0) by decide]
  simp only [or_self, if_false]
  refine ⟨by decide, ?_⟩
  rw [List.append_assoc]
  change forceRoAfter _ 0 (List.map (Act.disk 0) ops ++ ([.ro 0] ++ [.reg (newValue 80 0)])) _ = false
  rw [forceRoAfter_append, hd]
  decide

/-! ## Non-vacuity -/

/-- an update after which the boot partition stays writable: it could be made writable, but not read-only again -/
example : forceRoAfter (fun a => (true, decide (a = .rw 0))) 0 [.rw 0, .disk 0 .sync, .ro 0, .reg 0x48] true = false := by decide

/-- one after which it is protected again -/
example : forceRoAfter (fun _ => (true, true)) 0 [.rw 0, .disk 0 .sync, .ro 0, .reg 0x48] true = true := by decide

/-- an update which is successful, from boot1 to boot0 -/
example : (run {} 0x50 0 3 512 [1, 2, 3]).2 = true := by
  have h := copyRaw_total (fun _ => ⟨some 8192, none⟩) (fun _ => ⟨by simp, rfl⟩) 0 512 0 (Or.inl rfl) [1, 2, 3]
  have hc : ∀ i, (copyBoot {} i 0 3 512 [1, 2, 3]).2 = true := by
    intro i
    have hw : (copyToDev false false {} (fun _ => ⟨some 8192, none⟩) 0 none 3 512 [1, 2, 3]).ok = true := by
      simpa [copyToDev, checkImageSize, noFail] using h
    simp only [copyBoot, clearSlot, Bool.not_true, Bool.false_eq_true, if_false]
    rw [hw]
    simp
  have hb : bootpart 0x50 = some (.boot 1) := by decide
  unfold run
  rw [hb]
  simp only [Bool.not_true, Bool.false_eq_true, if_false, hc]
  decide

/-- the hypotheses of the finding are met -/
example : (∀ w, bootEnable ((fun (old _ : UInt8) => old) 0x40 w) = 0) ∧ bootEnable 0x40 ≤ 2 := ⟨fun _ => (by decide : bootEnable 0x40 = 0), by decide⟩

end Rauc.Emmc
