import Verif.Model.Devices
import Verif.Props.Manifest

/-!
# C67: kernel devices behind a bundle

Specification: a failed `mount_bundle` leaves nothing behind; a successful one followed by `umount_bundle` leaves nothing behind once the other users of the devices are gone; what is
mounted is the device whose table was built from the bundle's manifest and whose status the kernel reported as good.
-/

namespace Rauc.Devices

/-! ## Lemmas -/

/-- no device is marked for removal, and RAUC has the lower device open: nothing goes away by itself -/
def Held (k : K) : Prop := k.lowerFd = true ∧ ∀ n d, k.dm n = some d → d.deferred = false

theorem reap_held {k : K} (h : ∀ n d, k.dm n = some d → d.deferred = false) (n : DmName) : k.reap n = k := by
  unfold K.reap
  cases hd : k.dm n with
  | none => rfl
  | some d => simp [h n d hd]

theorem settle_held {k : K} (h : Held k) : k.settle = k := by
  unfold K.settle
  rw [reap_held h.2, reap_held h.2]
  simp [h.1]

theorem dm_set (k : K) (n : DmName) (x : Option Dm) : (k.setDm n x).dm n = x := by cases n <;> rfl
theorem dm_set_ne (k : K) {n m : DmName} (x : Option Dm) (h : m ≠ n) : (k.setDm n x).dm m = k.dm m := by
  cases n <;> cases m <;> first | rfl | exact absurd rfl h
theorem set_set (k : K) (n : DmName) (x y : Option Dm) : (k.setDm n x).setDm n y = k.setDm n y := by cases n <;> rfl
theorem set_self (k : K) (n : DmName) (h : k.dm n = none) : k.setDm n none = k := by
  obtain ⟨a, b, v, c, m, p⟩ := k
  cases n
  · have : v = none := h
    subst this; rfl
  · have : c = none := h
    subst this; rfl
theorem set_fd (k : K) (n : DmName) (x : Option Dm) : (k.setDm n x).lowerFd = k.lowerFd := by cases n <;> rfl
theorem set_mounts (k : K) (n : DmName) (x : Option Dm) : (k.setDm n x).mounts = k.mounts := by cases n <;> rfl

/-- what holds where a device is set up -/
structure Ready (k : K) (n : DmName) : Prop where
  held : Held k
  free : k.dm n = none
  unmounted : k.mounts.contains (.dm n) = false
  below : n = .verity → k.crypt = none

theorem used_fresh {k : K} {n : DmName} (h : Ready k n) (d : Dm) : (k.setDm n (some d)).used n = decide (d.others > 0) := by
  unfold K.used
  rw [set_mounts, h.unmounted, dm_set]
  cases n with
  | verity =>
    have : ((k.setDm .verity (some d)).crypt) = none := h.below rfl
    simp [this]
  | crypt => simp

theorem undo_val (E : Env) (n : DmName) (k : K) : (undo E n k).val = false := rfl

theorem undo_clean {E : Env} {n : DmName} {k : K} (h : Ready k n) (d : Dm) (ho : d.others = 0) (hu : E.ok (.undo n) = true) :
    (undo E n (k.setDm n (some d))).final = k := by
  unfold undo
  rw [if_pos hu]
  unfold dmRemove Run.bind
  rw [dm_set]
  simp only
  rw [used_fresh h, ho, if_neg (by simp), set_set, set_self k n h.free]
  exact settle_held h.held

/-- a failed setup removes what it created -/
theorem dmSetup_fail {E : Env} {n : DmName} {k : K} (h : Ready k n) (args : Bool) (t : Str) (ho : E.others n = 0) (hu : E.ok (.undo n) = true)
    (hv : (dmSetup E n args t k).val = false) : (dmSetup E n args t k).final = k := by
  unfold dmSetup at hv ⊢
  split
  · rfl
  · split
    · rfl
    · simp only [Run.bind, Run.step]
      split
      · exact undo_clean h _ rfl hu
      · rw [set_set]
        split
        · exact undo_clean h _ rfl hu
        · rw [set_set]
          split
          · exact undo_clean h _ ho hu
          · rename_i h1 h2 h3 h4 h5
            rw [if_neg h1, if_neg h2] at hv
            simp only [Run.bind, Run.step] at hv
            rw [if_neg h3, if_neg h4, if_neg h5] at hv
            cases hv

/-- what a successful setup means -/
theorem dmSetup_ok {E : Env} {n : DmName} {k : K} (args : Bool) (t : Str) (hv : (dmSetup E n args t k).val = true) :
    (dmSetup E n args t k).final = k.setDm n (some ⟨some t, true, false, E.others n⟩) ∧ k.dm n = none ∧ args = true ∧ tableFits t = true ∧
      checkStatus n (E.status n) = true := by
  unfold dmSetup at hv ⊢
  split at hv
  · cases hv
  · rename_i h1
    split at hv
    · cases hv
    · rename_i h2
      simp only [Run.bind, Run.step] at hv
      split at hv
      · cases hv
      · rename_i h3
        split at hv
        · cases hv
        · rename_i h4
          split at hv
          · cases hv
          · rename_i h5
            rw [if_neg h1, if_neg h2]
            simp only [Run.bind, Run.step]
            rw [if_neg h3, if_neg h4, if_neg h5]
            simp only [Bool.or_eq_true, Bool.not_eq_true', not_or, Bool.not_eq_false, Option.not_isSome_iff_eq_none, Bool.and_eq_true] at h1 h2 h3 h5
            refine ⟨by simp only [Run.pure, set_set], h2.2, h1.1, h3.1, h5.2⟩

theorem remove_none (E : Env) (n : DmName) (b : Bool) (k : K) (h : k.dm n = none) : (remove E n b k).final = k := by
  unfold remove
  split
  · unfold dmRemove; rw [h]; rfl
  · rfl

/-- removing an unused device -/
theorem remove_unused {E : Env} {n : DmName} {k : K} {d : Dm} (b : Bool) (hd : k.dm n = some d) (hu : k.used n = false) (he : E.ok (.remove n) = true) :
    (remove E n b k).final = (k.setDm n none).settle := by
  unfold remove
  rw [if_pos he]
  unfold dmRemove
  rw [hd]
  simp only
  rw [if_neg (by rw [hu]; simp)]
  rfl

/-- marking a used device for removal -/
theorem remove_used {E : Env} {n : DmName} {k : K} {d : Dm} (hd : k.dm n = some d) (hu : k.used n = true) (he : E.ok (.remove n) = true) :
    (remove E n true k).final = k.setDm n (some { d with deferred := true }) := by
  unfold remove
  rw [if_pos he]
  unfold dmRemove
  rw [hd]
  simp only
  rw [if_pos hu]
  rfl

/-- the state in which devices are set up: the lower device is there, nothing is mounted -/
def base : K := ⟨true, true, none, none, [], true⟩

theorem ready_verity : Ready base .verity :=
  ⟨⟨rfl, fun n d h => by cases n <;> cases h⟩, rfl, rfl, fun _ => rfl⟩

theorem ready_crypt (d : Dm) (hd : d.deferred = false) : Ready (base.setDm .verity (some d)) .crypt :=
  ⟨⟨rfl, fun n e h => by cases n <;> cases h; exact hd⟩, rfl, rfl, fun h => by cases h⟩

/-- removals work, and nobody else has the devices open -/
structure Calm (E : Env) : Prop where
  undo : ∀ n, E.ok (.undo n) = true
  remove : ∀ n, E.ok (.remove n) = true
  umount : E.ok .umount = true
  others : ∀ n, E.others n = 0

theorem verity_fail {E : Env} (hc : Calm E) (b : Bundle) (hv : (prepareVerity E b base).val = false) : (prepareVerity E b base).final = base := by
  unfold prepareVerity at hv ⊢
  split
  · rfl
  · rename_i h0
    rw [if_neg h0] at hv
    simp only [Run.bind] at hv ⊢
    cases hs : (dmSetup E .verity (argsOk b) (verityTable b.lower b.dataSize b.root b.salt) base).val with
    | false =>
      simp only [hs, Bool.not_false, if_true]
      exact dmSetup_fail ready_verity _ _ (hc.others _) (hc.undo _) hs
    | true =>
      obtain ⟨e, _⟩ := dmSetup_ok _ _ hs
      simp only [hs, Bool.not_true, Bool.false_eq_true, if_false] at hv ⊢
      rw [e, hc.others] at hv ⊢
      split
      · exact remove_unused false rfl rfl (hc.remove _)
      · rename_i hp
        rw [if_neg hp] at hv
        simp only [Run.pure] at hv ⊢
        unfold mount at hv ⊢
        split
        · rename_i hm
          rw [if_pos hm] at hv
          cases hv
        · exact remove_unused true rfl rfl (hc.remove _)

/-- the dm-verity device of a mounted bundle -/
def veritySet (E : Env) (b : Bundle) (deferred : Bool) : Dm := ⟨some (verityTable b.lower b.dataSize b.root b.salt), true, deferred, E.others .verity⟩
/-- the dm-crypt device of a mounted bundle -/
def cryptSet (E : Env) (b : Bundle) (deferred : Bool) : Dm := ⟨some (cryptTable b.verityDev b.key), true, deferred, E.others .crypt⟩

theorem verity_ok {E : Env} (hr : ∀ n, E.ok (.remove n) = true) (b : Bundle) (hv : (prepareVerity E b base).val = true) :
    (prepareVerity E b base).final = { base with verity := some (veritySet E b true), mounts := [.dm .verity] } ∧ argsOk b = true ∧
      checkStatus .verity (E.status .verity) = true := by
  unfold prepareVerity at hv ⊢
  split at hv
  · cases hv
  · rename_i h0
    rw [if_neg h0]
    simp only [Run.bind] at hv ⊢
    cases hs : (dmSetup E .verity (argsOk b) (verityTable b.lower b.dataSize b.root b.salt) base).val with
    | false => simp only [hs, Bool.not_false, if_true, Run.pure] at hv; cases hv
    | true =>
      obtain ⟨e, _, ha, _, hst⟩ := dmSetup_ok _ _ hs
      simp only [hs, Bool.not_true, Bool.false_eq_true, if_false] at hv ⊢
      rw [e] at hv ⊢
      split at hv
      · cases hv
      · rename_i hp
        rw [if_neg hp]
        simp only [Run.pure] at hv ⊢
        unfold mount at hv ⊢
        split at hv
        · rename_i hm
          rw [if_pos hm]
          refine ⟨?_, ha, hst⟩
          exact remove_used (d := ⟨some (verityTable b.lower b.dataSize b.root b.salt), true, false, E.others .verity⟩) rfl rfl (hr _)
        · cases hv

theorem crypt_fail {E : Env} (hc : Calm E) (b : Bundle) (hv : (prepareCrypt E b base).val = false) : (prepareCrypt E b base).final = base := by
  unfold prepareCrypt at hv ⊢
  split
  · rfl
  · rename_i h0
    rw [if_neg h0] at hv
    simp only [Run.bind] at hv ⊢
    cases hs : (dmSetup E .verity (argsOk b) (verityTable b.lower b.dataSize b.root b.salt) base).val with
    | false =>
      simp only [hs, Bool.not_false, if_true]
      exact dmSetup_fail ready_verity _ _ (hc.others _) (hc.undo _) hs
    | true =>
      obtain ⟨e, _⟩ := dmSetup_ok _ _ hs
      simp only [hs, Bool.not_true, Bool.false_eq_true, if_false] at hv ⊢
      rw [e, hc.others] at hv ⊢
      cases ht : (dmSetup E .crypt (argsOk b) (cryptTable b.verityDev b.key) (base.setDm .verity (some ⟨some (verityTable b.lower b.dataSize b.root b.salt), true, false, 0⟩))).val with
      | false =>
        simp only [ht, Bool.not_false, if_true]
        rw [dmSetup_fail (ready_crypt _ rfl) _ _ (hc.others _) (hc.undo _) ht]
        exact remove_unused false rfl rfl (hc.remove _)
      | true =>
        obtain ⟨e2, _⟩ := dmSetup_ok _ _ ht
        simp only [ht, Bool.not_true, Bool.false_eq_true, if_false] at hv ⊢
        rw [e2, hc.others] at hv ⊢
        have hrm : (remove E .verity true (remove E .crypt true ((base.setDm .verity (some ⟨some (verityTable b.lower b.dataSize b.root b.salt), true, false, 0⟩)).setDm .crypt
            (some ⟨some (cryptTable b.verityDev b.key), true, false, 0⟩))).final).final = base := by
          rw [remove_unused (n := .crypt) true rfl rfl (hc.remove _)]
          exact remove_unused true rfl rfl (hc.remove _)
        split
        · exact hrm
        · rename_i hp
          rw [if_neg hp] at hv
          simp only [Run.pure] at hv ⊢
          unfold mount at hv ⊢
          split
          · rename_i hm
            rw [if_pos hm] at hv
            cases hv
          · exact hrm

theorem crypt_ok {E : Env} (hr : ∀ n, E.ok (.remove n) = true) (b : Bundle) (hv : (prepareCrypt E b base).val = true) :
    (prepareCrypt E b base).final = { base with verity := some (veritySet E b true), crypt := some (cryptSet E b true), mounts := [.dm .crypt] } ∧
      checkStatus .verity (E.status .verity) = true := by
  unfold prepareCrypt at hv ⊢
  split at hv
  · cases hv
  · rename_i h0
    rw [if_neg h0]
    simp only [Run.bind] at hv ⊢
    cases hs : (dmSetup E .verity (argsOk b) (verityTable b.lower b.dataSize b.root b.salt) base).val with
    | false => simp only [hs, Bool.not_false, if_true, Run.pure] at hv; cases hv
    | true =>
      obtain ⟨e, _, ha, _, hst⟩ := dmSetup_ok _ _ hs
      simp only [hs, Bool.not_true, Bool.false_eq_true, if_false] at hv ⊢
      rw [e] at hv ⊢
      cases ht : (dmSetup E .crypt (argsOk b) (cryptTable b.verityDev b.key)
          (base.setDm .verity (some ⟨some (verityTable b.lower b.dataSize b.root b.salt), true, false, E.others .verity⟩))).val with
      | false => simp only [ht, Bool.not_false, if_true, Run.pure] at hv; cases hv
      | true =>
        obtain ⟨e2, _⟩ := dmSetup_ok _ _ ht
        simp only [ht, Bool.not_true, Bool.false_eq_true, if_false] at hv ⊢
        rw [e2] at hv ⊢
        split at hv
        · cases hv
        · rename_i hp
          rw [if_neg hp]
          simp only [Run.pure] at hv ⊢
          unfold mount at hv ⊢
          split at hv
          · rename_i hm
            rw [if_pos hm]
            refine ⟨?_, hst⟩
            simp only [Run.step]
            rw [remove_used (n := .crypt) (d := ⟨some (cryptTable b.verityDev b.key), true, false, E.others .crypt⟩) rfl rfl (hr _)]
            exact remove_used (d := ⟨some (verityTable b.lower b.dataSize b.root b.salt), true, false, E.others .verity⟩) rfl (by simp [K.used, K.setDm, K.dm, base]) (hr _)
          · cases hv

theorem plain_fail {E : Env} (hc : Calm E) (hv : (preparePlain E base).val = false) : (preparePlain E base).final = base := by
  unfold preparePlain mount Run.bind at hv ⊢
  split
  · rename_i hm
    rw [if_pos hm] at hv
    simp only [Run.step, Bool.not_true, Bool.false_eq_true, if_false] at hv ⊢
    split
    · simp only [Run.pure]
      unfold umount
      simp only [base]
      rw [if_pos hc.umount]
      exact settle_held ready_verity.held
    · rename_i h; rw [if_neg h] at hv; cases hv
  · rfl

theorem plain_ok {E : Env} (hv : (preparePlain E base).val = true) : (preparePlain E base).final = { base with mounts := [.lower] } := by
  unfold preparePlain mount Run.bind at hv ⊢
  split
  · rename_i hm
    rw [if_pos hm] at hv
    simp only [Run.step, Bool.not_true, Bool.false_eq_true, if_false] at hv ⊢
    split
    · rename_i h; rw [if_pos h] at hv; cases hv
    · rfl
  · rename_i h; rw [if_neg h] at hv; cases hv

/-! ## Mounting and unmounting -/

/-- what is mounted for each format -/
def mountedState (E : Env) (b : Bundle) : Format → K
  | .plain => ⟨true, false, none, none, [.lower], true⟩
  | .verity => ⟨true, false, some (veritySet E b true), none, [.dm .verity], true⟩
  | .crypt => ⟨true, false, some (veritySet E b true), some (cryptSet E b true), [.dm .crypt], true⟩

theorem finish_fail : (finish false base).final = K.empty := rfl

/-- **C67.** A mount which fails, at whatever system call, leaves nothing behind: no loop or NBD device, no device mapper device, no mounted file system and no directory — if removals work
and no other process has the devices open. Partial: without the last condition it is false (`C67_finding_busy_device_stays`), and a killed process leaves devices as well
(`C67_finding_killed_device_stays`). -/
theorem C67_failed_mount_leaves_nothing_partial (E : Env) (hc : Calm E) (f : Format) (b : Bundle) (hv : (mountBundle E f b K.empty).val = false) :
    (mountBundle E f b K.empty).final = K.empty := by
  unfold mountBundle at hv ⊢
  split
  · rfl
  · rename_i h0
    rw [if_neg h0] at hv
    simp only [Run.bind, Run.step] at hv ⊢
    split
    · rfl
    · rename_i h1
      rw [if_neg h1] at hv
      have hb : ({ lower := true, lowerFd := true, verity := K.empty.verity, crypt := K.empty.crypt, mounts := K.empty.mounts, point := true } : K) = base := rfl
      simp only [hb] at hv ⊢
      cases f with
      | plain =>
        have hv : (preparePlain E base).val = false := hv
        show (finish (preparePlain E base).val (preparePlain E base).final).final = _
        rw [hv, plain_fail hc hv]; rfl
      | verity =>
        have hv : (prepareVerity E b base).val = false := hv
        show (finish (prepareVerity E b base).val (prepareVerity E b base).final).final = _
        rw [hv, verity_fail hc b hv]; rfl
      | crypt =>
        have hv : (prepareCrypt E b base).val = false := hv
        show (finish (prepareCrypt E b base).val (prepareCrypt E b base).final).final = _
        rw [hv, crypt_fail hc b hv]; rfl

/-- the kernel's status text for a dm-verity device without errors: `V`, possibly followed by more fields -/
def Good (s : Str) : Prop := s = c!"V" ∨ ∃ r, s = 'V' :: ' ' :: r

/-- **C67.** The check of the status accepts exactly the text for a device without errors; for dm-crypt exactly the empty text. -/
theorem C67_status (s : Str) : (checkStatus .verity s = true ↔ Good s) ∧ (checkStatus .crypt s = true ↔ s = []) := by
  constructor
  · simp only [checkStatus, Good]
    match s with
    | [] => simp [split]
    | c :: r =>
      rw [split_eq _ _ (by simp)]
      by_cases hc : c = ' '
      · subst hc; simp [splitAux]
      · match r with
        | [] => simp [splitAux, hc]
        | d :: r =>
          by_cases hd : d = ' '
          · subst hd; simp [splitAux, hc]
          · have : ∀ acc (r : Str), ∃ t, (splitAux ' ' acc r).head? = some (acc ++ t) := by
              intro acc r
              induction r generalizing acc with
              | nil => exact ⟨[], by simp [splitAux]⟩
              | cons x r ih =>
                simp only [splitAux]
                split
                · exact ⟨[], by simp⟩
                · obtain ⟨t, ht⟩ := ih (acc ++ [x])
                  exact ⟨x :: t, by rw [ht]; simp⟩
            simp only [splitAux, beq_iff_eq, hc, hd, if_false]
            obtain ⟨t, ht⟩ := this ([] ++ [c] ++ [d]) r
            rw [ht]
            simp [hd]
  · simp only [checkStatus]
    constructor
    · intro h
      refine Decidable.not_not.1 (fun hn => ?_)
      rw [split_eq _ _ hn] at h
      have : ∀ acc (r : Str), splitAux ' ' acc r ≠ [] := by
        intro acc r
        induction r generalizing acc with
        | nil => simp [splitAux]
        | cons x r ih => simp only [splitAux]; split; · simp
                         · exact ih _
      exact this _ _ (by simpa using h)
    · rintro rfl; rfl

/-- **C67.** After a successful mount exactly the stack of devices for the format exists, with tables built from the bundle's manifest and all of them marked for removal, and the file
system is mounted from the top of it. The kernel reported the dm-verity device as good. -/
theorem C67_mounted (E : Env) (hr : ∀ n, E.ok (.remove n) = true) (f : Format) (b : Bundle) (hv : (mountBundle E f b K.empty).val = true) :
    (mountBundle E f b K.empty).final = mountedState E b f ∧ (f ≠ .plain → Good (E.status .verity)) := by
  rw [← (C67_status _).1]
  unfold mountBundle at hv ⊢
  split at hv
  · cases hv
  · rename_i h0
    rw [if_neg h0]
    simp only [Run.bind, Run.step] at hv ⊢
    split at hv
    · cases hv
    · rename_i h1
      rw [if_neg h1]
      have hb : ({ lower := true, lowerFd := true, verity := K.empty.verity, crypt := K.empty.crypt, mounts := K.empty.mounts, point := true } : K) = base := rfl
      simp only [hb] at hv ⊢
      cases f with
      | plain =>
        have hv : (preparePlain E base).val = true := hv
        refine ⟨?_, fun h => absurd rfl h⟩
        show (finish (preparePlain E base).val (preparePlain E base).final).final = _
        rw [hv, plain_ok hv]; rfl
      | verity =>
        have hv : (prepareVerity E b base).val = true := hv
        obtain ⟨e, _, hst⟩ := verity_ok hr b hv
        refine ⟨?_, fun _ => hst⟩
        show (finish (prepareVerity E b base).val (prepareVerity E b base).final).final = _
        rw [hv, e]; rfl
      | crypt =>
        have hv : (prepareCrypt E b base).val = true := hv
        obtain ⟨e, hst⟩ := crypt_ok hr b hv
        refine ⟨?_, fun _ => hst⟩
        show (finish (prepareCrypt E b base).val (prepareCrypt E b base).final).final = _
        rw [hv, e]
        simp [finish, Run.step, K.settle, K.reap, K.dm, K.used, K.setDm, base, mountedState, veritySet, cryptSet]

/-- **C67.** A successful mount followed by a successful unmount leaves nothing behind as soon as the other processes which have one of the devices open have closed them, however many
they are. -/
theorem C67_unmounted_leaves_nothing (E E' : Env) (hr : ∀ n, E.ok (.remove n) = true) (f : Format) (b : Bundle) (hv : (mountBundle E f b K.empty).val = true)
    (hu : (umountBundle E' (mountBundle E f b K.empty).final).val = true) : (umountBundle E' (mountBundle E f b K.empty).final).final.quiet = K.empty := by
  obtain ⟨e, _⟩ := C67_mounted E hr f b hv
  rw [e] at hu ⊢
  have ho : E'.ok .umount = true := by
    unfold umountBundle umount at hu
    cases f <;> simp only [mountedState, Run.bind] at hu <;> (split at hu; · assumption) <;> cases hu
  unfold umountBundle umount
  cases f with
  | plain => simp only [mountedState, ho, if_true]; rfl
  | verity =>
    simp only [mountedState, ho, if_true]
    by_cases hz : E.others .verity = 0
    · simp [Run.bind, Run.step, K.quiet, K.settle, K.reap, K.dm, K.used, K.setDm, veritySet, hz, K.empty]
    · have hz : 0 < E.others .verity := by omega
      simp [Run.bind, Run.step, K.quiet, K.settle, K.reap, K.dm, K.used, K.setDm, veritySet, hz, K.empty]
  | crypt =>
    simp only [mountedState, ho, if_true]
    by_cases hz : E.others .verity = 0 <;> by_cases hy : E.others .crypt = 0
    · simp [Run.bind, Run.step, K.quiet, K.settle, K.reap, K.dm, K.used, K.setDm, veritySet, cryptSet, hz, hy, K.empty]
    · have hy : 0 < E.others .crypt := by omega
      simp [Run.bind, Run.step, K.quiet, K.settle, K.reap, K.dm, K.used, K.setDm, veritySet, cryptSet, hz, hy, K.empty]
    · have hz : 0 < E.others .verity := by omega
      simp [Run.bind, Run.step, K.quiet, K.settle, K.reap, K.dm, K.used, K.setDm, veritySet, cryptSet, hz, hy, K.empty]
    · have hz : 0 < E.others .verity := by omega
      have hy : 0 < E.others .crypt := by omega
      simp [Run.bind, Run.step, K.quiet, K.settle, K.reap, K.dm, K.used, K.setDm, veritySet, cryptSet, hz, hy, K.empty]

/-! ## Devices which stay -/

/-- there is a dm-verity device which is not marked for removal -/
def Stuck (k : K) : Prop := ∃ d, k.verity = some d ∧ d.deferred = false

theorem reap_stuck {k : K} (h : Stuck k) (n : DmName) : Stuck (k.reap n) ∧ (k.reap n).verity = k.verity := by
  obtain ⟨d, hd, hf⟩ := h
  unfold K.reap
  cases n with
  | verity =>
    simp only [K.dm, hd, hf, Bool.false_and, Bool.false_eq_true, if_false]
    exact ⟨⟨d, hd, hf⟩, trivial⟩
  | crypt =>
    split
    · split
      · exact ⟨⟨d, hd, hf⟩, rfl⟩
      · exact ⟨⟨d, hd, hf⟩, rfl⟩
    · exact ⟨⟨d, hd, hf⟩, rfl⟩

theorem settle_stuck {k : K} (h : Stuck k) : Stuck k.settle := by
  have h2 := (reap_stuck (reap_stuck h .crypt).1 .verity).1
  unfold K.settle
  simp only
  split
  · exact h2
  · exact h2

theorem quiet_stuck {k : K} (h : Stuck k) : Stuck k.quiet := by
  obtain ⟨d, hd, hf⟩ := h
  exact settle_stuck ⟨{ d with others := 0 }, by simp [hd], hf⟩

/-- **C67.** Finding: a dm-verity device which was left behind without being marked stays: no later installation removes it, and every later attempt to mount a verity or crypt bundle fails
(the name is in use), whatever the system calls return. -/
theorem C67_finding_stuck_blocks (E : Env) (b : Bundle) (f : Format) (hf : f ≠ .plain) (k : K) (h : Stuck k) :
    (mountBundle E f b k).val = false ∧ Stuck (mountBundle E f b k).final := by
  have hfin : ∀ (r : Bool) (k : K), Stuck k → Stuck (finish r k).final := by
    intro r k h
    unfold finish
    simp only [Run.step]
    refine settle_stuck ?_
    obtain ⟨d, hd, hf⟩ := h
    refine ⟨d, ?_, hf⟩
    split <;> exact hd
  have hset : ∀ k a t, Stuck k → dmSetup E .verity a t k = .pure k false := by
    rintro k a t ⟨d, hd, _⟩
    unfold dmSetup
    split
    · rfl
    · simp [K.dm, hd]
  have hV : ∀ k, Stuck k → (prepareVerity E b k).val = false ∧ (prepareVerity E b k).final = k := by
    intro k h
    unfold prepareVerity
    split
    · exact ⟨rfl, rfl⟩
    · rw [hset k _ _ h]; exact ⟨rfl, rfl⟩
  have hC : ∀ k, Stuck k → (prepareCrypt E b k).val = false ∧ (prepareCrypt E b k).final = k := by
    intro k h
    unfold prepareCrypt
    split
    · exact ⟨rfl, rfl⟩
    · rw [hset k _ _ h]; exact ⟨rfl, rfl⟩
  unfold mountBundle
  split
  · exact ⟨rfl, h⟩
  · simp only [Run.bind, Run.step]
    split
    · exact ⟨rfl, hfin _ _ h⟩
    · cases f with
      | plain => exact absurd rfl hf
      | verity =>
        obtain ⟨h1, h2⟩ := hV { lower := true, lowerFd := true, verity := k.verity, crypt := k.crypt, mounts := k.mounts, point := true } h
        exact ⟨h1, hfin _ _ (by simp only [h2]; exact h)⟩
      | crypt =>
        obtain ⟨h1, h2⟩ := hC { lower := true, lowerFd := true, verity := k.verity, crypt := k.crypt, mounts := k.mounts, point := true } h
        exact ⟨h1, hfin _ _ (by simp only [h2]; exact h)⟩

/-- **C67.** The parameters of a device that was set up are complete: with the terminating NUL they fit into the 1024 bytes the kernel is given. -/
theorem C67_table_fits (E : Env) (n : DmName) (k : K) (args : Bool) (t : Str) (hv : (dmSetup E n args t k).val = true) : t.length + 1 ≤ 1024 := by
  obtain ⟨-, -, -, h, -⟩ := dmSetup_ok args t hv
  unfold tableFits at h
  have := of_decide_eq_true h
  omega

/-- **C67.** Finding: RAUC removes a dm-verity device after a failed check without marking it for deferred removal (dm.c:272). If another process (such as udev) has the device open at that
moment the removal fails and the device stays, also when the other process has closed it. -/
theorem C67_finding_busy_device_stays (E : Env) (b : Bundle) (hm : E.ok .mkdir = true) (hl : E.ok .lower = true) (hx : E.ok .manifest = true) (ha : argsOk b = true)
    (hd : ∀ n, E.ok (.control n) = true ∧ E.ok (.create n) = true ∧ E.ok (.load n) = true ∧ E.ok (.resume n) = true)
    (hlen : (verityTable b.lower b.dataSize b.root b.salt).length ≤ 1023) (hr : E.ok (.read .verity) = false) (ho : E.others .verity > 0) :
    (mountBundle E .verity b K.empty).val = false ∧ Stuck (mountBundle E .verity b K.empty).final.quiet := by
  have ht : tableFits (verityTable b.lower b.dataSize b.root b.salt) = true := by unfold tableFits; exact decide_eq_true (by omega)
  have hz : decide (0 < E.others .verity) = true := by simpa using ho
  have e : (dmSetup E .verity (argsOk b) (verityTable b.lower b.dataSize b.root b.salt) base).val = false ∧
      (dmSetup E .verity (argsOk b) (verityTable b.lower b.dataSize b.root b.salt) base).final = { base with verity := some (veritySet E b false) } := by
    unfold dmSetup
    rw [ha, (hd .verity).1, (hd .verity).2.1]
    simp only [Bool.not_true, Bool.or_self, Bool.false_eq_true, if_false, base, K.dm, Option.isSome_none, Run.bind, Run.step, ht, (hd .verity).2.2.1, (hd .verity).2.2.2, hr,
      Bool.and_false, Bool.false_and, Bool.not_false, if_true, undo, dmRemove, K.setDm, K.used]
    have hz2 : E.others .verity > 0 := ho
    simp only [hz2, decide_true, Bool.or_true, Bool.true_or, if_true, Run.pure, ite_self]
    exact ⟨trivial, rfl⟩
  have e2 : (prepareVerity E b base).val = false ∧ (prepareVerity E b base).final = { base with verity := some (veritySet E b false) } := by
    unfold prepareVerity
    rw [hx]
    simp only [Bool.not_true, Bool.false_eq_true, if_false, Run.bind, e.1, Bool.not_false, if_true, Run.pure]
    exact ⟨trivial, e.2⟩
  have e3 : (mountBundle E .verity b K.empty).val = false ∧
      (mountBundle E .verity b K.empty).final = (finish false { base with verity := some (veritySet E b false) }).final := by
    unfold mountBundle
    rw [hm, hl]
    have hb : ({ lower := true, lowerFd := true, verity := K.empty.verity, crypt := K.empty.crypt, mounts := K.empty.mounts, point := true } : K) = base := rfl
    simp only [Bool.not_true, Bool.false_eq_true, if_false, Run.bind, Run.step, hb, e2.1, e2.2]
    exact ⟨rfl, trivial⟩
  rw [e3.2]
  refine ⟨e3.1, quiet_stuck ?_⟩
  unfold finish
  simp only [Run.step]
  refine settle_stuck ⟨veritySet E b false, ?_, rfl⟩
  split <;> rfl

/-- **C67.** Finding: if RAUC is killed while a verity bundle is being mounted (after the device was created, before it is marked for removal) the device stays. -/
theorem C67_finding_killed_device_stays (E : Env) (b : Bundle) (hv : (mountBundle E .verity b K.empty).val = true) :
    ∃ k ∈ (mountBundle E .verity b K.empty).states, Stuck (killed k) := by
  have hv' := hv
  unfold mountBundle at hv ⊢
  split at hv
  · cases hv
  · rename_i h0
    rw [if_neg h0]
    simp only [Run.bind, Run.step] at hv ⊢
    split at hv
    · cases hv
    · rename_i h1
      rw [if_neg h1]
      have hb : ({ lower := true, lowerFd := true, verity := K.empty.verity, crypt := K.empty.crypt, mounts := K.empty.mounts, point := true } : K) = base := rfl
      simp only [hb] at hv ⊢
      have hv : (prepareVerity E b base).val = true := hv
      have key : base.setDm .verity (some ⟨none, false, false, 0⟩) ∈ (prepareVerity E b base).states := by
        unfold prepareVerity at hv ⊢
        split at hv
        · cases hv
        · rename_i h2
          rw [if_neg h2]
          simp only [Run.bind] at hv ⊢
          cases hs : (dmSetup E .verity (argsOk b) (verityTable b.lower b.dataSize b.root b.salt) base).val with
          | false => simp only [hs, Bool.not_false, if_true, Run.pure] at hv; cases hv
          | true =>
            refine List.mem_append_left _ ?_
            unfold dmSetup at hs ⊢
            split at hs
            · cases hs
            · rename_i h3
              rw [if_neg h3]
              split at hs
              · cases hs
              · rename_i h4
                rw [if_neg h4]
                simp [Run.bind, Run.step]
      refine ⟨base.setDm .verity (some ⟨none, false, false, 0⟩), ?_, settle_stuck ⟨_, rfl, rfl⟩⟩
      simp only [List.mem_append]
      exact Or.inr (Or.inr (Or.inl key))

/-! ## The tables -/

/-- **C67.** The verity table has exactly ten fields, so no optional arguments (such as ones to ignore corruption): hash and data on the device given, the number of 4096 byte blocks as
size and as the start of the hash tree, and hash and salt as given — for names, hashes and salts without spaces. -/
theorem C67_verity_table (lower root salt : Str) (size : Nat) (hl : ' ' ∉ lower) (hr : ' ' ∉ root) (hs : ' ' ∉ salt) :
    split ' ' (verityTable lower size root salt) =
      [c!"1", lower, lower, c!"4096", c!"4096", toDec (size / 4096), toDec (size / 4096), c!"sha256", root, salt] := by
  have hn : ' ' ∉ toDec (size / 4096) := by
    intro h
    obtain ⟨d, hd, e⟩ := toBase_chars 10 (by omega) _ _ h
    have : ∀ d < 10, (' ' : Char) ≠ digitChar d := by decide
    exact this d hd e
  have : verityTable lower size root salt = join ' ' [c!"1", lower, lower, c!"4096", c!"4096", toDec (size / 4096), toDec (size / 4096), c!"sha256", root, salt] := by
    simp [verityTable, join]
  rw [this, split_join]
  · intro t ht
    simp only [List.mem_cons, List.not_mem_nil, or_false] at ht
    rcases ht with rfl | rfl | rfl | rfl | rfl | rfl | rfl | rfl | rfl | rfl <;> first | assumption | decide
  · simp

theorem hexStr_nospace {n : Nat} {h : Str} (hh : ManifestFile.HexStr n h) : ' ' ∉ h := by
  intro hm
  have := hh.2 _ hm
  revert this
  decide

/-- **C67.** The hash and salt of every manifest that is accepted for mounting are such. -/
theorem C67_verity_table_of_manifest (running : Str) (m m' : Manifest) (h : ManifestFile.checkExternal running m = some m') (lower : Str) (hl : ' ' ∉ lower) (size : Nat) :
    ∃ root salt, m.verityHash = some root ∧ m.veritySalt = some salt ∧
      split ' ' (verityTable lower size root salt) =
        [c!"1", lower, lower, c!"4096", c!"4096", toDec (size / 4096), toDec (size / 4096), c!"sha256", root, salt] := by
  obtain ⟨r, hr, hr'⟩ := ManifestFile.validHex32_iff.1 (show ManifestFile.validHex32 m.verityHash = true by
    unfold ManifestFile.checkExternal at h
    cases hh : ManifestFile.validHex32 m.verityHash with
    | true => rfl
    | false => simp [hh] at h)
  obtain ⟨s, hs, hs'⟩ := ManifestFile.validHex32_iff.1 (show ManifestFile.validHex32 m.veritySalt = true by
    unfold ManifestFile.checkExternal at h
    cases hh : ManifestFile.validHex32 m.veritySalt with
    | true => rfl
    | false => simp [hh] at h)
  exact ⟨r, s, hr, hs, C67_verity_table lower r s size hl (hexStr_nospace hr') (hexStr_nospace hs')⟩

/-- **C67.** Likewise the crypt table. -/
theorem C67_crypt_table (lower key : Str) (hl : ' ' ∉ lower) (hk : ' ' ∉ key) :
    split ' ' (cryptTable lower key) = [c!"aes-cbc-plain64", key, c!"0", lower, c!"0", c!"1", c!"sector_size:4096"] := by
  have : cryptTable lower key = join ' ' [c!"aes-cbc-plain64", key, c!"0", lower, c!"0", c!"1", c!"sector_size:4096"] := by
    simp [cryptTable, join]
  rw [this, split_join]
  · intro t ht
    simp only [List.mem_cons, List.not_mem_nil, or_false] at ht
    rcases ht with rfl | rfl | rfl | rfl | rfl | rfl | rfl <;> first | assumption | decide
  · simp

/-! ## Loop devices -/

theorem loops_same (l : Loops) (i : Nat) (x : Loop) : l.set i x i = x := by simp [Loops.set]
theorem loops_ne (l : Loops) {i j : Nat} (x : Loop) (h : j ≠ i) : l.set i x j = l j := by simp [Loops.set, h]

/-- a device which belongs to someone else for the whole time -/
def Theirs (E : LoopEnv) (j id : Nat) : Prop := ∀ t l, l j = .foreign id → E.world t l j = .foreign id

theorem claim_foreign (E : LoopEnv) (size j id : Nat) (hT : Theirs E j id) (n : Nat) : ∀ t (l : Loops), l j = .foreign id →
    (claim E size n t l).1 j = .foreign id ∧ (claim E size n t l).2 ≠ some j := by
  induction n with
  | zero => intro t l h; exact ⟨h, by simp [claim]⟩
  | succ n ih =>
    intro t l h
    unfold claim
    split
    · exact ⟨h, by simp⟩
    · rename_i i hi
      have h1 := hT t l h
      simp only
      split
      · exact ih _ _ h1
      · split
        · exact ⟨h1, by simp⟩
        · split
          · rename_i hf
            have hne : j ≠ i := by rintro rfl; rw [h1] at hf; cases hf
            exact ⟨(loops_ne _ _ hne).trans h1, by simpa using Ne.symm hne⟩
          · exact ih _ _ h1
          · exact ⟨h1, by simp⟩

theorem configure_other (E : LoopEnv) (size i j : Nat) (h : j ≠ i) (r : List Rc) (l : Loops) :
    (configure E size i r l).1 j = l j ∧ (configure E size i r l).2 ≠ some j := by
  induction r generalizing l with
  | nil => unfold configure; exact ⟨by split <;> simp [loops_ne, h], by simp⟩
  | cons c r ih =>
    cases c with
    | eagain => exact ih l
    | ok => exact ⟨loops_ne _ _ h, by simpa [configure] using Ne.symm h⟩
    | fail => unfold configure; exact ⟨by split <;> simp [loops_ne, h], by simp⟩

/-- **C67.** A loop device which someone else uses is never bound, configured or released, and never returned, whatever else happens to the other devices meanwhile. -/
theorem C67_loop_foreign_untouched (E : LoopEnv) (size : Nat) (l : Loops) (j id : Nat) (hT : Theirs E j id) (h : l j = .foreign id) :
    (setupLoop E size l).1 j = .foreign id ∧ (setupLoop E size l).2 ≠ some j := by
  unfold setupLoop
  split
  · exact ⟨h, by simp⟩
  · have hc := claim_foreign E size j id hT 10 0 l h
    split
    · rename_i l' e; rw [e] at hc; exact ⟨hc.1, by simp⟩
    · rename_i l' i e
      rw [e] at hc
      have hne : j ≠ i := fun h => hc.2 (by rw [h])
      obtain ⟨h1, h2⟩ := configure_other E size i j hne E.setStatus l'
      exact ⟨h1.trans hc.1, h2⟩

theorem configure_some (E : LoopEnv) (size i : Nat) (r : List Rc) (l : Loops) {j : Nat} (h : (configure E size i r l).2 = some j) :
    j = i ∧ (configure E size i r l).1 i = .ours size true true := by
  induction r generalizing l with
  | nil => simp [configure] at h
  | cons c r ih =>
    cases c with
    | eagain => exact ih l h
    | ok => simp only [configure, Option.some.injEq] at h ⊢; exact ⟨h.symm, loops_same _ _ _⟩
    | fail => simp [configure] at h

/-- **C67.** The device which is returned is bound to the bundle, read-only, limited to the given size, and goes away with its last user. -/
theorem C67_loop_configured (E : LoopEnv) (size : Nat) (l : Loops) (i : Nat) (h : (setupLoop E size l).2 = some i) : (setupLoop E size l).1 i = .ours size true true := by
  unfold setupLoop at h ⊢
  split
  · rename_i hc; rw [if_pos hc] at h; cases h
  · rename_i hc
    rw [if_neg hc] at h
    split
    · rename_i l' e; rw [e] at h; cases h
    · rename_i l' j e
      rw [e] at h
      obtain ⟨rfl, h2⟩ := configure_some E size j E.setStatus l' h
      exact h2

/-- none of the devices is bound to the bundle -/
def NoneOurs (l : Loops) : Prop := ∀ j a b c, l j ≠ .ours a b c

/-- only the device which is returned may be bound to the bundle -/
def OnlyClaimed (r : Loops × Option Nat) : Prop := ∀ j, r.2 ≠ some j → ∀ a b c, r.1 j ≠ .ours a b c

theorem claim_none (E : LoopEnv) (size : Nat) (hw : ∀ t l, NoneOurs l → NoneOurs (E.world t l)) (n : Nat) : ∀ t (l : Loops), NoneOurs l → OnlyClaimed (claim E size n t l) := by
  have hN : ∀ l, NoneOurs l → OnlyClaimed (l, none) := fun l h j _ => h j
  induction n with
  | zero => intro t l h; exact hN l h
  | succ n ih =>
    intro t l h
    unfold claim
    split
    · exact hN l h
    · rename_i i hi
      have h1 := hw t l h
      simp only
      split
      · exact ih _ _ h1
      · split
        · exact hN _ h1
        · split
          · intro j hj a b c
            have hj : j ≠ i := fun e => hj (by rw [e])
            show (E.world t l).set i _ j ≠ _
            rw [loops_ne _ _ hj]
            exact h1 j a b c
          · exact ih _ _ h1
          · exact hN _ h1

theorem configure_none (E : LoopEnv) (hclr : E.clrOk = true) (size i : Nat) (r : List Rc) (l : Loops) (hl : ∀ j, j ≠ i → ∀ a b c, l j ≠ .ours a b c)
    (h : (configure E size i r l).2 = none) : NoneOurs (configure E size i r l).1 := by
  have key : NoneOurs (l.set i .free) := by
    intro j a b c
    by_cases hj : j = i
    · subst hj; rw [loops_same]; simp
    · rw [loops_ne _ _ hj]; exact hl j hj a b c
  induction r with
  | nil => unfold configure; rw [if_pos hclr]; exact key
  | cons c r ih =>
    cases c with
    | eagain => exact ih h
    | ok => simp [configure] at h
    | fail => unfold configure; rw [if_pos hclr]; exact key

/-- **C67.** If no device could be set up none is left bound to the bundle (unless releasing it fails). -/
theorem C67_loop_failure_releases (E : LoopEnv) (size : Nat) (l : Loops) (hw : ∀ t l, NoneOurs l → NoneOurs (E.world t l)) (h0 : NoneOurs l) (hclr : E.clrOk = true)
    (h : (setupLoop E size l).2 = none) : NoneOurs (setupLoop E size l).1 := by
  unfold setupLoop at h ⊢
  split
  · exact h0
  · rename_i hc
    rw [if_neg hc] at h
    have hcl := claim_none E size hw 10 0 l h0
    split
    · rename_i l' e; rw [e] at hcl; exact fun j => hcl j (by simp)
    · rename_i l' i e
      rw [e] at hcl h
      exact configure_none E hclr size i E.setStatus l' (fun j hj => hcl j (by simpa using Ne.symm hj)) h

theorem claim_tries (E E' : LoopEnv) (size : Nat) (n : Nat) : ∀ t (l : Loops),
    (∀ u, t ≤ u → u < t + n → E.getFree u = E'.getFree u ∧ E.world u = E'.world u ∧ E.openFails u = E'.openFails u ∧ E.setFd u = E'.setFd u) →
    claim E size n t l = claim E' size n t l := by
  induction n with
  | zero => intros; rfl
  | succ n ih =>
    intro t l h
    obtain ⟨h1, h2, h3, h4⟩ := h t (Nat.le_refl _) (by omega)
    have hi : ∀ l, claim E size n (t + 1) l = claim E' size n (t + 1) l := fun l => ih (t + 1) l (fun u hu hu' => h u (by omega) (by omega))
    unfold claim
    rw [h1, h2, h3, h4]
    simp only [hi]

/-- **C67.** At most ten devices are tried: what would happen afterwards does not matter. -/
theorem C67_ten_tries (E E' : LoopEnv) (size : Nat) (l : Loops) (h0 : E.control = E'.control) (h1 : E.setStatus = E'.setStatus) (h2 : E.clrOk = E'.clrOk)
    (h : ∀ u < 10, E.getFree u = E'.getFree u ∧ E.world u = E'.world u ∧ E.openFails u = E'.openFails u ∧ E.setFd u = E'.setFd u) :
    setupLoop E size l = setupLoop E' size l := by
  have hc : ∀ size i r l, configure E size i r l = configure E' size i r l := by
    intro size i r l
    induction r with
    | nil => simp only [configure, h2]
    | cons c r ih => cases c <;> simp only [configure, h2, ih]
  unfold setupLoop
  rw [h0, h1, claim_tries E E' size 10 0 l (fun u _ hu => h u (by omega))]
  simp only [hc]

/-! ## Concrete cases -/

namespace Example

def bundle : Bundle := ⟨c!"/dev/loop0", 8192, List.replicate 64 'a', List.replicate 64 'b', List.replicate 64 'c', c!"/dev/dm-0", true⟩

def env (bad : Call → Bool) (udev : Nat) : Env := ⟨fun c => !bad c, fun _ => udev, fun n => match n with | .verity => c!"V" | .crypt => []⟩

theorem calm (bad : Call → Bool) (h : ∀ n, bad (.undo n) = false ∧ bad (.remove n) = false) (hu : bad .umount = false) : Calm (env bad 0) :=
  ⟨fun n => by simp [env, (h n).1], fun n => by simp [env, (h n).2], by simp [env, hu], fun _ => rfl⟩

set_option maxRecDepth 10000 in
/-- a crypt bundle: success, with other processes having opened the devices -/
example : (mountBundle (env (fun _ => false) 3) .crypt bundle K.empty).val = true := by decide +kernel
set_option maxRecDepth 10000 in
example : ((umountBundle (env (fun _ => false) 3) (mountBundle (env (fun _ => false) 3) .crypt bundle K.empty).final).val = true) := by decide +kernel
set_option maxRecDepth 10000 in
/-- a read of the dm-crypt device fails -/
example : (mountBundle (env (fun c => c == .read .crypt) 0) .crypt bundle K.empty).val = false := by decide +kernel
set_option maxRecDepth 10000 in
/-- hypotheses of `C67_finding_busy_device_stays` -/
example : argsOk bundle = true ∧ tableFits (verityTable bundle.lower bundle.dataSize bundle.root bundle.salt) = true ∧
    (env (fun c => c == .read .verity) 1).ok (.read .verity) = false ∧ (env (fun c => c == .read .verity) 1).others .verity > 0 := by decide +kernel

/-- the first two devices are taken by others just before they can be bound -/
def loopEnv : LoopEnv := ⟨true, fun t => some t, fun t l => if t < 2 then l.set t (.foreign 7) else l, fun _ => false, fun _ => .ok, [.eagain, .ok], true⟩

example : (setupLoop loopEnv 4096 (fun _ => .free)).2 = some 2 ∧ (setupLoop loopEnv 4096 (fun _ => .free)).1 1 = .foreign 7 := by decide +kernel

end Example

end Rauc.Devices
