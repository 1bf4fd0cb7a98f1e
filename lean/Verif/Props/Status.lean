import Verif.Lemmas.Status

/-!
# Status files: C19, C20
-/

namespace Rauc

/-- Statuses whose every field is representable: no empty strings, 32 bit counters, existing dates with a
four-digit year and no fraction of a second, a digest iff the type is SHA-256, a 64 bit size. -/
structure SlotStatus.WF (s : SlotStatus) : Prop where
  strings : ∀ f ∈ [s.bundleCompatible, s.bundleVersion, s.bundleDescription, s.bundleBuild, s.bundleHash, s.status,
    s.digest], f ≠ some []
  counts : s.installedCount < 2 ^ 32 ∧ s.activatedCount < 2 ^ 32
  stamps : ∀ d, (s.installedTimestamp = some d ∨ s.activatedTimestamp = some d) →
    d.ok = true ∧ 1000 ≤ d.year ∧ d.usec = 0
  sha : s.sha256 = s.digest.isSome
  size : -2 ^ 63 ≤ s.size ∧ s.size < 2 ^ 63
  nosize : s.digest = none → s.size = 0

/-- the lengths of the months in the Gregorian calendar -/
def monthLengths (year : Nat) : List Nat :=
  [31, if (year % 4 = 0 ∧ year % 100 ≠ 0) ∨ year % 400 = 0 then 29 else 28, 31, 30, 31, 30, 31, 31, 30, 31, 30, 31]

/-- The dates of `SlotStatus.WF` are exactly those of the Gregorian calendar (written down here once more as a table). -/
theorem C19_dates (d : DateTime) : d.ok = true ↔
    1 ≤ d.year ∧ d.year ≤ 9999 ∧ d.hour ≤ 23 ∧ d.minute ≤ 59 ∧ d.second ≤ 59 ∧
    1 ≤ d.month ∧ 1 ≤ d.day ∧ ∃ n, (monthLengths d.year)[d.month - 1]? = some n ∧ d.day ≤ n := by
  obtain ⟨y, m, dd, hh, mi, ss, us⟩ := d
  unfold DateTime.ok
  rw [decide_eq_true_eq]
  simp only
  have key : ∀ m, 1 ≤ m → m ≤ 12 → (monthLengths y)[m - 1]? = some (daysInMonth y m) := by
    intro m h1 h2
    unfold monthLengths daysInMonth
    rcases m with _ | _ | _ | _ | _ | _ | _ | _ | _ | _ | _ | _ | _ | m <;> first | omega | rfl | skip
    show some _ = some _
    by_cases h : y % 4 = 0 <;> by_cases h2 : y % 100 = 0 <;> by_cases h3 : y % 400 = 0 <;> simp [h, h2, h3] <;> omega
  constructor
  · rintro ⟨a, b, c, e, f, g, h, i, j⟩
    exact ⟨a, b, by omega, by omega, by omega, c, f, _, key m c e, g⟩
  · rintro ⟨a, b, h, i, j, c, f, n, hn, hd⟩
    have hm : m ≤ 12 := by
      have := (List.getElem?_eq_some_iff.1 hn).1
      simp [monthLengths] at this; omega
    rw [key m c hm] at hn
    cases hn
    exact ⟨a, b, c, hm, f, hd, by omega, by omega, by omega⟩

theorem consume_opt {kf : KeyFile} {g k : Str} {v : Option Str} (h : kf.get g k = v) (hv : v ≠ some []) :
    consumeString kf g k = v := by
  unfold consumeString
  rw [h]
  cases v with
  | none => rfl
  | some x => cases x with
    | nil => exact absurd rfl hv
    | cons a b => rfl

theorem readCount_val {kf : KeyFile} {g k : Str} {n : Nat} (hn : n < 2 ^ 32)
    (h : kf.get g k = if n > 0 then some (toDec n) else none) : readCount kf g k = n := by
  unfold readCount
  rw [h]
  by_cases h0 : n > 0
  · simp only [h0, if_true, Option.bind_some, kfUint64_toDec n (by unfold u64max; omega)]
    rw [if_neg (by omega)]
  · simp [h0]; omega

theorem status_roundtrip (iso : Str → Option DateTime) (kf : KeyFile) (g : Str) (s : SlotStatus) (h : s.WF) :
    getSlotStatus iso (setSlotStatus kf g s) g = { s with installedTxn := none } := by
  have hg := get_setSlotStatus_self kf g
  have hs := h.strings
  have ts : ∀ k (t : Option DateTime), (setSlotStatus kf g s).get g k = t.map DateTime.fmt →
      (∀ d, t = some d → d.ok = true ∧ 1000 ≤ d.year ∧ d.usec = 0) →
      (consumeString (setSlotStatus kf g s) g k).bind (parseIso iso) = t := by
    intro k t hk ht
    rw [consume_opt hk (by cases t <;> simp [fmt_ne_nil])]
    cases t with
    | none => rfl
    | some d =>
      obtain ⟨h1, h2, h3⟩ := ht d rfl
      simp only [Option.map_some, Option.bind_some]
      rw [parseIso_fmt iso d h1 h2]
      cases d; simp at h3; simp [h3]
  have c1 : consumeString (setSlotStatus kf g s) g (c!"bundle.compatible") = s.bundleCompatible := consume_opt (hg (c!"bundle.compatible") s) (hs s.bundleCompatible (by simp))
  have c2 : consumeString (setSlotStatus kf g s) g (c!"bundle.version") = s.bundleVersion := consume_opt (hg (c!"bundle.version") s) (hs s.bundleVersion (by simp))
  have c3 : consumeString (setSlotStatus kf g s) g (c!"bundle.description") = s.bundleDescription := consume_opt (hg (c!"bundle.description") s) (hs s.bundleDescription (by simp))
  have c4 : consumeString (setSlotStatus kf g s) g (c!"bundle.build") = s.bundleBuild := consume_opt (hg (c!"bundle.build") s) (hs s.bundleBuild (by simp))
  have c5 : consumeString (setSlotStatus kf g s) g (c!"bundle.hash") = s.bundleHash := consume_opt (hg (c!"bundle.hash") s) (hs s.bundleHash (by simp))
  have c6 : consumeString (setSlotStatus kf g s) g (c!"status") = s.status := consume_opt (hg (c!"status") s) (hs s.status (by simp))
  have hd : (setSlotStatus kf g s).get g (c!"sha256") = s.digest := by
    rw [hg]
    have : (statusVal s (c!"sha256")) = some (if s.digest.isSome && s.sha256 then s.digest else none) := rfl
    rw [this, h.sha]
    cases s.digest <;> simp
  have c7 := consume_opt hd (hs s.digest (by simp))
  have t1 := ts (c!"installed.timestamp") s.installedTimestamp (hg _ s) (fun d hd => h.stamps d (Or.inl hd))
  have t2 := ts (c!"activated.timestamp") s.activatedTimestamp (hg _ s) (fun d hd => h.stamps d (Or.inr hd))
  have n1 := readCount_val h.counts.1 (hg (c!"installed.count") s)
  have n2 := readCount_val h.counts.2 (hg (c!"activated.count") s)
  have hsz : (if s.digest.isSome = true then
      toI64 ((((setSlotStatus kf g s).get g (c!"size")).bind kfUint64).getD 0) else 0) = s.size := by
    cases hdg : s.digest with
    | none => simp [h.nosize hdg]
    | some d =>
      have : (setSlotStatus kf g s).get g (c!"size") = some (toDec (toU64 s.size)) := by
        rw [hg]
        have : (statusVal s (c!"size")) = some (if s.digest.isSome && s.sha256 then some (toDec (toU64 s.size)) else none) := rfl
        rw [this, h.sha, hdg]
        simp
      rw [this]
      simp only [Option.isSome_some, if_true, Option.bind_some, kfUint64_toDec _ (toU64_le _), Option.getD_some]
      exact toI64_toU64 _ h.size.1 h.size.2
  unfold getSlotStatus
  simp only [c1, c2, c3, c4, c5, c6, c7, t1, t2, n1, n2, hsz]
  cases s
  simp
  exact h.sha.symm

/-- C19 specification, per-slot status file: what is written is what is read. -/
def LocalRoundTrip (P : SlotStatus → Prop) : Prop :=
  ∀ (iso : Str → Option DateTime) (s : SlotStatus), s.WF → P s → readLocal iso (writeLocal s) = s

/-- C19 specification, shared status file, whatever it contained before. -/
def SharedRoundTrip (P : SlotStatus → Prop) : Prop :=
  ∀ (iso : Str → Option DateTime) (f : FileSt) (slots : List Slot) (stat : Str → Option SlotStatus) (s : Slot) (st : SlotStatus),
    s ∈ slots → stat s.name = some st → st.WF → P st → loadGlobally iso (saveGlobally f slots stat true) s.name = st

theorem slotGroup_inj {a b : Str} (h : slotGroup a = slotGroup b) : a = b := List.append_cancel_left h

/-- after saving, a slot's group gives exactly the slot's values for all keys of the status format -/
theorem saveGlobally_get (slots : List Slot) (stat : Str → Option SlotStatus) (kf : KeyFile) (s : Slot) (st : SlotStatus)
    (hst : stat s.name = some st) (k : Str) (hk : (statusVal st k).isSome) :
    (s ∈ slots ∨ kf.get (slotGroup s.name) k = (statusVal st k).getD none) →
    (slots.foldl (saveStep stat) kf).get
      (slotGroup s.name) k = (statusVal st k).getD none := by
  induction slots generalizing kf with
  | nil => intro h; rcases h with h | h; simp at h; exact h
  | cons t ts ih =>
    intro h
    simp only [List.foldl_cons]
    apply ih
    by_cases hn : t.name = s.name
    · right
      unfold saveStep
      rw [hn, hst]
      simp only []
      rw [get_setSlotStatus_self]
      cases hv : statusVal st k with
      | none => rw [hv] at hk; simp at hk
      | some v => rfl
    · rcases h with h | h
      · rcases List.mem_cons.1 h with rfl | h
        · exact absurd rfl hn
        · exact Or.inl h
      · right
        unfold saveStep
        cases htn : stat t.name with
        | none => exact h
        | some st' =>
          simp only []
          rw [get_of_group (group_setSlotStatus_other kf _ _ _ (fun e => hn (slotGroup_inj e.symm)))]
          exact h

theorem getSlotStatus_congr_keys {iso} {kf kf' : KeyFile} {g g' : Str} (st : SlotStatus)
    (h : ∀ k, (statusVal st k).isSome → kf.get g k = kf'.get g' k) : getSlotStatus iso kf g = getSlotStatus iso kf' g' := by
  unfold getSlotStatus consumeString readCount
  simp only [h (c!"sha256") rfl, h (c!"bundle.compatible") rfl, h (c!"bundle.version") rfl, h (c!"bundle.description") rfl,
    h (c!"bundle.build") rfl, h (c!"bundle.hash") rfl, h (c!"status") rfl, h (c!"size") rfl,
    h (c!"installed.timestamp") rfl, h (c!"installed.count") rfl, h (c!"activated.timestamp") rfl, h (c!"activated.count") rfl]

theorem shared_roundtrip (iso : Str → Option DateTime) (f : FileSt) (slots : List Slot) (stat : Str → Option SlotStatus)
    (s : Slot) (st : SlotStatus) (hs : s ∈ slots) (hst : stat s.name = some st) (h : st.WF) :
    loadGlobally iso (saveGlobally f slots stat true) s.name = { st with installedTxn := none } := by
  unfold saveGlobally
  simp only [if_true]
  rw [loadGlobally_ok, ← status_roundtrip iso [] (slotGroup s.name) st h]
  apply getSlotStatus_congr_keys st
  intro k hk
  rw [saveGlobally_get slots stat _ s st hst k hk (Or.inl hs), get_setSlotStatus_self]
  cases hv : statusVal st k with
  | none => rw [hv] at hk; simp at hk
  | some v => rfl

/-- C19, per-slot file. Missing: the transaction id, which is written but never read (`C19_violated`). -/
theorem C19_local_partial : LocalRoundTrip (fun s => s.installedTxn = none) := by
  intro iso s h hP
  have := status_roundtrip iso [] (c!"slot") s h
  unfold readLocal writeLocal
  rw [this]
  cases s; simp at hP; simp [hP]

/-- C19, shared file. Missing: the transaction id, as above. -/
theorem C19_shared_partial : SharedRoundTrip (fun s => s.installedTxn = none) := by
  intro iso f slots stat s st hs hst h hP
  rw [shared_roundtrip iso f slots stat s st hs hst h]
  cases st; simp at hP; simp [hP]

/-- all other fields survive even when a transaction id is set -/
theorem C19_other_fields (iso : Str → Option DateTime) (f : FileSt) (slots : List Slot) (stat : Str → Option SlotStatus)
    (s : Slot) (st : SlotStatus) (hs : s ∈ slots) (hst : stat s.name = some st) (h : st.WF) :
    { loadGlobally iso (saveGlobally f slots stat true) s.name with installedTxn := st.installedTxn } = st := by
  rw [shared_roundtrip iso f slots stat s st hs hst h]

def statusEx : SlotStatus :=
  { bundleVersion := some (c!"1.0"), status := some (c!"ok"), digest := some (c!"abcd"), sha256 := true, size := 4096,
    installedTimestamp := some ⟨2024, 2, 29, 12, 34, 56, 0⟩, installedCount := 3 }

theorem statusEx_wf : statusEx.WF where
  strings := by decide
  counts := by decide
  stamps := by
    intro d hd
    have : d = ⟨2024, 2, 29, 12, 34, 56, 0⟩ := by
      rcases hd with hd | hd
      · exact (Option.some.inj hd).symm
      · cases hd
    subst this; decide
  sha := rfl
  size := by decide
  nosize := by decide

example : statusEx.WF ∧ statusEx.installedTxn = none := ⟨statusEx_wf, rfl⟩

/-- FINDING: a transaction id is saved but is lost on the next load (and therefore on the next save). -/
theorem C19_violated : ¬ LocalRoundTrip (fun _ => True) := by
  intro h
  have hw := statusEx_wf
  have := h (fun _ => none) { statusEx with installedTxn := some (c!"7a1c") }
    ⟨hw.strings, hw.counts, hw.stamps, hw.sha, hw.size, hw.nosize⟩ trivial
  have h2 := congrArg SlotStatus.installedTxn this
  revert h2
  simp [readLocal, getSlotStatus]

/-! ## C20 -/

theorem isPrefixOf_slotGroup (n : Str) : (c!"slot.").isPrefixOf (slotGroup n) = true := by
  unfold slotGroup; simp

theorem slotGroup_not_system (n : Str) : (c!"system").isPrefixOf (slotGroup n) = false := by
  unfold slotGroup; simp [List.isPrefixOf]

/-- Saving slot statuses keeps every group that is no slot group (system section, unknown sections). -/
theorem C20_slots_keep_rest (kf : KeyFile) (slots : List Slot) (stat : Str → Option SlotStatus) (ok : Bool) (g : Str)
    (hg : (c!"slot.").isPrefixOf g = false) :
    ∃ kf', saveGlobally (.ok kf) slots stat ok = .ok kf' ∧ kf'.group g = kf.group g := by
  unfold saveGlobally
  cases ok with
  | false => exact ⟨kf, rfl, rfl⟩
  | true =>
    refine ⟨_, rfl, ?_⟩
    have : ∀ (l : List Slot) (k : KeyFile),
        (l.foldl (saveStep stat) k).group g
          = k.group g := by
      intro l
      induction l with
      | nil => intro k; rfl
      | cons t ts ih =>
        intro k
        simp only [List.foldl_cons]
        rw [ih]
        unfold saveStep
        cases stat t.name with
        | none => rfl
        | some st =>
          exact group_setSlotStatus_other _ _ _ _ (fun e => by
            rw [e, isPrefixOf_slotGroup] at hg; cases hg)
    rw [this]
    simp only [initShared]
    rw [KeyFile.group_filter kf (fun x => !(c!"slot.").isPrefixOf x)]
    simp [hg]

/-- Saving the system status keeps every group whose name does not start with `system`. -/
theorem C20_system_keeps_rest (kf : KeyFile) (bootId : Str) (ok : Bool) (g : Str)
    (hg : (c!"system").isPrefixOf g = false) :
    ∃ kf', saveSystem (.ok kf) bootId ok = .ok kf' ∧ kf'.group g = kf.group g := by
  unfold saveSystem
  cases ok with
  | false => exact ⟨kf, rfl, rfl⟩
  | true =>
    refine ⟨_, rfl, ?_⟩
    have hne : g ≠ c!"system" := by intro e; subst e; simp at hg
    rw [KeyFile.group_set, if_neg hne]
    simp only [initShared]
    rw [KeyFile.group_filter kf (fun x => !(c!"system").isPrefixOf x)]
    simp [hg]

/-- Hence no slot's status changes when the system status is saved, -/
theorem C20_system_keeps_slots (iso : Str → Option DateTime) (kf : KeyFile) (bootId : Str) (ok : Bool) (name : Str) :
    loadGlobally iso (saveSystem (.ok kf) bootId ok) name = loadGlobally iso (.ok kf) name := by
  obtain ⟨kf', h1, h2⟩ := C20_system_keeps_rest kf bootId ok (slotGroup name) (slotGroup_not_system name)
  rw [h1, loadGlobally_ok, loadGlobally_ok]
  exact getSlotStatus_congr (fun k => get_of_group h2 k)

/-- and the boot id does not change when slot statuses are saved. -/
theorem C20_slots_keep_system (kf : KeyFile) (slots : List Slot) (stat : Str → Option SlotStatus) (ok : Bool) :
    loadSystem (saveGlobally (.ok kf) slots stat ok) = loadSystem (.ok kf) := by
  obtain ⟨kf', h1, h2⟩ := C20_slots_keep_rest kf slots stat ok (c!"system") (by decide)
  rw [h1]
  simp only [loadSystem]
  rw [get_of_group h2]

/-- The system status itself is read back. -/
theorem C20_system_roundtrip (f : FileSt) (bootId : Str) : loadSystem (saveSystem f bootId true) = some (some bootId) := by
  simp [loadSystem, saveSystem, KeyFile.get_set]

/-- A failed save leaves the shared file as it was (it is replaced atomically). -/
theorem C20_failed_save (f : FileSt) (slots : List Slot) (stat : Str → Option SlotStatus) (b : Str) :
    saveGlobally f slots stat false = f ∧ saveSystem f b false = f := by
  simp [saveGlobally, saveSystem]

-- a file with a system section and an unknown section: both are preserved by saving a slot status
example : (c!"slot.").isPrefixOf (c!"system") = false ∧ (c!"slot.").isPrefixOf (c!"vendor") = false ∧
    (c!"system").isPrefixOf (c!"slot.rootfs.0") = false := by decide

end Rauc
