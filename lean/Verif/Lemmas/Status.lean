import Verif.Model.Status

namespace Rauc

theorem toDec4 (y : Nat) (h1 : 1000 ≤ y) (h2 : y ≤ 9999) :
    toDec y = [digitChar (y / 1000), digitChar (y / 100 % 10), digitChar (y / 10 % 10), digitChar (y % 10)] := by
  obtain ⟨m, rfl⟩ : ∃ m, y = m + 4 := ⟨y - 4, by omega⟩
  unfold toDec toBase
  rw [toBaseAux, if_neg (by omega), toBaseAux, if_neg (by omega), toBaseAux, if_neg (by omega), toBaseAux,
    if_pos (by omega)]
  have e1 : (m + 4) / 10 / 10 / 10 = (m + 4) / 1000 := by omega
  have e2 : (m + 4) / 10 / 10 % 10 = (m + 4) / 100 % 10 := by omega
  rw [e1, e2]

theorem dig_digitChar (n : Nat) (h : n < 10) : dig (digitChar n) = some n := by
  unfold dig
  rw [digitVal_digitChar n (by omega)]
  simp [h]

theorem num2_dec2 (n : Nat) (h : n < 100) : num2 (digitChar (n / 10)) (digitChar (n % 10)) = some n := by
  unfold num2
  rw [dig_digitChar _ (by omega), dig_digitChar _ (by omega)]
  simp; omega

theorem daysInMonth_le (y m : Nat) : daysInMonth y m ≤ 31 := by
  unfold daysInMonth; split <;> (try split) <;> omega

/-- the time stamps written by RAUC are read back (without the fraction of a second) -/
theorem parseIso_fmt (other : Str → Option DateTime) (d : DateTime) (h : d.ok = true) (hy : 1000 ≤ d.year) :
    parseIso other d.fmt = some { d with usec := 0 } := by
  have h' := h
  unfold DateTime.ok at h
  simp only [decide_eq_true_eq] at h
  obtain ⟨_, h2, h3, h4, h5, h6, h7, h8, h9⟩ := h
  have h31 := daysInMonth_le d.year d.month
  have e1 : num2 (digitChar (d.year / 1000)) (digitChar (d.year / 100 % 10)) = some (d.year / 100) := by
    unfold num2
    rw [dig_digitChar _ (by omega), dig_digitChar _ (by omega)]
    simp; omega
  have e2 : num2 (digitChar (d.year / 10 % 10)) (digitChar (d.year % 10)) = some (d.year % 100) := by
    unfold num2
    rw [dig_digitChar _ (by omega), dig_digitChar _ (by omega)]
    simp; omega
  unfold DateTime.fmt
  rw [toDec4 d.year hy h2]
  simp only [dec2, List.cons_append, List.nil_append, List.append_assoc, parseIso, e1, e2]
  rw [num2_dec2 _ (by omega), num2_dec2 _ (by omega), num2_dec2 _ (by omega), num2_dec2 _ (by omega),
    num2_dec2 _ (by omega)]
  have : 100 * (d.year / 100) + d.year % 100 = d.year := by omega
  simp only [this]
  have hok : DateTime.ok ⟨d.year, d.month, d.day, d.hour, d.minute, d.second, 0⟩ = true := h'
  rw [if_pos hok]

theorem fmt_ne_nil (d : DateTime) : d.fmt ≠ [] := by
  unfold DateTime.fmt
  simp

theorem toI64_toU64 (i : Int) (h1 : -2 ^ 63 ≤ i) (h2 : i < 2 ^ 63) : toI64 (toU64 i) = i := by
  unfold toI64 toU64
  split <;> omega

theorem toU64_le (i : Int) : toU64 i ≤ u64max := by
  unfold toU64 u64max; omega

/-- values stored for a slot status, by key -/
def statusVal (s : SlotStatus) (k : Str) : Option (Option Str) :=
  let ck := s.digest.isSome && s.sha256
  if k = c!"activated.count" then some (if s.activatedCount > 0 then some (toDec s.activatedCount) else none)
  else if k = c!"activated.timestamp" then some (s.activatedTimestamp.map DateTime.fmt)
  else if k = c!"installed.count" then some (if s.installedCount > 0 then some (toDec s.installedCount) else none)
  else if k = c!"installed.timestamp" then some (s.installedTimestamp.map DateTime.fmt)
  else if k = c!"installed.transaction" then some s.installedTxn
  else if k = c!"size" then some (if ck then some (toDec (toU64 s.size)) else none)
  else if k = c!"sha256" then some (if ck then s.digest else none)
  else if k = c!"status" then some s.status
  else if k = c!"bundle.hash" then some s.bundleHash
  else if k = c!"bundle.build" then some s.bundleBuild
  else if k = c!"bundle.description" then some s.bundleDescription
  else if k = c!"bundle.version" then some s.bundleVersion
  else if k = c!"bundle.compatible" then some s.bundleCompatible
  else none

theorem getD_ite {α : Type} (c : Prop) [Decidable c] (a d : α) (x : Option α) :
    (if c then some a else x).getD d = if c then a else x.getD d := by split <;> rfl

theorem get_setSlotStatus_self (kf : KeyFile) (g k : Str) (s : SlotStatus) :
    (setSlotStatus kf g s).get g k = (statusVal s k).getD (kf.get g k) := by
  unfold setSlotStatus statusVal
  simp only [KeyFile.get_setOpt, true_and]
  simp only [getD_ite, Option.getD_none]

theorem group_setSlotStatus_other (kf : KeyFile) (g g' : Str) (s : SlotStatus) (h : g' ≠ g) :
    (setSlotStatus kf g s).group g' = kf.group g' := by
  unfold setSlotStatus
  simp only [KeyFile.group_setOpt_other _ _ _ _ _ h]

theorem get_of_group {kf kf' : KeyFile} {g : Str} (h : kf.group g = kf'.group g) (k : Str) : kf.get g k = kf'.get g k := by
  unfold KeyFile.get; rw [h]

theorem getSlotStatus_congr {iso} {kf kf' : KeyFile} {g g' : Str} (h : ∀ k, kf.get g k = kf'.get g' k) :
    getSlotStatus iso kf g = getSlotStatus iso kf' g' := by
  unfold getSlotStatus consumeString readCount
  simp only [h]

theorem get_nogroup {kf : KeyFile} {g : Str} (h : kf.hasGroup g = false) (k : Str) : kf.get g k = none := by
  unfold KeyFile.hasGroup at h
  unfold KeyFile.get
  cases hg : kf.group g with
  | none => rfl
  | some x => rw [hg] at h; simp at h

theorem getSlotStatus_nogroup {iso} {kf : KeyFile} {g : Str} (h : kf.hasGroup g = false) :
    getSlotStatus iso kf g = {} := by
  unfold getSlotStatus consumeString readCount
  simp [get_nogroup h]

theorem loadGlobally_ok (iso) (kf : KeyFile) (name : Str) :
    loadGlobally iso (.ok kf) name = getSlotStatus iso kf (slotGroup name) := by
  unfold loadGlobally
  by_cases h : kf.hasGroup (slotGroup name) = true
  · simp [h]
  · simp only [h]
    rw [getSlotStatus_nogroup (by simpa using h)]
    simp

end Rauc
