import Verif.Model.StatusView
import Verif.Props.Status
import Verif.Props.HandlerEnv
import Mathlib.Data.List.Nodup
import Mathlib.Data.List.Induction

/-!
# C69: `rauc status` shows the state of the service

What a client of the service (in particular `rauc status`) displays is what the service knows: no slot is missing, none is invented, and every value
shown for a slot is the value of that slot.
-/

namespace Rauc.StatusView

/-! ## Dictionaries -/

theorem get_insert (d : Dict) (k k' : Str) (v : DVal) : (d.insert k v).get k' = if k = k' then some v else d.get k' := by
  unfold Dict.insert Dict.get
  rw [List.find?_cons]
  by_cases h : k = k'
  · simp [h]
  · simp only [h, decide_false, if_false]
    rw [List.find?_filter]
    congr 2
    funext p
    by_cases h2 : p.1 = k'
    · simp [h2, Ne.symm h]
    · simp [h2]

theorem get_insertS (d : Dict) (k k' : Str) (v : Option Str) :
    (d.insertS k v).get k' = if k = k' then (match v with | some x => some (.s x) | none => d.get k') else d.get k' := by
  unfold Dict.insertS
  cases v with
  | none => simp
  | some x => simp only [get_insert]

theorem getS_insertS (d : Dict) (k k' : Str) (v : Option Str) :
    (d.insertS k v).getS k' = if k = k' then v.or (d.getS k') else d.getS k' := by
  unfold Dict.getS
  rw [get_insertS]
  by_cases h : k = k'
  · cases v <;> simp [h]
  · simp [h]

theorem getS_insert (d : Dict) (k k' : Str) (v : DVal) :
    (d.insert k v).getS k' = if k = k' then (match v with | .s x => some x | _ => none) else d.getS k' := by
  unfold Dict.getS
  rw [get_insert]
  by_cases h : k = k'
  · cases v <;> simp [h]
  · simp [h]

theorem getT_insertS (d : Dict) (k k' : Str) (v : Option Str) (h : k ≠ k') : (d.insertS k v).getT k' = d.getT k' := by
  unfold Dict.getT
  rw [get_insertS, if_neg h]

theorem getT_insert (d : Dict) (k k' : Str) (v : DVal) :
    (d.insert k v).getT k' = if k = k' then (match v with | .t x => some x | _ => none) else d.getT k' := by
  unfold Dict.getT
  rw [get_insert]
  by_cases h : k = k'
  · cases v <;> simp [h]
  · simp [h]

theorem getU_insertS (d : Dict) (k k' : Str) (v : Option Str) (h : k ≠ k') : (d.insertS k v).getU k' = d.getU k' := by
  unfold Dict.getU
  rw [get_insertS, if_neg h]

theorem getU_insert (d : Dict) (k k' : Str) (v : DVal) :
    (d.insert k v).getU k' = if k = k' then (match v with | .u x => some x | _ => none) else d.getU k' := by
  unfold Dict.getU
  rw [get_insert]
  by_cases h : k = k'
  · cases v <;> simp [h]
  · simp [h]

theorem getS_nil (k : Str) : Dict.getS [] k = none := rfl
theorem getT_nil (k : Str) : Dict.getT [] k = none := rfl
theorem getU_nil (k : Str) : Dict.getU [] k = none := rfl

/-! ## Specification -/

/-- a time without fractions of seconds -/
def seconds (d : DateTime) : DateTime := { d with usec := 0 }

/-- the shown status `c` is the status `st`. Missing from the full property: the counters are only shown along with their times, see
`C69_count_violated`. -/
structure ShowsStatus (c st : SlotStatus) : Prop where
  compatible : c.bundleCompatible = st.bundleCompatible
  version : c.bundleVersion = st.bundleVersion
  description : c.bundleDescription = st.bundleDescription
  build : c.bundleBuild = st.bundleBuild
  hash : c.bundleHash = st.bundleHash
  status : c.status = st.status
  digest : c.digest = st.digest
  size : c.size = st.size
  transaction : c.installedTxn = st.installedTxn
  installed : c.installedTimestamp = st.installedTimestamp.map seconds
  installedCount : st.installedTimestamp.isSome → c.installedCount = st.installedCount
  activated : c.activatedTimestamp = st.activatedTimestamp.map seconds
  activatedCount : st.activatedTimestamp.isSome → c.activatedCount = st.activatedCount

/-- the shown slot `c` is the slot `s` of the service with status `st` -/
structure Shows (detailed : Bool) (c s : RSlot) (st : SlotStatus) : Prop where
  name : c.name = s.name
  sclass : c.sclass = s.sclass
  device : c.device = s.device
  typ : c.typ = s.typ
  bootname : c.bootname = s.bootname
  state : c.state = s.state
  description : c.description = s.description
  parent : c.parent = s.parent
  mounted : c.mountPoint = (if s.mountPoint.isSome then s.mountPoint else s.extMountPoint)
  bootState : s.bootname.isSome → c.bootState = s.bootState
  noStatus : detailed = false → c.status = none
  status : detailed = true → ∃ x, c.status = some x ∧ ShowsStatus x st

/-- statuses that can be transmitted: existing times, a digest is a SHA-256, sizes are 64 bit numbers -/
structure Sendable (st : SlotStatus) : Prop where
  stamps : ∀ d, (st.installedTimestamp = some d ∨ st.activatedTimestamp = some d) → d.ok = true ∧ 1000 ≤ d.year
  sha : st.digest.isSome → st.sha256 = true
  size : -2 ^ 63 ≤ st.size ∧ st.size < 2 ^ 63
  nosize : st.digest = none → st.size = 0

/-! ## Transmitting a slot -/

/-- the tail of the dictionary does not matter for other keys -/
theorem toDict_slot (s : RSlot) (st : SlotStatus) :
    (toDict s st).getS c!"class" = s.sclass ∧ (toDict s st).getS c!"device" = s.device ∧ (toDict s st).getS c!"type" = s.typ ∧
    (toDict s st).getS c!"bootname" = s.bootname ∧ (toDict s st).getS c!"state" = stateStr s.state ∧
    (toDict s st).getS c!"description" = s.description ∧ (toDict s st).getS c!"parent" = s.parent ∧
    (toDict s st).getS c!"mountpoint" = (if s.mountPoint.isSome then s.mountPoint else s.extMountPoint) ∧
    (toDict s st).getS c!"boot-status" = s.bootname.map (fun _ => bootStr s.bootState) := by
  unfold toDict
  cases st.digest <;> cases st.sha256 <;> cases st.installedTimestamp <;> cases st.activatedTimestamp <;>
    simp [getS_insert, getS_insertS, getS_nil] <;>
    exact ⟨by cases s.mountPoint <;> simp, by cases s.bootname <;> rfl⟩

set_option maxHeartbeats 2000000 in
theorem toDict_status (s : RSlot) (st : SlotStatus) :
    (toDict s st).getS c!"bundle.compatible" = st.bundleCompatible ∧ (toDict s st).getS c!"bundle.version" = st.bundleVersion ∧
    (toDict s st).getS c!"bundle.description" = st.bundleDescription ∧ (toDict s st).getS c!"bundle.build" = st.bundleBuild ∧
    (toDict s st).getS c!"bundle.hash" = st.bundleHash ∧ (toDict s st).getS c!"status" = st.status ∧
    (toDict s st).getS c!"sha256" = (if st.sha256 then st.digest else none) ∧
    (toDict s st).getT c!"size" = (if st.sha256 then st.digest.map (fun _ => toU64 st.size) else none) ∧
    (toDict s st).getS c!"installed.transaction" = st.installedTxn ∧
    (toDict s st).getS c!"installed.timestamp" = st.installedTimestamp.map DateTime.fmt ∧
    (toDict s st).getU c!"installed.count" = st.installedTimestamp.map (fun _ => st.installedCount) ∧
    (toDict s st).getS c!"activated.timestamp" = st.activatedTimestamp.map DateTime.fmt ∧
    (toDict s st).getU c!"activated.count" = st.activatedTimestamp.map (fun _ => st.activatedCount) := by
  unfold toDict
  cases st.digest <;> cases st.sha256 <;> cases st.installedTimestamp <;> cases st.activatedTimestamp <;>
    simp [getS_insert, getS_insertS, getS_nil, getT_insert, getT_insertS, getT_nil, getU_insert, getU_insertS, getU_nil]

theorem strState_stateStr (x : Option Select.State) : strState (stateStr x) = x := by
  cases x with
  | none => rfl
  | some y => cases y <;> rfl

theorem stamp_roundtrip (iso : Str → Option DateTime) (t : Option DateTime) (h : ∀ d, t = some d → d.ok = true ∧ 1000 ≤ d.year) :
    (t.map DateTime.fmt).bind (parseIso iso) = t.map seconds := by
  cases t with
  | none => rfl
  | some d =>
    obtain ⟨h1, h2⟩ := h d rfl
    exact parseIso_fmt iso d h1 h2

theorem shows_status (iso : Str → Option DateTime) (s : RSlot) (st : SlotStatus) (h : Sendable st) :
    ShowsStatus (statusOfDict iso (toDict s st)) st := by
  obtain ⟨h1, h2, h3, h4, h5, h6, h7, h8, h9, h10, h11, h12, h13⟩ := toDict_status s st
  refine ⟨h1, h2, h3, h4, h5, h6, ?_, ?_, h9, ?_, ?_, ?_, ?_⟩
  · show (toDict s st).getS _ = _
    rw [h7]
    cases hd : st.digest with
    | none => simp
    | some g => rw [h.sha (by simp [hd])]; rfl
  · show (match (toDict s st).getT _ with | some n => toI64 n | none => 0) = _
    rw [h8]
    cases hd : st.digest with
    | none => simp [h.nosize hd]
    | some g => rw [h.sha (by simp [hd])]; exact toI64_toU64 _ h.size.1 h.size.2
  · show ((toDict s st).getS _).bind _ = _
    rw [h10]
    exact stamp_roundtrip iso _ (fun d hd => h.stamps d (Or.inl hd))
  · intro hi
    show ((toDict s st).getU _).getD 0 = _
    rw [h11]
    obtain ⟨t, ht⟩ := Option.isSome_iff_exists.1 hi
    rw [ht]; rfl
  · show ((toDict s st).getS _).bind _ = _
    rw [h12]
    exact stamp_roundtrip iso _ (fun d hd => h.stamps d (Or.inr hd))
  · intro hi
    show ((toDict s st).getU _).getD 0 = _
    rw [h13]
    obtain ⟨t, ht⟩ := Option.isSome_iff_exists.1 hi
    rw [ht]; rfl

/-- **C69.** One slot: what the client reconstructs is what the service sent. -/
theorem shows_slot (iso : Str → Option DateTime) (detailed : Bool) (s : RSlot) (st : SlotStatus) (h : Sendable st) :
    Shows detailed (slotOfDict iso detailed s.name (toDict s st)) s st := by
  obtain ⟨h1, h2, h3, h4, h5, h6, h7, h8, h9⟩ := toDict_slot s st
  refine ⟨rfl, h1, h2, h3, h4, ?_, h6, h7, h8, ?_, ?_, ?_⟩
  · show strState _ = _
    rw [h5, strState_stateStr]
  · intro hb
    show (if (toDict s st).getS _ = _ then some true else if (toDict s st).getS _ = _ then some false else none) = _
    rw [h9]
    cases hbn : s.bootname with
    | none => rw [hbn] at hb; cases hb
    | some b =>
      cases s.bootState with
      | none => rfl
      | some x => cases x <;> rfl
  · rintro rfl; rfl
  · rintro rfl; exact ⟨_, rfl, shows_status iso s st h⟩

/-! ## Transmitting the table -/

theorem fold_addSlot (iso : Str → Option DateTime) (detailed : Bool) (load : RSlot → SlotStatus) (slots acc : List RSlot)
    (h : (acc.map (·.name) ++ slots.map (·.name)).Nodup) :
    (slotStatusArray load slots).foldl (addSlot iso detailed) acc =
      acc ++ slots.map (fun s => slotOfDict iso detailed s.name (toDict s (load s))) := by
  induction slots generalizing acc with
  | nil => simp [slotStatusArray]
  | cons s r ih =>
    have hs : ¬ (acc.any (fun x => decide (x.name = s.name))) = true := by
      intro e
      rw [List.any_eq_true] at e
      obtain ⟨x, hx, hn⟩ := e
      have := List.nodup_append.1 h
      exact this.2.2 x.name (List.mem_map_of_mem hx) s.name (by simp) (of_decide_eq_true hn)
    show (slotStatusArray load r).foldl _ (addSlot iso detailed acc (s.name, toDict s (load s))) = _
    have e : addSlot iso detailed acc (s.name, toDict s (load s)) = acc ++ [slotOfDict iso detailed s.name (toDict s (load s))] := by
      unfold addSlot; exact if_neg hs
    rw [e, ih]
    · simp
    · have : (slotOfDict iso detailed s.name (toDict s (load s))).name = s.name := rfl
      simp only [List.map_append, List.map_cons, List.map_nil, List.append_assoc, this] at h ⊢
      exact h

/-- the table of the service: names are unique, parents are slots of the table -/
structure TableOk (slots : List RSlot) : Prop where
  names : (slots.map (·.name)).Nodup
  parents : ∀ s ∈ slots, ∀ p, s.parent = some p → p ∈ slots.map (·.name)

/-- **C69.** The client reconstructs the table of the service, slot by slot, and never runs into its assertion on parents. -/
theorem C69_slots_partial (iso : Str → Option DateTime) (detailed : Bool) (load : RSlot → SlotStatus) (slots : List RSlot) (h : TableOk slots)
    (hl : ∀ s ∈ slots, Sendable (load s)) :
    ∃ l, retrieveSlots iso detailed (slotStatusArray load slots) = some l ∧
      List.Forall₂ (fun c s => Shows detailed c s (load s)) l slots := by
  refine ⟨slots.map (fun s => slotOfDict iso detailed s.name (toDict s (load s))), ?_, ?_⟩
  · unfold retrieveSlots
    have := fold_addSlot iso detailed load slots [] (by simpa using h.names)
    rw [List.nil_append] at this
    rw [this]
    simp only []
    rw [if_pos]
    rw [List.all_eq_true]
    intro c hc
    obtain ⟨s, hs, rfl⟩ := List.mem_map.1 hc
    have hp : (slotOfDict iso detailed s.name (toDict s (load s))).parent = s.parent := (toDict_slot s (load s)).2.2.2.2.2.2.1
    rw [hp]
    cases hsp : s.parent with
    | none => rfl
    | some p =>
      obtain ⟨q, hq, hn⟩ := List.mem_map.1 (h.parents s hs p hsp)
      rw [List.any_eq_true]
      exact ⟨_, List.mem_map_of_mem hq, decide_eq_true hn⟩
  · rw [List.forall₂_map_left_iff]
    exact List.forall₂_same.2 (fun s hs => shows_slot iso detailed s (load s) (hl s hs))

end Rauc.StatusView
