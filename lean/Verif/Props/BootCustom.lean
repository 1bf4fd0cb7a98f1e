import Verif.Model.BootCustom
import Verif.Props.Boot

/-!
# C57: custom backends are called as documented, and believed only when they answer as documented

docs/integration.rst, "Custom bootloader backend interface".
-/

namespace Rauc.BootCustom

/-- the argument vector the documentation prescribes for a request -/
def documented : Op → List Str
  | .getState s => [c!"get-state", s.bootname.getD []]
  | .setState s good => [c!"set-state", s.bootname.getD [], if good then c!"good" else c!"bad"]
  | .getPrimary => [c!"get-primary"]
  | .setPrimary s => [c!"set-primary", s.bootname.getD []]

/-- the slot a request is about -/
def Op.slot : Op → Option Slot
  | .getState s => some s
  | .setState s _ => some s
  | .getPrimary => none
  | .setPrimary s => some s

abbrev viaCustom (sc : Script) := dispatch sc (some (c!"custom"))

/-- C57: every request for a boot slot is exactly one call with the documented arguments -/
theorem C57_one_documented_call (sc : Script) (slots : List Slot) (m : sc.Mem) (op : Op)
    (hb : ∀ s, op.slot = some s → s.bootname ≠ none) :
    (viaCustom sc slots m op).calls = [documented op] ∧
    (viaCustom sc slots m op).mem = (sc.call m (documented op)).1 := by
  have hc : viaCustom sc slots m op = custom sc slots m op := rfl
  rw [hc]
  cases op with
  | getState s =>
    cases hs : s.bootname with
    | none => exact absurd hs (hb s rfl)
    | some bn =>
      simp only [custom, backendGet, documented, hs, Option.toList_some, Option.getD_some]
      rcases sc.call m [c!"get-state", bn] with ⟨m', _ | out⟩
      · exact ⟨rfl, rfl⟩
      · simp only []
        split
        · exact ⟨rfl, rfl⟩
        · split <;> exact ⟨rfl, rfl⟩
  | setState s g =>
    cases hs : s.bootname with
    | none => exact absurd hs (hb s rfl)
    | some bn =>
      simp only [custom, backendSet, documented, hs, Option.toList_some, Option.getD_some]
      rcases sc.call m [c!"set-state", bn, if g then c!"good" else c!"bad"] with ⟨m', _ | out⟩ <;> exact ⟨rfl, rfl⟩
  | getPrimary =>
    simp only [custom, backendGet, documented]
    rcases sc.call m [c!"get-primary"] with ⟨m', _ | out⟩
    · exact ⟨rfl, rfl⟩
    · simp only []
      cases slots.find? (fun s => s.bootname == some (strip out)) <;> exact ⟨rfl, rfl⟩
  | setPrimary s =>
    cases hs : s.bootname with
    | none => exact absurd hs (hb s rfl)
    | some bn =>
      simp only [custom, backendSet, documented, hs, Option.toList_some, Option.toList_none, Option.getD_some]
      rcases sc.call m [c!"set-primary", bn] with ⟨m', _ | out⟩ <;> exact ⟨rfl, rfl⟩

/-- C57: what RAUC reports, in terms of the backend's answer `a` to the documented call -/
def reported (slots : List Slot) (a : Option Str) : Op → Res → Prop
  | .getState _, .state g => ∃ out, a = some out ∧ strip out = if g then c!"good" else c!"bad"
  | .getState _, .error => ∀ out, a = some out → strip out ≠ c!"good" ∧ strip out ≠ c!"bad"
  | .getPrimary, .primary s => ∃ out, a = some out ∧ s ∈ slots ∧ s.bootname = some (strip out)
  | .getPrimary, .error => ∀ out, a = some out → ∀ s ∈ slots, s.bootname ≠ some (strip out)
  | .setState _ _, .done => a ≠ none
  | .setState _ _, .error => a = none
  | .setPrimary _, .done => a ≠ none
  | .setPrimary _, .error => a = none
  | _, _ => False

theorem C57_result (sc : Script) (slots : List Slot) (m : sc.Mem) (op : Op) (hb : ∀ s, op.slot = some s → s.bootname ≠ none) :
    reported slots (sc.call m (documented op)).2 op (viaCustom sc slots m op).res := by
  have hc : viaCustom sc slots m op = custom sc slots m op := rfl
  rw [hc]
  cases op with
  | getState s =>
    cases hs : s.bootname with
    | none => exact absurd hs (hb s rfl)
    | some bn =>
      simp only [custom, backendGet, documented, hs, Option.toList_some, Option.getD_some]
      rcases sc.call m [c!"get-state", bn] with ⟨m', _ | out⟩
      · simp [reported]
      · simp only []
        by_cases h1 : strip out = c!"good"
        · rw [if_pos h1]; exact ⟨out, rfl, h1⟩
        · rw [if_neg h1]
          by_cases h2 : strip out = c!"bad"
          · rw [if_pos h2]; exact ⟨out, rfl, h2⟩
          · rw [if_neg h2]
            intro o ho
            cases ho
            exact ⟨h1, h2⟩
  | setState s g =>
    cases hs : s.bootname with
    | none => exact absurd hs (hb s rfl)
    | some bn =>
      simp only [custom, backendSet, documented, hs, Option.toList_some, Option.getD_some]
      rcases sc.call m [c!"set-state", bn, if g then c!"good" else c!"bad"] with ⟨m', _ | out⟩ <;> simp [reported]
  | getPrimary =>
    simp only [custom, backendGet, documented]
    rcases sc.call m [c!"get-primary"] with ⟨m', _ | out⟩
    · simp [reported]
    · simp only []
      cases hf : slots.find? (fun s => s.bootname == some (strip out)) with
      | none =>
        intro o ho s hs he
        cases ho
        exact absurd he (by simpa using List.find?_eq_none.1 hf s hs)
      | some s =>
        exact ⟨out, rfl, List.mem_of_find?_eq_some hf, by simpa using List.find?_some hf⟩
  | setPrimary s =>
    cases hs : s.bootname with
    | none => exact absurd hs (hb s rfl)
    | some bn =>
      simp only [custom, backendSet, documented, hs, Option.toList_some, Option.toList_none, Option.getD_some]
      rcases sc.call m [c!"set-primary", bn] with ⟨m', _ | out⟩ <;> simp [reported]

/-- The documented contract of a backend, over the memories it can be in: a successful `set-primary B` is followed by
`get-primary` printing `B`, a successful `set-state B good|bad` by `get-state B` printing that state, with any white space around. -/
structure Honest (sc : Script) : Prop where
  primary : ∀ m bn m' o, sc.call m [c!"set-primary", bn] = (m', some o) →
    ∃ out, (sc.call m' [c!"get-primary"]).2 = some out ∧ strip out = strip bn
  state : ∀ m bn (g : Bool) m' o, sc.call m [c!"set-state", bn, if g then c!"good" else c!"bad"] = (m', some o) →
    ∃ out, (sc.call m' [c!"get-state", bn]).2 = some out ∧ strip out = if g then c!"good" else c!"bad"

theorem chug_nospace (s : Str) (h : ∀ c ∈ s, isSpace c = false) : chug s = s := by
  cases s with
  | nil => rfl
  | cons c cs => simp [chug, h c (by simp)]

theorem strip_nospace (s : Str) (h : ∀ c ∈ s, isSpace c = false) : strip s = s := by
  unfold strip
  rw [chomp_nospace s h, chug_nospace s h]

/-- C57, with C02: activation through an honest backend -/
theorem C57_activate (sc : Script) (hh : Honest sc) (slots : List Slot) (hwf : SlotsWF slots) (s : Slot) (hs : s ∈ slots)
    (hb : s.bootname ≠ none) (m : sc.Mem) (h : (viaCustom sc slots m (.setPrimary s)).res = .done) :
    (viaCustom sc slots (viaCustom sc slots m (.setPrimary s)).mem .getPrimary).res = .primary s := by
  cases hbn : s.bootname with
  | none => exact absurd hbn hb
  | some bn =>
    obtain ⟨-, hm⟩ := C57_one_documented_call sc slots m (.setPrimary s) (by intro x hx; cases hx; exact hb)
    have hr := C57_result sc slots m (.setPrimary s) (by intro x hx; cases hx; exact hb)
    rw [h] at hr
    simp only [reported, documented, hbn, Option.getD_some] at hr hm
    rcases hcall : sc.call m [c!"set-primary", bn] with ⟨m', _ | o⟩
    · rw [hcall] at hr; exact absurd rfl hr
    · rw [hcall] at hm
      simp only [] at hm
      rw [hm]
      obtain ⟨out, ho, hst⟩ := hh.primary m bn m' o hcall
      rw [strip_nospace bn (hwf.bootname_ok s hs bn hbn).2] at hst
      have hr2 := C57_result sc slots m' .getPrimary (by intro x hx; cases hx)
      simp only [documented, ho] at hr2
      revert hr2
      cases hres : (viaCustom sc slots m' .getPrimary).res with
      | error => intro hr2; exact absurd (hbn.trans (by rw [hst])) (hr2 out rfl s hs)
      | done => intro hr2; exact hr2.elim
      | state g => intro hr2; exact hr2.elim
      | primary x =>
        rintro ⟨o', ho', hx, hxb⟩
        cases ho'
        rw [hst] at hxb
        rw [hwf.bootname_inj x hx s hs bn hxb hbn]

/-- C57, with C01/C04: marking through an honest backend -/
theorem C57_mark (sc : Script) (hh : Honest sc) (slots : List Slot) (s : Slot) (good : Bool)
    (hb : s.bootname ≠ none) (m : sc.Mem) (h : (viaCustom sc slots m (.setState s good)).res = .done) :
    (viaCustom sc slots (viaCustom sc slots m (.setState s good)).mem (.getState s)).res = .state good := by
  cases hbn : s.bootname with
  | none => exact absurd hbn hb
  | some bn =>
    obtain ⟨-, hm⟩ := C57_one_documented_call sc slots m (.setState s good) (by intro x hx; cases hx; exact hb)
    have hr := C57_result sc slots m (.setState s good) (by intro x hx; cases hx; exact hb)
    rw [h] at hr
    simp only [reported, documented, hbn, Option.getD_some] at hr hm
    rcases hcall : sc.call m [c!"set-state", bn, if good then c!"good" else c!"bad"] with ⟨m', _ | o⟩
    · rw [hcall] at hr; exact absurd rfl hr
    · rw [hcall] at hm
      simp only [] at hm
      rw [hm]
      obtain ⟨out, ho, hst⟩ := hh.state m bn good m' o hcall
      have hr2 := C57_result sc slots m' (.getState s) (by intro x hx; cases hx; exact hb)
      simp only [documented, hbn, Option.getD_some, ho] at hr2
      revert hr2
      cases hres : (viaCustom sc slots m' (.getState s)).res with
      | error =>
        intro hr2
        have := hr2 out rfl
        rw [hst] at this
        cases good <;> simp at this
      | done => intro hr2; exact hr2.elim
      | primary x => intro hr2; exact hr2.elim
      | state g =>
        rintro ⟨o', ho', hx⟩
        cases ho'
        rw [hst] at hx
        cases good <;> cases g <;> simp at hx ⊢

/-- C57: "noop": requests to change something succeed and call nothing, queries always fail; without a known
boot loader every request fails and calls nothing. -/
theorem C57_noop (sc : Script) (slots : List Slot) (m : sc.Mem) (op : Op) :
    (dispatch sc (some (c!"noop")) slots m op).calls = [] ∧ (dispatch sc (some (c!"noop")) slots m op).mem = m ∧
    ((dispatch sc (some (c!"noop")) slots m op).res = .done ↔ ((∃ s g, op = .setState s g) ∨ ∃ s, op = .setPrimary s)) ∧
    ((dispatch sc (some (c!"noop")) slots m op).res = .done ∨ (dispatch sc (some (c!"noop")) slots m op).res = .error) := by
  have h : ¬ (some (c!"noop") = some (c!"custom")) := by decide
  unfold dispatch
  simp only [h, if_false, if_true]
  cases op <;> simp

theorem C57_unsupported (sc : Script) (loader : Option Str) (slots : List Slot) (m : sc.Mem) (op : Op)
    (h1 : loader ≠ some (c!"custom")) (h2 : loader ≠ some (c!"noop")) :
    (dispatch sc loader slots m op).calls = [] ∧ (dispatch sc loader slots m op).mem = m ∧
    (dispatch sc loader slots m op).res = .error := by
  unfold dispatch
  rw [if_neg h1, if_neg h2]
  exact ⟨rfl, rfl, rfl⟩

/-! A backend satisfying the contract: a primary name and the list of good names, both kept as told. -/

def sample : Script where
  Mem := Str × List Str
  call := fun m argv =>
    match argv with
    | [cmd] => if cmd = c!"get-primary" then (m, some (m.1 ++ c!"\n")) else (m, none)
    | [cmd, bn] =>
      if cmd = c!"set-primary" then ((bn, m.2), some [])
      else if cmd = c!"get-state" then (m, some (if bn ∈ m.2 then c!"good\n" else c!"bad\n"))
      else (m, none)
    | [cmd, bn, v] =>
      if cmd = c!"set-state" then ((m.1, if v = c!"good" then bn :: m.2 else m.2.filter (· ≠ bn)), some [])
      else (m, none)
    | _ => (m, none)

theorem chomp_newline (s : Str) : chomp (s ++ c!"\n") = chomp s := by
  induction s with
  | nil => decide
  | cons c cs ih =>
    simp only [List.cons_append, chomp]
    rw [ih]

theorem sample_honest : Honest sample where
  primary := by
    intro m bn m' o h
    simp [sample] at h
    obtain ⟨rfl, -⟩ := h
    exact ⟨bn ++ c!"\n", rfl, by unfold strip; rw [chomp_newline]⟩
  state := by
    intro m bn g m' o h
    simp [sample] at h
    obtain ⟨rfl, -⟩ := h
    cases g
    · refine ⟨c!"bad\n", ?_, by decide⟩
      simp [sample]
    · refine ⟨c!"good\n", ?_, by decide⟩
      simp [sample]

example : (viaCustom sample Boot.twoSlots (c!"B", []) (.setPrimary Boot.slotA)).res = .done ∧
    (viaCustom sample Boot.twoSlots (c!"A", [c!"A"]) .getPrimary).res = .primary Boot.slotA := by decide

end Rauc.BootCustom
