import Verif.Model.ServiceStart
import Verif.Props.Status
import Verif.Props.Artifacts
import Mathlib.Data.List.Destutter

/-!
# C78: links in /run/rauc. C79: one boot event per boot
-/

namespace Rauc.ServiceStart

open Utils (Node Dir updateSymlink LinkEnv tmpName)
open Select (State slotStates findBooted)

/-! ## Specification: links -/

/-- the slot belongs to the running system: it is the booted slot or has it as parent -/
def Running (realpath : Str → Option Str) (bootslot : Str) (slots : List Slot) (s : Slot) : Prop :=
  ∃ b, findBooted realpath bootslot slots = some b ∧ (s = b ∨ s.parent = some b.name)

/-- no name of a link is the temporary name of another one -/
def NoTmp (l : List (Str × Str)) : Prop := ∀ p ∈ l, ∀ q ∈ l, p.1 ≠ tmpName q.1

/-- no name of a link contains a dot (class and repository names come from `[slot.CLASS.N]` and `[artifacts.NAME]`) -/
theorem noTmp_of_nodot {l : List (Str × Str)} (h : ∀ p ∈ l, '.' ∉ p.1) : NoTmp l := by
  intro p hp q _ e
  exact h p hp (by rw [e]; simp [tmpName])

theorem set_same (d : Dir) (n : Str) (x : Option Node) : d.set n x n = x := by simp [Dir.set]
theorem set_other {d : Dir} {n m : Str} {x : Option Node} (h : m ≠ n) : d.set n x m = d m := by simp [Dir.set, h]

/-- one link: no other entry changes, and the entry is the old one or the new link -/
theorem one_states (E : LinkEnv) (d : Dir) (t n : Str) :
    ∀ x ∈ (updateSymlink E d t n).1, (∀ m, m ≠ n → m ≠ tmpName n → x m = d m) ∧ (x n = d n ∨ x n = some (.link t)) := by
  intro x hx
  rcases (Artifacts.updateSymlink_states E d t n).1 x hx with rfl | ⟨_, _, rfl | rfl⟩
  · exact ⟨fun _ _ _ => rfl, .inl rfl⟩
  · refine ⟨fun m _ h2 => set_other h2, .inl ?_⟩
    exact set_other (fun e => absurd (congrArg List.length e) (by simp [tmpName]))
  · exact ⟨fun m h1 _ => set_other h1, .inr (set_same ..)⟩

theorem one_last (E : LinkEnv) (d : Dir) (t n : Str) : (updateSymlink E d t n).1.getLast?.getD d ∈ (updateSymlink E d t n).1 := by
  obtain ⟨l, h, _⟩ := (Artifacts.updateSymlink_states E d t n).2
  rw [h]
  exact List.mem_of_getLast? h

/-- the loop: entries that are no link of the loop (nor temporary names) keep their state; those that are have their old state or point to one
of the targets -/
theorem all_states (E : Nat → LinkEnv) : ∀ (l : List (Str × Str)) (i : Nat) (d : Dir), NoTmp l →
    ∀ x, (x ∈ (linkAll E i l d).1 ∨ x = (linkAll E i l d).2) → ∀ n, (∀ p ∈ l, n ≠ tmpName p.1) →
      x n = d n ∨ ∃ t, (n, t) ∈ l ∧ x n = some (.link t)
  | [], i, d, _ => by
    intro x hx n _
    simp only [linkAll, List.mem_singleton, or_self] at hx
    rw [hx]; exact .inl rfl
  | (n', t') :: l, i, d, hnt => by
    intro x hx n hn
    simp only [linkAll, List.mem_append] at hx
    have hmem := one_last (E i) d t' n'
    generalize hd' : (updateSymlink (E i) d t' n').1.getLast?.getD d = d' at hx hmem
    have hstep : ∀ y ∈ (updateSymlink (E i) d t' n').1, y n = d n ∨ ∃ t, (n, t) ∈ (n', t') :: l ∧ y n = some (.link t) := by
      intro y hy
      obtain ⟨h1, h2⟩ := one_states (E i) d t' n' y hy
      by_cases e : n = n'
      · subst e
        rcases h2 with h2 | h2
        · exact .inl h2
        · exact .inr ⟨t', List.mem_cons_self .., h2⟩
      · exact .inl (h1 n e (hn (n', t') (List.mem_cons_self ..)))
    have ih := all_states E l (i + 1) d' (fun p hp q hq => hnt p (by simp [hp]) q (by simp [hq])) x
    have hrest : (x ∈ (linkAll E (i + 1) l d').1 ∨ x = (linkAll E (i + 1) l d').2) → x n = d n ∨ ∃ t, (n, t) ∈ (n', t') :: l ∧ x n = some (.link t) := by
      intro hx
      rcases ih hx n (fun p hp => hn p (by simp [hp])) with h | ⟨t, h1, h2⟩
      · rw [h]; exact hstep d' hmem
      · exact .inr ⟨t, by simp [h1], h2⟩
    rcases hx with (hx | hx) | hx
    · exact hstep x hx
    · exact hrest (.inl hx)
    · exact hrest (.inr hx)

/-- a link can be made or changed: the entry is free or a link, no temporary link is left over, the system calls work -/
theorem one_ok {E : LinkEnv} {d : Dir} {t n : Str} (hE : E = {}) (h1 : d n = none ∨ ∃ o, d n = some (.link o)) (h2 : d (tmpName n) = none) :
    (updateSymlink E d t n).2 = true := by
  subst hE
  unfold updateSymlink
  rcases h1 with h1 | ⟨o, h1⟩
  · simp only [h1, updateSymlink.replaceLink, h2]; rfl
  · simp only [h1, updateSymlink.replaceLink, h2]
    by_cases e : o = t <;> simp [e]

/-- after the loop -/
theorem all_final (E : Nat → LinkEnv) (hE : ∀ i, E i = {}) : ∀ (l : List (Str × Str)) (i : Nat) (d : Dir), NoTmp l →
    (∀ p ∈ l, (d p.1 = none ∨ ∃ o, d p.1 = some (.link o)) ∧ d (tmpName p.1) = none) →
    (∀ p ∈ l, ∃ t, (p.1, t) ∈ l ∧ (linkAll E i l d).2 p.1 = some (.link t)) ∧ (∀ m, (∀ p ∈ l, m ≠ p.1) → (linkAll E i l d).2 m = d m)
  | [], i, d, _, _ => ⟨by simp, by intro m _; rfl⟩
  | (n', t') :: l, i, d, hnt, hd => by
    obtain ⟨hd1, hd2⟩ := hd _ (List.mem_cons_self ..)
    have hok := one_ok (t := t') (hE i) hd1 hd2
    obtain ⟨last, hl, hlast⟩ := (Artifacts.updateSymlink_states (E i) d t' n').2
    have hlast := hlast hok
    have hdir : ∀ m, last m = if m = n' then some (.link t') else d m := by
      intro m
      rcases hlast with ⟨h, rfl⟩ | ⟨_, _, rfl⟩
      · by_cases e : m = n'
        · rw [if_pos e, e, h]
        · rw [if_neg e]
      · rfl
    have hfin : (linkAll E i ((n', t') :: l) d).2 = (linkAll E (i + 1) l last).2 := by
      simp only [linkAll, hl, Option.getD_some]
    have hnt' : NoTmp l := fun p hp q hq => hnt p (by simp [hp]) q (by simp [hq])
    obtain ⟨ih1, ih2⟩ := all_final E hE l (i + 1) last hnt' (by
      intro p hp
      obtain ⟨a, b⟩ := hd p (by simp [hp])
      rw [hdir, hdir]
      constructor
      · by_cases e : p.1 = n'
        · rw [if_pos e]; exact .inr ⟨_, rfl⟩
        · rw [if_neg e]; exact a
      · rw [if_neg (fun e => hnt (n', t') (by simp) p (by simp [hp]) e.symm)]; exact b)
    rw [hfin]
    constructor
    · intro p hp
      by_cases hin : ∃ q ∈ l, q.1 = p.1
      · obtain ⟨q, hq, e⟩ := hin
        obtain ⟨t, h1, h2⟩ := ih1 q hq
        rw [e] at h1 h2
        exact ⟨t, by simp [h1], h2⟩
      · rcases List.mem_cons.1 hp with rfl | hp
        · refine ⟨t', by simp, ?_⟩
          rw [ih2 n' (fun q hq e => hin ⟨q, hq, e.symm⟩), hdir, if_pos rfl]
        · exact absurd ⟨p, hp, rfl⟩ hin
    · intro m hm
      rw [ih2 m (fun p hp => hm p (by simp [hp])), hdir, if_neg (hm _ (List.mem_cons_self ..))]

theorem slotLinks_mem {realpath : Str → Option Str} {bootslot : Str} {slots : List Slot} {state : Slot → State}
    (hst : slotStates realpath (some bootslot) slots = some state) {n t : Str} :
    (n, t) ∈ slotLinks state slots ↔ ∃ s ∈ slots, Running realpath bootslot slots s ∧ s.sclass = n ∧ s.device = t := by
  unfold slotLinks
  have key : ∀ s, (state s == .active || state s == .booted) = true ↔ Running realpath bootslot slots s := by
    intro s
    unfold slotStates at hst
    simp only at hst
    unfold Running
    cases hb : findBooted realpath bootslot slots with
    | some b =>
      rw [hb] at hst
      simp only [Option.some.injEq] at hst
      subst hst
      simp only [Option.some.injEq, exists_eq_left']
      unfold Select.stateOf
      by_cases h1 : s = b
      · simp [h1]
      · by_cases h2 : s.parent = some b.name <;> simp [h1, h2]
    | none =>
      rw [hb] at hst
      simp only at hst
      split at hst
      · cases hst; simp
      · cases hst
  simp only [List.mem_map, List.mem_filter, key, Prod.mk.injEq]
  constructor
  · rintro ⟨s, ⟨h1, h2⟩, h3, h4⟩; exact ⟨s, h1, h2, h3, h4⟩
  · rintro ⟨s, h1, h2, h3, h4⟩; exact ⟨s, ⟨h1, h2⟩, h3, h4⟩

theorem links_states (E : LinkRun) (state : Slot → State) (slots : List Slot) (repos : List Repo) (d : RunDir)
    (hs : NoTmp (slotLinks state slots)) (hr : NoTmp (repoLinks repos)) :
    ∀ x, (x ∈ (createRunLinks E state slots repos d).1 ∨ x = (createRunLinks E state slots repos d).2) →
      (∀ n, (∀ p ∈ slotLinks state slots, n ≠ tmpName p.1) → x.active n = d.active n ∨ ∃ t, (n, t) ∈ slotLinks state slots ∧ x.active n = some (.link t)) ∧
      (∀ n, (∀ p ∈ repoLinks repos, n ≠ tmpName p.1) → x.artifacts n = d.artifacts n ∨ ∃ t, (n, t) ∈ repoLinks repos ∧ x.artifacts n = some (.link t)) := by
  intro x hx
  have ha := all_states E.active (slotLinks state slots) 0 d.active hs
  have hb := all_states E.artifacts (repoLinks repos) 0 d.artifacts hr
  unfold createRunLinks at hx
  split at hx
  · simp only [List.mem_singleton, or_self] at hx
    subst hx; exact ⟨fun _ _ => .inl rfl, fun _ _ => .inl rfl⟩
  · dsimp only at hx
    split at hx
    · rcases hx with hx | hx
      · obtain ⟨y, hy, rfl⟩ := List.mem_map.1 hx
        exact ⟨ha y (.inl hy), fun _ _ => .inl rfl⟩
      · subst hx
        exact ⟨ha _ (.inr rfl), fun _ _ => .inl rfl⟩
    · rcases hx with hx | hx
      · rcases List.mem_append.1 hx with hx | hx
        · obtain ⟨y, hy, rfl⟩ := List.mem_map.1 hx
          exact ⟨ha y (.inl hy), fun _ _ => .inl rfl⟩
        · obtain ⟨y, hy, rfl⟩ := List.mem_map.1 hx
          exact ⟨ha _ (.inr rfl), hb y (.inl hy)⟩
      · subst hx
        exact ⟨ha _ (.inr rfl), hb _ (.inr rfl)⟩

/-- the start of the service got as far as running it -/
theorem running_inv {iso : Str → Option DateTime} {s : Start} {f : FileSt} {d : RunDir} {ev : List Event} {r : RunDir} {sts : List RunDir} {f' : FileSt}
    (h : serviceStart iso s f d = .running ev r sts f') :
    ∃ bs state, s.bootslot = some bs ∧ slotStates s.realpath (some bs) s.slots = some state ∧
      sts = (createRunLinks s.links state s.slots s.repos d).1 ∧ r = (createRunLinks s.links state s.slots s.repos d).2 ∧
      bootDetect iso s f = some (ev, f') := by
  unfold serviceStart at h
  cases hs : slotStates s.realpath s.bootslot s.slots with
  | none => rw [hs] at h; simp at h
  | some state =>
    rw [hs] at h
    dsimp only at h
    split at h
    · cases h
    · cases hb : bootDetect iso s f with
      | none => rw [hb] at h; simp at h
      | some p =>
        rw [hb] at h
        obtain ⟨ev', f''⟩ := p
        simp only [Outcome.running.injEq] at h
        obtain ⟨rfl, rfl, rfl, rfl⟩ := h
        cases hbs : s.bootslot with
        | none => rw [hbs] at hs; simp [slotStates] at hs
        | some bs => exact ⟨bs, state, rfl, hbs ▸ hs, rfl, rfl, rfl⟩

/-- C78, safety: whenever the system stops and whatever fails, a link in `slots/active` is as it was, or points to the device of a slot of this
class that belongs to the running system; in particular no link that exists ever vanishes. A link in `artifacts` is as it was or points to the
directory of the repository with this name. Nothing else is touched (except temporary names). -/
theorem C78_links {iso : Str → Option DateTime} {s : Start} {f : FileSt} {d : RunDir} {ev : List Event} {r : RunDir} {sts : List RunDir} {f' : FileSt}
    (h : serviceStart iso s f d = .running ev r sts f') (hc : ∀ x ∈ s.slots, '.' ∉ x.sclass) (hr : ∀ x ∈ s.repos, '.' ∉ x.name) :
    ∀ x, (x ∈ sts ∨ x = r) →
      (∀ n, (∀ t ∈ s.slots, n ≠ t.sclass ++ c!".tmp-link") → x.active n = d.active n ∨
        ∃ bs, s.bootslot = some bs ∧ ∃ t ∈ s.slots, Running s.realpath bs s.slots t ∧ t.sclass = n ∧ x.active n = some (.link t.device)) ∧
      (∀ n, (∀ t ∈ s.repos, n ≠ t.name ++ c!".tmp-link") → x.artifacts n = d.artifacts n ∨ ∃ t ∈ s.repos, t.name = n ∧ x.artifacts n = some (.link t.path)) := by
  obtain ⟨bs, state, hbs, hst, rfl, rfl, _⟩ := running_inv h
  have h1 : NoTmp (slotLinks state s.slots) := noTmp_of_nodot (by
    intro p hp
    obtain ⟨x, hx, _, e, _⟩ := (slotLinks_mem hst (n := p.1) (t := p.2)).1 hp
    rw [← e]; exact hc x hx)
  have h2 : NoTmp (repoLinks s.repos) := noTmp_of_nodot (by
    intro p hp
    obtain ⟨x, hx, rfl⟩ := List.mem_map.1 hp
    exact hr x hx)
  intro x hx
  obtain ⟨ha, hb⟩ := links_states s.links state s.slots s.repos d h1 h2 x hx
  constructor
  · intro n hn
    rcases ha n (by
      intro p hp e
      obtain ⟨t, ht, _, e', _⟩ := (slotLinks_mem hst (n := p.1) (t := p.2)).1 hp
      exact hn t ht (by rw [e, ← e']; rfl)) with h | ⟨t, h3, h4⟩
    · exact .inl h
    · obtain ⟨y, hy, hy1, hy2, rfl⟩ := (slotLinks_mem hst).1 h3
      exact .inr ⟨bs, hbs, y, hy, hy1, hy2, h4⟩
  · intro n hn
    rcases hb n (by
      intro p hp e
      obtain ⟨y, hy, rfl⟩ := List.mem_map.1 hp
      exact hn y hy e) with h | ⟨t, h3, h4⟩
    · exact .inl h
    · obtain ⟨y, hy, e⟩ := List.mem_map.1 h3
      injection e with e1 e2
      exact .inr ⟨y, hy, e1, by rw [h4, e2]⟩

/-- the directory holds only links, none of them temporary -/
def Clean (d : Dir) : Prop := ∀ n, (d n = none ∨ ∃ o, d n = some (.link o)) ∧ d (n ++ c!".tmp-link") = none

/-- C78: if nothing fails and only links are there (as after a boot, when the directories are empty), then for each class with a slot in the running
system the link points to the device of such a slot, for each repository to its directory, and there is nothing else but what was there. -/
theorem C78_complete {iso : Str → Option DateTime} {s : Start} {f : FileSt} {d : RunDir} {ev : List Event} {r : RunDir} {sts : List RunDir} {f' : FileSt}
    (h : serviceStart iso s f d = .running ev r sts f') (hc : ∀ x ∈ s.slots, '.' ∉ x.sclass) (hr : ∀ x ∈ s.repos, '.' ∉ x.name)
    (hl : s.links = {}) (hd1 : Clean d.active) (hd2 : Clean d.artifacts) {bs : Str} (hbs : s.bootslot = some bs) :
    (∀ t ∈ s.slots, Running s.realpath bs s.slots t →
      ∃ u ∈ s.slots, Running s.realpath bs s.slots u ∧ u.sclass = t.sclass ∧ r.active t.sclass = some (.link u.device)) ∧
    (∀ n, (∀ t ∈ s.slots, Running s.realpath bs s.slots t → t.sclass ≠ n) → r.active n = d.active n) ∧
    (∀ t ∈ s.repos, ∃ u ∈ s.repos, u.name = t.name ∧ r.artifacts t.name = some (.link u.path)) ∧
    (∀ n, (∀ t ∈ s.repos, t.name ≠ n) → r.artifacts n = d.artifacts n) := by
  obtain ⟨bs', state, hbs', hst, _, rfl, _⟩ := running_inv h
  rw [hbs] at hbs'; cases hbs'
  have h1 : NoTmp (slotLinks state s.slots) := noTmp_of_nodot (by
    intro p hp
    obtain ⟨x, hx, _, e, _⟩ := (slotLinks_mem hst (n := p.1) (t := p.2)).1 hp
    rw [← e]; exact hc x hx)
  have h2 : NoTmp (repoLinks s.repos) := noTmp_of_nodot (by
    intro p hp
    obtain ⟨x, hx, rfl⟩ := List.mem_map.1 hp
    exact hr x hx)
  have hrun : (createRunLinks s.links state s.slots s.repos d).2 =
      { active := (linkAll (fun _ => {}) 0 (slotLinks state s.slots) d.active).2, artifacts := (linkAll (fun _ => {}) 0 (repoLinks s.repos) d.artifacts).2 } := by
    rw [hl]; rfl
  obtain ⟨a1, a2⟩ := all_final (fun _ => {}) (fun _ => rfl) (slotLinks state s.slots) 0 d.active h1 (fun p _ => hd1 p.1)
  obtain ⟨b1, b2⟩ := all_final (fun _ => {}) (fun _ => rfl) (repoLinks s.repos) 0 d.artifacts h2 (fun p _ => hd2 p.1)
  rw [hrun]
  refine ⟨?_, ?_, ?_, ?_⟩
  · intro t ht hrun
    obtain ⟨dev, h3, h4⟩ := a1 (t.sclass, t.device) ((slotLinks_mem hst).2 ⟨t, ht, hrun, rfl, rfl⟩)
    obtain ⟨u, hu, hu1, hu2, rfl⟩ := (slotLinks_mem hst).1 h3
    exact ⟨u, hu, hu1, hu2, h4⟩
  · intro n hn
    refine a2 n ?_
    rintro ⟨m, t⟩ hp rfl
    obtain ⟨u, hu, hu1, hu2, _⟩ := (slotLinks_mem hst).1 hp
    exact hn u hu hu1 hu2
  · intro t ht
    obtain ⟨p, h3, h4⟩ := b1 (t.name, t.path) (List.mem_map.2 ⟨t, ht, rfl⟩)
    obtain ⟨u, hu, e⟩ := List.mem_map.1 h3
    injection e with e1 e2
    exact ⟨u, hu, e1, by rw [e2]; exact h4⟩
  · intro n hn
    refine b2 n ?_
    intro p hp e
    obtain ⟨u, hu, rfl⟩ := List.mem_map.1 hp
    exact hn u hu e.symm

/-! ## Specification: boot events -/

/-- the boots whose event is logged -/
def bootOf : Event → Option Str
  | .booted _ _ id _ => some id
  | .external id => some id
  | _ => none

/-- what happens to a system over time: the service starts (and gets as far as running), slot status is saved -/
inductive Op where
  | start (s : Start) (d : RunDir)
  | save (slots : List Slot) (stat : Str → Option SlotStatus) (ok : Bool)

/-- the events of a history, and the status file at its end; services that do not start change nothing -/
def history (iso : Str → Option DateTime) : List Op → FileSt → List Event × FileSt
  | [], f => ([], f)
  | .start s d :: l, f =>
    match serviceStart iso s f d with
    | .running ev _ _ f' => let r := history iso l f'; (ev ++ r.1, r.2)
    | _ => history iso l f
  | .save slots stat ok :: l, f => history iso l (saveGlobally f slots stat ok)

/-- the service starts in boot `id` with a central status file, and finds its configuration in order -/
def Starts (op : Op) (id : Str) : Prop :=
  ∃ s d, op = .start s d ∧ s.central = true ∧ s.bootId = some id ∧ s.artifactsOk = true ∧
    ∃ state, slotStates s.realpath s.bootslot s.slots = some state

/-- C79: The service never stops with an error in the boot detection: there is a booted slot whenever one is needed. -/
theorem C79_no_crash (iso : Str → Option DateTime) (s : Start) (f : FileSt) (d : RunDir) : serviceStart iso s f d ≠ .crash := by
  intro h
  unfold serviceStart at h
  cases hs : slotStates s.realpath s.bootslot s.slots with
  | none => rw [hs] at h; simp at h
  | some state =>
    rw [hs] at h
    dsimp only at h
    split at h
    · cases h
    · cases hb : bootDetect iso s f with
      | some p => rw [hb] at h; simp at h
      | none =>
        unfold bootDetect at hb
        split at hb
        · cases hb
        · split at hb
          · cases hb
          · split at hb
            · cases hb
            · split at hb
              · cases hb
              · rename_i hext
                split at hb
                · rename_i hnone
                  unfold slotStates at hs
                  cases hbs : s.bootslot with
                  | none => rw [hbs] at hs; simp at hs
                  | some b =>
                    rw [hbs] at hs hnone hext
                    simp only [Option.bind_some] at hnone
                    simp only [hnone] at hs
                    split at hs
                    · rename_i e; exact hext (by rw [e])
                    · cases hs
                · cases hb

theorem start_events {iso : Str → Option DateTime} {s : Start} {d : RunDir} {id : Str} (h : Starts (.start s d) id) (f : FileSt) :
    ∃ ev r sts f', serviceStart iso s f d = .running ev r sts f' ∧
      (((loadSystem f).getD none = some id ∧ ev = [.restarted] ∧ f' = f) ∨
       ((loadSystem f).getD none ≠ some id ∧ ev.map bootOf = [some id] ∧ f' = saveSystem f id s.saveOk)) := by
  obtain ⟨s', d', e, h1, h2, h3, state, h4⟩ := h
  cases e
  unfold serviceStart
  rw [h4]
  simp only [h3, Bool.not_true, Bool.false_eq_true, if_false]
  cases hb : bootDetect iso s f with
  | none =>
    exfalso
    apply C79_no_crash iso s f d
    unfold serviceStart
    rw [h4]
    simp only [h3, Bool.not_true, Bool.false_eq_true, if_false, hb]
  | some p =>
    obtain ⟨ev, f'⟩ := p
    refine ⟨ev, _, _, f', rfl, ?_⟩
    unfold bootDetect at hb
    simp only [h1, h2, Bool.not_true, Bool.false_eq_true, if_false] at hb
    split at hb
    · rename_i he
      simp only [Option.some.injEq, Prod.mk.injEq] at hb
      exact .inl ⟨he, hb.1.symm, hb.2.symm⟩
    · rename_i he
      right
      refine ⟨he, ?_⟩
      split at hb
      · simp only [Option.some.injEq, Prod.mk.injEq] at hb
        obtain ⟨rfl, rfl⟩ := hb
        exact ⟨rfl, rfl⟩
      · split at hb
        · cases hb
        · simp only [Option.some.injEq, Prod.mk.injEq] at hb
          obtain ⟨rfl, rfl⟩ := hb
          exact ⟨rfl, rfl⟩

/-- saving slot status keeps the boot ID -/
theorem save_keeps (f : FileSt) (slots : List Slot) (stat : Str → Option SlotStatus) (ok : Bool) :
    (loadSystem (saveGlobally f slots stat ok)).getD none = (loadSystem f).getD none := by
  cases f with
  | ok kf => rw [C20_slots_keep_system]
  | missing => 
    cases ok
    · rfl
    · have h : saveGlobally (.ok []) slots stat true = saveGlobally .missing slots stat true := rfl
      rw [← h, C20_slots_keep_system]
      rfl
  | broken =>
    cases ok
    · rfl
    · have h : saveGlobally (.ok []) slots stat true = saveGlobally .broken slots stat true := rfl
      rw [← h, C20_slots_keep_system]
      rfl

/-- each operation of the history is a start that gets as far as running, or a save -/
def Ops (boots : List Str) (l : List Op) : Prop :=
  ∃ l' : List (Option Str × Op), l'.filterMap (fun p => p.1) = boots ∧ l = l'.map (·.2) ∧
    ∀ p ∈ l', (∃ id, p.1 = some id ∧ Starts p.2 id) ∨ (p.1 = none ∧ ∃ slots stat ok, p.2 = .save slots stat ok)

/-- all saves of the boot ID succeed -/
def SavesOk (l : List Op) : Prop := ∀ s d, Op.start s d ∈ l → s.saveOk = true

theorem ops_cons {boots : List Str} {op : Op} {l : List Op} (h : Ops boots (op :: l)) :
    (∃ id rest, boots = id :: rest ∧ Starts op id ∧ Ops rest l) ∨ ((∃ slots stat ok, op = .save slots stat ok) ∧ Ops boots l) := by
  obtain ⟨l', h1, h2, h3⟩ := h
  cases l' with
  | nil => cases h2
  | cons p l' =>
    simp only [List.map_cons, List.cons.injEq] at h2
    obtain ⟨rfl, rfl⟩ := h2
    have hrest := fun q hq => h3 q (List.mem_cons_of_mem _ hq)
    rcases h3 p (List.mem_cons_self ..) with ⟨id, e, hs⟩ | ⟨e, hs⟩
    · left
      rw [List.filterMap_cons_some e] at h1
      exact ⟨id, _, h1.symm, hs, l', rfl, rfl, hrest⟩
    · right
      rw [List.filterMap_cons_none e] at h1
      exact ⟨hs, l', h1, rfl, hrest⟩

theorem destutter_head (id : Str) : ∀ rest : List Str, id :: (rest.destutter' (· ≠ ·) id).tail = rest.destutter' (· ≠ ·) id
  | [] => rfl
  | b :: rest => by
    by_cases e : id = b
    · subst e
      rw [List.destutter'_cons_neg _ (by simp)]
      exact destutter_head id rest
    · rw [List.destutter'_cons_pos _ e]; rfl

/-- C79: If the status file can be written, exactly one boot event is logged per boot: in any history of service starts (and restarts) and saves of slot
status, the logged boots are the boots in which the service started, without the repetitions by restarts; the first boot is
missing only if its event was logged before. -/
theorem C79_once (iso : Str → Option DateTime) {l : List Op} {boots : List Str} (h : Ops boots l) (hs : SavesOk l) (f : FileSt) :
    ((history iso l f).1.filterMap bootOf) =
      match (loadSystem f).getD none with
      | none => boots.destutter (· ≠ ·)
      | some id => (boots.destutter' (· ≠ ·) id).tail := by
  induction l generalizing boots f with
  | nil =>
    obtain ⟨l', h1, h2, _⟩ := h
    cases l' with
    | cons p l' => cases h2
    | nil =>
      cases h1
      simp only [history, List.filterMap_nil]
      cases (loadSystem f).getD none <;> rfl
  | cons op l ih =>
    have hs' : SavesOk l := fun s d hm => hs s d (List.mem_cons_of_mem _ hm)
    rcases ops_cons h with ⟨id, rest, rfl, hst, hrest⟩ | ⟨⟨slots, stat, ok, rfl⟩, hrest⟩
    · have hst' := hst
      obtain ⟨s, d, rfl, _⟩ := hst'
      obtain ⟨ev, r, sts, f', he, hcase⟩ := start_events (iso := iso) hst f
      simp only [history, he]
      rw [List.filterMap_append, ih hrest hs' f']
      rcases hcase with ⟨h1, rfl, rfl⟩ | ⟨h1, hev, rfl⟩
      · rw [h1]
        simp only [List.filterMap_cons, bootOf, List.filterMap_nil, List.nil_append]
        rw [List.destutter'_cons_neg _ (by simp)]
      · have hev' : ev.filterMap bootOf = [id] := by
          have : ev.filterMap bootOf = (ev.map bootOf).filterMap (fun x => x) := by rw [List.filterMap_map]; rfl
          rw [this, hev]; rfl
        rw [hev', hs s d (List.mem_cons_self ..), C20_system_roundtrip]
        simp only [Option.getD_some, List.singleton_append]
        have hd := destutter_head id rest
        rw [hd]
        cases hf : (loadSystem f).getD none with
        | none => rfl
        | some o =>
          have : o ≠ id := by rintro rfl; exact h1 hf
          simp only
          rw [List.destutter'_cons_pos _ this]; rfl
    · simp only [history]
      rw [ih hrest hs' _, save_keeps]

/-- C79: Even if the file cannot be written, no boot is missed (except one that was logged before), and only boots in which the service started are
logged. -/
theorem C79_never_missed (iso : Str → Option DateTime) {l : List Op} {boots : List Str} (h : Ops boots l) (f : FileSt) :
    (∀ id ∈ boots, id ∈ (history iso l f).1.filterMap bootOf ∨ (loadSystem f).getD none = some id) ∧
    (∀ id ∈ (history iso l f).1.filterMap bootOf, id ∈ boots) := by
  induction l generalizing boots f with
  | nil =>
    obtain ⟨l', h1, h2, _⟩ := h
    cases l' with
    | cons p l' => cases h2
    | nil => cases h1; simp [history]
  | cons op l ih =>
    rcases ops_cons h with ⟨id, rest, rfl, hst, hrest⟩ | ⟨⟨slots, stat, ok, rfl⟩, hrest⟩
    · have hst' := hst
      obtain ⟨s, d, rfl, _⟩ := hst'
      obtain ⟨ev, r, sts, f', he, hcase⟩ := start_events (iso := iso) hst f
      simp only [history, he]
      rw [List.filterMap_append]
      obtain ⟨i1, i2⟩ := ih hrest f'
      rcases hcase with ⟨h1, rfl, rfl⟩ | ⟨h1, hev, rfl⟩
      · simp only [List.filterMap_cons, bootOf, List.filterMap_nil, List.nil_append]
        refine ⟨?_, fun x hx => List.mem_cons_of_mem _ (i2 x hx)⟩
        intro x hx
        rcases List.mem_cons.1 hx with rfl | hx
        · exact .inr h1
        · exact i1 x hx
      · have hev' : ev.filterMap bootOf = [id] := by
          have : ev.filterMap bootOf = (ev.map bootOf).filterMap (fun x => x) := by rw [List.filterMap_map]; rfl
          rw [this, hev]; rfl
        rw [hev']
        simp only [List.singleton_append, List.mem_cons]
        refine ⟨?_, ?_⟩
        · rintro x (rfl | hx)
          · exact .inl (.inl rfl)
          · rcases i1 x hx with h | h
            · exact .inl (.inr h)
            · cases hok : s.saveOk with
              | true =>
                rw [hok, C20_system_roundtrip] at h
                simp only [Option.getD_some, Option.some.injEq] at h
                exact .inl (.inl h.symm)
              | false =>
                rw [hok] at h
                exact .inr h
        · rintro x (rfl | hx)
          · exact .inl rfl
          · exact .inr (i2 x hx)
    · simp only [history]
      obtain ⟨i1, i2⟩ := ih hrest (saveGlobally f slots stat ok)
      rw [save_keeps] at i1
      exact ⟨i1, i2⟩

/-- C79: the event names the slot that the system booted from, and the bundle recorded for it -/
theorem C79_slot {iso : Str → Option DateTime} {s : Start} {f : FileSt} {d : RunDir} {ev : List Event} {r : RunDir} {sts : List RunDir} {f' : FileSt}
    (h : serviceStart iso s f d = .running ev r sts f') {slot bn id hash : Str} (he : Event.booted slot bn id hash ∈ ev) :
    ∃ bs b, s.bootslot = some bs ∧ findBooted s.realpath bs s.slots = some b ∧ slot = b.name ∧ bn = b.bootname.getD [] ∧ s.bootId = some id ∧
      hash = (loadGlobally iso f b.name).bundleHash.getD c!"unknown" := by
  obtain ⟨bs, state, hbs, _, _, _, hb⟩ := running_inv h
  unfold bootDetect at hb
  split at hb
  · simp only [Option.some.injEq, Prod.mk.injEq] at hb; obtain ⟨rfl, _⟩ := hb; simp at he
  · split at hb
    · simp only [Option.some.injEq, Prod.mk.injEq] at hb; obtain ⟨rfl, _⟩ := hb; simp at he
    · rename_i id' hid
      split at hb
      · simp only [Option.some.injEq, Prod.mk.injEq] at hb; obtain ⟨rfl, _⟩ := hb; simp at he
      · split at hb
        · simp only [Option.some.injEq, Prod.mk.injEq] at hb; obtain ⟨rfl, _⟩ := hb; simp at he
        · split at hb
          · cases hb
          · rename_i b hfb
            simp only [Option.some.injEq, Prod.mk.injEq] at hb
            obtain ⟨rfl, _⟩ := hb
            simp only [List.mem_singleton, bootedEvent, Event.booted.injEq] at he
            obtain ⟨rfl, rfl, rfl, rfl⟩ := he
            rw [hbs] at hfb
            exact ⟨bs, b, hbs, hfb, rfl, rfl, hid, rfl⟩

/-! ## Examples -/

def sA : Slot := { name := c!"rootfs.0", sclass := c!"rootfs", device := c!"/dev/a", bootname := some c!"A" }
def sB : Slot := { name := c!"rootfs.1", sclass := c!"rootfs", device := c!"/dev/b", bootname := some c!"B" }
def appA : Slot := { name := c!"app.0", sclass := c!"app", device := c!"/dev/c", parent := some c!"rootfs.0" }
def appB : Slot := { name := c!"app.1", sclass := c!"app", device := c!"/dev/d", parent := some c!"rootfs.1" }
def exStart (boot id : Str) : Start :=
  { realpath := some, bootslot := some boot, slots := [sA, appB, sB, appA], repos := [⟨c!"addons", c!"/srv/addons"⟩], bootId := some id }
def noLinks : RunDir := ⟨fun _ => none, fun _ => none⟩

def outEvents : Outcome → Option (List Event)
  | .running ev _ _ _ => some ev
  | _ => none
def outRun : Outcome → RunDir
  | .running _ r _ _ => r
  | _ => noLinks

/-- boot from slot B with empty directories: both links point to the B slots, and the boot is logged -/
example : outEvents (serviceStart (fun _ => none) (exStart c!"B" c!"id1") .missing noLinks) = some [.booted c!"rootfs.1" c!"B" c!"id1" c!"unknown"] := by decide +kernel
example : (outRun (serviceStart (fun _ => none) (exStart c!"B" c!"id1") .missing noLinks)).active c!"rootfs" = some (.link c!"/dev/b") := by decide +kernel
example : (outRun (serviceStart (fun _ => none) (exStart c!"B" c!"id1") .missing noLinks)).active c!"app" = some (.link c!"/dev/d") := by decide +kernel
example : (outRun (serviceStart (fun _ => none) (exStart c!"B" c!"id1") .missing noLinks)).artifacts c!"addons" = some (.link c!"/srv/addons") := by decide +kernel

/-- the hypotheses of `C78_links` and `C78_complete` are met by it -/
example : ∃ ev r sts f', serviceStart (fun _ => none) (exStart c!"B" c!"id1") .missing noLinks = .running ev r sts f' ∧
    (∀ x ∈ (exStart c!"B" c!"id1").slots, '.' ∉ x.sclass) ∧ (∀ x ∈ (exStart c!"B" c!"id1").repos, '.' ∉ x.name) ∧
    (exStart c!"B" c!"id1").links = {} ∧ Clean noLinks.active ∧ Clean noLinks.artifacts := by
  have hs : Starts (.start (exStart c!"B" c!"id1") noLinks) c!"id1" := ⟨_, _, rfl, rfl, rfl, rfl, _, rfl⟩
  obtain ⟨ev, r, sts, f', h, _⟩ := start_events (iso := fun _ => none) hs .missing
  refine ⟨ev, r, sts, f', h, by decide, by decide, rfl, ?_, ?_⟩ <;> exact fun n => ⟨.inl rfl, rfl⟩

/-- three boots, two of them with a restart of the service, slot status saved in between -/
def exHist : List Op :=
  [.start (exStart c!"A" c!"id1") noLinks, .start (exStart c!"A" c!"id1") noLinks, .save [sA, sB] (fun _ => none) true,
   .start (exStart c!"B" c!"id2") noLinks, .start (exStart c!"B" c!"id2") noLinks, .start (exStart c!"A" c!"id3") noLinks]
theorem exHist_ops : Ops [c!"id1", c!"id1", c!"id2", c!"id2", c!"id3"] exHist ∧ SavesOk exHist := by
  refine ⟨⟨[(some c!"id1", _), (some c!"id1", _), (none, _), (some c!"id2", _), (some c!"id2", _), (some c!"id3", _)], rfl, rfl, ?_⟩, ?_⟩
  · intro p hp
    simp only [List.mem_cons, List.not_mem_nil, or_false] at hp
    rcases hp with rfl | rfl | rfl | rfl | rfl | rfl
    · exact .inl ⟨_, rfl, _, _, rfl, rfl, rfl, rfl, _, rfl⟩
    · exact .inl ⟨_, rfl, _, _, rfl, rfl, rfl, rfl, _, rfl⟩
    · exact .inr ⟨rfl, _, _, _, rfl⟩
    · exact .inl ⟨_, rfl, _, _, rfl, rfl, rfl, rfl, _, rfl⟩
    · exact .inl ⟨_, rfl, _, _, rfl, rfl, rfl, rfl, _, rfl⟩
    · exact .inl ⟨_, rfl, _, _, rfl, rfl, rfl, rfl, _, rfl⟩
  · intro s d h
    simp only [exHist, List.mem_cons, List.not_mem_nil, or_false, Op.start.injEq, reduceCtorEq, false_or] at h
    rcases h with ⟨rfl, _⟩ | ⟨rfl, _⟩ | ⟨rfl, _⟩ | ⟨rfl, _⟩ | ⟨rfl, _⟩ <;> rfl
example : (history (fun _ => none) exHist .missing).1.filterMap bootOf = [c!"id1", c!"id2", c!"id3"] := by
  rw [C79_once _ exHist_ops.1 exHist_ops.2]; decide

/-- Finding: If the status file cannot be written, every restart of the service logs the boot again. -/
theorem C79_finding_repeated : ∃ l : List Op, Ops [c!"id1", c!"id1"] l ∧
    (history (fun _ => none) l .missing).1.filterMap bootOf = [c!"id1", c!"id1"] := by
  refine ⟨[.start { exStart c!"A" c!"id1" with saveOk := false } noLinks, .start { exStart c!"A" c!"id1" with saveOk := false } noLinks],
    ⟨[(some c!"id1", _), (some c!"id1", _)], rfl, rfl, ?_⟩, by decide +kernel⟩
  intro p hp
  simp only [List.mem_cons, List.not_mem_nil, or_false] at hp
  rcases hp with rfl | rfl <;> exact .inl ⟨_, rfl, _, _, rfl, rfl, rfl, rfl, _, rfl⟩

/-- Finding: If two slots of one class belong to the running system, the link depends on the order of the hash table. -/
theorem C78_finding_order : ∃ s s' : Start, s.slots.Perm s'.slots ∧ { s with slots := s'.slots } = s' ∧
    (outRun (serviceStart (fun _ => none) s .missing noLinks)).active c!"app" = some (.link c!"/dev/e") ∧
    (outRun (serviceStart (fun _ => none) s' .missing noLinks)).active c!"app" = some (.link c!"/dev/c") := by
  let appA2 : Slot := { name := c!"app.2", sclass := c!"app", device := c!"/dev/e", parent := some c!"rootfs.0" }
  refine ⟨{ exStart c!"A" c!"id1" with slots := [sA, appA, appA2] }, { exStart c!"A" c!"id1" with slots := [sA, appA2, appA] }, ?_, rfl, ?_, ?_⟩
  · exact .cons _ (.swap ..)
  · decide +kernel
  · decide +kernel

/-- Finding: links of classes that no slot of the running system has are not removed: with a boot from an external source (with the directories
kept, as by a restart of the service with a changed configuration) they point to slots that are not active. -/
theorem C78_finding_stale : (outRun (serviceStart (fun _ => none) (exStart c!"_external_" c!"id1") .missing
    { noLinks with active := noLinks.active.set c!"rootfs" (some (.link c!"/dev/a")) })).active c!"rootfs" = some (.link c!"/dev/a") := by decide +kernel

/-- Finding: a temporary link left over by a crash between `symlink` and `rename` is never removed, and with it there the link is never updated again
(until the directory is removed by a reboot). -/
theorem C78_finding_leftover {E : LinkEnv} {d : Dir} {t n o : Str} (h : d n = some (.link o)) (hne : o ≠ t) (h2 : (d (n ++ c!".tmp-link")).isSome) :
    (updateSymlink E d t n).1 = [d] ∧ (updateSymlink E d t n).2 = false := by
  unfold updateSymlink
  split
  · exact ⟨rfl, rfl⟩
  · have h2' : (d (tmpName n)).isSome = true := h2
    simp [h, hne, updateSymlink.replaceLink, h2']

end Rauc.ServiceStart
