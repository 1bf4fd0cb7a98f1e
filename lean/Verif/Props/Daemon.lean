import Verif.Model.Daemon
import Verif.Props.Semver

/-!
# C38, C39, C45, C54: service and poller
-/

namespace Rauc.Daemon

/-! ## Polling intervals -/

theorem wrap32_id {x : Int} (h : -2147483648 ≤ x) (h' : x < 2147483648) : wrap32 x = x := by
  unfold wrap32; omega

theorem wrap64_id {x : Int} (h : -9223372036854775808 ≤ x) (h' : x < 9223372036854775808) : wrap64 x = x := by
  unfold wrap64; omega

/-- the configured intervals, in seconds: what the user means -/
structure Meant (interval max : Option Int) (i m : Int) : Prop where
  interval : i = interval.getD 86400
  max : m = max.getD (4 * i)

/-- accepted configurations whose intervals are below 24 days: milliseconds are what the user means -/
theorem intervals_ok (interval max : Option Int) (i m : Int) (h : Meant interval max i m) (hm : m ≤ 2147483) (r : Int × Int)
    (hr : intervals interval max = some r) : r = (i * 1000, m * 1000) ∧ 60 ≤ i ∧ i < m := by
  obtain ⟨rfl, rfl⟩ := h
  unfold intervals at hr
  simp only at hr
  generalize interval.getD 86400 = i at hr hm ⊢
  split at hr
  · cases hr
  · rename_i h60
    have hcase : max.getD (wrap32 (i * 4)) = max.getD (4 * i) ∨ max = none := by
      cases max with
      | none => exact Or.inr rfl
      | some x => exact Or.inl rfl
    have e : max.getD (wrap32 (i * 4)) = max.getD (4 * i) := by
      rcases hcase with e | rfl
      · exact e
      · simp only [Option.getD_none] at hm ⊢
        rw [wrap32_id] <;> omega
    rw [e] at hr
    generalize max.getD (4 * i) = m at hr hm ⊢
    split at hr
    · cases hr
    · rename_i hmi
      cases hr
      refine ⟨?_, by omega, by omega⟩
      rw [wrap32_id, wrap32_id] <;> omega

/-- `cfg` comes from this configuration -/
def Configured (cfg : Cfg) (interval max : Option Int) : Prop := intervals interval max = some (cfg.intervalMs, cfg.maxMs)

theorem mul_bound (a : Int) (e : Nat) (ha : 0 ≤ a) (ha' : a < 2147483648) (he : e < 4294967295) : 0 ≤ a * ((e : Int) + 1) ∧ a * ((e : Int) + 1) < 9223372036854775808 ∧ a ≤ a * ((e : Int) + 1) := by
  have h1 : (0 : Int) ≤ (e : Int) := Int.natCast_nonneg e
  have h2 : a * ((e : Int) + 1) = a * e + a := by rw [Int.mul_add, Int.mul_one]
  have h3 : 0 ≤ a * (e : Int) := Int.mul_nonneg ha h1
  have h4 : a * (e : Int) ≤ 2147483647 * (e : Int) := Int.mul_le_mul_of_nonneg_right (by omega) h1
  refine ⟨by omega, by omega, by omega⟩

/-- **C38, partial** (intervals below 24 days and less than 2^32 errors in a row; otherwise it is false, see `C38_finding_overflow`). The delay is at least the interval, at most the maximum,
grows with every error until it reaches the maximum, and is the interval if there was no error. -/
theorem C38_backoff_partial (interval max : Option Int) (i m : Int) (h : Meant interval max i m) (hm : m ≤ 2147483) (cfg : Cfg) (hc : Configured cfg interval max)
    (errors : Nat) (he : errors < 4294967294) :
    i * 1000 ≤ delayNormal cfg errors ∧ delayNormal cfg errors ≤ m * 1000 ∧
    delayNormal cfg errors = min (i * 1000 * (errors + 1)) (m * 1000) ∧
    delayNormal cfg errors ≤ delayNormal cfg (errors + 1) ∧ delayNormal cfg 0 = i * 1000 := by
  obtain ⟨hr, h60, him⟩ := intervals_ok interval max i m h hm _ hc
  have e1 : cfg.intervalMs = i * 1000 := congrArg Prod.fst hr
  have e2 : cfg.maxMs = m * 1000 := congrArg Prod.snd hr
  have key : ∀ e : Nat, e < 4294967295 → delayNormal cfg e = min (i * 1000 * ((e : Int) + 1)) (m * 1000) := by
    intro e he
    unfold delayNormal
    rw [e1, e2]
    obtain ⟨b1, b2, _⟩ := mul_bound (i * 1000) e (by omega) (by omega) he
    rw [wrap64_id (by omega) b2]
  have k0 := key errors (by omega)
  have k1 := key (errors + 1) (by omega)
  have kz := key 0 (by omega)
  obtain ⟨_, _, b3⟩ := mul_bound (i * 1000) errors (by omega) (by omega) (by omega)
  refine ⟨by rw [k0]; omega, by rw [k0]; omega, k0, ?_, ?_⟩
  · rw [k0, k1]
    have : i * 1000 * (((errors + 1 : Nat) : Int) + 1) = i * 1000 * ((errors : Int) + 1) + i * 1000 := by
      have : (((errors + 1 : Nat) : Int) + 1) = ((errors : Int) + 1) + 1 := by omega
      rw [this, Int.mul_add, Int.mul_one]
    omega
  · rw [kz]; simp; omega

example : intervals none none = some (86400000, 345600000) := by decide
example : intervals (some 60) (some 61) = some (60000, 61000) := by decide
example : intervals (some 59) none = none := by decide
example : intervals (some 60) (some 60) = none := by decide
example : Meant (some 3600) none 3600 14400 := ⟨rfl, by decide⟩

/-- **C38, finding.** An interval of 36 days is accepted, but the number of milliseconds does not fit into 32 bits: with the usual wrapping the delay is negative, so a poll is made whenever the timer fires. An
interval above 17 years makes the default of the maximum overflow as well. -/
theorem C38_finding_overflow : intervals (some 3110400) none = some (-1184567296, -443301888) ∧
    ∀ cfg : Cfg, Configured cfg (some 3110400) none → ∀ e : Nat, delayNormal cfg e ≤ -443301888 := by
  refine ⟨by decide, ?_⟩
  intro cfg hc e
  have : intervals (some 3110400) none = some (-1184567296, -443301888) := by decide
  unfold Configured at hc
  rw [this] at hc
  simp only [Option.some.injEq, Prod.mk.injEq] at hc
  unfold delayNormal
  omega

/-! ## Which polls fail -/

/-- the versions cannot be compared although the criteria ask for it -/
def versionFails (cfg : Cfg) (v : Str) : Bool :=
  decide (Semver.lessEqual v cfg.system = none) &&
    (decide (c!"higher-semver" ∈ cfg.candidate) ||
      (decide (c!"different-version" ∈ cfg.candidate ∧ cfg.system ≠ v) && decide (∃ crit ∈ cfg.install, c!"higher-semver" ∈ crit)))

/-- a poll fails if the server cannot be asked, or if the version it offers cannot be compared -/
def pollFails (cfg : Cfg) (offered : Option Man) (f : Fetch) : Bool :=
  decide (f = .error) || (match offered with | some ⟨some v, _⟩ => versionFails cfg v | _ => false)

theorem candidate_none {cfg : Cfg} {v : Str} (h : checkCandidate cfg v = none) : versionFails cfg v = true := by
  unfold checkCandidate at h
  split at h
  · rename_i hh
    split at h
    · rename_i hl; simp [versionFails, hh, hl]
    · cases h
    · cases h
  · cases h

theorem candidate_false {cfg : Cfg} {v : Str} (h : checkCandidate cfg v = some false) : versionFails cfg v = false := by
  unfold checkCandidate at h
  split at h
  · split at h
    · cases h
    · cases h
    · rename_i hl; simp [versionFails, hl]
  · rename_i hh
    simp only [Option.some.injEq, decide_eq_false_iff_not] at h
    simp only [versionFails, hh, h, decide_false, Bool.false_or, Bool.false_and, Bool.and_false]

theorem candidate_true {cfg : Cfg} {v : Str} (h : checkCandidate cfg v = some true) : checkInstall cfg v = none ↔ versionFails cfg v = true := by
  unfold checkCandidate at h
  unfold checkInstall versionFails
  have aux : ∀ l : Option Bool, l ≠ none → ∀ a b : Option Bool, a ≠ none → b ≠ none → (match l with | none => none | some false => a | some true => b) ≠ none := by
    intro l hl a b ha hb
    rcases l with _ | _ | _
    · exact absurd rfl hl
    · exact ha
    · exact hb
  split at h
  · rename_i hh
    split at h
    · cases h
    all_goals
      rename_i hl
      simp only [hl]
      cases hc : cfg.install with
      | none => simp
      | some crit => simp only; split <;> simp
  · rename_i hh
    simp only [Option.some.injEq, decide_eq_true_eq] at h
    simp only [hh, h, decide_false, Bool.false_or]
    cases hc : cfg.install with
    | none => simp
    | some crit =>
      simp only
      by_cases hcr : c!"higher-semver" ∈ crit
      · rw [if_pos hcr]
        cases hl : Semver.lessEqual v cfg.system with
        | none => simp [hcr, h]
        | some b => cases b <;> simp
      · rw [if_neg hcr]; simp [hcr]

/-! ## Invariant -/

structure Inv (s : St) : Prop where
  busy : s.busy = s.thread.isSome
  running : s.running = true ↔ ∃ r, s.thread = some ⟨.poller, r⟩
  installing : s.installing = true → s.thread ≠ none

theorem inv_init : Inv {} := ⟨rfl, by simp, by simp⟩

/-- the possible outcomes of a poll -/
theorem pollStep_cases (cfg : Cfg) (s : St) (f : Fetch) :
    (∃ s', pollStep cfg s f = (s', [], .error) ∧ ∃ a m, s' = { s with available := a, manifest := m } ∧ (∀ o, fetched s f = some o → m = o) ∧ (fetched s f = none → m = s.manifest) ∧ pollFails cfg m f = true) ∨
    (∃ s', pollStep cfg s f = (s', [], .ok) ∧ ∃ a m, s' = { s with available := a, manifest := m } ∧ fetched s f = some m ∧ pollFails cfg m f = false) ∨
    (∃ s', pollStep cfg s f = (s', [], .abort) ∧ ∃ m, s' = { s with available := false, manifest := some m, dead := true } ∧ fetched s f = some (some m) ∧ m.version = none) ∨
    (∃ m v, fetched s f = some (some m) ∧ m.version = some v ∧ checkCandidate cfg v = some true ∧ checkInstall cfg v = some true ∧ some m.hash ≠ s.attempted ∧ pollFails cfg (some m) f = false ∧
      pollStep cfg s f =
        ({ (installRun { s with available := true, manifest := some m, attempted := some m.hash, installing := true } ⟨.poller, some m.hash⟩ (some m)).1 with running := true },
         (installRun { s with available := true, manifest := some m, attempted := some m.hash, installing := true } ⟨.poller, some m.hash⟩ (some m)).2, .ok)) := by
  have hf : fetched { s with available := false } f = fetched s f := by cases f <;> rfl
  unfold pollStep
  simp only [hf]
  cases hfe : fetched s f with
  | none =>
    have : f = .error := by cases f <;> simp [fetched] at hfe ⊢
    exact Or.inl ⟨_, rfl, false, s.manifest, rfl, by simp, by simp, by simp [pollFails, this]⟩
  | some o =>
    have hne : f ≠ .error := by rintro rfl; simp [fetched] at hfe
    cases o with
    | none => exact Or.inr (Or.inl ⟨_, rfl, false, none, rfl, rfl, by simp [pollFails, hne]⟩)
    | some m =>
      simp only
      cases hv : m.version with
      | none => exact Or.inr (Or.inr (Or.inl ⟨_, rfl, m, rfl, rfl, hv⟩))
      | some v =>
        have hpf : pollFails cfg (some m) f = versionFails cfg v := by
          obtain ⟨ver, hash⟩ := m
          simp only at hv
          subst hv
          simp [pollFails, hne]
        simp only
        cases hc : checkCandidate cfg v with
        | none => exact Or.inl ⟨_, rfl, false, some m, rfl, by simp, by simp, by rw [hpf]; exact candidate_none hc⟩
        | some b =>
          cases b with
          | false => exact Or.inr (Or.inl ⟨_, rfl, false, some m, rfl, rfl, by rw [hpf]; exact candidate_false hc⟩)
          | true =>
            simp only
            cases hi : checkInstall cfg v with
            | none => exact Or.inl ⟨_, rfl, true, some m, rfl, by simp, by simp, by rw [hpf]; exact (candidate_true hc).1 hi⟩
            | some b =>
              have hpf' : pollFails cfg (some m) f = false := by
                rw [hpf]
                cases hvf : versionFails cfg v with
                | false => rfl
                | true => rw [(candidate_true hc).2 hvf] at hi; cases hi
              cases b with
              | false => exact Or.inr (Or.inl ⟨_, rfl, true, some m, rfl, rfl, hpf'⟩)
              | true =>
                simp only
                split
                · exact Or.inr (Or.inl ⟨_, rfl, true, some m, rfl, rfl, hpf'⟩)
                · rename_i hne
                  exact Or.inr (Or.inr (Or.inr ⟨m, v, rfl, hv, hc, hi, hne, hpf', rfl⟩))

/-- what a timer callback of the poller can do -/
inductive TickRes (cfg : Cfg) (s : St) (e : TickEnv) : St → List Act → Prop
  | nothing : TickRes cfg s e s []
  | later : s.active = true → s.next ≤ e.now → s.running = false →
      TickRes cfg s e { s with next := e.later + delayShort * 1000 } [.schedule false delayShort]
  | reboot : s.active = true → s.next ≤ e.now → s.running = false → s.busy = false → s.good = true → e.inhibited = false → s.mustReboot = true →
      TickRes cfg s e { s with active := false } [.reboot]
  | rebootFailed : s.active = true → s.next ≤ e.now → s.running = false → s.busy = false → s.good = true → e.inhibited = false → s.mustReboot = true →
      TickRes cfg s e { s with next := e.later + delayShort * 1000 } [.reboot, .schedule false delayShort]
  | pollError (a : Bool) (m : Option Man) : s.active = true → s.next ≤ e.now → s.running = false → s.busy = false → s.good = true → e.inhibited = false → s.mustReboot = false →
      (∀ o, fetched s e.fetch = some o → m = o) → (fetched s e.fetch = none → m = s.manifest) → pollFails cfg m e.fetch = true →
      TickRes cfg s e { s with attempts := s.attempts + 1, available := a, manifest := m, errors := s.errors + 1, next := e.later + delayNormal cfg (s.errors + 1) * 1000 }
        [.poll, .schedule true (delayNormal cfg (s.errors + 1))]
  | pollOk (a : Bool) (m : Option Man) : s.active = true → s.next ≤ e.now → s.running = false → s.busy = false → s.good = true → e.inhibited = false → s.mustReboot = false →
      fetched s e.fetch = some m → pollFails cfg m e.fetch = false →
      TickRes cfg s e { s with attempts := s.attempts + 1, available := a, manifest := m, errors := 0, next := e.later + delayNormal cfg 0 * 1000 }
        [.poll, .schedule true (delayNormal cfg 0)]
  | pollAbort (m : Man) : s.active = true → s.next ≤ e.now → s.running = false → s.busy = false → s.good = true → e.inhibited = false → s.mustReboot = false →
      fetched s e.fetch = some (some m) → m.version = none →
      TickRes cfg s e { s with attempts := s.attempts + 1, available := false, manifest := some m, dead := true } [.poll]
  | install (m : Man) (v : Str) : s.active = true → s.next ≤ e.now → s.running = false → s.busy = false → s.good = true → e.inhibited = false → s.mustReboot = false →
      fetched s e.fetch = some (some m) → m.version = some v → checkCandidate cfg v = some true → checkInstall cfg v = some true → some m.hash ≠ s.attempted → pollFails cfg (some m) e.fetch = false →
      TickRes cfg s e { s with attempts := s.attempts + 1, available := true, manifest := some m, attempted := some m.hash, installing := true, busy := true,
                               thread := some ⟨.poller, some m.hash⟩, running := true, errors := 0 }
        [.poll, .start ⟨.poller, some m.hash⟩ (some m)]

theorem installRun_ok (s : St) (j : Job) (m : Option Man) (h : s.busy = false) :
    installRun s j m = ({ s with busy := true, thread := some j }, [.start j m]) := by
  unfold installRun
  rw [if_neg (by simp [h])]

theorem tick_res (cfg : Cfg) (s : St) (e : TickEnv) : TickRes cfg s e (tick cfg s e).1 (tick cfg s e).2 := by
  unfold tick
  by_cases ha : s.active = true
  rotate_left
  · rw [if_pos (by simpa using ha)]; exact .nothing
  rw [if_neg (by simpa using ha)]
  by_cases hn : e.now < s.next
  · rw [if_pos hn]; exact .nothing
  rw [if_neg hn]
  have hn' : s.next ≤ e.now := by omega
  by_cases hr : s.running = true
  · rw [if_pos hr]; exact .nothing
  rw [if_neg hr]
  replace hr : s.running = false := by simpa using hr
  by_cases hb : s.busy = true
  · rw [if_pos hb]; exact .later ha hn' hr
  rw [if_neg hb]
  replace hb : s.busy = false := by simpa using hb
  by_cases hg : s.good = true
  rotate_left
  · rw [if_pos (by simpa using hg)]; exact .later ha hn' hr
  rw [if_neg (by simpa using hg)]
  by_cases hi : e.inhibited = true
  · rw [if_pos hi]; exact .later ha hn' hr
  rw [if_neg hi]
  replace hi : e.inhibited = false := by simpa using hi
  by_cases hm : s.mustReboot = true
  · rw [if_pos hm]
    split
    · exact .reboot ha hn' hr hb hg hi hm
    · exact .rebootFailed ha hn' hr hb hg hi hm
  rw [if_neg hm]
  replace hm : s.mustReboot = false := by simpa using hm
  have hf : fetched { s with attempts := s.attempts + 1 } e.fetch = fetched s e.fetch := by cases e.fetch <;> rfl
  rcases pollStep_cases cfg { s with attempts := s.attempts + 1 } e.fetch with
    ⟨s', h1, a, m, h2, h3, h4, hp⟩ | ⟨s', h1, a, m, h2, h3, hp⟩ | ⟨s', h1, m, h2, h3, h4⟩ | ⟨m, v, h1, h2, h3, h4, h5, hp, h6⟩
  · rw [h1]; subst h2
    rw [hf] at h3 h4
    exact .pollError a m ha hn' hr hb hg hi hm h3 h4 hp
  · rw [h1]; subst h2
    rw [hf] at h3
    dsimp only
    rw [if_neg (by simp [hr])]
    exact .pollOk a m ha hn' hr hb hg hi hm h3 hp
  · rw [h1]; subst h2
    rw [hf] at h3
    exact .pollAbort m ha hn' hr hb hg hi hm h3 h4
  · rw [h6]
    rw [hf] at h1
    rw [installRun_ok _ _ _ (by exact hb)]
    exact .install m v ha hn' hr hb hg hi hm h1 h2 h3 h4 h5 hp

theorem tick_inv (cfg : Cfg) (s : St) (e : TickEnv) (h : Inv s) : Inv (tick cfg s e).1 := by
  have hr := tick_res cfg s e
  obtain ⟨i1, i2, i3⟩ := h
  generalize (tick cfg s e).1 = s' at hr
  generalize (tick cfg s e).2 = a at hr
  cases hr
  case install m v _ _ _ _ _ _ _ _ _ _ _ _ _ => exact ⟨rfl, by simp, by simp⟩
  all_goals exact ⟨i1, i2, i3⟩

theorem step_inv (cfg : Cfg) (s : St) (ev : Ev) (h : Inv s) : Inv (step cfg s ev).1 := by
  unfold step
  split
  · exact h
  · cases ev with
    | install k r =>
      simp only
      split
      · exact ⟨h.1, h.2, by simp⟩
      · rename_i hb
        simp only [Bool.or_eq_true, not_or, Bool.not_eq_true] at hb
        unfold installRun
        simp only [hb.1, Bool.false_eq_true, if_false]
        refine ⟨rfl, ?_, by simp⟩
        constructor
        · intro hr
          obtain ⟨_, ht⟩ := h.2.1 hr
          have := h.1
          rw [hb.1, ht] at this
          cases this
        · rintro ⟨_, ht⟩; simp at ht
    | auto p =>
      simp only
      split
      · exact h
      · split
        · exact ⟨h.1, h.2, h.3⟩
        · rename_i hb
          have hb' : s.busy = false := by simpa using hb
          unfold installRun
          simp only [hb', Bool.false_eq_true, if_false]
          refine ⟨rfl, ?_, by simp⟩
          constructor
          · intro hr
            obtain ⟨_, ht⟩ := h.2.1 hr
            have := h.1
            rw [hb', ht] at this
            cases this
          · rintro ⟨_, ht⟩; simp at ht
    | query => exact h
    | mark b st ok =>
      simp only
      split
      · exact h
      · split
        · cases st <;> exact ⟨h.1, h.2, h.3⟩
        · exact h
    | done st sl ar now =>
      simp only
      split
      · exact h
      · rename_i r ht
        refine ⟨rfl, ?_, by simp⟩
        constructor
        · intro hr
          obtain ⟨_, ht'⟩ := h.2.1 hr
          rw [ht] at ht'
          simp at ht'
        · rintro ⟨_, ht'⟩; simp at ht'
      · exact ⟨rfl, by simp [reschedule], by simp [reschedule]⟩
    | pollRequest now =>
      simp only
      split
      · exact h
      · exact ⟨h.1, h.2, h.3⟩
    | tick e => exact tick_inv cfg s e h

theorem final_inv (cfg : Cfg) (evs : List Ev) : ∀ s, Inv s → Inv (final cfg s evs) := by
  induction evs with
  | nil => intro s h; exact h
  | cons e l ih => intro s h; exact ih _ (step_inv cfg s e h)

theorem trace_inv (cfg : Cfg) (evs : List Ev) : ∀ s, Inv s → ∀ t ∈ trace cfg s evs, Inv t.1 ∧ t.2.2 = (step cfg t.1 t.2.1).2 := by
  induction evs with
  | nil => intro s _ t ht; cases ht
  | cons e l ih =>
    intro s h t ht
    rcases List.mem_cons.1 ht with rfl | ht
    · exact ⟨h, rfl⟩
    · exact ih _ (step_inv cfg s e h) t ht

/-! ## C45 -/

/-- starts and completions alternate, beginning with a start unless an installation is running already -/
def Alternate : Bool → List Act → Prop
  | _, [] => True
  | r, .start _ _ :: l => r = false ∧ Alternate true l
  | r, .completed _ :: l => r = true ∧ Alternate false l
  | r, _ :: l => Alternate r l

def runningAfter : Bool → List Act → Bool
  | r, [] => r
  | _, .start _ _ :: l => runningAfter true l
  | _, .completed _ :: l => runningAfter false l
  | r, _ :: l => runningAfter r l

theorem alternate_append (a b : List Act) : ∀ r, Alternate r (a ++ b) ↔ Alternate r a ∧ Alternate (runningAfter r a) b := by
  induction a with
  | nil => intro r; simp [Alternate, runningAfter]
  | cons x a ih =>
    intro r
    cases x <;> simp only [List.cons_append, Alternate, runningAfter, ih, and_assoc]

theorem step_alternate (cfg : Cfg) (s : St) (ev : Ev) (h : Inv s) :
    Alternate s.thread.isSome (step cfg s ev).2 ∧ runningAfter s.thread.isSome (step cfg s ev).2 = (step cfg s ev).1.thread.isSome := by
  unfold step
  split
  · simp [Alternate, runningAfter]
  · cases ev with
    | install k r =>
      simp only
      split
      · simp [Alternate, runningAfter]
      · rename_i hb
        simp only [Bool.or_eq_true, not_or, Bool.not_eq_true] at hb
        have := h.1
        rw [hb.1] at this
        unfold installRun
        simp only [hb.1, Bool.false_eq_true, if_false]
        simp [Alternate, runningAfter, ← this]
    | auto p =>
      simp only
      split
      · simp [Alternate, runningAfter]
      · split
        · simp [Alternate, runningAfter]
        · rename_i hb
          have hb' : s.busy = false := by simpa using hb
          have := h.1
          rw [hb'] at this
          unfold installRun
          simp only [hb', Bool.false_eq_true, if_false]
          simp [Alternate, runningAfter, ← this]
    | query => simp only; split <;> simp [Alternate, runningAfter]
    | mark b st ok =>
      simp only
      split
      · simp [Alternate, runningAfter]
      · refine ⟨by simp [Alternate], ?_⟩
        simp only [runningAfter]
        split
        · cases st <;> rfl
        · rfl
    | done st sl ar now =>
      simp only
      split
      · rename_i ht; simp [Alternate, runningAfter, ht]
      · rename_i r ht
        simp [Alternate, runningAfter, ht]
      · rename_i r ht
        simp [Alternate, runningAfter, ht, reschedule]
    | pollRequest now =>
      simp only
      split <;> simp [Alternate, runningAfter, reschedule]
    | tick e =>
      have hr := tick_res cfg s e
      have hb := h.1
      simp only
      generalize (tick cfg s e).1 = s' at hr ⊢
      generalize (tick cfg s e).2 = a at hr ⊢
      cases hr
      case install m v h1 h2 h3 h4 _ _ _ _ _ _ _ _ _ =>
        rw [h4] at hb
        simp [Alternate, runningAfter, ← hb]
      all_goals simp [Alternate, runningAfter]

/-- all that was done in a history -/
def acts (l : List (St × Ev × List Act)) : List Act := (l.map (·.2.2)).flatten

/-- **C45.** Whatever requests, timers and results come in whatever order: installations are never started while another one is running; every completion that is
reported belongs to the one that was started before. -/
theorem C45_one_at_a_time (cfg : Cfg) (evs : List Ev) : Alternate false (acts (trace cfg {} evs)) := by
  have key : ∀ (evs : List Ev) (s : St), Inv s → Alternate s.thread.isSome (acts (trace cfg s evs)) := by
    intro evs
    induction evs with
    | nil => intro s _; simp [trace, acts, Alternate]
    | cons e l ih =>
      intro s h
      obtain ⟨h1, h2⟩ := step_alternate cfg s e h
      show Alternate _ ((step cfg s e).2 ++ acts (trace cfg (step cfg s e).1 l))
      rw [alternate_append]
      refine ⟨h1, ?_⟩
      rw [h2]
      exact ih _ (step_inv cfg s e h)
  exact key evs {} inv_init

/-- **C45.** If "installing" is published, an installation is running; requests to mark slots or about the state are refused exactly while an installation is running. -/
theorem C45_installing_sound (cfg : Cfg) (evs : List Ev) :
    ((final cfg {} evs).installing = true → (final cfg {} evs).thread ≠ none) ∧
    ∀ t ∈ trace cfg {} evs, t.1.dead = false → t.2.1 = .query → (t.2.2 = [.refuse] ↔ t.1.thread ≠ none) := by
  refine ⟨(final_inv cfg evs {} inv_init).3, ?_⟩
  intro t ht hd hq
  obtain ⟨hi, ha⟩ := trace_inv cfg evs {} inv_init t ht
  rw [ha, hq]
  unfold step
  simp only [hd, Bool.false_eq_true, if_false]
  have := hi.1
  cases hth : t.1.thread with
  | none => rw [hth] at this; simp [this]
  | some j => rw [hth] at this; simp [this]

/-- **C45, partial** (without requests to install while an installation is running, and without automatic installation; in these cases it is false, see `C45_finding_busy` and
`C45_finding_auto`). "installing" is published exactly while an installation is running. -/
theorem C45_operation_partial (cfg : Cfg) (evs : List Ev) (hauto : .auto true ∉ evs)
    (hbusy : ∀ t ∈ trace cfg {} evs, ∀ k r, t.2.1 = .install k r → t.1.thread = none) :
    (final cfg {} evs).installing = true ↔ (final cfg {} evs).thread ≠ none := by
  have key : ∀ (evs : List Ev) (s : St), Inv s → (s.thread ≠ none → s.installing = true) → .auto true ∉ evs →
      (∀ t ∈ trace cfg s evs, ∀ k r, t.2.1 = .install k r → t.1.thread = none) →
      ((final cfg s evs).thread ≠ none → (final cfg s evs).installing = true) := by
    intro evs
    induction evs with
    | nil => intro s _ h _ _; exact h
    | cons e l ih =>
      intro s hi h ha hb
      refine ih _ (step_inv cfg s e hi) ?_ (fun h' => ha (List.mem_cons_of_mem _ h')) (fun t ht => hb t (List.mem_cons_of_mem _ ht))
      have hb0 := hb _ (List.mem_cons_self (a := (s, e, (step cfg s e).2)))
      unfold step
      split
      · exact h
      · cases e with
        | install k r =>
          have hth : s.thread = none := hb0 k r rfl
          have hbz := hi.1
          rw [hth] at hbz
          replace hbz : s.busy = false := hbz
          cases k with
          | false => simp [hth]
          | true => simp [installRun, hbz]
        | auto p =>
          cases p with
          | true => exact absurd List.mem_cons_self ha
          | false => exact h
        | query => exact h
        | mark b st ok =>
          simp only
          split
          · exact h
          · split
            · cases st <;> exact h
            · exact h
        | done st sl ar now =>
          simp only
          split
          · exact h
          · simp
          · simp
        | pollRequest now =>
          simp only
          split
          · exact h
          · exact h
        | tick e =>
          have hr := tick_res cfg s e
          simp only
          generalize (tick cfg s e).1 = s' at hr ⊢
          generalize (tick cfg s e).2 = a at hr
          cases hr
          case install => simp
          all_goals exact h
  exact ⟨(final_inv cfg evs {} inv_init).3, key evs {} inv_init (by simp) hauto hbusy⟩

/-! ## C39 -/

/-- the hashes of the manifests the poller started installations for -/
def pollerStarts : List Act → List Str
  | [] => []
  | .start ⟨.poller, _⟩ (some m) :: l => m.hash :: pollerStarts l
  | _ :: l => pollerStarts l

theorem pollerStarts_append (a b : List Act) : pollerStarts (a ++ b) = pollerStarts a ++ pollerStarts b := by
  induction a with
  | nil => rfl
  | cons x a ih =>
    cases x with
    | start j m =>
      obtain ⟨o, r⟩ := j
      cases o <;> cases m <;> simp [pollerStarts, ih]
    | _ => simp [pollerStarts, ih]

/-- what the poller may start in one callback, and what it remembers -/
theorem step_poller (cfg : Cfg) (s : St) (ev : Ev) :
    (pollerStarts (step cfg s ev).2 = [] ∧ (step cfg s ev).1.attempted = s.attempted) ∨
    (∃ h, pollerStarts (step cfg s ev).2 = [h] ∧ (step cfg s ev).1.attempted = some h ∧ s.attempted ≠ some h) := by
  unfold step
  split
  · exact Or.inl ⟨rfl, rfl⟩
  · cases ev with
    | install k r =>
      left
      simp only
      split
      · exact ⟨rfl, rfl⟩
      · unfold installRun
        split <;> exact ⟨rfl, rfl⟩
    | auto p =>
      left
      simp only
      split
      · exact ⟨rfl, rfl⟩
      · split
        · exact ⟨rfl, rfl⟩
        · unfold installRun
          split <;> exact ⟨rfl, rfl⟩
    | query => left; cases hb : s.busy <;> simp [pollerStarts]
    | mark b st ok =>
      left
      simp only
      split
      · exact ⟨rfl, rfl⟩
      · refine ⟨rfl, ?_⟩
        simp only
        split
        · cases st <;> rfl
        · rfl
    | done st sl ar now =>
      left
      simp only
      split <;> exact ⟨rfl, rfl⟩
    | pollRequest now =>
      left
      simp only
      split <;> exact ⟨rfl, rfl⟩
    | tick e =>
      have hr := tick_res cfg s e
      simp only
      generalize (tick cfg s e).1 = s' at hr ⊢
      generalize (tick cfg s e).2 = a at hr ⊢
      cases hr
      case install m v _ _ _ _ _ _ _ _ _ _ _ h _ =>
        exact Or.inr ⟨m.hash, rfl, rfl, fun e => h e.symm⟩
      all_goals exact Or.inl ⟨rfl, rfl⟩

/-- no two neighbours are equal -/
def NoRepeat : Option Str → List Str → Prop
  | _, [] => True
  | p, h :: l => p ≠ some h ∧ NoRepeat (some h) l

/-- **C39, partial** (two attempts for the same manifest may happen if another manifest was attempted in between, see `C39_finding_alternating`). In no history does the poller start two
installations for the same manifest one after the other. -/
theorem C39_no_repeat_partial (cfg : Cfg) (evs : List Ev) : NoRepeat none (pollerStarts (acts (trace cfg {} evs))) := by
  have key : ∀ (evs : List Ev) (s : St), NoRepeat s.attempted (pollerStarts (acts (trace cfg s evs))) := by
    intro evs
    induction evs with
    | nil => intro s; simp [trace, acts, pollerStarts, NoRepeat]
    | cons e l ih =>
      intro s
      show NoRepeat _ (pollerStarts ((step cfg s e).2 ++ acts (trace cfg (step cfg s e).1 l)))
      rw [pollerStarts_append]
      rcases step_poller cfg s e with ⟨h1, h2⟩ | ⟨h, h1, h2, h3⟩
      · rw [h1, ← h2]; exact ih _
      · rw [h1]
        refine ⟨h3, ?_⟩
        show NoRepeat (some h) (pollerStarts (acts (trace cfg (step cfg s e).1 l)))
        rw [← h2]; exact ih _
  exact key evs {}

/-- so, if the server never offers anything else, there is one attempt at most -/
theorem C39_once (l : List Str) (h : Str) (hl : ∀ x ∈ l, x = h) (hn : NoRepeat none l) : l.length ≤ 1 := by
  match l, hl, hn with
  | [], _, _ => simp
  | [_], _, _ => simp
  | a :: b :: r, hl, hn =>
    exfalso
    have h1 := hl a (by simp)
    have h2 := hl b (by simp)
    exact hn.2.1 (by rw [h1, h2])

/-- what the server offers, as far as the poller has been told by its polls -/
def offer (o : Option Man) (t : St × Ev × List Act) : Option Man :=
  match t.2.1 with
  | .tick e =>
    if .poll ∈ t.2.2 then
      match e.fetch with
      | .noContent => none
      | .notModified => o
      | .error => o
      | .bundle m => some m
    else o
  | _ => o

theorem step_manifest (cfg : Cfg) (s : St) (ev : Ev) : (step cfg s ev).1.manifest = offer s.manifest (s, ev, (step cfg s ev).2) := by
  unfold step
  split
  · unfold offer
    simp only
    split
    · rfl
    · rfl
  · cases ev with
    | install k r =>
      simp only [offer]
      split
      · rfl
      · unfold installRun; split <;> rfl
    | auto p =>
      simp only [offer]
      split
      · rfl
      · split
        · rfl
        · unfold installRun; split <;> rfl
    | query => rfl
    | mark b st ok =>
      simp only [offer]
      split
      · rfl
      · simp only
        split
        · cases st <;> rfl
        · rfl
    | done st sl ar now => simp only [offer]; split <;> rfl
    | pollRequest now => simp only [offer]; split <;> rfl
    | tick e =>
      have hr := tick_res cfg s e
      simp only [offer]
      have hff : ∀ m, fetched s e.fetch = some m → m = (match e.fetch with | .noContent => none | .notModified => s.manifest | .error => s.manifest | .bundle m => some m) := by
        intro m hm
        cases hf : e.fetch <;> rw [hf] at hm <;> simp only [fetched, Option.some.injEq] at hm ⊢
        · exact hm.symm
        · exact hm.symm
        · cases hm
        · exact hm.symm
      generalize (tick cfg s e).1 = s' at hr ⊢
      generalize (tick cfg s e).2 = a at hr ⊢
      cases hr
      case pollError a m _ _ _ _ _ _ _ h1 h2 _ =>
        simp only [List.mem_cons, true_or, if_true]
        cases hf : fetched s e.fetch with
        | none =>
          rw [h2 hf]
          cases hf' : e.fetch <;> rw [hf'] at hf <;> simp [fetched] at hf
        | some o => rw [h1 o hf]; exact hff o hf
      case pollOk a m _ _ _ _ _ _ _ h1 _ => simp only [List.mem_cons, true_or, if_true]; exact hff m h1
      case pollAbort m _ _ _ _ _ _ _ h1 _ => simp only [List.mem_cons, true_or, if_true]; exact hff _ h1
      case install m v _ _ _ _ _ _ _ h1 _ _ _ _ _ => simp only [List.mem_cons, true_or, if_true]; exact hff _ h1
      all_goals simp

theorem trace_append (cfg : Cfg) (a b : List Ev) : ∀ s, trace cfg s (a ++ b) = trace cfg s a ++ trace cfg (final cfg s a) b := by
  induction a with
  | nil => intro s; rfl
  | cons e a ih => intro s; simp only [List.cons_append, trace, final, ih]

theorem final_manifest (cfg : Cfg) (evs : List Ev) : ∀ s, (final cfg s evs).manifest = (trace cfg s evs).foldl offer s.manifest := by
  induction evs with
  | nil => intro s; rfl
  | cons e l ih => intro s; simp only [final, trace, List.foldl_cons]; rw [ih, step_manifest]

/-- the version is an update in the sense of the criteria -/
def Meets (crit : List Str) (system v : Str) : Prop :=
  (c!"higher-semver" ∈ crit ∧ Semver.lessEqual v system = some false) ∨ (c!"different-version" ∈ crit ∧ v ≠ system)

theorem checkCandidate_meets {cfg : Cfg} {v : Str} (h : checkCandidate cfg v = some true) : Meets cfg.candidate cfg.system v := by
  unfold checkCandidate at h
  split at h
  · rename_i hh
    split at h
    · cases h
    · rename_i hl; exact Or.inl ⟨hh, hl⟩
    · simp only [Option.some.injEq, decide_eq_true_eq] at h
      exact Or.inr ⟨h.1, fun e => h.2 e.symm⟩
  · simp only [Option.some.injEq, decide_eq_true_eq] at h
    exact Or.inr ⟨h.1, fun e => h.2 e.symm⟩

theorem checkInstall_meets {cfg : Cfg} {v : Str} (h : checkInstall cfg v = some true) :
    ∃ crit, cfg.install = some crit ∧ (c!"always" ∈ crit ∨ Meets crit cfg.system v) := by
  unfold checkInstall at h
  split at h
  · cases h
  · rename_i crit hc
    refine ⟨crit, hc, ?_⟩
    simp only at h
    have hrest : (c!"different-version" ∈ crit ∧ cfg.system ≠ v) ∨ c!"always" ∈ crit → (c!"always" ∈ crit ∨ Meets crit cfg.system v) := by
      rintro (h | h)
      · exact Or.inr (Or.inr ⟨h.1, fun e => h.2 e.symm⟩)
      · exact Or.inl h
    split at h
    · rename_i hh
      split at h
      · cases h
      · rename_i hl; exact Or.inr (Or.inl ⟨hh, hl⟩)
      · simp only [Option.some.injEq, decide_eq_true_eq] at h; exact hrest h
    · simp only [Option.some.injEq, decide_eq_true_eq] at h; exact hrest h

/-- an installation by the poller comes from a poll -/
theorem step_start (cfg : Cfg) (s : St) (ev : Ev) (j : Job) (m : Option Man) (h : .start j m ∈ (step cfg s ev).2) (hj : j.owner = .poller) :
    s.dead = false ∧ ∃ e man v, ev = .tick e ∧ m = some man ∧ j = ⟨.poller, some man.hash⟩ ∧ man.version = some v ∧ checkCandidate cfg v = some true ∧ checkInstall cfg v = some true ∧
      s.active = true ∧ s.next ≤ e.now ∧ s.running = false ∧ s.busy = false ∧ s.good = true ∧ e.inhibited = false ∧ s.mustReboot = false ∧
      (step cfg s ev).1.manifest = some man := by
  unfold step at h ⊢
  split at h
  · cases h
  · rename_i hd
    have hd' : s.dead = false := by simpa using hd
    rw [if_neg hd]
    refine ⟨hd', ?_⟩
    cases ev with
    | install k r =>
      exfalso
      simp only at h
      split at h
      · simp at h
      · unfold installRun at h
        split at h
        · simp at h
        · simp only [List.mem_append, List.mem_singleton, List.cons_append, List.nil_append, List.mem_cons, Act.start.injEq, reduceCtorEq, or_false, List.not_mem_nil] at h
          rw [h.1] at hj; cases hj
    | auto p =>
      exfalso
      simp only at h
      split at h
      · simp at h
      · split at h
        · simp at h
        · unfold installRun at h
          split at h
          · simp at h
          · simp only [List.mem_singleton, Act.start.injEq] at h
            rw [h.1] at hj; cases hj
    | query => exfalso; simp only at h; split at h <;> simp at h
    | mark b st ok =>
      exfalso
      simp only at h
      split at h <;> simp at h
    | done st sl ar now =>
      exfalso
      simp only at h
      split at h <;> simp [reschedule] at h
    | pollRequest now =>
      exfalso
      simp only at h
      split at h <;> simp [reschedule] at h
    | tick e =>
      have hr := tick_res cfg s e
      simp only at h ⊢
      generalize (tick cfg s e).1 = s' at hr ⊢
      generalize (tick cfg s e).2 = a at hr h
      cases hr
      case install man v h1 h2 h3 h4 h5 h6 h7 h8 h9 h10 h11 h12 _ =>
        simp only [List.mem_cons, reduceCtorEq, Act.start.injEq, List.not_mem_nil, or_false, false_or] at h
        exact ⟨e, man, v, rfl, h.2, h.1, h9, h10, h11, h1, h2, h3, h4, h5, h6, h7, rfl⟩
      all_goals simp at h

/-- **C39.** Whenever, in any history, the poller starts an installation: no other installation is running, the manifest is the one last offered by the server, its version fulfils the criteria for
candidates and for installation, and the installation is bound to the hash of this manifest. -/
theorem C39_install (cfg : Cfg) (before : List Ev) (ev : Ev) (j : Job) (m : Option Man)
    (h : .start j m ∈ (step cfg (final cfg {} before) ev).2) (hj : j.owner = .poller) :
    ∃ man v crit, m = some man ∧ j.require = some man.hash ∧ man.version = some v ∧
      (trace cfg {} (before ++ [ev])).foldl offer none = some man ∧
      Meets cfg.candidate cfg.system v ∧ cfg.install = some crit ∧ (c!"always" ∈ crit ∨ Meets crit cfg.system v) ∧
      (final cfg {} before).thread = none := by
  obtain ⟨hd, e, man, v, rfl, h2, h3, h4, h5, h6, _, _, _, h7, _, _, _, h8⟩ := step_start cfg _ ev j m h hj
  obtain ⟨crit, hc, hm⟩ := checkInstall_meets h6
  refine ⟨man, v, crit, h2, by rw [h3], h4, ?_, checkCandidate_meets h5, hc, hm, ?_⟩
  · rw [trace_append, List.foldl_append]
    have h0 := final_manifest cfg before {}
    show List.foldl offer (List.foldl offer none (trace cfg {} before)) [_] = _
    have : List.foldl offer none (trace cfg {} before) = (final cfg {} before).manifest := h0.symm
    rw [this]
    simp only [List.foldl_cons, List.foldl_nil]
    rw [← step_manifest]; exact h8
  · have hi := final_inv cfg before {} inv_init
    have := hi.1
    rw [h7] at this
    cases ht : (final cfg {} before).thread with
    | none => rfl
    | some j => rw [ht] at this; cases this

/-- **C39.** "higher-semver" really means a higher precedence -/
theorem C39_higher (v system : Str) (h : Semver.lessEqual v system = some false) : Semver.lessEqual system v = some true := by
  rcases Semver.C21_total v system (by rw [h]; simp) with h' | h'
  · rw [h] at h'; cases h'
  · exact h'

/-! ## C54: polls and reboots -/

theorem step_gate (cfg : Cfg) (s : St) (ev : Ev) (h : .poll ∈ (step cfg s ev).2 ∨ .reboot ∈ (step cfg s ev).2) :
    ∃ e, ev = .tick e ∧ s.dead = false ∧ s.active = true ∧ s.next ≤ e.now ∧ s.busy = false ∧ s.good = true ∧ e.inhibited = false ∧
      (.reboot ∈ (step cfg s ev).2 → s.mustReboot = true) ∧ (.poll ∈ (step cfg s ev).2 → s.mustReboot = false) := by
  unfold step at h ⊢
  split at h
  · simp at h
  · rename_i hd
    have hd' : s.dead = false := by simpa using hd
    rw [if_neg hd]
    cases ev with
    | install k r =>
      exfalso
      simp only at h
      split at h
      · simp at h
      · unfold installRun at h
        split at h <;> simp at h
    | auto p =>
      exfalso
      simp only at h
      split at h
      · simp at h
      · split at h
        · simp at h
        · unfold installRun at h
          split at h <;> simp at h
    | query => exfalso; simp only at h; split at h <;> simp at h
    | mark b st ok => exfalso; simp only at h; split at h <;> simp at h
    | done st sl ar now => exfalso; simp only at h; split at h <;> simp [reschedule] at h
    | pollRequest now => exfalso; simp only at h; split at h <;> simp [reschedule] at h
    | tick e =>
      have hr := tick_res cfg s e
      simp only at h ⊢
      generalize (tick cfg s e).1 = s' at hr
      generalize (tick cfg s e).2 = a at hr h ⊢
      cases hr
      case nothing => simp at h
      case later => simp at h
      case reboot h1 h2 h3 h4 h5 h6 h7 => exact ⟨e, rfl, hd', h1, h2, h4, h5, h6, fun _ => h7, by simp⟩
      case rebootFailed h1 h2 h3 h4 h5 h6 h7 => exact ⟨e, rfl, hd', h1, h2, h4, h5, h6, fun _ => h7, by simp⟩
      case pollError h1 h2 h3 h4 h5 h6 h7 _ _ _ => exact ⟨e, rfl, hd', h1, h2, h4, h5, h6, by simp, fun _ => h7⟩
      case pollOk h1 h2 h3 h4 h5 h6 h7 _ _ => exact ⟨e, rfl, hd', h1, h2, h4, h5, h6, by simp, fun _ => h7⟩
      case pollAbort h1 h2 h3 h4 h5 h6 h7 _ _ => exact ⟨e, rfl, hd', h1, h2, h4, h5, h6, by simp, fun _ => h7⟩
      case install h1 h2 h3 h4 h5 h6 h7 _ _ _ _ _ _ => exact ⟨e, rfl, hd', h1, h2, h4, h5, h6, by simp, fun _ => h7⟩

/-- a reboot is asked for by a completed installation of the poller only -/
def asksReboot (cfg : Cfg) (t : St × Ev × List Act) : Prop :=
  ∃ st sl ar now r, t.2.1 = .done st sl ar now ∧ t.1.thread = some ⟨.poller, r⟩ ∧ checkReboot cfg st sl ar = true

theorem step_mustReboot (cfg : Cfg) (s : St) (ev : Ev) (h : (step cfg s ev).1.mustReboot = true) :
    s.mustReboot = true ∨ asksReboot cfg (s, ev, (step cfg s ev).2) := by
  cases hm : s.mustReboot with
  | true => exact Or.inl rfl
  | false =>
    right
    unfold step at h
    split at h
    · rw [hm] at h; cases h
    · cases ev with
      | install k r =>
        exfalso
        simp only at h
        split at h
        · simp [hm] at h
        · unfold installRun at h
          split at h <;> simp [hm] at h
      | auto p =>
        exfalso
        simp only at h
        split at h
        · simp [hm] at h
        · split at h
          · simp [hm] at h
          · unfold installRun at h
            split at h <;> simp [hm] at h
      | query => exfalso; simp [hm] at h
      | mark b st ok =>
        exfalso
        simp only at h
        split at h
        · simp [hm] at h
        · simp only at h
          split at h
          · cases st <;> simp [hm] at h
          · simp [hm] at h
      | done st sl ar now =>
        simp only at h
        split at h
        · simp [hm] at h
        · simp [hm] at h
        · rename_i r ht
          simp only [reschedule, hm, Bool.false_or] at h
          exact ⟨st, sl, ar, now, r, rfl, ht, h⟩
      | pollRequest now => exfalso; simp only at h; split at h <;> simp [hm, reschedule] at h
      | tick e =>
        exfalso
        have hr := tick_res cfg s e
        simp only at h
        generalize (tick cfg s e).1 = s' at hr h
        generalize (tick cfg s e).2 = a at hr
        cases hr <;> simp [hm] at h

theorem final_mustReboot (cfg : Cfg) (evs : List Ev) : ∀ s, (final cfg s evs).mustReboot = true → s.mustReboot = true ∨ ∃ t ∈ trace cfg s evs, asksReboot cfg t := by
  induction evs with
  | nil => intro s h; exact Or.inl h
  | cons e l ih =>
    intro s h
    rcases ih _ h with h | ⟨t, ht, ha⟩
    · rcases step_mustReboot cfg s e h with h | h
      · exact Or.inl h
      · exact Or.inr ⟨_, List.mem_cons_self, h⟩
    · exact Or.inr ⟨t, List.mem_cons_of_mem _ ht, ha⟩

/-- **C54.** In any history: the server is polled, or the reboot command run, only if the timer has expired, the booted slot was marked good, nothing inhibits it and no installation is running; and the reboot command only after
an installation by the poller whose result fulfils the criteria for rebooting. -/
theorem C54_gate (cfg : Cfg) (before : List Ev) (ev : Ev) (h : .poll ∈ (step cfg (final cfg {} before) ev).2 ∨ .reboot ∈ (step cfg (final cfg {} before) ev).2) :
    ∃ e, ev = .tick e ∧ (final cfg {} before).next ≤ e.now ∧ (final cfg {} before).good = true ∧ e.inhibited = false ∧ (final cfg {} before).thread = none ∧
      (.reboot ∈ (step cfg (final cfg {} before) ev).2 → ∃ t ∈ trace cfg {} before, asksReboot cfg t) := by
  obtain ⟨e, h1, _, _, h3, h4, h5, h6, h7, _⟩ := step_gate cfg _ ev h
  refine ⟨e, h1, h3, h5, h6, ?_, ?_⟩
  · have := (final_inv cfg before {} inv_init).1
    rw [h4] at this
    cases ht : (final cfg {} before).thread with
    | none => rfl
    | some j => rw [ht] at this; cases this
  · intro hr
    rcases final_mustReboot cfg before {} (h7 hr) with h | h
    · cases h
    · exact h

/-- the criteria for rebooting in words -/
theorem C54_criteria (cfg : Cfg) (status : Nat) (slots artifacts : Bool) (h : checkReboot cfg status slots artifacts = true) :
    ∃ crit, cfg.reboot = some crit ∧
      ((status ≠ 0 ∧ c!"failed-update" ∈ crit) ∨ (status = 0 ∧ ((slots = true ∧ c!"updated-slots" ∈ crit) ∨ (artifacts = true ∧ c!"updated-artifacts" ∈ crit)))) := by
  unfold checkReboot at h
  split at h
  · cases h
  · rename_i crit hc
    refine ⟨crit, hc, ?_⟩
    split at h
    · rename_i hs; exact Or.inl ⟨hs, by simpa using h⟩
    · rename_i hs
      right
      refine ⟨by simpa using hs, ?_⟩
      simp only [Bool.or_eq_true, Bool.and_eq_true, decide_eq_true_eq] at h
      rcases h with h | h
      · exact Or.inl ⟨h.2, h.1⟩
      · exact Or.inr ⟨h.2, h.1⟩

theorem step_inactive (cfg : Cfg) (s : St) (ev : Ev) (h : s.active = false) :
    (step cfg s ev).1.active = false ∧ .poll ∉ (step cfg s ev).2 ∧ .reboot ∉ (step cfg s ev).2 := by
  refine ⟨?_, ?_, ?_⟩
  · unfold step
    split
    · exact h
    · cases ev with
      | install k r =>
        simp only
        split
        · exact h
        · unfold installRun; split <;> exact h
      | auto p =>
        simp only
        split
        · exact h
        · split
          · exact h
          · unfold installRun; split <;> exact h
      | query => exact h
      | mark b st ok =>
        simp only
        split
        · exact h
        · simp only
          split
          · cases st <;> exact h
          · exact h
      | done st sl ar now => simp only; split <;> exact h
      | pollRequest now => simp only; split <;> exact h
      | tick e => simp [tick, h]
  · intro hp
    obtain ⟨_, _, _, ha, _⟩ := step_gate cfg s ev (Or.inl hp)
    rw [h] at ha; cases ha
  · intro hp
    obtain ⟨_, _, _, ha, _⟩ := step_gate cfg s ev (Or.inr hp)
    rw [h] at ha; cases ha

/-- **C54.** After the reboot command was run successfully, the poller does nothing any more. -/
theorem C54_after_reboot (cfg : Cfg) (s : St) (e : TickEnv) (hr : .reboot ∈ (step cfg s (.tick e)).2) (hok : e.rebootOk = true) (evs : List Ev) :
    .poll ∉ acts (trace cfg (step cfg s (.tick e)).1 evs) ∧ .reboot ∉ acts (trace cfg (step cfg s (.tick e)).1 evs) := by
  have hin : (step cfg s (.tick e)).1.active = false := by
    obtain ⟨e', he, hd, ha, h3, h4, h5, h6, h7, _⟩ := step_gate cfg s _ (Or.inr hr)
    cases he
    unfold step at hr ⊢
    rw [if_neg (by simp [hd])] at hr ⊢
    have hrun : s.running = false := by
      cases hrn : s.running with
      | false => rfl
      | true =>
        exfalso
        simp only [tick, hrn, ha] at hr
        simp at hr
    have hm : s.mustReboot = true := h7 (by unfold step; rw [if_neg (by simp [hd])]; exact hr)
    have hn : ¬ e.now < s.next := by omega
    simp only [tick, ha, hn, hrun, h4, h5, h6, hm, hok]
    simp
  generalize (step cfg s (.tick e)).1 = s' at hin
  induction evs generalizing s' with
  | nil => simp [trace, acts]
  | cons ev l ih =>
    obtain ⟨h1, h2, h3⟩ := step_inactive cfg s' ev hin
    obtain ⟨i1, i2⟩ := ih _ h1
    show .poll ∉ (step cfg s' ev).2 ++ acts (trace cfg (step cfg s' ev).1 l) ∧ .reboot ∉ (step cfg s' ev).2 ++ acts (trace cfg (step cfg s' ev).1 l)
    simp only [List.mem_append, not_or]
    exact ⟨⟨h2, i1⟩, h3, i2⟩

end Rauc.Daemon
