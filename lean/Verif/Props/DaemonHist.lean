import Verif.Props.Daemon

/-!
# C38, C39, C45, C54: the delays over histories, and histories that show what does not hold
-/

namespace Rauc.Daemon

/-! ## C38: the delay after any history -/

/-- the number of polls that failed since the last one that did not, and what the server offers -/
def track (cfg : Cfg) (p : Nat × Option Man) (t : St × Ev × List Act) : Nat × Option Man :=
  (match t.2.1 with
   | .tick e => if .poll ∈ t.2.2 then (if pollFails cfg (offer p.2 t) e.fetch then p.1 + 1 else 0) else p.1
   | _ => p.1,
   offer p.2 t)

theorem step_errors (cfg : Cfg) (s : St) (ev : Ev) (hd : (step cfg s ev).1.dead = false) :
    track cfg (s.errors, s.manifest) (s, ev, (step cfg s ev).2) = ((step cfg s ev).1.errors, (step cfg s ev).1.manifest) := by
  have hman := step_manifest cfg s ev
  unfold track
  rw [Prod.mk.injEq]
  refine ⟨?_, hman.symm⟩
  simp only [← hman]
  unfold step at hd hman ⊢
  split at hd
  · rename_i hdead
    rw [if_pos hdead]
    cases ev <;> simp
  · rename_i hdead
    rw [if_neg hdead]
    cases ev with
    | install k r =>
      simp only
      split
      · rfl
      · unfold installRun; split <;> rfl
    | auto p =>
      simp only
      split
      · rfl
      · split
        · rfl
        · unfold installRun; split <;> rfl
    | query => rfl
    | mark b st ok =>
      simp only
      split
      · rfl
      · simp only
        split
        · cases st <;> rfl
        · rfl
    | done st sl ar now => simp only; split <;> rfl
    | pollRequest now => simp only; split <;> rfl
    | tick e =>
      have hr := tick_res cfg s e
      simp only at hd ⊢
      generalize (tick cfg s e).1 = s' at hr hd ⊢
      generalize (tick cfg s e).2 = a at hr ⊢
      cases hr
      case pollError a m _ _ _ _ _ _ _ _ _ hf => simp [hf]
      case pollOk a m _ _ _ _ _ _ _ _ hf => simp [hf]
      case pollAbort m _ _ _ _ _ _ _ _ _ => simp at hd
      case install m v _ _ _ _ _ _ _ _ _ _ _ _ hf => simp [hf]
      all_goals simp

theorem step_dead (cfg : Cfg) (s : St) (ev : Ev) (h : s.dead = true) : (step cfg s ev).1.dead = true := by
  unfold step; rw [if_pos h]; exact h

theorem final_dead (cfg : Cfg) (evs : List Ev) : ∀ s : St, s.dead = true → (final cfg s evs).dead = true := by
  induction evs with
  | nil => intro s h; exact h
  | cons e l ih => intro s h; exact ih _ (step_dead cfg s e h)

theorem final_errors (cfg : Cfg) (evs : List Ev) : ∀ s : St, (final cfg s evs).dead = false →
    (trace cfg s evs).foldl (track cfg) (s.errors, s.manifest) = ((final cfg s evs).errors, (final cfg s evs).manifest) := by
  induction evs with
  | nil => intro s _; rfl
  | cons e l ih =>
    intro s hd
    have hd' : (step cfg s e).1.dead = false := by
      cases h : (step cfg s e).1.dead with
      | false => rfl
      | true => rw [show final cfg s (e :: l) = final cfg (step cfg s e).1 l from rfl, final_dead cfg l _ h] at hd; cases hd
    simp only [trace, List.foldl_cons]
    rw [step_errors cfg s e hd']
    exact ih _ hd

/-- a regular delay is the one for the number of failed polls -/
theorem step_schedule (cfg : Cfg) (s : St) (ev : Ev) (ms : Int) (h : .schedule true ms ∈ (step cfg s ev).2) :
    ms = delayNormal cfg (step cfg s ev).1.errors ∧ (step cfg s ev).1.dead = false := by
  unfold step at h ⊢
  split at h
  · cases h
  · rename_i hd
    have hd' : s.dead = false := by simpa using hd
    rw [if_neg hd]
    cases ev with
    | install k r =>
      exfalso
      simp only at h
      split at h
      · simp at h
      · unfold installRun at h
        split at h <;> simp at h
    | auto p =>
      exfalso
      simp only at h
      split at h
      · simp at h
      · split at h
        · simp at h
        · unfold installRun at h
          split at h <;> simp at h
    | query => exfalso; simp only at h; split at h <;> simp at h
    | mark b st ok => exfalso; simp only at h; split at h <;> simp at h
    | done st sl ar now => exfalso; simp only at h; split at h <;> simp [reschedule] at h
    | pollRequest now => exfalso; simp only at h; split at h <;> simp [reschedule] at h
    | tick e =>
      have hr := tick_res cfg s e
      simp only at h ⊢
      generalize (tick cfg s e).1 = s' at hr ⊢
      generalize (tick cfg s e).2 = a at hr h
      cases hr <;> simp at h
      case pollError => exact ⟨h, hd'⟩
      case pollOk => exact ⟨h, hd'⟩

/-- **C38, partial** (intervals below 24 days, as above). In any history, the delay scheduled after a poll is `min (interval * (n + 1)) maximum`, where `n` is the number of polls that failed since
the last successful one; so it lies between the interval and the maximum, and a success brings it back to the interval. -/
theorem C38_history_partial (interval max : Option Int) (i m : Int) (h : Meant interval max i m) (hm : m ≤ 2147483) (cfg : Cfg) (hc : Configured cfg interval max)
    (before : List Ev) (ev : Ev) (ms : Int) (hs : .schedule true ms ∈ (step cfg (final cfg {} before) ev).2)
    (hn : ((trace cfg {} (before ++ [ev])).foldl (track cfg) (0, none)).1 < 4294967294) :
    ms = min (i * 1000 * (((trace cfg {} (before ++ [ev])).foldl (track cfg) (0, none)).1 + 1)) (m * 1000) ∧ i * 1000 ≤ ms ∧ ms ≤ m * 1000 ∧
      (((trace cfg {} (before ++ [ev])).foldl (track cfg) (0, none)).1 = 0 → ms = i * 1000) := by
  obtain ⟨h1, h2⟩ := step_schedule cfg _ ev ms hs
  have hfin : final cfg {} (before ++ [ev]) = (step cfg (final cfg {} before) ev).1 := by
    have : ∀ (l : List Ev) (s : St), final cfg s (l ++ [ev]) = (step cfg (final cfg s l) ev).1 := by
      intro l
      induction l with
      | nil => intro s; rfl
      | cons e l ih => intro s; exact ih _
    exact this before {}
  have he := final_errors cfg (before ++ [ev]) {} (by rw [hfin]; exact h2)
  have he1 : ((trace cfg {} (before ++ [ev])).foldl (track cfg) (0, none)).1 = (step cfg (final cfg {} before) ev).1.errors := by
    rw [← hfin]; exact congrArg Prod.fst he
  rw [he1] at hn ⊢
  obtain ⟨b1, b2, b3, _, b5⟩ := C38_backoff_partial interval max i m h hm cfg hc _ hn
  rw [h1]
  exact ⟨b3, b1, b2, fun h0 => by rw [h0]; exact b5⟩

/-! ## Histories -/

def exCfg : Cfg :=
  { intervalMs := 60000
    maxMs := 240000
    candidate := [c!"higher-semver"]
    install := some [c!"always"]
    reboot := some [c!"updated-slots"]
    system := c!"1.0.0" }

def exTick (now : Int) (f : Fetch) : Ev := .tick { now := now, later := now, inhibited := false, fetch := f, rebootOk := true }

def manA : Man := ⟨some c!"1.1.0", c!"aa"⟩
def manB : Man := ⟨some c!"1.2.0", c!"bb"⟩

/-- marked good, then polled: the poller installs; then it reboots -/
def exHistory : List Ev := [.mark true .good true, exTick 1000000 (.bundle manA), .done 0 true false 2000000, exTick 40000000 .noContent]

set_option maxRecDepth 8000 in
example : acts (trace exCfg {} exHistory) =
    [.accept, .poll, .start ⟨.poller, some c!"aa"⟩ (some manA), .completed 0, .schedule false 30000, .reboot] := by decide

/-- errors: 2 minutes, 3 minutes, 4 minutes, 4 minutes; then 1 minute again -/
def exErrors : List Ev :=
  [.mark true .good true, exTick 0 .error, exTick 1000000000 .error, exTick 2000000000 .error, exTick 3000000000 .error, exTick 4000000000 .notModified]

set_option maxRecDepth 8000 in
example : acts (trace exCfg {} exErrors) =
    [.accept, .poll, .schedule true 120000, .poll, .schedule true 180000, .poll, .schedule true 240000, .poll, .schedule true 240000, .poll, .schedule true 60000] := by decide

example : Configured exCfg (some 60) none ∧ Meant (some 60) none 60 240 := ⟨by unfold Configured; decide, ⟨rfl, rfl⟩⟩

/-- **C39, finding.** Only the last attempt is remembered: if the server offers A, B and A again, A is installed twice. -/
theorem C39_finding_alternating : ∃ evs, pollerStarts (acts (trace exCfg {} evs)) = [manA.hash, manB.hash, manA.hash] := by
  refine ⟨[.mark true .good true, exTick 1000000 (.bundle manA), .done 1 false false 2000000, exTick 40000000 (.bundle manB), .done 1 false false 50000000, exTick 90000000 (.bundle manA)], ?_⟩
  set_option maxRecDepth 8000 in decide

/-- **C39, finding.** A bundle without a version aborts the service. -/
theorem C39_finding_no_version : ∃ evs, (final exCfg {} evs).dead = true ∧ acts (trace exCfg {} evs) = [.accept, .poll] :=
  ⟨[.mark true .good true, exTick 1000000 (.bundle ⟨none, c!"aa"⟩)], by set_option maxRecDepth 8000 in decide⟩

/-- **C45, finding.** A request to install that is refused because an installation is running sets the published operation to "idle", although the installation goes on. -/
theorem C45_finding_busy : ∃ evs, (final exCfg {} evs).thread ≠ none ∧ (final exCfg {} evs).installing = false ∧
    acts (trace exCfg {} evs) = [.start ⟨.service, none⟩ none, .accept, .refuse] :=
  ⟨[.install true none, .install true none], by set_option maxRecDepth 8000 in decide⟩

/-- **C45, finding.** An automatic installation is not published as "installing". -/
theorem C45_finding_auto : ∃ evs, (final exCfg {} evs).thread ≠ none ∧ (final exCfg {} evs).installing = false ∧ evs = [.auto true] :=
  ⟨[.auto true], by set_option maxRecDepth 8000 in decide⟩

/-- **C45, finding.** If an installation was requested before the automatic one starts, the service is aborted in the middle of it. -/
theorem C45_finding_auto_abort : ∃ evs, (final exCfg {} evs).dead = true ∧ evs = [.install true none, .auto true] :=
  ⟨[.install true none, .auto true], by set_option maxRecDepth 8000 in decide⟩

/-- without these two, "installing" is what is published -/
example : (final exCfg {} [.install true none, .query, .mark true .good true]).installing = true := by decide

end Rauc.Daemon
