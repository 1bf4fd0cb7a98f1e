import Verif.Model.ServiceLife
import Verif.Props.Daemon
import Mathlib.Tactic.Tauto

/-!
# C95: the life of the service process
-/

namespace Rauc.ServiceLife

/-! ## Specification -/

/-- the iterations of the main loop in a schedule -/
def iterations : List Choice → List (List Cb)
  | [] => []
  | .iteration l :: r => l :: iterations r
  | _ :: r => iterations r

/-- an iteration that ends the loop: a SIGTERM or the loss of the bus (name) is handled in it -/
def Stops (l : List Cb) : Prop := .sigterm ∈ l ∨ .nameLost ∈ l

instance (l : List Cb) : Decidable (Stops l) := inferInstanceAs (Decidable (_ ∨ _))

/-- the number of steps of the main thread in a schedule -/
def mains : List Choice → Nat
  | [] => 0
  | .main :: r => mains r + 1
  | _ :: r => mains r

/-! ## Lemmas -/

theorem run_append (c : Cfg) (s : St) (a b : List Choice) : run c s (a ++ b) = run c (run c s a) b := by
  induction a generalizing s with
  | nil => rfl
  | cons x a ih => exact ih _

theorem use_other (s : St) (u : Use) (h1 : s.phase ≠ .dropped) (h2 : s.phase ≠ .cleaned) : use s u = s := by
  unfold use
  split
  · next h => exact absurd h h1
  · next h => exact absurd h h2
  · rfl

theorem step_ended (c : Cfg) (s : St) (x : Choice) (h : alive s = false) : step c s x = s := by
  have hp : s.phase ≠ .loop ∧ s.phase ≠ .left ∧ s.phase ≠ .dropped ∧ s.phase ≠ .cleaned := by
    refine ⟨?_, ?_, ?_, ?_⟩ <;> (intro e; simp [alive, e] at h)
  obtain ⟨h1, h2, h3, h4⟩ := hp
  cases x with
  | iteration l => dsimp only [step]; rw [if_neg h1]
  | main =>
    dsimp only [step]; unfold mainStep
    split
    · next e => exact absurd e h2
    · next e => exact absurd e h3
    · next e => exact absurd e h4
    · rfl
  | thread u =>
    dsimp only [step]
    rw [use_other s u h3 h4]; simp
  | kill => dsimp only [step]; rw [h]; simp

theorem run_ended (c : Cfg) (l : List Choice) (s : St) (h : alive s = false) : run c s l = s := by
  induction l with
  | nil => rfl
  | cons x l ih => rw [run, step_ended c s x h]; exact ih

theorem daemon_facts (c : Cfg) (s : St) (e : Daemon.Ev) :
    (daemon c s e).ret = s.ret ∧ (daemon c s e).quit = s.quit ∧ (daemon c s e).handler = s.handler ∧ (daemon c s e).bad = s.bad ∧
    (daemon c s e).exported = s.exported ∧ (daemon c s e).d = (Daemon.step c.poll s.d e).1 ∧ (daemon c s e).acts = s.acts ++ (Daemon.step c.poll s.d e).2 ∧
    ((daemon c s e).phase = s.phase ∨ (daemon c s e).phase = .aborted) := by
  refine ⟨rfl, rfl, rfl, rfl, rfl, rfl, rfl, ?_⟩
  unfold daemon
  dsimp only
  split
  · exact Or.inr rfl
  · exact Or.inl rfl

/-- what a callback does to the flags, and that it makes at most one step of the daemon -/
theorem cb_facts (c : Cfg) (s : St) (x : Cb) (hp : s.phase = .loop) (hq : s.handler = false → s.quit = true) :
    (cb c s x).quit = (s.quit || decide (x = .sigterm ∨ x = .nameLost)) ∧ (cb c s x).ret = (s.ret && decide (x ≠ .nameLost)) ∧
    ((cb c s x).handler = false → (cb c s x).quit = true) ∧ (cb c s x).bad = s.bad ∧ ((cb c s x).phase = .loop ∨ (cb c s x).phase = .aborted) ∧
    ((cb c s x).d = s.d ∨ ∃ e, (cb c s x).d = (Daemon.step c.poll s.d e).1) := by
  cases x with
  | busAcquired e p =>
    unfold cb
    dsimp only
    split
    · exact ⟨by simp, by simp, hq, rfl, Or.inr rfl, Or.inl rfl⟩
    · split
      · exact ⟨by simp, by simp, hq, rfl, Or.inr rfl, Or.inl rfl⟩
      · exact ⟨by simp, by simp, hq, rfl, Or.inl hp, Or.inl rfl⟩
  | nameAcquired pr =>
    unfold cb
    dsimp only
    split
    · obtain ⟨h1, h2, h3, h4, h5, h6, h7, h8⟩ := daemon_facts c s (.auto pr)
      exact ⟨by rw [h2]; simp, by rw [h1]; simp, by rw [h3, h2]; exact hq, h4, by rw [hp] at h8; exact h8, Or.inr ⟨_, h6⟩⟩
    · exact ⟨by simp, by simp, hq, rfl, Or.inl hp, Or.inl rfl⟩
  | nameLost => exact ⟨by simp [cb], by simp [cb], fun _ => rfl, rfl, Or.inl hp, Or.inl rfl⟩
  | sigterm =>
    unfold cb
    dsimp only
    split
    · exact ⟨by simp, by simp, fun _ => rfl, rfl, Or.inl hp, Or.inl rfl⟩
    · next h => exact ⟨by simp [hq (by simpa using h)], by simp, hq, rfl, Or.inl hp, Or.inl rfl⟩
  | other e =>
    have key : ∀ e, (daemon c s e).quit = (s.quit || decide (Cb.other e = .sigterm ∨ Cb.other e = .nameLost)) ∧ (daemon c s e).ret = (s.ret && decide (Cb.other e ≠ .nameLost)) ∧
        ((daemon c s e).handler = false → (daemon c s e).quit = true) ∧ (daemon c s e).bad = s.bad ∧ ((daemon c s e).phase = .loop ∨ (daemon c s e).phase = .aborted) ∧
        ((daemon c s e).d = s.d ∨ ∃ e', (daemon c s e).d = (Daemon.step c.poll s.d e').1) := by
      intro e
      obtain ⟨h1, h2, h3, h4, h5, h6, h7, h8⟩ := daemon_facts c s e
      exact ⟨by rw [h2]; simp, by rw [h1]; simp, by rw [h3, h2]; exact hq, h4, by rw [hp] at h8; exact h8, Or.inr ⟨_, h6⟩⟩
    have same : s.quit = (s.quit || decide (Cb.other e = .sigterm ∨ Cb.other e = .nameLost)) ∧ s.ret = (s.ret && decide (Cb.other e ≠ .nameLost)) ∧
        (s.handler = false → s.quit = true) ∧ s.bad = s.bad ∧ (s.phase = .loop ∨ s.phase = .aborted) ∧ (s.d = s.d ∨ ∃ e', s.d = (Daemon.step c.poll s.d e').1) :=
      ⟨by simp, by simp, hq, rfl, Or.inl hp, Or.inl rfl⟩
    unfold cb
    cases e <;> dsimp only
    case auto => exact same
    all_goals split
    all_goals first | exact same | exact key _

theorem cbs_phase (c : Cfg) (l : List Cb) : ∀ s : St, s.phase ≠ .loop → cbs c s l = s := by
  intro s h
  cases l with
  | nil => rfl
  | cons x l => rw [cbs, if_neg h]

theorem stops_cons (x : Cb) (l : List Cb) : (decide (x = .sigterm ∨ x = .nameLost) || decide (Stops l)) = decide (Stops (x :: l)) := by
  rw [Bool.eq_iff_iff]
  rw [Bool.or_eq_true, decide_eq_true_eq, decide_eq_true_eq, decide_eq_true_eq]
  unfold Stops
  rw [List.mem_cons, List.mem_cons]
  constructor
  · rintro ((rfl | rfl) | h | h) <;> simp_all
  · rintro ((rfl | h) | rfl | h) <;> simp_all

theorem lost_cons (x : Cb) (l : List Cb) : (decide (x ≠ .nameLost) && decide (.nameLost ∉ l)) = decide (.nameLost ∉ x :: l) := by
  rw [Bool.eq_iff_iff]
  simp only [Bool.and_eq_true, decide_eq_true_eq, List.mem_cons, ne_eq, not_or]
  exact ⟨fun ⟨a, b⟩ => ⟨fun h => a h.symm, b⟩, fun ⟨a, b⟩ => ⟨fun h => a h.symm, b⟩⟩

theorem cbs_facts (c : Cfg) (l : List Cb) : ∀ s : St, s.phase = .loop → (s.handler = false → s.quit = true) →
    ((cbs c s l).phase = .loop ∨ (cbs c s l).phase = .aborted) ∧ (cbs c s l).bad = s.bad ∧ (∃ evs, (cbs c s l).d = Daemon.final c.poll s.d evs) ∧
    ((cbs c s l).phase = .loop →
      (cbs c s l).quit = (s.quit || decide (Stops l)) ∧ (cbs c s l).ret = (s.ret && decide (.nameLost ∉ l)) ∧ ((cbs c s l).handler = false → (cbs c s l).quit = true)) := by
  induction l with
  | nil => intro s hp hq; exact ⟨Or.inl hp, rfl, ⟨[], rfl⟩, fun _ => ⟨by simp [cbs, Stops], by simp [cbs], hq⟩⟩
  | cons x l ih =>
    intro s hp hq
    rw [cbs, if_pos hp]
    obtain ⟨h1, h2, h3, h4, h5, h6⟩ := cb_facts c s x hp hq
    have hev : ∀ evs, ∃ evs', Daemon.final c.poll (cb c s x).d evs = Daemon.final c.poll s.d evs' := by
      intro evs
      rcases h6 with h6 | ⟨e, h6⟩
      · exact ⟨evs, by rw [h6]⟩
      · exact ⟨e :: evs, by rw [h6]; rfl⟩
    rcases h5 with h5 | h5
    · obtain ⟨i1, i2, ⟨evs, i3⟩, i4⟩ := ih _ h5 h3
      obtain ⟨evs', he⟩ := hev evs
      refine ⟨i1, i2.trans h4, ⟨evs', i3.trans he⟩, fun hl => ?_⟩
      obtain ⟨j1, j2, j3⟩ := i4 hl
      refine ⟨?_, ?_, j3⟩
      · rw [j1, h1, Bool.or_assoc]
        congr 1
        exact stops_cons x l
      · rw [j2, h2, Bool.and_assoc]
        congr 1
        exact lost_cons x l
    · rw [cbs_phase c l _ (by rw [h5]; simp)]
      obtain ⟨evs', he⟩ := hev []
      exact ⟨Or.inr h5, h4, ⟨evs', he⟩, fun h => by rw [h5] at h; cases h⟩

/-- the states of the main loop between two iterations -/
structure InLoop (s : St) : Prop where
  phase : s.phase = .loop
  quit : s.quit = false
  ret : s.ret = true
  handler : s.handler = true
  bad : s.bad = false

theorem iterate_facts (c : Cfg) (s : St) (l : List Cb) (h : InLoop s) :
    (∃ evs, (iterate c s l).d = Daemon.final c.poll s.d evs) ∧ (iterate c s l).bad = false ∧
    ((iterate c s l).phase = .aborted ∨
     (¬ Stops l ∧ InLoop (iterate c s l)) ∨
     (Stops l ∧ (iterate c s l).phase = .left ∧ (iterate c s l).ret = decide (.nameLost ∉ l))) := by
  obtain ⟨h1, h2, h3, h4⟩ := cbs_facts c l s h.phase (by rw [h.handler]; simp)
  unfold iterate
  dsimp only
  have hnh : ∀ l' : List Cb, .sigterm ∉ l' → ∀ s : St, s.handler = true → (cbs c s l').handler = true := by
    intro l'
    induction l' with
    | nil => intro _ s hs; exact hs
    | cons x l' ih =>
      intro hx s hs
      simp only [List.mem_cons, not_or] at hx
      rw [cbs]
      split
      · refine ih hx.2 _ ?_
        cases x with
        | sigterm => exact absurd rfl hx.1
        | busAcquired e p => unfold cb; dsimp only; split; exact hs; split <;> exact hs
        | nameAcquired p => unfold cb; dsimp only; split <;> exact hs
        | nameLost => exact hs
        | other e => cases e <;> (unfold cb; dsimp only) <;> first | exact hs | (split <;> exact hs)
      · exact hs
  split
  · next hq =>
    obtain ⟨j1, j2, j3⟩ := h4 hq.1
    refine ⟨h3, h2.trans h.bad, Or.inr (Or.inr ⟨?_, rfl, ?_⟩)⟩
    · have := hq.2; rw [j1, h.quit] at this; simpa using this
    · change (cbs c s l).ret = _
      rw [j2, h.ret]; simp
  · next hq =>
    refine ⟨h3, h2.trans h.bad, ?_⟩
    rcases h1 with h1 | h1
    · obtain ⟨j1, j2, j3⟩ := h4 h1
      have hn : ¬ Stops l := by
        intro hs
        exact hq ⟨h1, by rw [j1]; simp [hs]⟩
      refine Or.inr (Or.inl ⟨hn, h1, ?_, ?_, ?_, h2.trans h.bad⟩)
      · rw [j1, h.quit]; simp [hn]
      · rw [j2, h.ret]; simp [show Cb.nameLost ∉ l from fun hm => hn (Or.inr hm)]
      · exact hnh l (fun hm => hn (Or.inl hm)) s h.handler
    · exact Or.inl h1

/-- after the loop, the data of the daemon and the result do not change any more -/
theorem after_facts (c : Cfg) (sched : List Choice) : ∀ s : St, s.phase ≠ .loop →
    (run c s sched).d = s.d ∧ (run c s sched).acts = s.acts ∧ (run c s sched).ret = s.ret ∧ (run c s sched).phase ≠ .loop ∧
    (∀ n, (run c s sched).phase = .exited n → s.phase = .exited n ∨ (alive s = true ∧ n = if s.ret then 0 else 1)) := by
  induction sched with
  | nil => intro s h; exact ⟨rfl, rfl, rfl, h, fun n hn => Or.inl hn⟩
  | cons x l ih =>
    intro s h
    have key : (step c s x).d = s.d ∧ (step c s x).acts = s.acts ∧ (step c s x).ret = s.ret ∧ (step c s x).phase ≠ .loop ∧
        (∀ n, (step c s x).phase = .exited n → s.phase = .exited n ∨ (alive s = true ∧ n = if s.ret then 0 else 1)) ∧
        (alive (step c s x) = true → alive s = true) := by
      cases x with
      | iteration b =>
        rw [step, if_neg h]
        exact ⟨rfl, rfl, rfl, h, fun n hn => Or.inl hn, id⟩
      | main =>
        dsimp only [step]; unfold mainStep
        split <;> next hp => simp_all [alive]
      | thread u =>
        dsimp only [step]
        split
        · unfold use
          split
          · next hp => cases u <;> simp_all [alive]
          · next hp => cases u <;> simp_all [alive]
          · exact ⟨rfl, rfl, rfl, h, fun n hn => Or.inl hn, id⟩
        · exact ⟨rfl, rfl, rfl, h, fun n hn => Or.inl hn, id⟩
      | kill =>
        dsimp only [step]
        split
        · exact ⟨rfl, rfl, rfl, by simp, fun n hn => by simp at hn, fun h => by simp [alive] at h⟩
        · exact ⟨rfl, rfl, rfl, h, fun n hn => Or.inl hn, id⟩
    obtain ⟨k1, k2, k3, k4, k5, k6⟩ := key
    obtain ⟨i1, i2, i3, i4, i5⟩ := ih _ k4
    refine ⟨i1.trans k1, i2.trans k2, i3.trans k3, i4, fun n hn => ?_⟩
    rcases i5 n hn with h1 | ⟨h1, h2⟩
    · exact k5 n h1
    · exact Or.inr ⟨k6 h1, by rw [h2, k3]⟩

/-! ## The theorems -/

/-- the state in which the main loop is entered -/
theorem start_inLoop (c : Cfg) (d : Daemon.St) (h : (start c true true d).phase = .loop) : InLoop (start c true true d) := by
  unfold start at h ⊢
  simp only [Bool.not_true, Bool.false_eq_true, if_false] at h ⊢
  split at h
  · cases h
  · next hc => rw [if_neg hc]; exact ⟨rfl, rfl, rfl, rfl, rfl⟩

/-- **C95.** If anything fails before the main loop (states of the slots, artifact repositories, polling configured without a known version of the system), the process ends with status 1 without having asked for the
bus name, and otherwise it asks for the name and enters the loop. -/
theorem C95_start (c : Cfg) (slots artifacts : Bool) (d : Daemon.St) :
    (slots = true ∧ artifacts = true ∧ (c.url = true → c.version = true) →
      (start c slots artifacts d).phase = .loop ∧ (start c slots artifacts d).asked = true) ∧
    (¬ (slots = true ∧ artifacts = true ∧ (c.url = true → c.version = true)) →
      (start c slots artifacts d).phase = .exited 1 ∧ (start c slots artifacts d).asked = false ∧
      ∀ sched, (run c (start c slots artifacts d) sched).phase = .exited 1 ∧ (run c (start c slots artifacts d) sched).acts = []) := by
  unfold start
  constructor
  · rintro ⟨rfl, rfl, h⟩
    have : (c.url && !c.version) = false := by cases hu : c.url <;> simp_all
    simp [this]
  · intro h
    have hrun : ∀ s : St, s.phase = .exited 1 → ∀ sched, (run c s sched).phase = .exited 1 ∧ (run c s sched).acts = s.acts := by
      intro s hs sched
      rw [run_ended c sched s (by simp [alive, hs])]
      exact ⟨hs, rfl⟩
    split
    · exact ⟨rfl, rfl, hrun _ rfl⟩
    · split
      · exact ⟨rfl, rfl, hrun _ rfl⟩
      · split
        · exact ⟨rfl, rfl, hrun _ rfl⟩
        · exfalso
          apply h
          simp_all

/-- **C95.** Exit status, for every schedule of a service that was started: the process exits (by itself, that is not by a signal or an assertion) only after an iteration of the main loop in which a SIGTERM or the loss of the bus name was
handled, the first such iteration; with status 1 if the name was lost in it, with status 0 if it was not (so a SIGTERM was handled). -/
theorem C95_status (c : Cfg) (sched : List Choice) : ∀ s : St, InLoop s → ∀ n, (run c s sched).phase = .exited n →
    ∃ pre b post, iterations sched = pre ++ b :: post ∧ (∀ x ∈ pre, ¬ Stops x) ∧
      ((n = 1 ∧ .nameLost ∈ b) ∨ (n = 0 ∧ .sigterm ∈ b ∧ .nameLost ∉ b)) := by
  induction sched with
  | nil => intro s h n hn; rw [run, h.phase] at hn; cases hn
  | cons x l ih =>
    intro s h n hn
    rw [run] at hn
    cases x with
    | iteration b =>
      rw [step, if_pos h.phase] at hn
      obtain ⟨-, -, h3⟩ := iterate_facts c s b h
      rcases h3 with h3 | ⟨hns, h3⟩ | ⟨hs, h3, h4⟩
      · have := (after_facts c l _ (by rw [h3]; simp)).2.2.2.2 n hn
        rw [h3] at this
        simp [alive, h3] at this
      · obtain ⟨pre, b', post, e1, e2, e3⟩ := ih _ h3 n hn
        exact ⟨b :: pre, b', post, by rw [iterations, e1]; rfl, fun x hx => by
          rcases List.mem_cons.1 hx with rfl | hx
          · exact hns
          · exact e2 x hx, e3⟩
      · have := (after_facts c l _ (by rw [h3]; simp)).2.2.2.2 n hn
        rw [h3] at this
        refine ⟨[], b, iterations l, rfl, by simp, ?_⟩
        rcases this with h5 | ⟨-, h5⟩
        · cases h5
        · rw [h4] at h5
          by_cases hl : Cb.nameLost ∈ b
          · simp [hl] at h5; exact Or.inl ⟨h5, hl⟩
          · simp [hl] at h5
            exact Or.inr ⟨h5, hs.resolve_right hl, hl⟩
    | main =>
      have : step c s .main = s := by dsimp only [step]; unfold mainStep; rw [h.phase]
      rw [this] at hn
      exact ih s h n hn
    | thread u =>
      have : step c s (.thread u) = s := by dsimp only [step]; rw [use_other s u (by rw [h.phase]; simp) (by rw [h.phase]; simp)]; simp
      rw [this] at hn
      exact ih s h n hn
    | kill =>
      have hk : step c s .kill = { s with phase := .killed } := by dsimp only [step]; unfold alive; rw [h.phase]; rfl
      rw [hk] at hn
      have := (after_facts c l _ (by simp)).2.2.2.2 n hn
      simp [alive] at this

/-- **C95.** The service stops when it is told to: an iteration that handles a SIGTERM or the loss of the name is the last one (unless a callback in it aborts the process). After it, nothing is handled and nothing is done any more, and if no
installation is running, every schedule in which the main thread gets on leads to the end of the process with the status above, without abort and without use of freed data. -/
theorem C95_stop (c : Cfg) (s : St) (h : InLoop s) (b : List Cb) (hs : Stops b) :
    ((iterate c s b).phase = .left ∨ (iterate c s b).phase = .aborted) ∧
    (∀ sched, (run c (iterate c s b) sched).d = (iterate c s b).d ∧ (run c (iterate c s b) sched).acts = (iterate c s b).acts) ∧
    ((iterate c s b).phase = .left → (iterate c s b).d.thread = none → ∀ sched, .kill ∉ sched →
      (run c (iterate c s b) sched).bad = false ∧ (run c (iterate c s b) sched).phase ≠ .aborted ∧
      (3 ≤ mains sched → (run c (iterate c s b) sched).phase = .exited (if .nameLost ∈ b then 1 else 0))) := by
  obtain ⟨-, hbad, h3⟩ := iterate_facts c s b h
  have hph : (iterate c s b).phase = .left ∨ (iterate c s b).phase = .aborted := by
    rcases h3 with h3 | ⟨hns, -⟩ | ⟨-, h3, -⟩
    · exact Or.inr h3
    · exact absurd hs hns
    · exact Or.inl h3
  have hne : (iterate c s b).phase ≠ .loop := by rcases hph with h | h <;> rw [h] <;> simp
  refine ⟨hph, fun sched => ⟨(after_facts c sched _ hne).1, (after_facts c sched _ hne).2.1⟩, ?_⟩
  intro hleft hnone sched hk
  have hret : (iterate c s b).ret = decide (.nameLost ∉ b) := by
    rcases h3 with h3 | ⟨hns, -⟩ | ⟨-, -, h3⟩
    · rw [h3] at hleft; cases hleft
    · exact absurd hs hns
    · exact h3
  generalize iterate c s b = t at *
  have key : ∀ (sched : List Choice) (t : St), .kill ∉ sched → t.d.thread = none → t.bad = false →
      (t.phase = .left ∨ t.phase = .dropped ∨ t.phase = .cleaned ∨ t.phase = .exited (if t.ret then 0 else 1)) →
      (run c t sched).bad = false ∧ (run c t sched).phase ≠ .aborted ∧
      ((if t.phase = .left then 3 else if t.phase = .dropped then 2 else if t.phase = .cleaned then 1 else 0) ≤ mains sched → (run c t sched).phase = .exited (if t.ret then 0 else 1)) := by
    intro sched
    induction sched with
    | nil =>
      intro t _ _ hb ht
      refine ⟨hb, ?_, ?_⟩
      · rcases ht with ht | ht | ht | ht <;> simp [run, ht]
      · rcases ht with ht | ht | ht | ht <;> simp [run, ht, mains]
    | cons x l ih =>
      intro t hk hn hb ht
      simp only [List.mem_cons, not_or] at hk
      rw [run]
      cases x with
      | iteration q =>
        have : step c t (.iteration q) = t := by
          unfold step
          rcases ht with ht | ht | ht | ht <;> simp [ht]
        rw [this]; exact ih t hk.2 hn hb ht
      | thread u =>
        have : step c t (.thread u) = t := by unfold step; simp [hn]
        rw [this]; exact ih t hk.2 hn hb ht
      | kill => exact absurd rfl hk.1
      | main =>
        rcases ht with ht | ht | ht | ht
        · have e : step c t .main = { t with phase := .dropped, asked := false, exported := false } := by dsimp only [step]; unfold mainStep; rw [ht]
          obtain ⟨i1, i2, i3⟩ := ih (step c t .main) hk.2 (by rw [e]; exact hn) (by rw [e]; exact hb) (by rw [e]; simp)
          refine ⟨i1, i2, fun hm => ?_⟩
          have := i3 (by rw [e]; simp [ht, mains] at hm ⊢; omega)
          rw [this, e]
        · have e : step c t .main = { t with phase := .cleaned } := by dsimp only [step]; unfold mainStep; rw [ht]
          obtain ⟨i1, i2, i3⟩ := ih (step c t .main) hk.2 (by rw [e]; exact hn) (by rw [e]; exact hb) (by rw [e]; simp)
          refine ⟨i1, i2, fun hm => ?_⟩
          have := i3 (by rw [e]; simp [ht, mains] at hm ⊢; omega)
          rw [this, e]
        · have e : step c t .main = { t with phase := .exited (if t.ret then 0 else 1) } := by dsimp only [step]; unfold mainStep; rw [ht]
          obtain ⟨i1, i2, i3⟩ := ih (step c t .main) hk.2 (by rw [e]; exact hn) (by rw [e]; exact hb) (by rw [e]; simp)
          refine ⟨i1, i2, fun hm => ?_⟩
          have := i3 (by rw [e]; simp)
          rw [this, e]
        · have e : step c t .main = t := by dsimp only [step]; unfold mainStep; rw [ht]
          rw [e]
          obtain ⟨i1, i2, i3⟩ := ih t hk.2 hn hb (by simp [ht])
          exact ⟨i1, i2, fun hm => i3 (by simp [ht])⟩
  obtain ⟨k1, k2, k3⟩ := key sched t hk hnone hbad (Or.inl hleft)
  refine ⟨k1, k2, fun hm => ?_⟩
  rw [k3 (by simpa [hleft] using hm), hret]
  by_cases hl : Cb.nameLost ∈ b <;> simp [hl]

/-- **C95.** All that is proved about the service and the poller (one installation at a time, polls and reboots only when allowed, one automatic installation per bundle) holds during the whole life of the process: its data is always the result of a history
of the callbacks of `Model/Daemon`. In particular the process is busy exactly if there is an installation thread; and freed data is used only if the loop was left while an installation was running. -/
theorem C95_history (c : Cfg) (sched : List Choice) : ∀ s : St, InLoop s → Daemon.Inv s.d →
    (∃ evs, (run c s sched).d = Daemon.final c.poll s.d evs) ∧ Daemon.Inv (run c s sched).d ∧
    ((run c s sched).bad = true → (run c s sched).d.thread.isSome = true ∧ ∃ b ∈ iterations sched, Stops b) := by
  have fin : ∀ s d', Daemon.Inv s → (∃ evs, d' = Daemon.final c.poll s evs) → Daemon.Inv d' := by
    rintro s d' hi ⟨evs, rfl⟩
    exact Daemon.final_inv c.poll evs s hi
  have app : ∀ (a b : List Daemon.Ev) (s : Daemon.St), Daemon.final c.poll (Daemon.final c.poll s a) b = Daemon.final c.poll s (a ++ b) := by
    intro a
    induction a with
    | nil => intro b s; rfl
    | cons x a ih => intro b s; exact ih b _
  have badAfter : ∀ (l : List Choice) (s : St), s.phase ≠ .loop → s.bad = false → (run c s l).bad = true → s.d.thread.isSome = true := by
    intro l
    induction l with
    | nil => intro s _ hb hb'; rw [run, hb] at hb'; cases hb'
    | cons x l ih =>
      intro s hp hb hb'
      by_cases ht : s.d.thread.isSome = true
      · exact ht
      · have h1 := after_facts c [x] s hp
        have h2 : (step c s x).bad = false := by
          cases x with
          | iteration b => rw [step, if_neg hp]; exact hb
          | main => dsimp only [step]; unfold mainStep; split <;> exact hb
          | thread u => rw [step, if_neg ht]; exact hb
          | kill => dsimp only [step]; split <;> exact hb
        have := ih (step c s x) h1.2.2.2.1 h2 hb'
        rwa [show (step c s x).d = s.d from h1.1] at this
  induction sched with
  | nil => intro s h hi; exact ⟨⟨[], rfl⟩, hi, fun hb => by rw [run, h.bad] at hb; cases hb⟩
  | cons x l ih =>
    intro s h hi
    rw [run]
    cases x with
    | iteration b =>
      rw [step, if_pos h.phase]
      obtain ⟨⟨evs, h1⟩, h2, h3⟩ := iterate_facts c s b h
      have hi' : Daemon.Inv (iterate c s b).d := fin _ _ hi ⟨evs, h1⟩
      rcases h3 with h3 | ⟨hns, h3⟩ | ⟨hs, h3, h4⟩
      · obtain ⟨a1, -⟩ := after_facts c l (iterate c s b) (by rw [h3]; simp)
        refine ⟨⟨evs, by rw [a1, h1]⟩, by rw [a1]; exact hi', fun hb => ?_⟩
        exfalso
        rw [run_ended c l _ (by simp [alive, h3]), h2] at hb
        cases hb
      · obtain ⟨⟨evs', e1⟩, e2, e3⟩ := ih _ h3 hi'
        refine ⟨⟨evs ++ evs', by rw [e1, h1, app]⟩, e2, fun hb => ?_⟩
        obtain ⟨f1, b', f2, f3⟩ := e3 hb
        exact ⟨f1, b', by rw [iterations]; exact List.mem_cons_of_mem _ f2, f3⟩
      · obtain ⟨a1, -⟩ := after_facts c l (iterate c s b) (by rw [h3]; simp)
        refine ⟨⟨evs, by rw [a1, h1]⟩, by rw [a1]; exact hi', fun hb => ⟨?_, b, by simp [iterations], hs⟩⟩
        rw [a1]
        exact badAfter l _ (by rw [h3]; simp) h2 hb
    | main =>
      have : step c s .main = s := by dsimp only [step]; unfold mainStep; rw [h.phase]
      rw [this]; exact ih s h hi
    | thread u =>
      have : step c s (.thread u) = s := by dsimp only [step]; rw [use_other s u (by rw [h.phase]; simp) (by rw [h.phase]; simp)]; simp
      rw [this]; exact ih s h hi
    | kill =>
      have hk : step c s .kill = { s with phase := .killed } := by dsimp only [step]; unfold alive; rw [h.phase]; rfl
      rw [hk]
      rw [run_ended c l _ rfl]
      exact ⟨⟨[], rfl⟩, hi, fun hb => by rw [h.bad] at hb; cases hb⟩

/-- **C95.** Automatic installation: when the name was acquired and no installation is running, the configured file is installed exactly if it is there; without the option nothing is done. -/
theorem C95_auto (c : Cfg) (s : St) (present : Bool) (h : s.d.dead = false) (hb : s.d.busy = false) :
    (c.auto = true ∧ present = true → (cb c s (.nameAcquired present)).acts = s.acts ++ [.start ⟨.service, none⟩ none] ∧
      (cb c s (.nameAcquired present)).d.busy = true ∧ (cb c s (.nameAcquired present)).d.thread = some ⟨.service, none⟩ ∧ (cb c s (.nameAcquired present)).phase = s.phase) ∧
    (¬ (c.auto = true ∧ present = true) → (cb c s (.nameAcquired present)).acts = s.acts ∧ (cb c s (.nameAcquired present)).d = s.d) := by
  constructor
  · rintro ⟨ha, rfl⟩
    simp [cb, ha, daemon, Daemon.step, h, hb, Daemon.installRun]
  · intro hn
    unfold cb
    dsimp only
    split
    · next ha =>
      have : present = false := by simpa [ha] using hn
      subst this
      simp [daemon, Daemon.step, h]
    · exact ⟨rfl, rfl⟩

/-! ## Findings -/

def cfg0 : Cfg := { poll := { intervalMs := 60000, maxMs := 60000, candidate := [], install := none, reboot := none, system := c!"1" }, auto := true }

/-- **C95, finding.** A SIGTERM while an installation is running does not wait for it: the process ends with status 0 in the middle of the installation (for the slots, this is like a crash). -/
theorem C95_finding_unfinished :
    let s := run cfg0 (start cfg0 true true {}) [.iteration [.busAcquired true true], .iteration [.nameAcquired true], .iteration [.sigterm], .main, .main, .main]
    s.phase = .exited 0 ∧ s.d.thread.isSome = true ∧ s.acts = [.start ⟨.service, none⟩ none] := by decide +kernel

/-- **C95, finding.** Meanwhile the main thread frees the configuration, the slots and the status which the installation thread is using: it may use freed data, or abort the process (status by signal instead of 0). -/
theorem C95_finding_freed :
    (run cfg0 (start cfg0 true true {}) [.iteration [.busAcquired true true], .iteration [.nameAcquired true], .iteration [.sigterm], .main, .main, .thread .data]).bad = true ∧
    (run cfg0 (start cfg0 true true {}) [.iteration [.busAcquired true true], .iteration [.nameAcquired true], .iteration [.sigterm], .main, .thread .progress]).phase = .aborted := by decide +kernel

/-- **C95, finding.** A caller that does not wait for the name (it knows the connection) makes a service with automatic installation abort. -/
theorem C95_finding_auto_busy :
    (run cfg0 (start cfg0 true true {}) [.iteration [.busAcquired true true], .iteration [.other (.install true none)], .iteration [.nameAcquired true]]).phase = .aborted := by decide +kernel

/-! ## Non-vacuity -/

example : InLoop (start cfg0 true true {}) ∧ Daemon.Inv (start cfg0 true true {}).d := ⟨⟨rfl, rfl, rfl, rfl, rfl⟩, Daemon.inv_init⟩

/-- a service that installs a bundle, ends the installation and is then stopped -/
example : let s := run cfg0 (start cfg0 true true {}) [.iteration [.busAcquired true true], .iteration [.nameAcquired true], .thread .data, .iteration [.other (.done 0 true false 0)], .iteration [.sigterm], .main, .main, .main]
    s.phase = .exited 0 ∧ s.d.thread = none ∧ s.bad = false := by decide +kernel

/-- one that loses the name in the iteration in which it is told to stop -/
example : (run cfg0 (start cfg0 true true {}) [.iteration [.nameLost, .sigterm], .main, .main, .main]).phase = .exited 1 := by decide +kernel

end Rauc.ServiceLife
