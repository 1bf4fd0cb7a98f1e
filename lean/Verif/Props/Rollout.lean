import Verif.Props.DaemonHist

/-!
# C105: a release that the server offers is tried and booted in bounded time
-/

namespace Rauc.Daemon

/-! ## Specification -/

/-- the times at which callbacks run do not go backwards (in microseconds since the boot); from `t` to `t'` -/
inductive Timed : Int → List Ev → Int → Prop
  | nil (t : Int) : Timed t [] t
  | tick {t t' : Int} {e : TickEnv} {l : List Ev} : t ≤ e.now → e.now ≤ e.later → Timed e.later l t' → Timed t (.tick e :: l) t'
  | done {t t' now : Int} {n : Nat} {a b : Bool} {l : List Ev} : t ≤ now → Timed now l t' → Timed t (.done n a b now :: l) t'
  | pollRequest {t t' now : Int} {l : List Ev} : t ≤ now → Timed now l t' → Timed t (.pollRequest now :: l) t'
  | install {t t' : Int} {k : Bool} {r : Option Str} {l : List Ev} : Timed t l t' → Timed t (.install k r :: l) t'
  | auto {t t' : Int} {p : Bool} {l : List Ev} : Timed t l t' → Timed t (.auto p :: l) t'
  | query {t t' : Int} {l : List Ev} : Timed t l t' → Timed t (.query :: l) t'
  | mark {t t' : Int} {b : Bool} {m : MarkState} {ok : Bool} {l : List Ev} : Timed t l t' → Timed t (.mark b m ok :: l) t'

/-- the longest time between two polls, in microseconds: the configured maximum (at least the short delay of 30 s) -/
def longest (cfg : Cfg) : Int := max 30000 cfg.maxMs * 1000

/-- the server offers this bundle: it sends it, or says that it has not changed since it was seen -/
def Offers (known : Option Man) (m : Man) (f : Fetch) : Prop := f = .bundle m ∨ (f = .notModified ∧ known = some m)

/-- nothing comes in between: nobody else starts an installation, marks the booted slot bad, or calls `Poll`; there is no inhibit file; the server offers `m`, and rebooting works -/
def Calm (known : Option Man) (m : Man) : Ev → Prop
  | .install keysOk _ => keysOk = false
  | .auto present => present = false
  | .query => True
  | .mark booted state _ => ¬ (booted = true ∧ state = .bad)
  | .done _ _ _ _ => True
  | .pollRequest _ => False
  | .tick e => e.inhibited = false ∧ Offers known m e.fetch ∧ e.rebootOk = true

/-- the service runs and polls, the booted slot was marked good, no installation is running, no reboot is due -/
structure Idle (s : St) : Prop where
  alive : s.dead = false
  active : s.active = true
  free : s.busy = false ∧ s.running = false ∧ s.thread = none
  good : s.good = true
  noReboot : s.mustReboot = false

/-- the configured criteria accept the bundle -/
def Wanted (cfg : Cfg) (m : Man) : Prop := ∃ v, m.version = some v ∧ checkCandidate cfg v = some true ∧ checkInstall cfg v = some true

/-- the timer fires at or after this time -/
def FiresAfter (t : Int) (evs : List Ev) : Prop := ∃ e, .tick e ∈ evs ∧ t ≤ e.now

/-! ## Proofs -/

theorem installRun_next (s : St) (j : Job) (m : Option Man) : (installRun s j m).1.next = s.next := by
  unfold installRun; split <;> rfl

theorem pollStep_next (cfg : Cfg) (s : St) (f : Fetch) : (pollStep cfg s f).1.next = s.next := by
  unfold pollStep
  dsimp only
  split
  · rfl
  · rfl
  · split
    · rfl
    · split
      · rfl
      · rfl
      · split
        · rfl
        · rfl
        · split
          · rfl
          · exact installRun_next _ _ _

theorem tick_next (cfg : Cfg) (s : St) (e : TickEnv) : (tick cfg s e).1.next = s.next ∨ ∃ ms, ms ≤ max 30000 cfg.maxMs ∧ (tick cfg s e).1.next = e.later + ms * 1000 := by
  have hs : delayShort ≤ max 30000 cfg.maxMs := by unfold delayShort; omega
  have hn : ∀ n, delayNormal cfg n ≤ max 30000 cfg.maxMs := by intro n; unfold delayNormal; omega
  unfold tick
  by_cases c1 : s.active = true
  rotate_left
  · rw [if_pos (by simp [c1])]; exact .inl rfl
  rw [if_neg (by simp [c1])]
  split; · exact .inl rfl
  split; · exact .inl rfl
  split; · exact .inr ⟨_, hs, rfl⟩
  split; · exact .inr ⟨_, hs, rfl⟩
  split; · exact .inr ⟨_, hs, rfl⟩
  split
  · split
    · exact .inl rfl
    · exact .inr ⟨_, hs, rfl⟩
  · dsimp only
    split
    · exact .inl (pollStep_next _ _ _)
    · exact .inr ⟨_, hn _, rfl⟩
    · split
      · exact .inl (pollStep_next _ _ _)
      · exact .inr ⟨_, hn _, rfl⟩

/-- **C105** Whatever has happened before, the next poll is never further away than the configured maximum. -/
theorem C105_due (cfg : Cfg) {t t' : Int} {evs : List Ev} (h : Timed t evs t') {s : St} (hs : s.next ≤ t + longest cfg) : (final cfg s evs).next ≤ t' + longest cfg := by
  induction h generalizing s with
  | nil t => exact hs
  | @tick t t' e l h1 h2 _ ih =>
    refine ih (s := (step cfg s (.tick e)).1) ?_
    unfold step
    split
    · dsimp only; omega
    · dsimp only
      rcases tick_next cfg s e with h | ⟨ms, hm, h⟩
      · omega
      · unfold longest at *; omega
  | @done t t' now n a b l h1 _ ih =>
    refine ih (s := (step cfg s (.done n a b now)).1) ?_
    unfold step
    split
    · dsimp only; omega
    · dsimp only
      split
      · dsimp only; omega
      · dsimp only; omega
      · dsimp only [reschedule]
        unfold longest delayShort; omega
  | @pollRequest t t' now l h1 _ ih =>
    refine ih (s := (step cfg s (.pollRequest now)).1) ?_
    unfold step
    split
    · dsimp only; omega
    · dsimp only
      split
      · dsimp only; omega
      · dsimp only [reschedule]
        unfold longest delayShort; omega
  | @install t t' k r l _ ih =>
    refine ih (s := (step cfg s (.install k r)).1) ?_
    unfold step
    split
    · exact hs
    · dsimp only
      split
      · exact hs
      · dsimp only; rw [installRun_next]; exact hs
  | @auto t t' p l _ ih =>
    refine ih (s := (step cfg s (.auto p)).1) ?_
    unfold step
    split
    · exact hs
    · dsimp only
      split
      · exact hs
      · split
        · exact hs
        · rw [installRun_next]; exact hs
  | @query t t' l _ ih =>
    refine ih (s := (step cfg s .query).1) ?_
    unfold step
    split <;> exact hs
  | @mark t t' b m ok l _ ih =>
    refine ih (s := (step cfg s (.mark b m ok)).1) ?_
    unfold step
    split
    · exact hs
    · dsimp only
      split
      · exact hs
      · dsimp only
        split
        · cases m <;> exact hs
        · exact hs

/-- a poll in an idle state that finds a bundle that is wanted and was not tried last -/
theorem tick_starts {cfg : Cfg} {s : St} (hi : Idle s) {m : Man} (hm : Wanted cfg m) {e : TickEnv} (hin : e.inhibited = false) (ho : Offers s.manifest m e.fetch) (hn : s.next ≤ e.now)
    (ha : s.attempted ≠ some m.hash) : (step cfg s (.tick e)).2 = [.poll, .start ⟨.poller, some m.hash⟩ (some m)] ∧
    (step cfg s (.tick e)).1 = { s with attempts := s.attempts + 1, errors := 0, available := true, manifest := some m, attempted := some m.hash, installing := true, busy := true, thread := some ⟨.poller, some m.hash⟩, running := true } := by
  obtain ⟨v, hv, hc, hc'⟩ := hm
  obtain ⟨h1, h2, ⟨h3, h4, h5⟩, h6, h7⟩ := hi
  have hf : ∀ q : St, q.manifest = s.manifest → fetched q e.fetch = some (some m) := by
    intro q hq
    rcases ho with ho | ⟨ho, hk⟩
    · rw [ho]; rfl
    · rw [ho]
      simp only [fetched, hq, hk]
  have hne : ¬ (some m.hash = s.attempted) := fun h => ha h.symm
  have hp : pollStep cfg { s with attempts := s.attempts + 1 } e.fetch =
      ({ s with attempts := s.attempts + 1, available := true, manifest := some m, attempted := some m.hash, installing := true, busy := true, thread := some ⟨.poller, some m.hash⟩, running := true },
        [.start ⟨.poller, some m.hash⟩ (some m)], .ok) := by
    unfold pollStep
    dsimp only
    rw [hf { s with attempts := s.attempts + 1, available := false } rfl]
    dsimp only
    rw [hv]
    dsimp only
    rw [hc]
    dsimp only
    rw [hc']
    dsimp only
    rw [if_neg hne]
    simp only [installRun, h3, Bool.false_eq_true, if_false]
  unfold step
  rw [if_neg (show ¬ s.dead = true by rw [h1]; simp)]
  dsimp only
  unfold tick
  rw [if_neg (by simp [h2]), if_neg (by omega), if_neg (by simp [h4]), if_neg (by simp [h3]), if_neg (by simp [h6]), if_neg (by simp [hin]), if_neg (by simp [h7])]
  dsimp only
  rw [hp]
  exact ⟨rfl, rfl⟩

/-- calm events other than a due tick keep the state idle -/
theorem calm_keeps {cfg : Cfg} {s : St} (hi : Idle s) {m : Man} {ev : Ev} (hc : Calm s.manifest m ev) (ht : ∀ e, ev = .tick e → e.now < s.next) :
    Idle (step cfg s ev).1 ∧ (step cfg s ev).1.next = s.next ∧ (step cfg s ev).1.manifest = s.manifest ∧ (step cfg s ev).1.attempted = s.attempted := by
  obtain ⟨h1, h2, ⟨h3, h4, h5⟩, h6, h7⟩ := hi
  unfold step
  rw [if_neg (show ¬ s.dead = true by rw [h1]; simp)]
  cases ev with
  | install k r =>
    have : k = false := hc
    subst this
    dsimp only
    rw [if_pos (by simp)]
    exact ⟨⟨h1, h2, ⟨h3, h4, h5⟩, h6, h7⟩, rfl, rfl, rfl⟩
  | auto p =>
    have : p = false := hc
    subst this
    exact ⟨⟨h1, h2, ⟨h3, h4, h5⟩, h6, h7⟩, rfl, rfl, rfl⟩
  | query => exact ⟨⟨h1, h2, ⟨h3, h4, h5⟩, h6, h7⟩, rfl, rfl, rfl⟩
  | mark b st ok =>
    have hc : ¬ (b = true ∧ st = .bad) := hc
    dsimp only
    split
    · exact ⟨⟨h1, h2, ⟨h3, h4, h5⟩, h6, h7⟩, rfl, rfl, rfl⟩
    · dsimp only
      split
      · rename_i hb
        cases st with
        | good => exact ⟨⟨h1, h2, ⟨h3, h4, h5⟩, rfl, h7⟩, rfl, rfl, rfl⟩
        | bad => exact absurd ⟨hb, rfl⟩ hc
        | active => exact ⟨⟨h1, h2, ⟨h3, h4, h5⟩, h6, h7⟩, rfl, rfl, rfl⟩
      · exact ⟨⟨h1, h2, ⟨h3, h4, h5⟩, h6, h7⟩, rfl, rfl, rfl⟩
  | done n a b now =>
    dsimp only
    rw [h5]
    exact ⟨⟨h1, h2, ⟨h3, h4, h5⟩, h6, h7⟩, rfl, rfl, rfl⟩
  | pollRequest now => exact absurd hc id
  | tick e =>
    have := ht e rfl
    dsimp only
    unfold tick
    rw [if_neg (by simp [h2]), if_pos this]
    exact ⟨⟨h1, h2, ⟨h3, h4, h5⟩, h6, h7⟩, rfl, rfl, rfl⟩

theorem acts_cons (cfg : Cfg) (s : St) (e : Ev) (l : List Ev) : acts (trace cfg s (e :: l)) = (step cfg s e).2 ++ acts (trace cfg (step cfg s e).1 l) := by
  simp [trace, acts]

/-- the first due tick -/
theorem first_due {cfg : Cfg} {m : Man} {evs : List Ev} {s : St} (hi : Idle s) (hc : ∀ ev ∈ evs, Calm s.manifest m ev) (hf : FiresAfter s.next evs) :
    ∃ l1 e l2, evs = l1 ++ .tick e :: l2 ∧ Idle (final cfg s l1) ∧ (final cfg s l1).next = s.next ∧ s.next ≤ e.now ∧ (final cfg s l1).manifest = s.manifest ∧
      (final cfg s l1).attempted = s.attempted := by
  induction evs generalizing s with
  | nil => obtain ⟨e, he, -⟩ := hf; cases he
  | cons ev evs ih =>
    by_cases hd : ∃ e, ev = .tick e ∧ s.next ≤ e.now
    · obtain ⟨e, rfl, hn⟩ := hd
      exact ⟨[], e, evs, rfl, hi, rfl, hn, rfl, rfl⟩
    · have ht : ∀ e, ev = .tick e → e.now < s.next := by
        intro e he
        exact Int.not_le.1 (fun h => hd ⟨e, he, h⟩)
      obtain ⟨k1, k2, k3, k4⟩ := calm_keeps (cfg := cfg) hi (hc ev (List.mem_cons_self ..)) ht
      have hf' : FiresAfter (step cfg s ev).1.next evs := by
        obtain ⟨e, he, hn⟩ := hf
        rcases List.mem_cons.1 he with he | he
        · have := ht e he.symm
          omega
        · exact ⟨e, he, by rw [k2]; exact hn⟩
      obtain ⟨l1, e, l2, r1, r2, r3, r4, r5, r6⟩ := ih k1 (fun x hx => by rw [k3]; exact hc x (List.mem_cons_of_mem _ hx)) hf'
      refine ⟨ev :: l1, e, l2, by rw [r1]; rfl, r2, r3.trans k2, by rw [← k2]; exact r4, r5.trans k3, r6.trans k4⟩

theorem final_append (cfg : Cfg) (s : St) (a b : List Ev) : final cfg s (a ++ b) = final cfg (final cfg s a) b := by
  induction a generalizing s with
  | nil => rfl
  | cons e a ih => exact ih _

theorem acts_append (cfg : Cfg) (s : St) (a b : List Ev) : acts (trace cfg s (a ++ b)) = acts (trace cfg s a) ++ acts (trace cfg (final cfg s a) b) := by
  induction a generalizing s with
  | nil => rfl
  | cons e a ih =>
    rw [List.cons_append, acts_cons, acts_cons, ih, List.append_assoc]
    rfl

/-- **C105** Whatever has happened until some time `t`: if the service is idle then, and from then on the server offers a bundle that fulfills the criteria and nothing comes in between, then an
installation of exactly this bundle is started when the timer fires for the first time later than the configured maximum interval after `t` (or before), unless this very bundle is the one that was tried last. -/
theorem C105_attempt (cfg : Cfg) {t0 t : Int} {before : List Ev} {s0 : St} (h0 : s0.next ≤ t0 + longest cfg) (hb : Timed t0 before t) (hi : Idle (final cfg s0 before)) {m : Man}
    (hm : Wanted cfg m) (ha : (final cfg s0 before).attempted ≠ some m.hash) {evs : List Ev} (hc : ∀ ev ∈ evs, Calm (final cfg s0 before).manifest m ev)
    (hf : FiresAfter (t + longest cfg) evs) : .start ⟨.poller, some m.hash⟩ (some m) ∈ acts (trace cfg (final cfg s0 before) evs) := by
  have hdue := C105_due cfg hb h0
  have hf' : FiresAfter (final cfg s0 before).next evs := by
    obtain ⟨e, he, hn⟩ := hf
    exact ⟨e, he, by omega⟩
  obtain ⟨l1, e, l2, r1, r2, r3, r4, r5, r6⟩ := first_due (cfg := cfg) hi hc hf'
  have hce : Calm (final cfg s0 before).manifest m (.tick e) := hc _ (by rw [r1]; simp)
  obtain ⟨q1, -⟩ := tick_starts r2 hm hce.1 (by rw [r5]; exact hce.2.1) (by rw [r3]; exact r4) (by rw [r6]; exact ha)
  rw [r1, acts_append, acts_cons, q1]
  simp

/-- an installation by the poller is running -/
structure Installing (s : St) : Prop where
  alive : s.dead = false
  active : s.active = true
  job : s.busy = true ∧ s.running = true ∧ ∃ r, s.thread = some ⟨.poller, r⟩
  good : s.good = true
  noReboot : s.mustReboot = false

theorem calm_installing {cfg : Cfg} {s : St} (hi : Installing s) {known : Option Man} {m : Man} {ev : Ev} (hc : Calm known m ev) (hd : ∀ n a b now, ev ≠ .done n a b now) :
    Installing (step cfg s ev).1 := by
  obtain ⟨h1, h2, ⟨h3, h4, h5⟩, h6, h7⟩ := hi
  unfold step
  rw [if_neg (show ¬ s.dead = true by rw [h1]; simp)]
  cases ev with
  | install k r =>
    dsimp only
    rw [if_pos (by simp [h3])]
    exact ⟨h1, h2, ⟨h3, h4, h5⟩, h6, h7⟩
  | auto p =>
    have : p = false := hc
    subst this
    exact ⟨h1, h2, ⟨h3, h4, h5⟩, h6, h7⟩
  | query => exact ⟨h1, h2, ⟨h3, h4, h5⟩, h6, h7⟩
  | mark b st ok =>
    dsimp only
    rw [if_pos (by simp [h3])]
    exact ⟨h1, h2, ⟨h3, h4, h5⟩, h6, h7⟩
  | done n a b now => exact absurd rfl (hd n a b now)
  | pollRequest now => exact absurd hc id
  | tick e =>
    dsimp only
    unfold tick
    simp only [h2, h4, Bool.not_true, Bool.false_eq_true, if_false, if_true]
    split <;> exact ⟨h1, h2, ⟨h3, h4, h5⟩, h6, h7⟩

theorem calm_installing_all {cfg : Cfg} {known : Option Man} {m : Man} {evs : List Ev} {s : St} (hi : Installing s) (hc : ∀ ev ∈ evs, Calm known m ev)
    (hd : ∀ n a b now, Ev.done n a b now ∉ evs) : Installing (final cfg s evs) := by
  induction evs generalizing s with
  | nil => exact hi
  | cons ev evs ih =>
    exact ih (calm_installing hi (hc ev (List.mem_cons_self ..)) (fun n a b now h => hd n a b now (by rw [h]; exact List.mem_cons_self ..)))
      (fun x hx => hc x (List.mem_cons_of_mem _ hx)) (fun n a b now h => hd n a b now (List.mem_cons_of_mem _ h))

/-- ready to reboot -/
structure Rebooting (s : St) : Prop where
  alive : s.dead = false
  active : s.active = true
  free : s.busy = false ∧ s.running = false ∧ s.thread = none
  good : s.good = true
  due : s.mustReboot = true

theorem rebooting_all {cfg : Cfg} {known : Option Man} {m : Man} {evs : List Ev} {s : St} (hi : Rebooting s) (hc : ∀ ev ∈ evs, Calm known m ev) (hf : FiresAfter s.next evs) :
    .reboot ∈ acts (trace cfg s evs) := by
  induction evs generalizing s with
  | nil => obtain ⟨e, he, -⟩ := hf; cases he
  | cons ev evs ih =>
    rw [acts_cons, List.mem_append]
    obtain ⟨h1, h2, ⟨h3, h4, h5⟩, h6, h7⟩ := hi
    have hcc := hc ev (List.mem_cons_self ..)
    by_cases hd : ∃ e, ev = .tick e ∧ s.next ≤ e.now
    · obtain ⟨e, rfl, hn⟩ := hd
      left
      have hin : e.inhibited = false := hcc.1
      have hro : e.rebootOk = true := hcc.2.2
      unfold step
      rw [if_neg (show ¬ s.dead = true by rw [h1]; simp)]
      unfold tick
      simp [h2, h3, h4, h6, h7, hin, hro, show ¬ (e.now < s.next) by omega]
    · right
      have ht : ∀ e, ev = .tick e → e.now < s.next := by
        intro e he
        exact Int.not_le.1 (fun h => hd ⟨e, he, h⟩)
      have key : Rebooting (step cfg s ev).1 ∧ (step cfg s ev).1.next = s.next := by
        unfold step
        rw [if_neg (show ¬ s.dead = true by rw [h1]; simp)]
        cases ev with
        | install k r =>
          have : k = false := hcc
          subst this
          dsimp only
          rw [if_pos (by simp)]
          exact ⟨⟨h1, h2, ⟨h3, h4, h5⟩, h6, h7⟩, rfl⟩
        | auto p =>
          have : p = false := hcc
          subst this
          exact ⟨⟨h1, h2, ⟨h3, h4, h5⟩, h6, h7⟩, rfl⟩
        | query => exact ⟨⟨h1, h2, ⟨h3, h4, h5⟩, h6, h7⟩, rfl⟩
        | mark b st ok =>
          have hcc : ¬ (b = true ∧ st = .bad) := hcc
          dsimp only
          split
          · exact ⟨⟨h1, h2, ⟨h3, h4, h5⟩, h6, h7⟩, rfl⟩
          · dsimp only
            split
            · rename_i hb
              cases st with
              | good => exact ⟨⟨h1, h2, ⟨h3, h4, h5⟩, rfl, h7⟩, rfl⟩
              | bad => exact absurd ⟨hb, rfl⟩ hcc
              | active => exact ⟨⟨h1, h2, ⟨h3, h4, h5⟩, h6, h7⟩, rfl⟩
            · exact ⟨⟨h1, h2, ⟨h3, h4, h5⟩, h6, h7⟩, rfl⟩
        | done n a b now =>
          dsimp only
          rw [h5]
          exact ⟨⟨h1, h2, ⟨h3, h4, h5⟩, h6, h7⟩, rfl⟩
        | pollRequest now => exact absurd hcc id
        | tick e =>
          have := ht e rfl
          dsimp only
          unfold tick
          rw [if_neg (by simp [h2]), if_pos this]
          exact ⟨⟨h1, h2, ⟨h3, h4, h5⟩, h6, h7⟩, rfl⟩
      refine ih key.1 (fun x hx => hc x (List.mem_cons_of_mem _ hx)) ?_
      obtain ⟨e, he, hn⟩ := hf
      rcases List.mem_cons.1 he with he | he
      · have := ht e he.symm
        omega
      · exact ⟨e, he, by rw [key.2]; exact hn⟩

/-- **C105** And if this installation ends (after the events `during`) with a result after which a reboot is configured, then the device is rebooted when the timer fires for the first time later than
30 s after that. -/
theorem C105_rollout (cfg : Cfg) {t0 t : Int} {before : List Ev} {s0 : St} (h0 : s0.next ≤ t0 + longest cfg) (hb : Timed t0 before t) (hi : Idle (final cfg s0 before)) {m : Man}
    (hm : Wanted cfg m) (ha : (final cfg s0 before).attempted ≠ some m.hash) {during after : List Ev} {status : Nat} {slots artifacts : Bool} {now : Int}
    (hc : ∀ ev ∈ during, Calm (final cfg s0 before).manifest m ev) (hf : FiresAfter (t + longest cfg) during) (hd : ∀ n a b z, Ev.done n a b z ∉ during)
    (hr : checkReboot cfg status slots artifacts = true) (hc' : ∀ ev ∈ after, Calm (some m) m ev) (hf' : FiresAfter (now + 30000000) after) :
    ∃ a b c, acts (trace cfg (final cfg s0 before) (during ++ .done status slots artifacts now :: after)) = a ++ .start ⟨.poller, some m.hash⟩ (some m) :: b ++ .completed status :: c ∧ .reboot ∈ c := by
  have hdue := C105_due cfg hb h0
  have hfd : FiresAfter (final cfg s0 before).next during := by
    obtain ⟨e, he, hn⟩ := hf
    exact ⟨e, he, by omega⟩
  obtain ⟨l1, e, l2, r1, r2, r3, r4, r5, r6⟩ := first_due (cfg := cfg) hi hc hfd
  generalize final cfg s0 before = s at *
  have hce : Calm s.manifest m (.tick e) := hc _ (by rw [r1]; simp)
  obtain ⟨q1, q2⟩ := tick_starts r2 hm hce.1 (by rw [r5]; exact hce.2.1) (by rw [r3]; exact r4) (by rw [r6]; exact ha)
  have hins : Installing (step cfg (final cfg s l1) (.tick e)).1 := by
    rw [q2]
    exact ⟨r2.alive, r2.active, ⟨rfl, rfl, _, rfl⟩, r2.good, r2.noReboot⟩
  have hins' := calm_installing_all (cfg := cfg) (evs := l2) hins (fun x hx => hc x (by rw [r1]; simp [hx])) (fun n a b z h => hd n a b z (by rw [r1]; simp [h]))
  generalize hs3 : final cfg (step cfg (final cfg s l1) (.tick e)).1 l2 = s3 at hins'
  obtain ⟨g1, g2, ⟨g3, g4, r, g5⟩, g6, g7⟩ := hins'
  have hdone : (step cfg s3 (.done status slots artifacts now)).2 = [.completed status, .schedule false delayShort] ∧
      Rebooting (step cfg s3 (.done status slots artifacts now)).1 ∧ (step cfg s3 (.done status slots artifacts now)).1.next = now + 30000000 := by
    unfold step
    rw [if_neg (show ¬ s3.dead = true by rw [g1]; simp)]
    simp only [g5]
    refine ⟨rfl, ⟨g1, g2, ⟨rfl, rfl, rfl⟩, g6, ?_⟩, ?_⟩
    · simp [reschedule, hr]
    · simp [reschedule, delayShort]
  have hreb := rebooting_all (cfg := cfg) hdone.2.1 hc' (by rw [hdone.2.2]; exact hf')
  refine ⟨acts (trace cfg s l1) ++ [.poll], acts (trace cfg (step cfg (final cfg s l1) (.tick e)).1 l2),
    .schedule false delayShort :: acts (trace cfg (step cfg s3 (.done status slots artifacts now)).1 after), ?_, List.mem_cons_of_mem _ hreb⟩
  have hfin : final cfg s (l1 ++ .tick e :: l2) = s3 := by rw [final_append, ← hs3]; rfl
  rw [r1, acts_append, hfin, acts_append, acts_cons, acts_cons, q1, hdone.1]
  simp

/-! ## What is not guaranteed -/

/-- `Poll` is called every 20 s -/
def impatient (start : Int) : Nat → List Ev
  | 0 => []
  | n + 1 => .pollRequest start :: .tick { now := start + 19000000, later := start + 19000000, inhibited := false, fetch := .noContent, rebootOk := true } :: impatient (start + 20000000) n

/-- **C105, finding.** Each call of the method `Poll` puts off the next poll to 30 s later, even if it was due: somebody who calls it every 20 s to get an update quickly prevents all polls, and all reboots, for ever. -/
theorem C105_finding_starved (cfg : Cfg) (s : St) (start : Int) (n : Nat) :
    .poll ∉ acts (trace cfg s (impatient start n)) ∧ .reboot ∉ acts (trace cfg s (impatient start n)) ∧ ∀ j m, .start j m ∉ acts (trace cfg s (impatient start n)) := by
  induction n generalizing s start with
  | zero => simp [impatient, trace, acts]
  | succ n ih =>
    simp only [impatient]
    rw [acts_cons, acts_cons]
    have h1 : (step cfg s (.pollRequest start)).2 = [] ∨ (step cfg s (.pollRequest start)).2 = [.schedule false delayShort, .accept] := by
      unfold step
      split
      · exact .inl rfl
      · dsimp only
        split
        · exact .inl rfl
        · exact .inr rfl
    have h2 : ∀ q : TickEnv, q.now = start + 19000000 → (step cfg (step cfg s (.pollRequest start)).1 (.tick q)).2 = [] := by
      intro q hq
      by_cases hd : s.dead = true
      · have e1 : (step cfg s (.pollRequest start)).1 = s := by unfold step; rw [if_pos hd]
        rw [e1]
        unfold step
        rw [if_pos hd]
      · by_cases ha : s.active = true
        · have e1 : (step cfg s (.pollRequest start)).1 = { s with next := start + 30000000 } := by
            unfold step
            rw [if_neg hd]
            simp [ha, reschedule, delayShort]
          rw [e1]
          unfold step
          rw [if_neg hd]
          dsimp only
          unfold tick
          simp only [ha, Bool.not_true, Bool.false_eq_true, if_false]
          rw [if_pos (by rw [hq]; omega)]
        · have e1 : (step cfg s (.pollRequest start)).1 = s := by
            unfold step
            rw [if_neg hd]
            simp [ha]
          rw [e1]
          unfold step
          rw [if_neg hd]
          dsimp only
          unfold tick
          simp [ha]
    rw [h2 _ rfl]
    obtain ⟨i1, i2, i3⟩ := ih (step cfg (step cfg s (.pollRequest start)).1 (.tick { now := start + 19000000, later := start + 19000000, inhibited := false, fetch := .noContent, rebootOk := true })).1 (start + 20000000)
    rcases h1 with h1 | h1 <;> rw [h1] <;> simp [i1, i2, i3]

theorem no_retry_poll (cfg : Cfg) {m : Man} {s : St} (ha : s.attempted = some m.hash) (hk : s.manifest = none ∨ s.manifest = some m) {f : Fetch} (hf : ∀ x, f = .bundle x → x = m) :
    (pollStep cfg s f).1.attempted = some m.hash ∧ ((pollStep cfg s f).1.manifest = none ∨ (pollStep cfg s f).1.manifest = some m) ∧ (pollStep cfg s f).2.1 = [] := by
  have hfe : fetched { s with available := false } f = none ∨ fetched { s with available := false } f = some none ∨ fetched { s with available := false } f = some (some m) := by
    cases f with
    | noContent => exact .inr (.inl rfl)
    | error => exact .inl rfl
    | notModified =>
      right
      change some s.manifest = some none ∨ some s.manifest = some (some m)
      rcases hk with hk | hk <;> rw [hk] <;> simp
    | bundle x => rw [hf x rfl]; exact .inr (.inr rfl)
  unfold pollStep
  dsimp only
  rcases hfe with h | h | h <;> rw [h]
  · exact ⟨ha, hk, rfl⟩
  · exact ⟨ha, .inl rfl, rfl⟩
  · dsimp only
    split
    · exact ⟨ha, .inr rfl, rfl⟩
    · split
      · exact ⟨ha, .inr rfl, rfl⟩
      · exact ⟨ha, .inr rfl, rfl⟩
      · split
        · exact ⟨ha, .inr rfl, rfl⟩
        · exact ⟨ha, .inr rfl, rfl⟩
        · rw [if_pos ha.symm]
          exact ⟨ha, .inr rfl, rfl⟩

theorem no_retry_step (cfg : Cfg) {m : Man} {s : St} (ha : s.attempted = some m.hash) (hk : s.manifest = none ∨ s.manifest = some m) {ev : Ev}
    (hf : ∀ e x, ev = .tick e → e.fetch = .bundle x → x = m) :
    (step cfg s ev).1.attempted = some m.hash ∧ ((step cfg s ev).1.manifest = none ∨ (step cfg s ev).1.manifest = some m) ∧ ∀ r x, .start ⟨.poller, r⟩ x ∉ (step cfg s ev).2 := by
  unfold step
  split
  · exact ⟨ha, hk, by simp⟩
  cases ev with
  | install k r =>
    dsimp only
    split
    · exact ⟨ha, hk, by simp⟩
    · unfold installRun
      split
      · exact ⟨ha, hk, by simp⟩
      · exact ⟨ha, hk, by simp⟩
  | auto p =>
    dsimp only
    split
    · exact ⟨ha, hk, by simp⟩
    · split
      · exact ⟨ha, hk, by simp⟩
      · unfold installRun
        split
        · exact ⟨ha, hk, by simp⟩
        · exact ⟨ha, hk, by simp⟩
  | query =>
    refine ⟨ha, hk, ?_⟩
    intro r x h
    dsimp only at h
    split at h <;> simp at h
  | mark b st ok =>
    dsimp only
    split
    · exact ⟨ha, hk, by simp⟩
    · dsimp only
      split
      · cases st <;> exact ⟨ha, hk, by simp⟩
      · exact ⟨ha, hk, by simp⟩
  | done n a b now =>
    dsimp only
    split
    · exact ⟨ha, hk, by simp⟩
    · exact ⟨ha, hk, by simp⟩
    · exact ⟨ha, hk, by simp [reschedule]⟩
  | pollRequest now =>
    dsimp only
    split
    · exact ⟨ha, hk, by simp⟩
    · exact ⟨ha, hk, by simp [reschedule]⟩
  | tick e =>
    obtain ⟨p1, p2, p3⟩ := no_retry_poll cfg (s := { s with attempts := s.attempts + 1 }) ha hk (f := e.fetch) (fun x hx => hf e x rfl hx)
    dsimp only
    unfold tick
    by_cases c1 : s.active = true
    rotate_left
    · rw [if_pos (by simp [c1])]; exact ⟨ha, hk, by simp⟩
    rw [if_neg (by simp [c1])]
    split; · exact ⟨ha, hk, by simp⟩
    split; · exact ⟨ha, hk, by simp⟩
    split; · exact ⟨ha, hk, by simp [reschedule]⟩
    split; · exact ⟨ha, hk, by simp [reschedule]⟩
    split; · exact ⟨ha, hk, by simp [reschedule]⟩
    split
    · split
      · exact ⟨ha, hk, by simp⟩
      · exact ⟨ha, hk, by simp [reschedule]⟩
    · dsimp only
      split
      · exact ⟨p1, p2, by rw [p3]; simp⟩
      · exact ⟨p1, p2, by rw [p3]; simp [reschedule]⟩
      · split
        · exact ⟨p1, p2, by rw [p3]; simp⟩
        · exact ⟨p1, p2, by rw [p3]; simp [reschedule]⟩

/-- **C105, finding.** A failed attempt is not repeated: as long as the server offers only the bundle that was tried last (or nothing), the poller starts nothing, whatever else happens. -/
theorem C105_finding_no_retry (cfg : Cfg) {m : Man} {evs : List Ev} {s : St} (ha : s.attempted = some m.hash) (hk : s.manifest = none ∨ s.manifest = some m)
    (hf : ∀ e x, .tick e ∈ evs → e.fetch = .bundle x → x = m) (r : Option Str) (x : Option Man) : .start ⟨.poller, r⟩ x ∉ acts (trace cfg s evs) := by
  induction evs generalizing s with
  | nil => simp [trace, acts]
  | cons ev evs ih =>
    obtain ⟨k1, k2, k3⟩ := no_retry_step cfg ha hk (ev := ev) (fun e x h hx => hf e x (by rw [h]; exact List.mem_cons_self ..) hx)
    rw [acts_cons, List.mem_append, not_or]
    exact ⟨k3 r x, ih k1 k2 (fun e x h hx => hf e x (List.mem_cons_of_mem _ h) hx)⟩

/-! ## Examples -/

def exDuring : List Ev := [.query, exTick 1000000 (.bundle manA), exTick 2000000 (.bundle manA), .query, exTick 100000000000 (.bundle manA)]

def exAfter : List Ev := [exTick 200000000000 .notModified, .query, exTick 300000000000 .notModified]

example : Timed 0 [.mark true .good true, exTick 0 .error, .pollRequest 7] 7 := .mark (.tick (by decide) (by decide) (.pollRequest (by decide) (.nil 7)))

/-- the hypotheses of `C105_rollout` are met -/
example : ∃ a b c, acts (trace exCfg (final exCfg {} [.mark true .good true]) (exDuring ++ .done 0 true false 100000000001 :: exAfter)) =
    a ++ .start ⟨.poller, some manA.hash⟩ (some manA) :: b ++ .completed 0 :: c ∧ .reboot ∈ c := by
  refine C105_rollout exCfg (t0 := 0) (t := 0) (s0 := {}) (before := [.mark true .good true]) ?_ (.mark (.nil 0)) ⟨rfl, rfl, ⟨rfl, rfl, rfl⟩, rfl, rfl⟩ ⟨c!"1.1.0", rfl, ?_, ?_⟩ ?_ ?_ ?_ ?_ ?_ ?_ ?_
  · decide
  · decide
  · decide
  · decide
  · intro ev h
    simp only [exDuring, exTick, List.mem_cons, List.not_mem_nil, or_false] at h
    rcases h with rfl | rfl | rfl | rfl | rfl
    · trivial
    · exact ⟨rfl, .inl rfl, rfl⟩
    · exact ⟨rfl, .inl rfl, rfl⟩
    · trivial
    · exact ⟨rfl, .inl rfl, rfl⟩
  · exact ⟨_, List.mem_cons_of_mem _ (List.mem_cons_of_mem _ (List.mem_cons_of_mem _ (List.mem_cons_of_mem _ (List.mem_cons_self ..)))), by decide⟩
  · intro n a b z h
    unfold exDuring exTick at h
    rcases h with _ | ⟨_, _ | ⟨_, _ | ⟨_, _ | ⟨_, _ | ⟨_, h⟩⟩⟩⟩⟩
    cases h
  · decide
  · intro ev h
    simp only [exAfter, exTick, List.mem_cons, List.not_mem_nil, or_false] at h
    rcases h with rfl | rfl | rfl
    · exact ⟨rfl, .inr ⟨rfl, rfl⟩, rfl⟩
    · trivial
    · exact ⟨rfl, .inr ⟨rfl, rfl⟩, rfl⟩
  · exact ⟨_, List.mem_cons_of_mem _ (List.mem_cons_of_mem _ (List.mem_cons_self ..)), by decide⟩

/-- after a failed attempt, nothing more is started -/
example : acts (trace exCfg {} [.mark true .good true, exTick 1000000 (.bundle manA), .done 1 false false 2000000, exTick 40000000 (.bundle manA)]) =
    [.accept, .poll, .start ⟨.poller, some c!"aa"⟩ (some manA), .completed 1, .schedule false 30000, .poll, .schedule true 60000] := by decide

end Rauc.Daemon
