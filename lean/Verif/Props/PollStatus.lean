import Verif.Model.PollStatus
import Verif.Props.Daemon

/-!
# C85: the poller tells the truth about itself
-/

namespace Rauc.PollStatus

open Daemon (Cfg Man Act St Meets)

/-! ## Specification

The history of the polls that were made, newest first, each with its time and the answer of the server. -/

instance (crit : List Str) (system v : Str) : Decidable (Meets crit system v) := by unfold Meets; infer_instance

/-- the bundle the server offered last and has not withdrawn -/
def held : List Env → Option Answer
  | [] => none
  | e :: l => match e.fetch with
    | .bundle a => some a
    | .noContent => none
    | .notModified => held l
    | .error _ => held l

/-- can the criteria not be evaluated for this version? -/
def undecidable (crit : List Str) (system v : Str) : Bool := decide (c!"higher-semver" ∈ crit ∧ Semver.lessEqual v system = none)

/-- the version of the offered bundle, if the last poll has reached the server -/
def offered : List Env → Option Str
  | [] => none
  | e :: l => match e.fetch with
    | .error _ => none
    | _ => (held (e :: l)).bind (·.m.version)

/-- does the newest poll say that an update is available? -/
def available (cfg : Cfg) (l : List Env) : Bool :=
  match offered l with
  | none => false
  | some v => !undecidable cfg.candidate cfg.system v && decide (Meets cfg.candidate cfg.system v)

/-- is this update to be installed? -/
def wanted (cfg : Cfg) (l : List Env) : Bool :=
  available cfg l && (match offered l, cfg.install with
    | some v, some crit => !undecidable crit cfg.system v && decide (c!"always" ∈ crit ∨ Meets crit cfg.system v)
    | _, _ => false)

/-- the error of the newest poll -/
def failure (cfg : Cfg) : List Env → Option Str
  | [] => none
  | e :: l =>
    match e.fetch with
    | .error m => some m
    | _ =>
      match offered (e :: l) with
      | none => none
      | some v =>
        if undecidable cfg.candidate cfg.system v then some (c!"candidate criteria check failed: " ++ e.semver)
        else if available cfg (e :: l) && (match cfg.install with | some crit => undecidable crit cfg.system v | none => false) then
          some (c!"installation criteria check failed: " ++ e.semver)
        else none

/-- the number of failed polls since the last one that worked -/
def failures (cfg : Cfg) : List Env → Nat
  | [] => 0
  | e :: l => if (failure cfg (e :: l)).isSome then failures cfg l + 1 else 0

/-- the time of the last poll that worked -/
def lastSuccess (cfg : Cfg) : List Env → Int
  | [] => 0
  | e :: l => if (failure cfg (e :: l)).isSome then lastSuccess cfg l else e.success

/-- the hash of the bundle whose installation the poller has tried last -/
def tried (cfg : Cfg) : List Env → Option Str
  | [] => none
  | e :: l => if wanted cfg (e :: l) then (held (e :: l)).map (·.m.hash) else tried cfg l

/-- look up a key -/
def look {α : Type} (l : List (Str × α)) (k : Str) : Option α := (l.find? (fun p => decide (p.1 = k))).map (·.2)

/-- the dictionary about the offered bundle -/
def bundleInfo (a : Answer) (k : Str) : Option Leaf :=
  if k = c!"size" then (if a.size = 0 then none else some (.t a.size))
  else if k = c!"effective-url" then a.url.map .s
  else if k = c!"modified-time" then (if a.modified = 0 then none else some (.t a.modified))
  else if k = c!"etag" then a.etag.map .s
  else none

/-- what `Status` has to say after the given polls -/
def Truth (cfg : Cfg) (l : List Env) (st : List (Str × PV)) : Prop :=
  (st.map (·.1)).Nodup ∧
  look st c!"attempt-count" = some (.leaf (.t l.length)) ∧
  look st c!"recent-error-count" = some (.leaf (.t (failures cfg l))) ∧
  look st c!"last-attempt-time" = some (.leaf (.t ((l.head?.map (·.now)).getD 0))) ∧
  look st c!"last-success-time" = some (.leaf (.t (lastSuccess cfg l))) ∧
  look st c!"last-error-message" = (failure cfg l).map (fun m => .leaf (.s m)) ∧
  look st c!"update-available" = some (.leaf (.b (available cfg l))) ∧
  look st c!"summary" = (if l ≠ [] ∧ failure cfg l = none ∧ held l = none then some (.leaf (.s c!"no update bundle available")) else none) ∧
  look st c!"attempted-hash" = (tried cfg l).map (fun m => .leaf (.s m)) ∧
  look st c!"manifest" = (held l).map (fun a => .manifest a.m) ∧
  (match held l with
    | none => look st c!"bundle" = none
    | some a => ∃ d, look st c!"bundle" = some (.dict d) ∧ (d.map (·.1)).Nodup ∧ ∀ k, look d k = bundleInfo a k)

/-- the polls made in a history, newest first -/
def polls (cfg : Cfg) : PSt → List Env → List PEv → List Env
  | _, acc, [] => acc
  | p, acc, .tick e :: l => polls cfg (step cfg p (.tick e)).1 (if .poll ∈ (step cfg p (.tick e)).2 then e :: acc else acc) l
  | p, acc, .svc e :: l => polls cfg (step cfg p (.svc e)).1 acc l

/-! ## The same decisions as in `Model/Daemon` -/

theorem keep_d (p : PSt) (f : Fetch) : (keep p f).d = p.d := by cases f <;> rfl

theorem dispatch_daemon (cfg : Cfg) (p : PSt) (e : Env) : (dispatch cfg p e).1.d = (Daemon.tick cfg p.d e.tick).1 ∧ (dispatch cfg p e).2 = (Daemon.tick cfg p.d e.tick).2 := by
  unfold dispatch Daemon.tick
  show _ ∧ _
  have h1 : e.tick.now = e.now := rfl
  have h2 : e.tick.later = e.later := rfl
  have h3 : e.tick.inhibited = e.inhibited := rfl
  have h4 : e.tick.rebootOk = e.rebootOk := rfl
  have h5 : e.tick.fetch = e.fetch.plain := rfl
  rw [h1, h2, h3, h4, h5]
  by_cases c1 : (!p.d.active) = true
  · simp only [if_pos c1]; refine ⟨?_, ?_⟩ <;> first | rfl | trivial
  simp only [if_neg c1]
  by_cases c2 : e.now < p.d.next
  · simp only [if_pos c2]; refine ⟨?_, ?_⟩ <;> first | rfl | trivial
  simp only [if_neg c2]
  by_cases c3 : p.d.running = true
  · simp only [if_pos c3]; refine ⟨?_, ?_⟩ <;> first | rfl | trivial
  simp only [if_neg c3]
  by_cases c4 : p.d.busy = true
  · simp only [if_pos c4]; refine ⟨?_, ?_⟩ <;> first | rfl | trivial
  simp only [if_neg c4]
  by_cases c5 : (!p.d.good) = true
  · simp only [if_pos c5]; refine ⟨?_, ?_⟩ <;> first | rfl | trivial
  simp only [if_neg c5]
  by_cases c6 : e.inhibited = true
  · simp only [if_pos c6]; refine ⟨?_, ?_⟩ <;> first | rfl | trivial
  simp only [if_neg c6]
  by_cases c7 : p.d.mustReboot = true
  · simp only [if_pos c7]
    split <;> exact ⟨rfl, rfl⟩
  simp only [if_neg c7]
  generalize Daemon.pollStep cfg { p.d with attempts := p.d.attempts + 1 } e.fetch.plain = r
  obtain ⟨s', acts, res⟩ := r
  cases res with
  | abort => exact ⟨rfl, rfl⟩
  | error => exact ⟨rfl, rfl⟩
  | ok =>
    cases hr : s'.running <;> simp [publish, hr, reschedule, Daemon.reschedule]

/-- the poller with its properties makes the same decisions as the poller of `Model/Daemon`, so that C38, C39, C45 and C54 hold for it -/
theorem C85_refines (cfg : Cfg) (p : PSt) (e : Env) : (step cfg p (.tick e)).1.d = (Daemon.step cfg p.d (.tick e.tick)).1 ∧
    (step cfg p (.tick e)).2 = (Daemon.step cfg p.d (.tick e.tick)).2 := by
  simp only [step, Daemon.step]
  by_cases hd : p.d.dead = true
  · simp only [if_pos hd]; refine ⟨?_, ?_⟩ <;> first | rfl | trivial
  · simp only [if_neg hd]; exact dispatch_daemon cfg p e

/-! ## The dictionary -/

theorem look_append {α : Type} (a b : List (Str × α)) (k : Str) : look (a ++ b) k = match look a k with | some x => some x | none => look b k := by
  unfold look
  rw [List.find?_append]
  cases a.find? (fun p => decide (p.1 = k)) <;> rfl

theorem look_cons {α : Type} (x : Str × α) (l : List (Str × α)) (k : Str) : look (x :: l) k = if x.1 = k then some x.2 else look l k := by
  unfold look
  rw [List.find?_cons]
  by_cases h : x.1 = k <;> simp [h]

theorem look_nil {α : Type} (k : Str) : look ([] : List (Str × α)) k = none := rfl

/-- the published dictionary says what the context contains -/
theorem status_truth (cfg : Cfg) (l : List Env) (p : PSt) (h1 : p.d.attempts = l.length) (h2 : p.d.errors = failures cfg l) (h3 : p.lastAttempt = (l.head?.map (·.now)).getD 0)
    (h4 : p.lastSuccess = lastSuccess cfg l) (h5 : p.lastError = failure cfg l) (h6 : p.d.available = available cfg l)
    (h7 : p.summary = if l ≠ [] ∧ failure cfg l = none ∧ held l = none then some c!"no update bundle available" else none) (h8 : p.d.attempted = tried cfg l)
    (h9 : p.d.manifest = (held l).map (·.m)) (h10 : ∀ a, held l = some a → p.size = a.size ∧ p.url = a.url ∧ p.modified = a.modified ∧ p.etag = a.etag) :
    Truth cfg l (statusOf p) := by
  have hs : statusOf p = pv [(c!"attempt-count", .t l.length), (c!"recent-error-count", .t (failures cfg l)), (c!"last-attempt-time", .t ((l.head?.map (·.now)).getD 0)),
      (c!"last-success-time", .t (lastSuccess cfg l))]
      ++ pv (optS c!"last-error-message" (failure cfg l))
      ++ pv [(c!"update-available", .b (available cfg l))]
      ++ pv (optS c!"summary" (if l ≠ [] ∧ failure cfg l = none ∧ held l = none then some c!"no update bundle available" else none))
      ++ pv (optS c!"attempted-hash" (tried cfg l))
      ++ (match held l with
          | some a => [(c!"manifest", .manifest a.m),
            (c!"bundle", .dict ((if a.size = 0 then [] else [(c!"size", Leaf.t a.size)]) ++ optS c!"effective-url" a.url
              ++ (if a.modified = 0 then [] else [(c!"modified-time", Leaf.t a.modified)]) ++ optS c!"etag" a.etag))]
          | none => []) := by
    unfold statusOf
    rw [h1, h2, h3, h4, h5, h6, h7, h8, h9]
    cases hl : held l with
    | none => rfl
    | some a =>
      obtain ⟨e1, e2, e3, e4⟩ := h10 a hl
      rw [e1, e2, e3, e4]
      rfl
  rw [hs]
  have hsum : ∀ (o : Option Str), (if l ≠ [] ∧ failure cfg l = none ∧ held l = none then some (PV.leaf (.s c!"no update bundle available")) else none)
      = (if l ≠ [] ∧ failure cfg l = none ∧ held l = none then some c!"no update bundle available" else none).map (fun m => .leaf (.s m)) := by intro _; split <;> rfl
  unfold Truth
  rw [hsum none]
  generalize failures cfg l = n1
  generalize ((l.head?.map (·.now)).getD 0) = n2
  generalize lastSuccess cfg l = n3
  generalize (if l ≠ [] ∧ failure cfg l = none ∧ held l = none then some c!"no update bundle available" else none) = sum
  generalize failure cfg l = err
  generalize tried cfg l = tr
  generalize available cfg l = av
  have hb : ∀ a : Answer, (((if a.size = 0 then [] else [(c!"size", Leaf.t a.size)]) ++ optS c!"effective-url" a.url
              ++ (if a.modified = 0 then [] else [(c!"modified-time", Leaf.t a.modified)]) ++ optS c!"etag" a.etag).map (·.1)).Nodup ∧
      ∀ k, look ((if a.size = 0 then [] else [(c!"size", Leaf.t a.size)]) ++ optS c!"effective-url" a.url
              ++ (if a.modified = 0 then [] else [(c!"modified-time", Leaf.t a.modified)]) ++ optS c!"etag" a.etag) k = bundleInfo a k := by
    intro a
    obtain ⟨m, sz, url, md, et⟩ := a
    refine ⟨?_, ?_⟩
    · cases url <;> cases et <;> by_cases hz : sz = 0 <;> by_cases hm : md = 0 <;> simp [optS, hz, hm]
    · intro k
      unfold bundleInfo
      dsimp only
      by_cases k1 : k = c!"size"
      · subst k1; cases url <;> cases et <;> by_cases hz : sz = 0 <;> by_cases hm : md = 0 <;> simp [optS, hz, hm, look_cons, look_nil]
      rw [if_neg k1]
      by_cases k2 : k = c!"effective-url"
      · subst k2; cases url <;> cases et <;> by_cases hz : sz = 0 <;> by_cases hm : md = 0 <;> simp [optS, hz, hm, look_cons, look_nil]
      rw [if_neg k2]
      by_cases k3 : k = c!"modified-time"
      · subst k3; cases url <;> cases et <;> by_cases hz : sz = 0 <;> by_cases hm : md = 0 <;> simp [optS, hz, hm, look_cons, look_nil]
      rw [if_neg k3]
      by_cases k4 : k = c!"etag"
      · subst k4; cases url <;> cases et <;> by_cases hz : sz = 0 <;> by_cases hm : md = 0 <;> simp [optS, hz, hm, look_cons, look_nil]
      rw [if_neg k4]
      have n1 := Ne.symm k1
      have n2 := Ne.symm k2
      have n3 := Ne.symm k3
      have n4 := Ne.symm k4
      cases url <;> cases et <;> by_cases hz : sz = 0 <;> by_cases hm : md = 0 <;> simp [optS, hz, hm, look_cons, look_nil, n1, n2, n3, n4]
  cases held l with
  | none =>
    refine ⟨?_, ?_, ?_, ?_, ?_, ?_, ?_, ?_, ?_, ?_, ?_⟩
    all_goals (cases err <;> cases sum <;> cases tr <;> first | rfl | decide | simp [pv, optS, look_cons, look_nil])
  | some a =>
    have hba := hb a
    refine ⟨?_, ?_, ?_, ?_, ?_, ?_, ?_, ?_, ?_, ?_, ?_⟩
    all_goals first
      | (refine ⟨_, ?_, hba.1, hba.2⟩; cases err <;> cases sum <;> cases tr <;> simp [pv, optS, look_cons, look_nil]; done)
      | (cases err <;> cases sum <;> cases tr <;> simp [pv, optS, look_cons, look_nil])

/-! ## Invariant -/

theorem candidate_spec (cfg : Cfg) (v : Str) :
    Daemon.checkCandidate cfg v = if undecidable cfg.candidate cfg.system v then none else some (decide (Meets cfg.candidate cfg.system v)) := by
  unfold Daemon.checkCandidate undecidable Meets
  by_cases h : c!"higher-semver" ∈ cfg.candidate
  · rw [if_pos h]
    split <;> next hl => simp [h, hl, ne_comm]
  · rw [if_neg h]; simp [h, ne_comm]

theorem install_spec (cfg : Cfg) (v : Str) :
    Daemon.checkInstall cfg v = match cfg.install with
      | none => some false
      | some crit => if undecidable crit cfg.system v then none else some (decide (c!"always" ∈ crit ∨ Meets crit cfg.system v)) := by
  unfold Daemon.checkInstall
  cases cfg.install with
  | none => rfl
  | some crit =>
    dsimp only
    unfold undecidable Meets
    by_cases h : c!"higher-semver" ∈ crit
    · rw [if_pos h]
      split <;> next hl =>
        by_cases ha : c!"always" ∈ crit <;> by_cases hd : c!"different-version" ∈ crit <;> simp only [h, hl, ha, hd, ne_comm (a := v)] <;> simp
    · rw [if_neg h]
      by_cases ha : c!"always" ∈ crit <;> by_cases hd : c!"different-version" ∈ crit <;> simp only [h, ha, hd, ne_comm (a := v)] <;> simp

theorem pollStep_spec (cfg : Cfg) (s : St) (l : List Env) (e : Env) (hman : s.manifest = (held l).map (·.m)) (hatt : s.attempted = tried cfg l) (hb : s.busy = false)
    (hab : (Daemon.pollStep cfg s e.fetch.plain).2.2 ≠ .abort) :
    (Daemon.pollStep cfg s e.fetch.plain).1.attempts = s.attempts ∧ (Daemon.pollStep cfg s e.fetch.plain).1.errors = s.errors ∧
    (Daemon.pollStep cfg s e.fetch.plain).1.manifest = (held (e :: l)).map (·.m) ∧
    (Daemon.pollStep cfg s e.fetch.plain).1.available = available cfg (e :: l) ∧
    (Daemon.pollStep cfg s e.fetch.plain).1.attempted = tried cfg (e :: l) ∧
    (Daemon.pollStep cfg s e.fetch.plain).1.next = s.next ∧ (Daemon.pollStep cfg s e.fetch.plain).1.active = s.active ∧ (Daemon.pollStep cfg s e.fetch.plain).1.dead = s.dead ∧
    failure cfg (e :: l) = (if (Daemon.pollStep cfg s e.fetch.plain).2.2 = .error then some (stepMessage e (Daemon.pollStep cfg s e.fetch.plain).1.available) else none) := by
  have hf : Daemon.fetched { s with available := false } e.fetch.plain = (match e.fetch with | .error _ => none | _ => some ((held (e :: l)).map (·.m))) := by
    cases hfe : e.fetch <;> simp [Fetch.plain, Daemon.fetched, held, hfe, hman]
  unfold Daemon.pollStep at hab ⊢
  dsimp only at hab ⊢
  simp only [hf] at hab ⊢
  cases hfe : e.fetch with
  | error m =>
    have ho : offered (e :: l) = none := by simp [offered, hfe]
    refine ⟨rfl, rfl, ?_, ?_, ?_, rfl, rfl, rfl, ?_⟩
    · simp [held, hfe, hman]
    · simp [available, ho]
    · simp [tried, wanted, available, ho, hatt]
    · simp [failure, hfe, stepMessage]
  | _ =>
    all_goals
      rw [hfe] at hab
      dsimp only at hab ⊢
      have hfail : ∀ m, e.fetch ≠ .error m := by intro m; rw [hfe]; simp
      have ho : offered (e :: l) = (held (e :: l)).bind (·.m.version) := by simp [offered, hfe]
      have hfa : failure cfg (e :: l) = (match offered (e :: l) with
        | none => none
        | some v =>
          if undecidable cfg.candidate cfg.system v then some (c!"candidate criteria check failed: " ++ e.semver)
          else if available cfg (e :: l) && (match cfg.install with | some crit => undecidable crit cfg.system v | none => false) then
            some (c!"installation criteria check failed: " ++ e.semver)
          else none) := by simp only [failure, hfe]
      have hmsg : ∀ b, stepMessage e b = if b then c!"installation criteria check failed: " ++ e.semver else c!"candidate criteria check failed: " ++ e.semver := by
        intro b; simp only [stepMessage, hfe]
      have ht : tried cfg (e :: l) = if wanted cfg (e :: l) then (held (e :: l)).map (·.m.hash) else tried cfg l := rfl
      rw [hfa, ht]
      cases hh : held (e :: l) with
      | none =>
        rw [hh] at ho
        have ho' : offered (e :: l) = none := ho
        have ha : available cfg (e :: l) = false := by simp [available, ho']
        refine ⟨rfl, rfl, rfl, ?_, ?_, rfl, rfl, rfl, ?_⟩
        · rw [ha]; rfl
        · simp [wanted, ha, hatt]
        · rw [ho']; rfl
      | some a =>
        rw [hh] at hab ho
        simp only [Option.map_some, Option.bind_some] at hab ho ⊢
        cases hv : a.m.version with
        | none => rw [hv] at hab; exact absurd rfl hab
        | some v =>
          rw [hv] at ho
          dsimp only
          have hc := candidate_spec cfg v
          have hin := install_spec cfg v
          rw [ho]
          have ha : available cfg (e :: l) = (!undecidable cfg.candidate cfg.system v && decide (Meets cfg.candidate cfg.system v)) := by simp only [available, ho]
          have hw : wanted cfg (e :: l) = (available cfg (e :: l) && (match cfg.install with
            | some crit => !undecidable crit cfg.system v && decide (c!"always" ∈ crit ∨ Meets crit cfg.system v)
            | none => false)) := by simp only [wanted, ho]; cases cfg.install <;> rfl
          rw [hw, ha]
          by_cases hu : undecidable cfg.candidate cfg.system v = true
          · simp only [hu, if_true] at hc; simp [hc, hmsg, hatt, hu]
          · simp only [Bool.not_eq_true] at hu
            by_cases hm : Meets cfg.candidate cfg.system v
            · simp only [hu, hm, decide_true, Bool.false_eq_true, if_false] at hc
              simp only [hc, hu, hm, decide_true, Bool.not_false, Bool.and_self, Bool.false_eq_true, if_false, Bool.true_and]
              cases hi : cfg.install with
              | none => rw [hi] at hin; simp [hin, hatt]
              | some crit =>
                rw [hi] at hin
                dsimp only at hin ⊢
                by_cases hu2 : undecidable crit cfg.system v = true
                · simp only [hu2, if_true] at hin; simp [hin, hmsg, hatt, hu2]
                · simp only [Bool.not_eq_true] at hu2
                  by_cases hm2 : c!"always" ∈ crit ∨ Meets crit cfg.system v
                  · simp only [hu2, hm2, decide_true, Bool.false_eq_true, if_false] at hin
                    simp only [hin, hu2, hm2, decide_true, Bool.false_eq_true, if_false, Bool.not_false, Bool.and_self, if_true]
                    split
                    · next heq => simp; exact heq.symm
                    · simp [Daemon.installRun, hb]
                  · simp only [hu2, hm2, decide_false, Bool.false_eq_true, if_false] at hin
                    simp [hin, hu2, hm2, hatt]
            · simp only [hu, hm, decide_false, Bool.false_eq_true, if_false] at hc
              simp [hc, hu, hm, hatt]

/-- what the poller knows is what the history of polls says -/
structure Inv (cfg : Cfg) (l : List Env) (p : PSt) : Prop where
  attempts : p.d.attempts = l.length
  errors : p.d.errors = failures cfg l
  manifest : p.d.manifest = (held l).map (·.m)
  tried : p.d.attempted = PollStatus.tried cfg l
  lastSuccess : p.lastSuccess = PollStatus.lastSuccess cfg l
  info : ∀ a, held l = some a → p.size = a.size ∧ p.url = a.url ∧ p.modified = a.modified ∧ p.etag = a.etag
  status : Truth cfg l p.status
  next : p.nextPoll = if p.d.active then p.d.next else 0
  tag : p.etag = (held l).bind (·.etag)
  daemon : Daemon.Inv p.d
  quiet : p.d.active = false → p.d.running = false

theorem inv_setup (cfg : Cfg) (now delay : Int) : Inv cfg [] (setup now delay) := by
  refine ⟨rfl, rfl, rfl, rfl, rfl, (fun a h => by cases h), ?_, rfl, rfl, ⟨rfl, by simp [setup, publish], by simp [setup, publish]⟩, fun _ => rfl⟩
  have := status_truth cfg [] {} rfl rfl rfl rfl rfl rfl rfl rfl rfl (by intro a h; cases h)
  exact this

/-- other callbacks leave the knowledge of the poller alone -/
theorem svc_keep (cfg : Cfg) (s : St) (e : Daemon.Ev) (ht : ∀ t, e ≠ .tick t) :
    (Daemon.step cfg s e).1.attempts = s.attempts ∧ (Daemon.step cfg s e).1.errors = s.errors ∧ (Daemon.step cfg s e).1.manifest = s.manifest ∧
    (Daemon.step cfg s e).1.attempted = s.attempted ∧ (Daemon.step cfg s e).1.active = s.active ∧
    ((!s.dead && reschedules s e) = false → (Daemon.step cfg s e).1.next = s.next) ∧ ((Daemon.step cfg s e).1.running = true → s.running = true) := by
  unfold Daemon.step
  by_cases hd : s.dead = true
  · simp [hd]
  · cases e with
    | tick t => exact absurd rfl (ht t)
    | install k r => simp only [hd]; cases hb : s.busy <;> cases k <;> simp [Daemon.installRun, hb]
    | auto pr => simp only [hd]; cases hb : s.busy <;> cases pr <;> simp [Daemon.installRun, hb]
    | query => simp [hd]
    | mark b st ok => simp only [hd]; cases hb : s.busy <;> cases ok <;> cases b <;> cases st <;> simp
    | done st sl ar now =>
      simp only [hd]
      cases hth : s.thread with
      | none => simp
      | some j => obtain ⟨o, r⟩ := j; cases o <;> simp [Daemon.reschedule, reschedules, hth]
    | pollRequest now => simp only [hd]; cases ha : s.active <;> simp [Daemon.reschedule, reschedules, ha]

/-- `Inv` needs only these parts -/
theorem Inv.of_eq {cfg : Cfg} {l : List Env} {p q : PSt} (h : Inv cfg l p) (h1 : q.d.attempts = p.d.attempts) (h2 : q.d.errors = p.d.errors) (h3 : q.d.manifest = p.d.manifest)
    (h4 : q.d.attempted = p.d.attempted) (h5 : q.lastSuccess = p.lastSuccess) (h6 : q.size = p.size ∧ q.url = p.url ∧ q.modified = p.modified ∧ q.etag = p.etag)
    (h7 : q.status = p.status) (h8 : q.nextPoll = if q.d.active then q.d.next else 0)
    (h9 : Daemon.Inv q.d) (h10 : q.d.active = false → q.d.running = false) : Inv cfg l q := by
  refine ⟨h1.trans h.attempts, h2.trans h.errors, h3.trans h.manifest, h4.trans h.tried, h5.trans h.lastSuccess, ?_, h7 ▸ h.status, h8, h6.2.2.2.trans h.tag, h9, h10⟩
  intro a ha
  obtain ⟨e1, e2, e3, e4⟩ := h.info a ha
  obtain ⟨f1, f2, f3, f4⟩ := h6
  exact ⟨f1.trans e1, f2.trans e2, f3.trans e3, f4.trans e4⟩

theorem inv_svc (cfg : Cfg) (l : List Env) (p : PSt) (e : Daemon.Ev) (h : Inv cfg l p) : Inv cfg l (step cfg p (.svc e)).1 := by
  by_cases ht : ∃ t, e = .tick t
  · obtain ⟨t, rfl⟩ := ht; exact h
  · have ht' : ∀ t, e ≠ .tick t := fun t h => ht ⟨t, h⟩
    obtain ⟨k1, k2, k3, k4, k5, k6, k7⟩ := svc_keep cfg p.d e ht'
    have hs : step cfg p (.svc e) = ({ p with d := (Daemon.step cfg p.d e).1, nextPoll := if !p.d.dead && reschedules p.d e then (Daemon.step cfg p.d e).1.next else p.nextPoll }, (Daemon.step cfg p.d e).2) := by
      cases e <;> first | rfl | exact absurd rfl (ht' _)
    rw [hs]
    have hq : (Daemon.step cfg p.d e).1.active = false → (Daemon.step cfg p.d e).1.running = false := by
      intro ha
      rw [k5] at ha
      have := h.quiet ha
      cases hr : (Daemon.step cfg p.d e).1.running with
      | false => rfl
      | true => rw [k7 hr] at this; cases this
    refine h.of_eq k1 k2 k3 k4 rfl ⟨rfl, rfl, rfl, rfl⟩ rfl ?_ (Daemon.step_inv cfg p.d e h.daemon) hq
    show (if !p.d.dead && reschedules p.d e then (Daemon.step cfg p.d e).1.next else p.nextPoll) = if (Daemon.step cfg p.d e).1.active then (Daemon.step cfg p.d e).1.next else 0
    rw [k5]
    cases hr : (!p.d.dead && reschedules p.d e) with
    | false => rw [k6 hr, h.next]; simp
    | true =>
      have ha : p.d.active = true := by
        simp only [Bool.and_eq_true] at hr
        have hr := hr.2
        unfold reschedules at hr
        split at hr
        · exact hr
        · split at hr
          · next r heq =>
            have := h.daemon.running.2 ⟨_, heq⟩
            cases hac : p.d.active with
            | true => rfl
            | false => rw [h.quiet hac] at this; cases this
          · cases hr
        · cases hr
      simp [ha]

theorem reschedule_eq (p : PSt) (n : Bool) (ms now : Int) : reschedule p n ms now = ({ p with d := { p.d with next := now + ms * 1000 }, nextPoll := now + ms * 1000 }, [.schedule n ms]) := rfl

theorem keep_info (p : PSt) (l : List Env) (e : Env) (h : ∀ a, held l = some a → p.size = a.size ∧ p.url = a.url ∧ p.modified = a.modified ∧ p.etag = a.etag) :
    ∀ a, held (e :: l) = some a → (keep p e.fetch).size = a.size ∧ (keep p e.fetch).url = a.url ∧ (keep p e.fetch).modified = a.modified ∧ (keep p e.fetch).etag = a.etag := by
  intro a ha
  cases hf : e.fetch with
  | noContent => simp [held, hf] at ha
  | notModified => simp [held, hf] at ha; exact h a ha
  | error m => simp [held, hf] at ha; exact h a ha
  | bundle b => simp [held, hf] at ha; subst ha; exact ⟨rfl, rfl, rfl, rfl⟩

theorem keep_tag (p : PSt) (l : List Env) (e : Env) (h : p.etag = (held l).bind (·.etag)) : (keep p e.fetch).etag = (held (e :: l)).bind (·.etag) := by
  cases hf : e.fetch <;> simp [held, hf, keep, h]

theorem keep_lastSuccess (p : PSt) (f : Fetch) : (keep p f).lastSuccess = p.lastSuccess := by cases f <;> rfl

theorem pollStep_abort (cfg : Cfg) (s : St) (f : Daemon.Fetch) (h : (Daemon.pollStep cfg s f).2.2 = .abort) : (Daemon.pollStep cfg s f).1.dead = true := by
  rcases Daemon.pollStep_cases cfg s f with ⟨s', hp, _⟩ | ⟨s', hp, _⟩ | ⟨s', hp, m, hs, _⟩ | ⟨m, v, _, _, _, _, _, _, hp⟩
  · rw [hp] at h; cases h
  · rw [hp] at h; cases h
  · rw [hp, hs]
  · rw [hp] at h; cases h

theorem inv_tick (cfg : Cfg) (l : List Env) (p : PSt) (e : Env) (h : Inv cfg l p) (hd : (step cfg p (.tick e)).1.d.dead = false) :
    Inv cfg (if .poll ∈ (step cfg p (.tick e)).2 then e :: l else l) (step cfg p (.tick e)).1 := by
  have hdi : Daemon.Inv (step cfg p (.tick e)).1.d := by rw [(C85_refines cfg p e).1]; exact Daemon.step_inv cfg p.d _ h.daemon
  revert hd hdi
  unfold step
  by_cases hdead : p.d.dead = true
  · simp only [if_pos hdead]; intro _ _; simpa using h
  simp only [if_neg hdead]
  unfold dispatch
  by_cases c1 : (!p.d.active) = true
  · simp only [if_pos c1]; intro _ _; simpa using h
  simp only [if_neg c1]
  have hact : p.d.active = true := by simpa using c1
  by_cases c2 : e.now < p.d.next
  · simp only [if_pos c2]; intro _ _; simpa using h
  simp only [if_neg c2]
  by_cases c3 : p.d.running = true
  · simp only [if_pos c3]; intro _ _; simpa using h
  simp only [if_neg c3]
  have hresch : ∀ n ms now, Daemon.Inv (reschedule p n ms now).1.d → Inv cfg l (reschedule p n ms now).1 := by
    intro n ms now hdi
    rw [reschedule_eq] at hdi ⊢
    exact h.of_eq rfl rfl rfl rfl rfl ⟨rfl, rfl, rfl, rfl⟩ rfl (by simp [hact]) hdi (by intro ha; simp [hact] at ha)
  by_cases c4 : p.d.busy = true
  · simp only [if_pos c4]; intro _ hdi; rw [if_neg (by simp [reschedule_eq])]; exact hresch _ _ _ hdi
  simp only [if_neg c4]
  by_cases c5 : (!p.d.good) = true
  · simp only [if_pos c5]; intro _ hdi; rw [if_neg (by simp [reschedule_eq])]; exact hresch _ _ _ hdi
  simp only [if_neg c5]
  by_cases c6 : e.inhibited = true
  · simp only [if_pos c6]; intro _ hdi; rw [if_neg (by simp [reschedule_eq])]; exact hresch _ _ _ hdi
  simp only [if_neg c6]
  by_cases c7 : p.d.mustReboot = true
  · simp only [if_pos c7]
    by_cases c8 : e.rebootOk = true
    · simp only [if_pos c8]; intro _ hdi; rw [if_neg (by simp)]
      exact h.of_eq rfl rfl rfl rfl rfl ⟨rfl, rfl, rfl, rfl⟩ rfl rfl hdi (by intro _; simpa using c3)
    · simp only [if_neg c8]; intro _ hdi; rw [if_neg (by simp [reschedule_eq])]; exact hresch _ _ _ hdi
  simp only [if_neg c7]
  have hb : p.d.busy = false := by simpa using c4
  have hrun : p.d.running = false := by simpa using c3
  have hps := pollStep_spec cfg { p.d with attempts := p.d.attempts + 1 } l e h.manifest h.tried hb
  have hki := keep_info p l e h.info
  have hks := keep_lastSuccess p e.fetch
  have hkt := keep_tag p l e h.tag
  have hab := pollStep_abort cfg { p.d with attempts := p.d.attempts + 1 } e.fetch.plain
  revert hps hab
  generalize Daemon.pollStep cfg { p.d with attempts := p.d.attempts + 1 } e.fetch.plain = r
  obtain ⟨s', acts, res⟩ := r
  intro hps hab
  cases res with
  | abort => intro hd _; rw [hab rfl] at hd; cases hd
  | error =>
    obtain ⟨g1, g2, g3, g4, g5, g6, g7, g8, g9⟩ := hps (by simp)
    dsimp only at g1 g2 g3 g4 g5 g6 g7 g8 g9 ⊢
    simp only [if_true] at g9
    intro _ hdi
    rw [if_pos (by simp)]
    have k1 : s'.attempts = (e :: l).length := by rw [g1, h.attempts]; rfl
    have k2 : s'.errors + 1 = failures cfg (e :: l) := by rw [g2, h.errors]; simp [failures, g9]
    have k4 : (keep p e.fetch).lastSuccess = lastSuccess cfg (e :: l) := by rw [hks, h.lastSuccess]; simp [lastSuccess, g9]
    refine ⟨k1, k2, g3, g5, k4, hki, ?_, ?_, hkt, hdi, ?_⟩
    · refine status_truth cfg (e :: l) { keep p e.fetch with d := { s' with errors := s'.errors + 1 }, lastAttempt := e.now, lastError := some (stepMessage e s'.available), summary := none }
        k1 k2 rfl k4 g9.symm g4 ?_ g5 g3 hki
      rw [if_neg]
      rw [g9]; simp
    · show _ = if s'.active then _ else 0
      rw [g7, hact]; rfl
    · intro ha
      have : s'.active = false := ha
      rw [g7, hact] at this; cases this
  | ok =>
    obtain ⟨g1, g2, g3, g4, g5, g6, g7, g8, g9⟩ := hps (by simp)
    dsimp only at g1 g2 g3 g4 g5 g6 g7 g8 g9 ⊢
    rw [if_neg (by simp)] at g9
    have k1 : s'.attempts = (e :: l).length := by rw [g1, h.attempts]; rfl
    have k2 : 0 = failures cfg (e :: l) := by simp [failures, g9]
    have k4 : e.success = lastSuccess cfg (e :: l) := by simp [lastSuccess, g9]
    have hst := status_truth cfg (e :: l) { keep p e.fetch with d := { s' with errors := 0 }, lastAttempt := e.now, lastError := none, lastSuccess := e.success, summary := if s'.manifest.isNone then some c!"no update bundle available" else none }
        k1 k2 rfl k4 g9.symm g4 (by rw [g3]; cases held (e :: l) <;> simp [g9]) g5 g3 hki
    have hna : s'.active = false → False := by intro ha; rw [g7, hact] at ha; cases ha
    have hac : s'.active = true := by rw [g7, hact]
    by_cases hr : s'.running = true
    · simp only [publish, hr, if_true]
      intro _ hdi
      rw [if_pos (by simp)]
      refine ⟨k1, k2, g3, g5, k4, hki, hst, ?_, hkt, hdi, fun ha => (hna ha).elim⟩
      show (keep p e.fetch).nextPoll = if s'.active then s'.next else 0
      have : (keep p e.fetch).nextPoll = p.nextPoll := by cases e.fetch <;> rfl
      rw [this, hac, g6, h.next, hact]
    · simp only [publish, hr]
      intro _ hdi
      rw [if_pos (by simp)]
      refine ⟨k1, k2, g3, g5, k4, hki, hst, ?_, hkt, hdi, fun ha => (hna ha).elim⟩
      show _ = if s'.active then _ else 0
      rw [hac]; rfl

theorem dead_stays (cfg : Cfg) (p : PSt) (e : PEv) (h : p.d.dead = true) : (step cfg p e).1.d.dead = true := by
  cases e with
  | tick e => simp [step, h]
  | svc e => cases e <;> simp [step, Daemon.step, h]

theorem dead_run (cfg : Cfg) (evs : List PEv) : ∀ p, p.d.dead = true → (run cfg p evs).d.dead = true := by
  induction evs with
  | nil => intro p h; exact h
  | cons e l ih => intro p h; exact ih _ (dead_stays cfg p e h)

theorem run_inv (cfg : Cfg) (evs : List PEv) : ∀ p l, Inv cfg l p → (run cfg p evs).d.dead = false → Inv cfg (polls cfg p l evs) (run cfg p evs) := by
  induction evs with
  | nil => intro p l h _; exact h
  | cons e r ih =>
    intro p l h hd
    have hd1 : (step cfg p e).1.d.dead = false := by
      cases hx : (step cfg p e).1.d.dead with
      | false => rfl
      | true => have := dead_run cfg r _ hx; rw [show run cfg (step cfg p e).1 r = run cfg p (e :: r) from rfl, hd] at this; cases this
    cases e with
    | tick t => exact ih _ _ (inv_tick cfg l p t h hd1) hd
    | svc t => exact ih _ _ (inv_svc cfg l p t h) hd

/-! ## C85 -/

/-- C85: at every moment of every history since the service was started, as long as the process was not aborted (a bundle without a version, see C39), the property `Status` says the truth about
the polls made so far: their number, the number of failures in a row, the times of the last poll and the last good one, the error of the last poll, whether an update is available, which bundle was
tried, and the manifest, size, address, time and tag of the bundle that the server offers. -/
theorem C85_status (cfg : Cfg) (now delay : Int) (evs : List PEv) (h : (run cfg (setup now delay) evs).d.dead = false) :
    Truth cfg (polls cfg (setup now delay) [] evs) (run cfg (setup now delay) evs).status := (run_inv cfg evs _ _ (inv_setup cfg now delay) h).status

/-- C85: the next poll asks for changes against the bundle that the poller still holds, and is unconditional if it holds none: so an answer "not modified" never leaves it without a bundle that
the server offers. -/
theorem C85_condition (cfg : Cfg) (now delay : Int) (evs : List PEv) (h : (run cfg (setup now delay) evs).d.dead = false) :
    ifNoneMatch (run cfg (setup now delay) evs) = (held (polls cfg (setup now delay) [] evs)).bind (·.etag) := (run_inv cfg evs _ _ (inv_setup cfg now delay) h).tag

theorem ite_snd_ne {α β : Type} (c : Prop) [Decidable c] (a b : α × List β) (ha : a.2 ≠ []) (hb : b.2 ≠ []) : (if c then a else b).2 ≠ [] := by split <;> assumption

/-- C85: `NextPoll` is 0 once the poller has given up after triggering the reboot; until then, the timer does something exactly at or after this time, unless an installation of the poller runs. -/
theorem C85_next (cfg : Cfg) (now delay : Int) (evs : List PEv) (h : (run cfg (setup now delay) evs).d.dead = false) (e : Env) :
    let p := run cfg (setup now delay) evs
    (p.d.active = false → p.nextPoll = 0) ∧
    ((step cfg p (.tick e)).2 ≠ [] ↔ p.d.active = true ∧ p.nextPoll ≤ e.now ∧ p.d.running = false) ∧
    ((step cfg p (.tick e)).2 = [] → (step cfg p (.tick e)).1 = p) := by
  intro p
  have hi := run_inv cfg evs _ _ (inv_setup cfg now delay) h
  have hn := hi.next
  change p.nextPoll = (if p.d.active then p.d.next else 0) at hn
  change p.d.dead = false at h
  refine ⟨fun ha => by rw [hn, ha]; rfl, ?_⟩
  unfold step dispatch
  simp only [h, Bool.false_eq_true, if_false]
  by_cases c1 : p.d.active = true
  · rw [if_pos c1] at hn
    rw [hn]
    simp only [c1, Bool.not_true, Bool.false_eq_true, if_false, true_and]
    by_cases c2 : e.now < p.d.next
    · simp [c2]; omega
    simp only [c2, if_false]
    have c2' : p.d.next ≤ e.now := by omega
    by_cases c3 : p.d.running = true
    · simp [c3]
    have c3' : p.d.running = false := by simpa using c3
    simp only [c3', Bool.false_eq_true, if_false, c2', and_self, iff_true]
    suffices hne : _ by exact ⟨hne, fun h => absurd h hne⟩
    split
    · simp [reschedule_eq]
    split
    · simp [reschedule_eq]
    split
    · simp [reschedule_eq]
    split
    · split <;> simp
    · split
      · simp
      · simp
      · exact ite_snd_ne _ _ _ (by simp) (by simp)
  · simp [c1]

/-! ## Examples -/

def exCfg : Cfg := { intervalMs := 86400000, maxMs := 345600000, candidate := [c!"different-version"], install := some [c!"higher-semver"], reboot := none, system := c!"1.0.0" }

def exAns : Answer := { m := { version := some c!"1.1.0", hash := c!"abcd" }, size := 5000, url := some c!"https://example.com/b.raucb", modified := 0, etag := some c!"tag" }

def exEnv (now : Int) (f : Fetch) : Env := { now := now, success := now + 1, later := now + 2, inhibited := false, rebootOk := true, fetch := f, semver := c!"bad version" }

/-- the system is good, a poll fails, the next one finds a newer bundle which is installed, and after that nothing is new -/
def exHist : List PEv := [.svc (.mark true .good true), .tick (exEnv 100000000 (.error c!"no network")), .tick (exEnv 200000000000 (.bundle exAns)), .svc (.done 0 true false 200000000100),
  .tick (exEnv 300000000000 .notModified)]

set_option maxRecDepth 20000 in
example : (run exCfg (setup 0 2000) exHist).d.dead = false ∧
    (polls exCfg (setup 0 2000) [] exHist).map (·.now) = [300000000000, 200000000000, 100000000] ∧
    look (run exCfg (setup 0 2000) exHist).status c!"attempt-count" = some (.leaf (.t 3)) ∧
    look (run exCfg (setup 0 2000) exHist).status c!"update-available" = some (.leaf (.b true)) ∧
    look (run exCfg (setup 0 2000) exHist).status c!"attempted-hash" = some (.leaf (.s c!"abcd")) ∧
    look (run exCfg (setup 0 2000) exHist).status c!"last-error-message" = none ∧
    (run exCfg (setup 0 2000) exHist).nextPoll = 300000000002 + 86400000000 := by decide +kernel

set_option maxRecDepth 20000 in
example : look (run exCfg (setup 0 2000) (exHist.take 2)).status c!"recent-error-count" = some (.leaf (.t 1)) ∧
    look (run exCfg (setup 0 2000) (exHist.take 2)).status c!"last-error-message" = some (.leaf (.s c!"no network")) ∧
    look (run exCfg (setup 0 2000) (exHist.take 2)).status c!"manifest" = none := by decide +kernel

end Rauc.PollStatus
