import Verif.Model.Client

/-!
# C71: the exit status of `rauc install` is the result of the installation it asked for
-/

namespace Rauc.Client

open Daemon (Cfg Ev Act)

/-! ## The callbacks of one iteration -/

/-- the exit status a callback asks for -/
def code : Item → Option Nat
  | .completed r => some r
  | .changed => none
  | .gone => some 2
  | .sigint => some 3

theorem batch_quiet (st : Nat) (l : List Item) : (batch st l).2 = false → (batch st l).1 = st ∧ ∀ i ∈ l, i = .changed := by
  induction l generalizing st with
  | nil => intro _; simp [batch]
  | cons i l ih =>
    intro h
    simp only [batch, Bool.or_eq_false_iff] at h ⊢
    cases i <;> simp [handle] at h ⊢
    exact ih st h

theorem batch_quit (st : Nat) (l : List Item) : (batch st l).2 = true → ∃ i ∈ l, code i = some (batch st l).1 := by
  induction l generalizing st with
  | nil => intro h; simp [batch] at h
  | cons i l ih =>
    intro h
    simp only [batch] at h ⊢
    by_cases hq : (batch (handle st i).1 l).2 = true
    · obtain ⟨j, hj, hc⟩ := ih _ hq
      exact ⟨j, by simp [hj], hc⟩
    · have hq' : (batch (handle st i).1 l).2 = false := by simpa using hq
      have := (batch_quiet _ _ hq').1
      rw [this]
      cases i with
      | changed => simp [handle] at h hq'; rw [hq'] at h; exact absurd h (by simp)
      | _ => exact ⟨_, List.mem_cons_self, rfl⟩

theorem batch_some (st : Nat) (l : List Item) (h : ∃ i ∈ l, code i ≠ none) : (batch st l).2 = true := by
  cases hb : (batch st l).2 with
  | true => rfl
  | false =>
    obtain ⟨i, hi, hc⟩ := h
    have := (batch_quiet st l hb).2 i hi
    subst this
    exact absurd rfl hc

/-- the results in the queue -/
def comps : List Item → List Nat
  | [] => []
  | .completed r :: l => r :: comps l
  | _ :: l => comps l

theorem comps_append (a b : List Item) : comps (a ++ b) = comps a ++ comps b := by
  induction a with
  | nil => rfl
  | cons i l ih => cases i <;> simp [comps, ih]

theorem comps_completed (rs : List Nat) : comps (rs.map .completed) = rs := by
  induction rs with
  | nil => rfl
  | cons r l ih => simp [comps, ih]

theorem mem_comps {r : Nat} {l : List Item} : Item.completed r ∈ l ↔ r ∈ comps l := by
  induction l with
  | nil => simp [comps]
  | cons i l ih => cases i <;> simp [comps, ih]

theorem comps_changed {l : List Item} (h : ∀ i ∈ l, i = .changed) : comps l = [] := by
  induction l with
  | nil => rfl
  | cons i l ih =>
    rw [h i (by simp)]
    exact ih (fun j hj => h j (by simp [hj]))

theorem comps_drop {l : List Item} (n : Nat) (h : ∀ i ∈ l.take n, i = .changed) : comps (l.drop n) = comps l := by
  conv => rhs; rw [← List.take_append_drop n l]
  rw [comps_append, comps_changed h, List.nil_append]

/-! ## Invariant -/

/-- nothing is known to be wrong -/
structure Clean (g : Ghost) : Prop where
  stale : g.stale = false
  later : g.later = false

structure Inv (s : Sys) : Prop where
  start : s.phase = .start → s.g = {} ∧ s.queue = [] ∧ s.status = 2
  open_ : s.phase.hears = true → s.status = 2 ∧ comps s.queue = s.g.seen ∧ (s.g.disturbed = false → ∀ i ∈ s.queue, i ≠ .gone ∧ i ≠ .sigint)
  listening : s.phase = .listening → s.g.own = .none ∧ s.g.later = false ∧ (s.g.stale = false → s.g.seen = [])
  looping : s.phase = .looping →
    (s.g.own = .running ∧ (s.g.stale = false → s.g.seen = []) ∧ s.g.later = false) ∨
    (∃ r, s.g.own = .finished r ∧ r ∈ s.g.seen ∧ (Clean s.g → s.g.seen = [r])) ∨
    (s.g.own = .lost ∧ s.g.disturbed = true ∧ Item.gone ∈ s.queue ∧ (Clean s.g → s.g.seen = []))
  exited : ∀ c, s.phase = .exited c →
    (c = 2 ∨ c = 3 ∨ c ∈ s.g.seen) ∧
    (Clean s.g → (c ≠ 2 → c ≠ 3 → s.g.own = .finished c) ∧ (s.g.disturbed = false → s.g.own ≠ .none → s.g.own = .finished c))

theorem inv_init : Inv {} := by
  constructor <;> simp [Phase.hears]

theorem inv_deliver {s : Sys} (h : Inv s) (d : Daemon.St) (rs : List Nat) (hl : rs.length ≤ 1) : Inv (deliver s d rs) := by
  unfold deliver
  split
  · rename_i hh
    obtain ⟨h1, h2, h3⟩ := h.open_ hh
    refine ⟨?_, ?_, ?_, ?_, ?_⟩
    · intro hp; rw [hp] at hh; simp [Phase.hears] at hh
    · intro _
      refine ⟨h1, ?_, ?_⟩
      · rw [comps_append, comps_completed, h2]
      · intro hd i hi
        rcases List.mem_append.1 hi with hi | hi
        · exact h3 hd i hi
        · obtain ⟨r, -, rfl⟩ := List.mem_map.1 hi
          simp
    · intro hp
      obtain ⟨k1, k2, k3⟩ := h.listening hp
      refine ⟨?_, ?_, ?_⟩
      · show (match s.g.own, rs with | .running, r :: _ => Own.finished r | o, _ => o) = _
        rw [k1]
      · show (s.g.later || _) = false
        rw [k1, k2]; rfl
      · show (s.g.stale || (decide (s.phase = .listening) && !rs.isEmpty)) = false → s.g.seen ++ rs = []
        rw [hp]
        intro e
        have e' : s.g.stale = false ∧ rs = [] := by simpa using e
        rw [k3 e'.1, e'.2]; rfl
    · intro hp
      have hs : (s.g.stale || (decide (s.phase = .listening) && !rs.isEmpty)) = s.g.stale := by rw [hp]; simp
      cases rs with
      | nil =>
        rcases h.looping hp with ⟨k1, k2, k3⟩ | ⟨r, k1, k2, k3⟩ | ⟨k1, k2, k3, k4⟩
        · left
          refine ⟨?_, ?_, ?_⟩
          · show (match s.g.own, ([] : List Nat) with | .running, r :: _ => Own.finished r | o, _ => o) = _
            rw [k1]
          · intro e
            show s.g.seen ++ [] = []
            rw [k2 (by simpa [hp] using e)]; rfl
          · show (s.g.later || _) = false
            rw [k1, k3]; rfl
        · right; left
          refine ⟨r, ?_, by simpa using k2, ?_⟩
          · show (match s.g.own, ([] : List Nat) with | .running, r :: _ => Own.finished r | o, _ => o) = _
            rw [k1]
          · rintro ⟨e1, e2⟩
            show s.g.seen ++ [] = [r]
            rw [List.append_nil]
            exact k3 ⟨by simpa [hp] using e1, by simpa [k1] using e2⟩
        · right; right
          refine ⟨?_, k2, by simpa using k3, ?_⟩
          · show (match s.g.own, ([] : List Nat) with | .running, r :: _ => Own.finished r | o, _ => o) = _
            rw [k1]
          · rintro ⟨e1, e2⟩
            show s.g.seen ++ [] = []
            rw [List.append_nil]
            exact k4 ⟨by simpa [hp] using e1, by simpa [k1] using e2⟩
      | cons q t =>
        have ht : t = [] := by simpa using hl
        subst ht
        rcases h.looping hp with ⟨k1, k2, k3⟩ | ⟨r, k1, k2, k3⟩ | ⟨k1, k2, k3, k4⟩
        · right; left
          refine ⟨q, ?_, ?_, ?_⟩
          · show (match s.g.own, [q] with | .running, r :: _ => Own.finished r | o, _ => o) = _
            rw [k1]
          · show q ∈ s.g.seen ++ [q]
            simp
          · rintro ⟨e1, e2⟩
            show s.g.seen ++ [q] = [q]
            rw [k2 (hs ▸ e1)]; rfl
        · right; left
          refine ⟨r, ?_, ?_, ?_⟩
          · show (match s.g.own, [q] with | .running, r :: _ => Own.finished r | o, _ => o) = _
            rw [k1]
          · show r ∈ s.g.seen ++ [q]
            simp [k2]
          · rintro ⟨e1, e2⟩
            simp [k1] at e2
        · right; right
          refine ⟨?_, k2, by simp [k3], ?_⟩
          · show (match s.g.own, [q] with | .running, r :: _ => Own.finished r | o, _ => o) = _
            rw [k1]
          · rintro ⟨e1, e2⟩
            simp [k1] at e2
    · intro c hp
      rw [show s.phase = .exited c from hp] at hh
      simp [Phase.hears] at hh
  · rename_i hh
    refine ⟨?_, ?_, ?_, ?_, ?_⟩
    · intro hp
      obtain ⟨k1, k2, k3⟩ := h.start hp
      refine ⟨?_, k2, k3⟩
      show ({ s.g with own := _ } : Ghost) = {}
      rw [k1]
    · intro hp; exact absurd hp hh
    · intro hp
      rw [show s.phase = .listening from hp] at hh
      simp [Phase.hears] at hh
    · intro hp
      rw [show s.phase = .looping from hp] at hh
      simp [Phase.hears] at hh
    · intro c hp
      obtain ⟨k1, k2⟩ := h.exited c hp
      refine ⟨k1, ?_⟩
      rintro ⟨e1, e2⟩
      obtain ⟨k3, k4⟩ := k2 ⟨e1, e2⟩
      constructor
      · intro a b
        show (match s.g.own, rs with | .running, r :: _ => Own.finished r | o, _ => o) = _
        rw [k3 a b]
      · intro a b
        have : s.g.own ≠ .none := by
          intro e
          apply b
          show (match s.g.own, rs with | .running, r :: _ => Own.finished r | o, _ => o) = _
          rw [e]
        show (match s.g.own, rs with | .running, r :: _ => Own.finished r | o, _ => o) = _
        rw [k4 a this]

/-! ## One completion per callback of the service -/

theorem results_append (a b : List Act) : results (a ++ b) = results a ++ results b := by
  induction a with
  | nil => rfl
  | cons i l ih => cases i <;> simp [results, ih]

theorem installRun_results (d : Daemon.St) (j : Daemon.Job) (m : Option Daemon.Man) : results (Daemon.installRun d j m).2 = [] := by
  unfold Daemon.installRun
  split <;> rfl

theorem pollStep_results (cfg : Cfg) (d : Daemon.St) (f : Daemon.Fetch) : results (Daemon.pollStep cfg d f).2.1 = [] := by
  unfold Daemon.pollStep
  simp only []
  repeat' split
  all_goals first | rfl | exact installRun_results _ _ _

theorem tick_results (cfg : Cfg) (d : Daemon.St) (e : Daemon.TickEnv) : results (Daemon.tick cfg d e).2 = [] := by
  unfold Daemon.tick
  have := pollStep_results cfg { d with attempts := d.attempts + 1 } e.fetch
  simp only [Daemon.reschedule]
  repeat' split
  all_goals first | rfl | (simp [results, results_append, this])

/-- installations end one at a time, by a callback for the running thread -/
theorem step_results (cfg : Cfg) (d : Daemon.St) (e : Ev) :
    results (Daemon.step cfg d e).2 = [] ∨
    ∃ r a b n j, e = .done r a b n ∧ d.thread = some j ∧ results (Daemon.step cfg d e).2 = [r] ∧ (Daemon.step cfg d e).1.thread = none := by
  unfold Daemon.step
  split
  · left; rfl
  · cases e with
    | install k q =>
      left
      simp only []
      split
      · rfl
      · simp [results_append, installRun_results, results]
    | auto p =>
      left
      simp only []
      split
      · rfl
      · split
        · rfl
        · exact installRun_results _ _ _
    | query => left; simp only []; split <;> rfl
    | mark b st ok => left; simp only []; split <;> rfl
    | done r a b n =>
      simp only []
      split
      · left; rfl
      · rename_i j hj
        right
        exact ⟨r, a, b, n, _, rfl, hj, rfl, rfl⟩
      · rename_i j hj
        right
        exact ⟨r, a, b, n, _, rfl, hj, rfl, rfl⟩
    | pollRequest n => left; simp only []; split <;> rfl
    | tick e => left; exact tick_results cfg d e

theorem results_le (cfg : Cfg) (d : Daemon.St) (e : Ev) : (results (Daemon.step cfg d e).2).length ≤ 1 := by
  rcases step_results cfg d e with h | ⟨r, a, b, n, j, -, -, h, -⟩ <;> rw [h] <;> simp

/-! ## Every event keeps the invariant -/

theorem inv_step (cfg : Cfg) {s : Sys} (h : Inv s) (e : CEv) : Inv (step cfg s e) := by
  cases e with
  | svc e => exact inv_deliver h _ _ (results_le cfg s.d e)
  | subscribe ok =>
    simp only [step]
    split
    · rename_i hp
      obtain ⟨k1, k2, k3⟩ := h.start hp
      split
      · refine ⟨by simp, ?_, ?_, by simp, by simp⟩
        · intro _
          refine ⟨k3, ?_, ?_⟩
          · show comps s.queue = s.g.seen
            rw [k1, k2]; rfl
          · intro _ i hi
            rw [show s.queue = [] from k2] at hi
            cases hi
        · intro _
          show s.g.own = _ ∧ s.g.later = _ ∧ (s.g.stale = _ → s.g.seen = _)
          rw [k1]; simp
      · refine ⟨by simp, by simp [Phase.hears], by simp, by simp, ?_⟩
        intro c hc
        have hc : s.status = c := by simpa using hc
        refine ⟨Or.inl (by rw [← hc, k3]), ?_⟩
        intro _
        refine ⟨fun a => absurd (by rw [← hc, k3]) a, ?_⟩
        intro _ b
        exact absurd (show s.g.own = .none by rw [k1]) b
    · exact h
  | call q =>
    simp only [step]
    split
    · rename_i hp
      obtain ⟨k1, k2, k3⟩ := h.open_ (by rw [hp]; rfl)
      obtain ⟨l1, l2, l3⟩ := h.listening hp
      split
      · refine ⟨by simp, fun _ => ⟨k1, k2, k3⟩, by simp, ?_, by simp⟩
        intro _
        left
        exact ⟨rfl, l3, l2⟩
      · refine ⟨by simp, by simp [Phase.hears], by simp, by simp, ?_⟩
        intro c hc
        have hc : s.status = c := by simpa using hc
        refine ⟨Or.inl (by rw [← hc, k1]), ?_⟩
        intro _
        refine ⟨fun a => absurd (by rw [← hc, k1]) a, ?_⟩
        intro _ b
        exact absurd l1 b
    · exact h
  | notify =>
    simp only [step]
    split
    · rename_i hh
      obtain ⟨k1, k2, k3⟩ := h.open_ hh
      refine ⟨?_, ?_, h.listening, ?_, h.exited⟩
      · intro hp; rw [show s.phase = .start from hp] at hh; simp [Phase.hears] at hh
      · intro _
        refine ⟨k1, ?_, ?_⟩
        · show comps (s.queue ++ [.changed]) = s.g.seen
          rw [comps_append, k2]; simp [comps]
        · intro hd i hi
          rcases List.mem_append.1 hi with hi | hi
          · exact k3 hd i hi
          · rw [List.mem_singleton.1 hi]; simp
      · intro hp
        rcases h.looping hp with k | k | ⟨k1, k2, k3, k4⟩
        · exact Or.inl k
        · exact Or.inr (Or.inl k)
        · exact Or.inr (Or.inr ⟨k1, k2, List.mem_append_left _ k3, k4⟩)
    · exact h
  | sigint =>
    simp only [step]
    split
    · rename_i hh
      obtain ⟨k1, k2, k3⟩ := h.open_ hh
      refine ⟨?_, ?_, h.listening, ?_, ?_⟩
      · intro hp; rw [show s.phase = .start from hp] at hh; simp [Phase.hears] at hh
      · intro _
        refine ⟨k1, ?_, ?_⟩
        · show comps (s.queue ++ [.sigint]) = s.g.seen
          rw [comps_append, k2]; simp [comps]
        · intro hd; simp at hd
      · intro hp
        rcases h.looping hp with k | ⟨r, k1, k2, k3⟩ | ⟨k1, k2, k3, k4⟩
        · exact Or.inl k
        · exact Or.inr (Or.inl ⟨r, k1, k2, fun c => k3 ⟨c.stale, c.later⟩⟩)
        · exact Or.inr (Or.inr ⟨k1, rfl, List.mem_append_left _ k3, fun c => k4 ⟨c.stale, c.later⟩⟩)
      · intro c hp; rw [show s.phase = .exited c from hp] at hh; simp [Phase.hears] at hh
    · exact h
  | die =>
    simp only [step]
    split
    · rename_i hh
      obtain ⟨k1, k2, k3⟩ := h.open_ hh
      refine ⟨?_, ?_, ?_, ?_, ?_⟩
      · intro hp; rw [show s.phase = .start from hp] at hh; simp [Phase.hears] at hh
      · intro _
        refine ⟨k1, ?_, ?_⟩
        · show comps (s.queue ++ [.gone]) = s.g.seen
          rw [comps_append, k2]; simp [comps]
        · intro hd; simp at hd
      · intro hp
        obtain ⟨l1, l2, l3⟩ := h.listening hp
        exact ⟨by simp [l1], l2, l3⟩
      · intro hp
        rcases h.looping hp with ⟨m1, m2, m3⟩ | ⟨r, m1, m2, m3⟩ | ⟨m1, m2, m3, m4⟩
        · exact Or.inr (Or.inr ⟨by simp [m1], rfl, by simp, fun c => m2 c.stale⟩)
        · exact Or.inr (Or.inl ⟨r, by simp [m1], m2, fun c => m3 ⟨c.stale, c.later⟩⟩)
        · exact Or.inr (Or.inr ⟨by simp [m1], rfl, by simp, fun c => m4 ⟨c.stale, c.later⟩⟩)
      · intro c hp; rw [show s.phase = .exited c from hp] at hh; simp [Phase.hears] at hh
    · rename_i hh
      refine ⟨?_, ?_, ?_, ?_, ?_⟩
      · intro hp
        obtain ⟨k1, k2, k3⟩ := h.start hp
        refine ⟨?_, k2, k3⟩
        show ({ s.g with own := _ } : Ghost) = {}
        rw [k1]
      · intro hp; exact absurd hp hh
      · intro hp; rw [show s.phase = .listening from hp] at hh; simp [Phase.hears] at hh
      · intro hp; rw [show s.phase = .looping from hp] at hh; simp [Phase.hears] at hh
      · intro c hp
        obtain ⟨k1, k2⟩ := h.exited c hp
        refine ⟨k1, ?_⟩
        rintro ⟨e1, e2⟩
        obtain ⟨k3, k4⟩ := k2 ⟨e1, e2⟩
        constructor
        · intro a b
          simp [k3 a b]
        · intro a b
          have : s.g.own ≠ .none := by
            intro e
            exact b (by simp [e])
          simp [k4 a this]
  | iterate n =>
    simp only [step]
    split
    · rename_i hp
      obtain ⟨k1, k2, k3⟩ := h.open_ (by rw [hp]; rfl)
      split
      · rename_i hb
        refine ⟨by simp, by simp [Phase.hears], by simp, by simp, ?_⟩
        intro c hc
        have hc : (batch s.status (s.queue.take (n + 1))).1 = c := by simpa using hc
        obtain ⟨i, hi, hcode⟩ := batch_quit _ _ hb
        rw [hc] at hcode
        have hi := List.mem_of_mem_take hi
        have hseen : ∀ r, i = .completed r → r = c ∧ c ∈ s.g.seen := by
          intro r e
          subst e
          have : r = c := by simpa [code] using hcode
          subst this
          exact ⟨rfl, k2 ▸ mem_comps.1 hi⟩
        have hown : Clean s.g → c ∈ s.g.seen → s.g.own = .finished c := by
          intro cl hc
          rcases h.looping hp with ⟨m1, m2, m3⟩ | ⟨r, m1, m2, m3⟩ | ⟨m1, m2, m3, m4⟩
          · rw [m2 cl.stale] at hc; cases hc
          · rw [m3 cl] at hc; rw [m1, List.mem_singleton.1 hc]
          · rw [m4 cl] at hc; cases hc
        refine ⟨?_, ?_⟩
        · cases i with
          | completed r => exact Or.inr (Or.inr (hseen r rfl).2)
          | changed => simp [code] at hcode
          | gone => left; simpa [code] using hcode.symm
          | sigint => right; left; simpa [code] using hcode.symm
        · intro cl
          constructor
          · intro a b
            cases i with
            | completed r => exact hown cl (hseen r rfl).2
            | changed => simp [code] at hcode
            | gone => exact absurd (by simpa [code] using hcode.symm) a
            | sigint => exact absurd (by simpa [code] using hcode.symm) b
          · intro hd _
            cases i with
            | completed r => exact hown cl (hseen r rfl).2
            | changed => simp [code] at hcode
            | gone => exact absurd rfl (k3 hd _ hi).1
            | sigint => exact absurd rfl (k3 hd _ hi).2
      · rename_i hb
        have hb : (batch s.status (s.queue.take (n + 1))).2 = false := by simpa using hb
        obtain ⟨b1, b2⟩ := batch_quiet _ _ hb
        refine ⟨?_, ?_, ?_, ?_, ?_⟩
        · intro hq; rw [show s.phase = .start from hq] at hp; simp at hp
        · intro _
          refine ⟨b1.trans k1, ?_, ?_⟩
          · show comps (s.queue.drop (n + 1)) = s.g.seen
            rw [comps_drop _ b2, k2]
          · intro hd i hi
            exact k3 hd i (List.mem_of_mem_drop hi)
        · intro hq; rw [show s.phase = .listening from hq] at hp; simp at hp
        · intro _
          rcases h.looping hp with k | k | ⟨m1, m2, m3, m4⟩
          · exact Or.inl k
          · exact Or.inr (Or.inl k)
          · refine Or.inr (Or.inr ⟨m1, m2, ?_, m4⟩)
            rw [← List.take_append_drop (n + 1) s.queue] at m3
            rcases List.mem_append.1 m3 with m3 | m3
            · exact absurd (b2 _ m3) (by simp)
            · exact m3
        · intro c hq; rw [show s.phase = .exited c from hq] at hp; simp at hp
    · exact h

theorem run_append (cfg : Cfg) (s : Sys) (a b : List CEv) : run cfg s (a ++ b) = run cfg (run cfg s a) b := by
  induction a generalizing s with
  | nil => rfl
  | cons e l ih => exact ih _

theorem inv_run (cfg : Cfg) {s : Sys} (h : Inv s) (l : List CEv) : Inv (run cfg s l) := by
  induction l generalizing s with
  | nil => exact h
  | cons e l ih => exact ih (inv_step cfg h e)

/-! ## The running thread is the one of the client -/

theorem tick_thread (cfg : Cfg) (d : Daemon.St) (e : Daemon.TickEnv) (hb : d.busy = true) :
    (Daemon.tick cfg d e).1.thread = d.thread ∧ (Daemon.tick cfg d e).1.busy = true := by
  unfold Daemon.tick
  simp only [Daemon.reschedule, hb, if_true]
  repeat' split
  all_goals first | exact ⟨rfl, hb⟩ | exact ⟨rfl, rfl⟩

/-- while an installation runs, no other one is started -/
theorem step_thread (cfg : Cfg) (d : Daemon.St) (e : Ev) (hb : d.busy = true) (hr : results (Daemon.step cfg d e).2 = []) :
    (Daemon.step cfg d e).1.thread = d.thread ∧ (Daemon.step cfg d e).1.busy = true := by
  unfold Daemon.step at hr ⊢
  split
  · exact ⟨rfl, hb⟩
  · rename_i hd
    simp only [hd] at hr
    cases e with
    | install k q => simp [hb]
    | auto p => simp only []; split <;> simp [hb]
    | query => exact ⟨rfl, hb⟩
    | mark b st ok => simp [hb]
    | done r a b n =>
      cases ht : d.thread with
      | none => simp [ht, hb]
      | some j =>
        obtain ⟨o, q⟩ := j
        cases o <;> simp [ht, results] at hr
    | pollRequest n => simp only []; split <;> exact ⟨rfl, hb⟩
    | tick e => exact tick_thread cfg d e hb

/-- the installation this client asked for is the one the service runs -/
def OwnThread (s : Sys) : Prop := s.g.own = .running → s.d.busy = true ∧ ∃ q, s.d.thread = some ⟨.service, q⟩

theorem own_step (cfg : Cfg) {s : Sys} (h : OwnThread s) (e : CEv) : OwnThread (step cfg s e) := by
  cases e with
  | svc e =>
    have key : (deliver s (Daemon.step cfg s.d e).1 (results (Daemon.step cfg s.d e).2)).g.own =
        (match s.g.own, results (Daemon.step cfg s.d e).2 with | .running, r :: _ => Own.finished r | o, _ => o) := by
      unfold deliver; split <;> rfl
    have keyd : (deliver s (Daemon.step cfg s.d e).1 (results (Daemon.step cfg s.d e).2)).d = (Daemon.step cfg s.d e).1 := by
      unfold deliver; split <;> rfl
    intro ho
    rw [show step cfg s (.svc e) = deliver s (Daemon.step cfg s.d e).1 (results (Daemon.step cfg s.d e).2) from rfl] at ho ⊢
    rw [key] at ho
    rw [keyd]
    cases hr : results (Daemon.step cfg s.d e).2 with
    | nil =>
      rw [hr] at ho
      have ho : s.g.own = .running := by
        cases h0 : s.g.own <;> rw [h0] at ho <;> simp at ho ⊢
      obtain ⟨h1, h2⟩ := h ho
      obtain ⟨h3, h4⟩ := step_thread cfg s.d e h1 hr
      exact ⟨h4, h3 ▸ h2⟩
    | cons r l =>
      rw [hr] at ho
      cases h0 : s.g.own <;> rw [h0] at ho <;> simp at ho
  | subscribe ok =>
    simp only [step]
    split
    · split <;> exact h
    · exact h
  | call q =>
    simp only [step]
    split
    · split
      · rename_i ha
        intro _
        show (Daemon.step cfg s.d (.install true q)).1.busy = true ∧ ∃ q', (Daemon.step cfg s.d (.install true q)).1.thread = some ⟨.service, q'⟩
        unfold Daemon.step at ha ⊢
        split at ha
        · cases ha
        · rename_i hd
          simp only [hd]
          by_cases hb : s.d.busy = true
          · simp [hb] at ha
          · simp [hb, Daemon.installRun]
      · rename_i ha
        intro ho
        obtain ⟨h1, h2⟩ := h ho
        have hr : results (Daemon.step cfg s.d (.install true q)).2 = [] := by
          rcases step_results cfg s.d (.install true q) with hr | ⟨r, a, b, n, j, he, -⟩
          · exact hr
          · cases he
        obtain ⟨h3, h4⟩ := step_thread cfg s.d (.install true q) h1 hr
        exact ⟨h4, h3 ▸ h2⟩
    · exact h
  | notify => simp only [step]; split <;> exact h
  | sigint => simp only [step]; split <;> exact h
  | die =>
    intro ho
    exfalso
    revert ho
    simp only [step]
    split <;> cases s.g.own <;> simp
  | iterate n =>
    simp only [step]
    split
    · split <;> exact h
    · exact h

theorem own_run (cfg : Cfg) {s : Sys} (h : OwnThread s) (l : List CEv) : OwnThread (run cfg s l) := by
  induction l generalizing s with
  | nil => exact h
  | cons e l ih => exact ih (own_step cfg h e)

/-! ## Nobody else installs -/

/-- an event by which somebody else may start an installation: a call of another client, automatic installation, the poller -/
def Foreign : CEv → Prop
  | .svc (.install _ _) => True
  | .svc (.auto _) => True
  | .svc (.tick _) => True
  | _ => False

structure Alone (s : Sys) : Prop where
  clean : Clean s.g
  only : s.g.own = .running ∨ s.d.thread = none

theorem alone_step (cfg : Cfg) {s : Sys} (hi : Inv s) (h : Alone s) (e : CEv) (hf : ¬ Foreign e) : Alone (step cfg s e) := by
  obtain ⟨⟨hs, hl⟩, ho⟩ := h
  cases e with
  | svc e =>
    have quiet : ∀ d, results (Daemon.step cfg s.d e).2 = [] → Daemon.step cfg s.d e = (d, (Daemon.step cfg s.d e).2) → (d.thread = s.d.thread) →
        Alone (step cfg s (.svc e)) := by
      intro d hr hd ht
      show Alone (deliver s (Daemon.step cfg s.d e).1 (results (Daemon.step cfg s.d e).2))
      rw [hr, hd]
      unfold deliver
      split
      · refine ⟨⟨?_, ?_⟩, ?_⟩
        · simp [hs]
        · show (s.g.later || _) = false
          rw [hl]
          cases s.g.own <;> rfl
        · rcases ho with ho | ho
          · left; simp [ho]
          · right; exact ht.trans ho
      · refine ⟨⟨hs, hl⟩, ?_⟩
        rcases ho with ho | ho
        · left; simp [ho]
        · right; exact ht.trans ho
    cases e with
    | install k q => exact absurd trivial hf
    | auto p => exact absurd trivial hf
    | tick t => exact absurd trivial hf
    | query =>
      refine quiet s.d ?_ ?_ rfl
      · unfold Daemon.step; split
        · rfl
        · simp only []; split <;> rfl
      · unfold Daemon.step; split <;> rfl
    | mark b st ok =>
      refine quiet (Daemon.step cfg s.d (.mark b st ok)).1 ?_ rfl ?_
      · unfold Daemon.step; split
        · rfl
        · simp only []; split <;> rfl
      · unfold Daemon.step; split
        · rfl
        · simp only []
          split
          · rfl
          · split
            · cases st <;> rfl
            · rfl
    | pollRequest n =>
      refine quiet (Daemon.step cfg s.d (.pollRequest n)).1 ?_ rfl ?_
      · unfold Daemon.step; split
        · rfl
        · simp only []; split <;> rfl
      · unfold Daemon.step; split
        · rfl
        · simp only []; split <;> rfl
    | done r a b n =>
      rcases step_results cfg s.d (.done r a b n) with hr | ⟨r', a', b', n', j, he, ht, hr, hn⟩
      · refine quiet (Daemon.step cfg s.d (.done r a b n)).1 hr rfl ?_
        unfold Daemon.step at hr ⊢
        split
        · rfl
        · rename_i hd
          simp only [hd] at hr
          cases ht : s.d.thread with
          | none => simp [ht]
          | some j =>
            obtain ⟨o, q⟩ := j
            cases o <;> simp [ht, results] at hr
      · have ho : s.g.own = .running := by
          rcases ho with ho | ho
          · exact ho
          · rw [ht] at ho; cases ho
        show Alone (deliver s (Daemon.step cfg s.d (.done r a b n)).1 (results (Daemon.step cfg s.d (.done r a b n)).2))
        rw [hr]
        unfold deliver
        split
        · refine ⟨⟨?_, ?_⟩, Or.inr hn⟩
          · have : s.phase ≠ .listening := by
              intro e
              have := (hi.listening e).1
              rw [ho] at this; cases this
            simp [hs, this]
          · show (s.g.later || _) = false
            rw [hl, ho]; rfl
        · exact ⟨⟨hs, hl⟩, Or.inr hn⟩
  | subscribe ok =>
    simp only [step]
    split
    · split <;> exact ⟨⟨hs, hl⟩, ho⟩
    · exact ⟨⟨hs, hl⟩, ho⟩
  | call q =>
    simp only [step]
    split
    · split
      · exact ⟨⟨hs, hl⟩, Or.inl rfl⟩
      · rename_i ha
        refine ⟨⟨hs, hl⟩, ?_⟩
        rcases ho with ho | ho
        · exact Or.inl ho
        · right
          show (Daemon.step cfg s.d (.install true q)).1.thread = none
          unfold Daemon.step at ha ⊢
          split
          · exact ho
          · rename_i hd
            simp only [hd] at ha
            by_cases hb : s.d.busy = true
            · simp [hb, ho]
            · simp [hb] at ha
    · exact ⟨⟨hs, hl⟩, ho⟩
  | notify => simp only [step]; split <;> exact ⟨⟨hs, hl⟩, ho⟩
  | sigint => simp only [step]; split <;> exact ⟨⟨hs, hl⟩, ho⟩
  | die => simp only [step]; split <;> exact ⟨⟨hs, hl⟩, Or.inr rfl⟩
  | iterate n =>
    simp only [step]
    split
    · split <;> exact ⟨⟨hs, hl⟩, ho⟩
    · exact ⟨⟨hs, hl⟩, ho⟩

theorem alone_run (cfg : Cfg) {s : Sys} (hi : Inv s) (h : Alone s) (l : List CEv) (hf : ∀ e ∈ l, ¬ Foreign e) : Alone (run cfg s l) := by
  induction l generalizing s with
  | nil => exact h
  | cons e l ih => exact ih (inv_step cfg hi e) (alone_step cfg hi h e (hf e (by simp))) (fun x hx => hf x (by simp [hx]))

/-! ## The theorems -/

/-- **C71.** In every history the exit status is 2 (no service, refused, or the service disappeared), 3 (Ctrl+C) or the result of an installation that ended
since the client has subscribed; so it is 0 only if some installation succeeded meanwhile. -/
theorem C71_code (cfg : Cfg) (l : List CEv) (c : Nat) (h : (run cfg {} l).phase = .exited c) :
    c = 2 ∨ c = 3 ∨ c ∈ (run cfg {} l).g.seen := ((inv_run cfg inv_init l).exited c h).1

/-- **C71 (partial).** If no other installation ended between the subscription and the call, nor between the end of the client's own installation and the end of the client:
the client reports success (or any status apart from 2 and 3) only if its own installation ended with this result, and if neither Ctrl+C was pressed nor the
service died, the exit status of an accepted call is the result of the client's own installation. Missing: the other histories, where the claim is false
(`C71_race_violated`). -/
theorem C71_own_partial (cfg : Cfg) (l : List CEv) (c : Nat) (h : (run cfg {} l).phase = .exited c) (hc : Clean (run cfg {} l).g) :
    (c ≠ 2 → c ≠ 3 → (run cfg {} l).g.own = .finished c) ∧
    ((run cfg {} l).g.disturbed = false → (run cfg {} l).g.own ≠ .none → (run cfg {} l).g.own = .finished c) :=
  ((inv_run cfg inv_init l).exited c h).2 hc

/-- **C71 (partial).** The same in terms of events: whatever happened before, if no installation is running when the client starts and nobody else starts one meanwhile,
the exit status is truthful. -/
theorem C71_alone_partial (cfg : Cfg) (pre l : List CEv) (c : Nat) (h0 : (run cfg {} pre).phase = .start) (ht : (run cfg {} pre).d.thread = none)
    (hf : ∀ e ∈ l, ¬ Foreign e) (h : (run cfg {} (pre ++ l)).phase = .exited c) :
    (c = 0 → (run cfg {} (pre ++ l)).g.own = .finished 0) ∧
    ((run cfg {} (pre ++ l)).g.disturbed = false → (run cfg {} (pre ++ l)).g.own ≠ .none → (run cfg {} (pre ++ l)).g.own = .finished c) := by
  have hi := inv_run cfg inv_init pre
  have ha : Alone (run cfg {} pre) := by
    refine ⟨⟨?_, ?_⟩, Or.inr ht⟩
    · rw [(hi.start h0).1]
    · rw [(hi.start h0).1]
  have hc : Clean (run cfg {} (pre ++ l)).g := by
    rw [run_append]
    exact (alone_run cfg hi ha l hf).clean
  obtain ⟨k1, k2⟩ := C71_own_partial cfg (pre ++ l) c h hc
  exact ⟨fun e => by subst e; exact k1 (by decide) (by decide), k2⟩

/-- **C71.** The client does not wait for ever: as soon as its installation has ended or the service has died, the next iterations of its loop end it. -/
theorem C71_no_hang (cfg : Cfg) (l : List CEv) (h : (run cfg {} l).phase = .looping) (ho : (run cfg {} l).g.own ≠ .running)
    (n : Nat) (hn : (run cfg {} l).queue.length ≤ n) : ∃ c, (run cfg {} (l ++ [.iterate n])).phase = .exited c := by
  have hi := inv_run cfg inv_init l
  obtain ⟨k1, k2, k3⟩ := hi.open_ (by rw [h]; rfl)
  have hq : ∃ i ∈ (run cfg {} l).queue.take (n + 1), code i ≠ none := by
    rw [List.take_of_length_le (by omega)]
    rcases hi.looping h with ⟨m1, -⟩ | ⟨r, m1, m2, m3⟩ | ⟨m1, m2, m3, m4⟩
    · exact absurd m1 ho
    · exact ⟨.completed r, mem_comps.2 (k2 ▸ m2), by simp [code]⟩
    · exact ⟨.gone, m3, by simp [code]⟩
  have hb := batch_some (run cfg {} l).status _ hq
  refine ⟨(batch (run cfg {} l).status ((run cfg {} l).queue.take (n + 1))).1, ?_⟩
  rw [run_append]
  show (step cfg (run cfg {} l) (.iterate n)).phase = _
  simp only [step, h, hb, if_true]

/-- **C71.** While the own installation has not ended, it is the one the service runs. -/
theorem C71_own_runs (cfg : Cfg) (l : List CEv) (h : (run cfg {} l).g.own = .running) :
    (run cfg {} l).d.busy = true ∧ ∃ q, (run cfg {} l).d.thread = some ⟨.service, q⟩ :=
  own_run cfg (s := {}) (fun h => by cases h) l h

/-! ## Examples and findings -/

def cfgEx : Cfg := { intervalMs := 86400000, maxMs := 345600000, candidate := [], install := none, reboot := none, system := c!"1" }

/-- a normal installation: success -/
example : (run cfgEx {} [.subscribe true, .call none, .notify, .svc (.done 0 true false 0), .iterate 0, .iterate 0]).phase = .exited 0 := by decide

/-- a normal installation: failure -/
example : (run cfgEx {} [.subscribe true, .call none, .svc (.done 1 true false 0), .iterate 5]).phase = .exited 1 := by decide

/-- refused, because another installation runs -/
example : (run cfgEx {} [.svc (.install true none), .subscribe true, .call none]).phase = .exited 2 := by decide

/-- **Finding (C71).** An installation of somebody else ends after the client has connected its signals and before it calls the service. The client takes this result for its
own: it prints that its bundle was installed and ends with 0 while its installation is still running; that installation then fails. -/
theorem C71_race_violated :
    let l := [CEv.svc (.install true none), .subscribe true, .svc (.done 0 true false 0), .call none, .iterate 0]
    (run cfgEx {} l).phase = .exited 0 ∧ (run cfgEx {} l).g.own = .running ∧
    (run cfgEx {} (l ++ [.svc (.done 1 true false 0)])).phase = .exited 0 ∧
    (run cfgEx {} (l ++ [.svc (.done 1 true false 0)])).g.own = .finished 1 := by decide

/-- **Finding (C71).** If the client's main loop gets no time between the end of its installation and the end of the next one, the last result counts. -/
theorem C71_last_counts_violated :
    let l := [CEv.subscribe true, .call none, .svc (.done 1 true false 0), .svc (.install true none), .svc (.done 0 true false 0), .iterate 1]
    (run cfgEx {} l).phase = .exited 0 ∧ (run cfgEx {} l).g.own = .finished 1 := by decide

end Rauc.Client
