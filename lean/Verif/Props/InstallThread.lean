import Verif.Model.InstallThread

/-!
# C84: the end of an installation is always noticed, after all its messages
-/

namespace Rauc.InstallThread

/-! ## Specification -/

/-- the messages of an installation, in order -/
def messages (body : List Body) (error : Option Str) : List Str :=
  c!"started" :: (body.filterMap (fun b => match b with | .msg m => some m | .progress => none) ++ error.toList ++ [c!"finished"])

/-- the messages that are shown: an installation of the poller shows none -/
def shown (mode : Mode) (body : List Body) (error : Option Str) : List Str := if mode = .poller then [] else messages body error

/-- 0 for success, 1 for failure -/
def result (error : Option Str) : Nat := match error with | none => 0 | some _ => 1

/-- the value of `LastError` a client knows: what was announced last -/
def known (ann : Str) (acts : List Act) : Str := acts.foldl (fun v a => match a with | .lastError m => m | _ => v) ann

/-- is something in the list of actions the signal `Completed`? -/
def IsCompleted : Act → Prop
  | .completed _ => True
  | _ => False

/-- every choice of the set is made again and again -/
def Fair (l : List Choice) (f : Nat → Choice) : Prop := ∀ c ∈ l, ∀ n, ∃ m, n ≤ m ∧ f m = c

/-- the state after `n` choices of an infinite schedule -/
def at' (mode : Mode) (s : St) (f : Nat → Choice) (n : Nat) : St := run mode s ((List.range n).map f)

/-! ## Invariant -/

inductive Good : List Op → Prop
  | nil : Good []
  | done : Good [.invoke .done]
  | upd (m : Str) (p : List Op) : Good p → p ≠ [] → Good (.push m :: .invoke .notify :: p)
  | notify (p : List Op) : Good p → p ≠ [] → Good (.invoke .notify :: p)
  | finish (r : Nat) (p : List Op) : Good p → p ≠ [] → Good (.finish r :: p)
  | lastError (m : Str) (p : List Op) : Good p → p ≠ [] → Good (.lastError m :: p)
  | flush (p : List Op) : Good p → p ≠ [] → Good (.flush :: p)

def invokes (l : List Op) : List Src := l.filterMap (fun o => match o with | .invoke s => some s | _ => none)
def pushes (l : List Op) : List Str := l.filterMap (fun o => match o with | .push s => some s | _ => none)
/-- the last value given to `LastError` -/
def lastOf (l : List Op) (v : Str) : Str := l.foldl (fun v o => match o with | .lastError m => m | _ => v) v

def pipeline (s : St) : List Src := s.sources.filter (· ≠ .emit) ++ s.direct.toList ++ invokes s.prog

structure Inv (total : List Str) (r : Nat) (s : St) : Prop where
  msgs : s.out ++ s.queue ++ pushes s.prog = total
  good : Good s.prog
  pipe : s.busy = true → ∃ k, pipeline s = List.replicate k .notify ++ [.done]
  pipe' : s.busy = false → pipeline s = [] ∧ s.queue = [] ∧ s.prog = []
  queued : s.queue ≠ [] → .notify ∈ pipeline s
  fin : s.status = some r ∨ .finish r ∈ s.prog
  fin' : ∀ x, .finish x ∈ s.prog → x = r
  ok : s.bad = false

/-- `emit` is among the sources, before `done` -/
def EmitFirst (l : List Src) : Prop := ∃ a b, l = a ++ .emit :: b ∧ .done ∉ a

/-- the service -/
structure Svc (ann target : Str) (r : Nat) (s : St) : Prop where
  main : s.main = .looping
  direct : s.direct = none
  running : s.running = true
  freed : s.freed = !s.busy
  value : lastOf s.prog s.error = target
  pending : s.error ≠ s.announced → EmitFirst s.sources
  known : known ann s.acts = s.announced
  before : s.busy = true → ∀ a ∈ s.acts, ¬ IsCompleted a
  after : s.busy = false → ∃ b, s.acts = b ++ [.completed (some r)] ∧ (∀ a ∈ b, ¬ IsCompleted a) ∧ InstallThread.known ann b = target ∧ s.error = s.announced

/-- without the service -/
structure Alone (r : Nat) (s : St) : Prop where
  noEmit : .emit ∉ s.sources
  early : s.main = .before ∨ s.main = .waiting → s.sources = []
  direct : s.direct ≠ none → s.main = .before ∨ s.main = .waiting
  late : s.main = .returned ∨ s.main = .exited → s.busy = false
  stopped : s.running = false → s.main = .before ∨ s.busy = false
  freed : s.freed = decide (s.main = .exited)
  acts : s.acts = if s.main = .exited then [.exit (some r)] else []

theorem good_program (mode : Mode) (body : List Body) (error : Option Str) : Good (program mode body error) := by
  have hd : Good ([] ++ [.invoke .done]) := .done
  have hu : ∀ (m : Str) (p : List Op), Good p → p ≠ [] → Good (update mode m ++ p) ∧ update mode m ++ p ≠ [] := by
    intro m p hp hn
    cases mode <;> simp only [update, List.nil_append, List.cons_append] <;> first | exact ⟨.upd m p hp hn, by simp⟩ | exact ⟨hp, hn⟩
  have hb : ∀ (b : List Body) (p : List Op), Good p → p ≠ [] → Good (b.flatMap (bodyOps mode) ++ p) ∧ b.flatMap (bodyOps mode) ++ p ≠ [] := by
    intro b p hp hn
    induction b with
    | nil => exact ⟨hp, hn⟩
    | cons x b ih =>
      rw [List.flatMap_cons, List.append_assoc]
      cases x with
      | msg m => exact hu m _ ih.1 ih.2
      | progress => exact ⟨.flush _ ih.1 ih.2, by simp [bodyOps]⟩
  unfold program
  have h1 := hu c!"finished" [.invoke .done] .done (by simp)
  have h2 : Good (Op.finish (if error.isSome then 1 else 0) :: (update mode c!"finished" ++ [.invoke .done])) := .finish _ _ h1.1 h1.2
  have h3 : ∀ e : Option Str, Good ((match e with | some e => update mode e ++ [.lastError e] | none => []) ++
      (Op.finish (if error.isSome then 1 else 0) :: (update mode c!"finished" ++ [.invoke .done]))) := by
    intro e
    cases e with
    | none => exact h2
    | some e =>
      rw [List.append_assoc]
      exact (hu e _ (.lastError _ _ h2 (by simp)) (by simp)).1
  have h4 := hb body _ (h3 error) (by simp)
  have h5 := hu c!"started" _ h4.1 h4.2
  have h6 := Good.lastError [] _ h5.1 h5.2
  cases error <;> simpa [List.append_assoc] using h6

theorem good_done {p : List Op} (h : Good p) (hn : p ≠ []) : ∃ k, invokes p = List.replicate k .notify ++ [.done] := by
  induction h with
  | nil => exact absurd rfl hn
  | done => exact ⟨0, rfl⟩
  | upd m p _ hp ih => obtain ⟨k, hk⟩ := ih hp; exact ⟨k + 1, by simp [invokes, List.replicate_succ] at hk ⊢; exact hk⟩
  | notify p _ hp ih => obtain ⟨k, hk⟩ := ih hp; exact ⟨k + 1, by simp [invokes, List.replicate_succ] at hk ⊢; exact hk⟩
  | finish r p _ hp ih => obtain ⟨k, hk⟩ := ih hp; exact ⟨k, by simp [invokes] at hk ⊢; exact hk⟩
  | lastError m p _ hp ih => obtain ⟨k, hk⟩ := ih hp; exact ⟨k, by simp [invokes] at hk ⊢; exact hk⟩
  | flush p _ hp ih => obtain ⟨k, hk⟩ := ih hp; exact ⟨k, by simp [invokes] at hk ⊢; exact hk⟩

theorem pushes_program (mode : Mode) (body : List Body) (error : Option Str) : pushes (program mode body error) = shown mode body error := by
  have hu : ∀ m, pushes (update mode m) = if mode = .poller then [] else [m] := by intro m; cases mode <;> rfl
  have ha : ∀ a b, pushes (a ++ b) = pushes a ++ pushes b := fun a b => List.filterMap_append
  have hb : pushes (body.flatMap (bodyOps mode)) = if mode = .poller then [] else body.filterMap (fun b => match b with | .msg m => some m | .progress => none) := by
    induction body with
    | nil => simp [pushes]
    | cons x b ih =>
      rw [List.flatMap_cons, ha, ih]
      cases x with
      | msg m => simp only [bodyOps, hu]; split <;> simp
      | progress => split <;> simp [bodyOps, pushes]
  unfold program shown messages
  cases error with
  | none => simp only [ha, hu, hb]; split <;> simp [pushes]
  | some e => simp only [ha, hu, hb]; split <;> simp [pushes]

theorem finish_program (mode : Mode) (body : List Body) (error : Option Str) (x : Nat) : .finish x ∈ program mode body error ↔ x = result error := by
  have hu : ∀ m, .finish x ∉ update mode m := by intro m; cases mode <;> simp [update]
  have hb : .finish x ∉ body.flatMap (bodyOps mode) := by
    intro h
    obtain ⟨b, _, hb⟩ := List.mem_flatMap.1 h
    cases b with
    | msg m => exact hu m hb
    | progress => simp [bodyOps] at hb
  unfold program result
  cases error with
  | none => simp [hu, hb]
  | some e => simp [hu, hb]

theorem lastOf_program (mode : Mode) (body : List Body) (error : Option Str) (v : Str) : lastOf (program mode body error) v = error.getD [] := by
  have ha : ∀ a b v, lastOf (a ++ b) v = lastOf b (lastOf a v) := fun a b v => List.foldl_append
  have hu : ∀ m v, lastOf (update mode m) v = v := by intro m v; cases mode <;> rfl
  have hb : ∀ v, lastOf (body.flatMap (bodyOps mode)) v = v := by
    induction body with
    | nil => intro v; rfl
    | cons x b ih =>
      intro v
      rw [List.flatMap_cons, ha, ih]
      cases x with
      | msg m => exact hu m v
      | progress => rfl
  unfold program
  cases error with
  | none => simp only [ha, hu, hb]; rfl
  | some e => simp only [ha, hu, hb]; rfl

theorem init_inv (mode : Mode) (body : List Body) (error : Option Str) (err ann : Str) (p : Bool) :
    Inv (shown mode body error) (result error) (init mode body error err ann p) := by
  have hg := good_program mode body error
  have hn : program mode body error ≠ [] := by unfold program; simp
  refine ⟨?_, hg, ?_, ?_, ?_, .inr ((finish_program _ _ _ _).2 rfl), fun x hx => (finish_program _ _ _ _).1 hx, rfl⟩
  · simpa [init] using pushes_program mode body error
  · intro _
    obtain ⟨k, hk⟩ := good_done hg hn
    refine ⟨k, ?_⟩
    cases p <;> simpa [pipeline, init] using hk
  · intro h; cases h
  · intro h; exact absurd rfl h

theorem init_svc (mode : Mode) (body : List Body) (error : Option Str) (err ann : Str) (p : Bool) (hm : mode ≠ .alone) (hp : err = ann ∨ p = true) :
    Svc ann (error.getD []) (result error) (init mode body error err ann p) := by
  refine ⟨?_, rfl, ?_, rfl, lastOf_program _ _ _ _, ?_, rfl, fun _ a ha => (by simp [init] at ha), fun h => (by simp [init] at h)⟩
  · cases mode <;> simp_all [init]
  · cases mode <;> simp_all [init]
  · intro h
    rcases hp with hp | hp
    · exact absurd hp h
    · subst hp; exact ⟨[], [], rfl, by simp⟩

theorem init_alone (body : List Body) (error : Option Str) : Alone (result error) (init .alone body error [] [] false) :=
  ⟨by simp [init], fun _ => rfl, by simp [init], by simp [init], by simp [init], by simp [init], by simp [init]⟩

theorem tail_notify {rest : List Src} {k : Nat} (h : Src.notify :: rest = List.replicate k .notify ++ [.done]) : ∃ k, rest = List.replicate k .notify ++ [.done] := by
  cases k with
  | zero => simp at h
  | succ k => exact ⟨k, by simpa [List.replicate_succ] using h⟩

theorem head_done {rest : List Src} {k : Nat} (h : Src.done :: rest = List.replicate k .notify ++ [.done]) : rest = [] := by
  cases k with
  | zero => simpa using h
  | succ k => simp [List.replicate_succ] at h

theorem head_emit {rest : List Src} {k : Nat} (h : Src.emit :: rest = List.replicate k .notify ++ [.done]) : False := by
  cases k with
  | zero => simp at h
  | succ k => simp [List.replicate_succ] at h

theorem invokes_nil {p : List Op} (h : Good p) (hi : invokes p = []) : p = [] := by
  rcases Classical.em (p = []) with hp | hp
  · exact hp
  · obtain ⟨k, hk⟩ := good_done h hp
    rw [hi] at hk
    exact absurd hk.symm (by simp)

/-- a callback is run: `s` still has the source at the head of its pipeline, `s'` is the state without it -/
theorem run_inv (mode : Mode) (total : List Str) (r : Nat) (s s' : St) (src : Src) (h : Inv total r s) (hf : s.freed = false ∨ src = .emit)
    (hp : src ≠ .emit → pipeline s = src :: pipeline s') (he : src = .emit → pipeline s = pipeline s')
    (h1 : s'.out = s.out) (h2 : s'.queue = s.queue) (h3 : s'.prog = s.prog) (h4 : s'.busy = s.busy) (h5 : s'.status = s.status) (h6 : s'.bad = s.bad)
    (h7 : s'.freed = s.freed) : Inv total r (runSrc mode s' src) := by
  cases src with
  | emit =>
    have hpp : pipeline (announce s') = pipeline s' := by simp [pipeline, announce, List.filter_filter]
    have hpe := he rfl
    refine ⟨?_, ?_, ?_, ?_, ?_, ?_, ?_, ?_⟩
    · show s'.out ++ s'.queue ++ pushes s'.prog = total; rw [h1, h2, h3]; exact h.msgs
    · show Good s'.prog; rw [h3]; exact h.good
    · intro hb; show ∃ k, pipeline (announce s') = _; rw [hpp, ← hpe]; exact h.pipe (h4.symm.trans hb)
    · intro hb
      have := h.pipe' (h4.symm.trans hb)
      exact ⟨hpp.trans (hpe.symm.trans this.1), h2.trans this.2.1, h3.trans this.2.2⟩
    · intro hq; show _ ∈ pipeline (announce s'); rw [hpp, ← hpe]; exact h.queued (by rw [← h2]; exact hq)
    · show s'.status = _ ∨ _ ∈ s'.prog; rw [h5, h3]; exact h.fin
    · show ∀ x, _ ∈ s'.prog → _; rw [h3]; exact h.fin'
    · show s'.bad = false; rw [h6]; exact h.ok
  | notify =>
    have hfr : s'.freed = false := by rcases hf with hf | hf; exact h7.trans hf; cases hf
    have hpe := hp (by simp)
    have hb : s.busy = true := by
      rcases Bool.eq_false_or_eq_true s.busy with hb | hb
      · exact hb
      · rw [(h.pipe' hb).1] at hpe; cases hpe
    have hpp : pipeline (runNotify s') = pipeline s' := rfl
    refine ⟨?_, ?_, ?_, ?_, ?_, ?_, ?_, ?_⟩
    · show s'.out ++ s'.queue ++ [] ++ pushes s'.prog = total; rw [h1, h2, h3, List.append_nil]; exact h.msgs
    · show Good s'.prog; rw [h3]; exact h.good
    · intro _
      obtain ⟨k, hk⟩ := h.pipe hb
      rw [hpe] at hk
      exact tail_notify hk
    · intro hb'; exact absurd (h4.symm.trans hb') (by rw [hb]; simp)
    · intro hq; exact absurd rfl hq
    · show s'.status = _ ∨ _ ∈ s'.prog; rw [h5, h3]; exact h.fin
    · show ∀ x, _ ∈ s'.prog → _; rw [h3]; exact h.fin'
    · show (s'.bad || s'.freed) = false; rw [h6, hfr, h.ok]; rfl
  | done =>
    have hfr : s'.freed = false := by rcases hf with hf | hf; exact h7.trans hf; cases hf
    have hpe := hp (by simp)
    have hb : s.busy = true := by
      rcases Bool.eq_false_or_eq_true s.busy with hb | hb
      · exact hb
      · rw [(h.pipe' hb).1] at hpe; cases hpe
    obtain ⟨k, hk⟩ := h.pipe hb
    rw [hpe] at hk
    have hnil := head_done hk
    have hinv : invokes s'.prog = [] := by
      have : pipeline s' = s'.sources.filter (· ≠ .emit) ++ s'.direct.toList ++ invokes s'.prog := rfl
      rw [hnil] at this
      exact (List.append_eq_nil_iff.1 this.symm).2
    have hprog : s'.prog = [] := by rw [h3] at hinv ⊢; exact invokes_nil h.good hinv
    have hq : s'.queue = [] := by
      rcases Classical.em (s.queue = []) with hq | hq
      · exact h2.trans hq
      · have := h.queued hq
        rw [hpe, hnil] at this
        simp at this
    have hst : s'.status = some r := by
      rcases h.fin with hf | hf
      · exact h5.trans hf
      · rw [← h3, hprog] at hf; cases hf
    have hbad : s'.bad = false := h6.trans h.ok
    have hbusy : s'.busy = true := h4.trans hb
    have hall : (runDone mode s').out = s'.out ∧ (runDone mode s').queue = s'.queue ∧ (runDone mode s').prog = s'.prog ∧ (runDone mode s').busy = false
        ∧ (runDone mode s').status = s'.status ∧ (runDone mode s').bad = false ∧ (runDone mode s').direct = s'.direct
        ∧ (runDone mode s').sources.filter (· ≠ .emit) = s'.sources.filter (· ≠ .emit) := by
      cases mode with
      | alone => refine ⟨rfl, rfl, rfl, rfl, rfl, ?_, rfl, rfl⟩; simp [runDone, hbad, hfr, hbusy]
      | service =>
        refine ⟨rfl, rfl, rfl, rfl, rfl, ?_, rfl, ?_⟩
        · simp [runDone, free, announce, changed, hbad, hfr, hbusy, hst, hq]
        · simp only [runDone, free, announce, changed]
          split <;> simp [List.filter_filter]
      | poller =>
        refine ⟨rfl, rfl, rfl, rfl, rfl, ?_, rfl, ?_⟩
        · simp [runDone, free, announce, changed, hbad, hfr, hbusy, hst, hq]
        · simp only [runDone, free, announce, changed]
          split <;> simp [List.filter_filter]
    obtain ⟨a1, a2, a3, a4, a5, a6, a7, a8⟩ := hall
    have hpp : pipeline (runDone mode s') = [] := by
      have : pipeline (runDone mode s') = pipeline s' := by unfold pipeline; rw [a8, a7, a3]
      rw [this, hnil]
    refine ⟨?_, ?_, ?_, ?_, ?_, ?_, ?_, ?_⟩
    · show (runDone mode s').out ++ (runDone mode s').queue ++ pushes (runDone mode s').prog = total
      rw [a1, a2, a3, h1, h2, h3]; exact h.msgs
    · show Good (runDone mode s').prog; rw [a3, hprog]; exact .nil
    · intro hb'; exact absurd (hb'.symm.trans a4) (by simp)
    · intro _; exact ⟨hpp, a2.trans hq, a3.trans hprog⟩
    · intro h'; exact absurd (a2.trans hq) h'
    · exact .inl (a5.trans hst)
    · intro x hx
      have : Op.finish x ∈ s'.prog := a3 ▸ hx
      rw [hprog] at this; cases this
    · exact a6

theorem changed_pipe (s : St) : pipeline (changed s) = pipeline s := by
  unfold pipeline changed
  dsimp only
  split <;> simp

theorem announce_pipe (s : St) : pipeline (announce s) = pipeline s := by simp [pipeline, announce, List.filter_filter]

/-- a change that does not touch what the invariant speaks of -/
theorem inv_congr {total : List Str} {r : Nat} {s s' : St} (h : Inv total r s) (hp : pipeline s' = pipeline s) (h1 : s'.out = s.out) (h2 : s'.queue = s.queue)
    (h3 : s'.prog = s.prog) (h4 : s'.busy = s.busy) (h5 : s'.status = s.status) (h6 : s'.bad = s.bad) : Inv total r s' := by
  refine ⟨?_, ?_, ?_, ?_, ?_, ?_, ?_, ?_⟩
  · rw [h1, h2, h3]; exact h.msgs
  · rw [h3]; exact h.good
  · rw [h4, hp]; exact h.pipe
  · rw [h4, hp, h2, h3]; exact h.pipe'
  · rw [h2, hp]; exact h.queued
  · rw [h5, h3]; exact h.fin
  · rw [h3]; exact h.fin'
  · rw [h6]; exact h.ok

/-- the step of the thread that takes the first operation of its program, except `invoke` and `push` -/
theorem pop_inv {total : List Str} {r : Nat} {s s' : St} (op : Op) (p : List Op) (h : Inv total r s) (hprog : s.prog = op :: p) (hg : Good p) (hne : p ≠ [])
    (ho : (∃ x, op = .finish x ∧ s'.status = some x) ∨ (((∃ m, op = .lastError m) ∨ op = .flush) ∧ s'.status = s.status)) (hp : pipeline s' = pipeline s) (h1 : s'.out = s.out) (h2 : s'.queue = s.queue)
    (h3 : s'.prog = p) (h4 : s'.busy = s.busy) (h6 : s'.bad = s.bad) : Inv total r s' := by
  have hbusy : s.busy = true := by
    rcases Bool.eq_false_or_eq_true s.busy with hb | hb
    · exact hb
    · rw [(h.pipe' hb).2.2] at hprog; cases hprog
  have hpush : pushes s.prog = pushes p := by
    rw [hprog]
    rcases ho with ⟨x, rfl, _⟩ | ⟨⟨m, rfl⟩ | rfl, _⟩ <;> rfl
  refine ⟨?_, ?_, ?_, ?_, ?_, ?_, ?_, ?_⟩
  · rw [h1, h2, h3, ← hpush]; exact h.msgs
  · rw [h3]; exact hg
  · rw [h4, hp]; exact h.pipe
  · intro hb; rw [h4, hbusy] at hb; cases hb
  · rw [h2, hp]; exact h.queued
  · rcases ho with ⟨x, rfl, hs⟩ | ⟨ho, hs⟩
    · exact .inl (by rw [hs, h.fin' x (by rw [hprog]; simp)])
    · rw [hs, h3]
      rcases h.fin with hf | hf
      · exact .inl hf
      · rw [hprog] at hf
        rcases List.mem_cons.1 hf with hf | hf
        · rcases ho with ⟨m, rfl⟩ | rfl <;> cases hf
        · exact .inr hf
  · intro x hx; rw [h3] at hx; exact h.fin' x (by rw [hprog]; exact List.mem_cons_of_mem _ hx)
  · rw [h6]; exact h.ok

theorem busy_of_prog {total : List Str} {r : Nat} {s : St} (h : Inv total r s) (hp : s.prog ≠ []) : s.busy = true := by
  rcases Bool.eq_false_or_eq_true s.busy with hb | hb
  · exact hb
  · exact absurd (h.pipe' hb).2.2 hp

/-- the thread takes the first operation of its program -/
theorem op_inv (mode : Mode) (total : List Str) (r : Nat) (s : St) (h : Inv total r s) (hd : s.direct = none) (hf : s.busy = true → s.freed = false)
    (hs : s.main.owns = false → s.sources.filter (· ≠ .emit) = []) : Inv total r (takeOp mode s) := by
  have hgood := h.good
  have hb : s.prog ≠ [] → s.busy = true := busy_of_prog h
  unfold takeOp
  have hinvoke : ∀ src p, s.prog = .invoke src :: p → Good p → Inv total r (if s.main.owns then { s with prog := p, sources := s.sources ++ [src] } else { s with prog := p, direct := some src }) := by
    intro src p hprog hp
    have hbusy := hb (by rw [hprog]; simp)
    obtain ⟨k, hk⟩ := h.pipe hbusy
    have hsrc : src ≠ .emit := by
      rintro rfl
      have hm : Src.emit ∈ pipeline s := by unfold pipeline; rw [hprog]; simp [invokes]
      rw [hk] at hm
      simp at hm
    have hpp : pipeline (if s.main.owns then { s with prog := p, sources := s.sources ++ [src] } else { s with prog := p, direct := some src }) = pipeline s := by
      unfold pipeline
      rw [hprog, hd]
      split
      · simp [hd, invokes, List.filter_append, hsrc]
      · next hown => have := hs (by simpa using hown); simp [invokes]
    have hpush : pushes s.prog = pushes p := by rw [hprog]; rfl
    have hcommon : ∀ s' : St, pipeline s' = pipeline s → s'.out = s.out → s'.queue = s.queue → s'.prog = p → s'.busy = s.busy → s'.status = s.status → s'.bad = s.bad →
        Inv total r s' := by
      intro s' hp' h1 h2 h3 h4 h5 h6
      refine ⟨?_, ?_, ?_, ?_, ?_, ?_, ?_, ?_⟩
      · rw [h1, h2, h3, ← hpush]; exact h.msgs
      · rw [h3]; exact hp
      · rw [h4, hp']; exact h.pipe
      · intro hb; rw [h4, hbusy] at hb; cases hb
      · rw [h2, hp']; exact h.queued
      · rw [h5, h3]
        rcases h.fin with hf | hf
        · exact .inl hf
        · rw [hprog] at hf
          rcases List.mem_cons.1 hf with hf | hf
          · cases hf
          · exact .inr hf
      · intro x hx; rw [h3] at hx; exact h.fin' x (by rw [hprog]; exact List.mem_cons_of_mem _ hx)
      · rw [h6]; exact h.ok
    apply hcommon _ hpp <;> split <;> rfl
  generalize hprog : s.prog = pr at hgood
  cases hgood with
  | nil => exact h
  | done => exact hinvoke .done [] hprog .nil
  | notify p hp hn => exact hinvoke .notify p hprog hp
  | upd m p hp hn =>
    dsimp only
    have hbusy := hb (by rw [hprog]; simp)
    refine ⟨?_, ?_, ?_, ?_, ?_, ?_, ?_, ?_⟩
    · have := h.msgs
      rw [hprog] at this
      simpa [pushes, List.append_assoc] using this
    · exact .notify p hp hn
    · intro _
      obtain ⟨k, hk⟩ := h.pipe hbusy
      exact ⟨k, by rw [← hk]; unfold pipeline; rw [hprog]; rfl⟩
    · intro hb'; exact absurd (hbusy.symm.trans hb') (by simp)
    · intro _; simp [pipeline, invokes]
    · show s.status = _ ∨ _
      rcases h.fin with hf | hf
      · exact .inl hf
      · rw [hprog] at hf
        rcases List.mem_cons.1 hf with hf | hf
        · cases hf
        · exact .inr hf
    · intro x hx; exact h.fin' x (by rw [hprog]; exact List.mem_cons_of_mem _ hx)
    · show (s.bad || s.freed) = false; rw [h.ok, hf hbusy]; rfl
  | finish x p hp hn =>
    dsimp only
    have hbusy := hb (by rw [hprog]; simp)
    refine pop_inv (.finish x) p h hprog hp hn (.inl ⟨x, rfl, rfl⟩) ?_ rfl rfl rfl rfl ?_
    · unfold pipeline; rw [hprog]; rfl
    · show (s.bad || s.freed) = s.bad; rw [hf hbusy]; simp
  | lastError m p hp hn =>
    dsimp only
    have hpp : pipeline { s with prog := p } = pipeline s := by unfold pipeline; rw [hprog]; rfl
    split
    · exact pop_inv (.lastError m) p h hprog hp hn (.inr ⟨.inl ⟨m, rfl⟩, rfl⟩) hpp rfl rfl rfl rfl rfl
    · exact pop_inv (.lastError m) p h hprog hp hn (.inr ⟨.inl ⟨m, rfl⟩, rfl⟩) ((changed_pipe _).trans hpp) rfl rfl rfl rfl rfl
  | flush p hp hn =>
    dsimp only
    have hpp : pipeline { s with prog := p } = pipeline s := by unfold pipeline; rw [hprog]; rfl
    split
    · exact pop_inv .flush p h hprog hp hn (.inr ⟨.inr rfl, rfl⟩) ((announce_pipe _).trans hpp) rfl rfl rfl rfl rfl
    · exact pop_inv .flush p h hprog hp hn (.inr ⟨.inr rfl, rfl⟩) hpp rfl rfl rfl rfl rfl

/-! ## The service -/

theorem emitFirst_mem {l : List Src} (h : .emit ∈ l) (hd : .done ∉ l) : EmitFirst l := by
  obtain ⟨a, b, rfl⟩ := List.append_of_mem h
  exact ⟨a, b, rfl, fun h => hd (by simp [h])⟩

theorem emitFirst_snoc {l : List Src} (x : Src) (h : EmitFirst l) : EmitFirst (l ++ [x]) := by
  obtain ⟨a, b, rfl, hd⟩ := h
  exact ⟨a, b ++ [x], by simp, hd⟩

theorem emitFirst_tail {l : List Src} {x : Src} (hx : x ≠ .emit) (h : EmitFirst (x :: l)) : x ≠ .done ∧ EmitFirst l := by
  obtain ⟨a, b, hl, hd⟩ := h
  cases a with
  | nil => exact absurd (List.cons.inj hl).1 hx
  | cons y a =>
    obtain ⟨rfl, hl'⟩ := List.cons.inj hl
    exact ⟨fun h => hd (by simp [h]), a, b, hl', fun h => hd (by simp [h])⟩

theorem emitFirst_changed {s : St} (h : EmitFirst s.sources) : EmitFirst (changed s).sources := by
  unfold changed
  dsimp only
  split
  · exact h
  · exact emitFirst_snoc _ h

theorem done_not_mem {total : List Str} {r : Nat} {s : St} (h : Inv total r s) (hp : s.prog ≠ []) : .done ∉ s.sources := by
  intro hd
  obtain ⟨k, hk⟩ := h.pipe (busy_of_prog h hp)
  obtain ⟨j, hj⟩ := good_done h.good hp
  have hm : Src.done ∈ s.sources.filter (· ≠ .emit) ++ s.direct.toList ++ List.replicate j .notify :=
    List.mem_append_left _ (List.mem_append_left _ (List.mem_filter.2 ⟨hd, by simp⟩))
  unfold pipeline at hk
  rw [hj, ← List.append_assoc] at hk
  have := (List.append_inj' hk rfl).1
  rw [this] at hm
  simp at hm

theorem known_append (ann : Str) (a b : List Act) : known ann (a ++ b) = known (known ann a) b := List.foldl_append

/-- an announcement -/
theorem announce_svc {ann target : Str} {r : Nat} {s : St} (h : Svc ann target r s) : Svc ann target r (announce s) := by
  refine ⟨h.main, h.direct, h.running, h.freed, h.value, fun hn => absurd rfl hn, ?_, ?_, ?_⟩
  · show known ann (if s.error = s.announced then s.acts else s.acts ++ [.lastError s.error]) = s.error
    split
    · next he => rw [h.known, he]
    · rw [known_append]; rfl
  · intro hb a ha
    have ha : a ∈ (if s.error = s.announced then s.acts else s.acts ++ [.lastError s.error]) := ha
    split at ha
    · exact h.before hb a ha
    · rcases List.mem_append.1 ha with ha | ha
      · exact h.before hb a ha
      · rw [List.mem_singleton.1 ha]; exact id
  · intro hb
    obtain ⟨b, hacts, hb1, hb2, he⟩ := h.after hb
    refine ⟨b, ?_, hb1, hb2, rfl⟩
    show (if s.error = s.announced then s.acts else _) = _
    rw [if_pos he]; exact hacts

theorem changed_svc {ann target : Str} {r : Nat} {s : St} (h : Svc ann target r s) : Svc ann target r (changed s) :=
  ⟨h.main, h.direct, h.running, h.freed, h.value, fun hn => emitFirst_changed (h.pending hn), h.known, h.before, h.after⟩

theorem thread_svc (mode : Mode) (hmode : mode ≠ .alone) {ann target : Str} {total : List Str} {r : Nat} {s : St} (h : Inv total r s) (hs : Svc ann target r s) :
    Svc ann target r (takeOp mode s) := by
  have hgood := h.good
  have hd : s.prog ≠ [] → .done ∉ s.sources := done_not_mem h
  have hval := hs.value
  unfold takeOp
  generalize hprog : s.prog = pr at hgood
  have hinvoke : ∀ src p, s.prog = .invoke src :: p →
      Svc ann target r (if s.main.owns then { s with prog := p, sources := s.sources ++ [src] } else { s with prog := p, direct := some src }) := by
    intro src p hp
    rw [hp] at hval
    rw [if_pos (by rw [hs.main]; rfl)]
    exact ⟨hs.main, hs.direct, hs.running, hs.freed, hval, fun hn => emitFirst_snoc _ (hs.pending hn), hs.known, hs.before, hs.after⟩
  cases hgood with
  | nil => exact hs
  | done => exact hinvoke _ _ hprog
  | notify p _ _ => exact hinvoke _ _ hprog
  | upd m p _ _ =>
    rw [hprog] at hval
    exact ⟨hs.main, hs.direct, hs.running, hs.freed, hval, hs.pending, hs.known, hs.before, hs.after⟩
  | finish x p _ _ =>
    rw [hprog] at hval
    exact ⟨hs.main, hs.direct, hs.running, hs.freed, hval, hs.pending, hs.known, hs.before, hs.after⟩
  | lastError m p _ _ =>
    rw [hprog] at hval
    dsimp only
    split
    · next hc =>
      rcases hc with hm | hm
      · exact absurd hm hmode
      · refine ⟨hs.main, hs.direct, hs.running, hs.freed, ?_, hs.pending, hs.known, hs.before, hs.after⟩
        subst hm; exact hval
    · next hc =>
      have hbusy : s.busy = true := busy_of_prog h (by rw [hprog]; simp)
      have hnd : .done ∉ s.sources := hd (by rw [hprog]; simp)
      refine ⟨hs.main, hs.direct, hs.running, hs.freed, hval, fun _ => ?_, hs.known, hs.before, fun hb => ?_⟩
      · show EmitFirst (if .emit ∈ s.sources then s.sources else s.sources ++ [.emit])
        split
        · next hm => exact emitFirst_mem hm hnd
        · exact ⟨s.sources, [], rfl, hnd⟩
      · exact absurd (hbusy.symm.trans hb) (by simp)
  | flush p _ _ =>
    rw [hprog] at hval
    have hp : Svc ann target r { s with prog := p } := ⟨hs.main, hs.direct, hs.running, hs.freed, hval, hs.pending, hs.known, hs.before, hs.after⟩
    dsimp only
    split
    · exact announce_svc hp
    · exact hp

/-- the main loop runs a source -/
theorem main_svc (mode : Mode) (hmode : mode ≠ .alone) {ann target : Str} {total : List Str} {r : Nat} {s : St} (h : Inv total r s) (hs : Svc ann target r s)
    (src : Src) (l : List Src) (hl : s.sources = src :: l) :
    Inv total r (runSrc mode { s with sources := l } src) ∧ Svc ann target r (runSrc mode { s with sources := l } src) := by
  have hpe : src ≠ .emit → pipeline s = src :: pipeline { s with sources := l } := by
    intro hne; unfold pipeline; rw [hl]; simp [List.filter_cons, hne]
  have hpe' : src = .emit → pipeline s = pipeline { s with sources := l } := by
    rintro rfl; unfold pipeline; rw [hl]; simp [List.filter_cons]
  have hbusy : src ≠ .emit → s.busy = true := by
    intro hne
    rcases Bool.eq_false_or_eq_true s.busy with hb | hb
    · exact hb
    · have := (h.pipe' hb).1; rw [hpe hne] at this; cases this
  have hfr : s.freed = false ∨ src = .emit := by
    rcases Classical.em (src = .emit) with he | he
    · exact .inr he
    · left; rw [hs.freed, hbusy he]; rfl
  have hinv := run_inv mode total r s { s with sources := l } src h hfr hpe hpe' rfl rfl rfl rfl rfl rfl rfl
  refine ⟨hinv, ?_⟩
  cases src with
  | emit =>
    have hann : ∀ t : St, t = { s with sources := l } → Svc ann target r (announce t) := by
      rintro t rfl
      refine ⟨hs.main, hs.direct, hs.running, hs.freed, hs.value, fun hn => absurd rfl hn, ?_, ?_, ?_⟩
      · exact (announce_svc hs).known
      · exact (announce_svc hs).before
      · exact (announce_svc hs).after
    exact hann _ rfl
  | notify =>
    refine ⟨hs.main, hs.direct, hs.running, hs.freed, hs.value, fun hn => ?_, hs.known, hs.before, hs.after⟩
    have := hs.pending hn
    rw [hl] at this
    exact (emitFirst_tail (by simp) this).2
  | done =>
    have hb := hbusy (by simp)
    have heq : s.error = s.announced := by
      rcases Classical.em (s.error = s.announced) with he | he
      · exact he
      · have := hs.pending he
        rw [hl] at this
        exact absurd rfl (emitFirst_tail (by simp) this).1
    have hprog : s.prog = [] := by
      rcases Classical.em (s.prog = []) with hp | hp
      · exact hp
      · exact absurd (by rw [hl]; simp) (done_not_mem h hp)
    have hst : s.status = some r := by
      rcases h.fin with hf | hf
      · exact hf
      · rw [hprog] at hf; cases hf
    have hval : s.error = target := by have := hs.value; rw [hprog] at this; exact this
    have hacts : (runDone mode { s with sources := l }).acts = s.acts ++ [.completed (some r)] := by
      cases mode with
      | alone => exact absurd rfl hmode
      | service => simp [runDone, free, announce, changed, heq, hst]
      | poller => simp [runDone, free, announce, changed, heq, hst]
    have hrest : (runDone mode { s with sources := l }).main = s.main ∧ (runDone mode { s with sources := l }).direct = s.direct ∧ (runDone mode { s with sources := l }).running = s.running
        ∧ (runDone mode { s with sources := l }).freed = true ∧ (runDone mode { s with sources := l }).busy = false ∧ (runDone mode { s with sources := l }).error = s.error
        ∧ (runDone mode { s with sources := l }).announced = s.error ∧ (runDone mode { s with sources := l }).prog = s.prog := by
      cases mode with
      | alone => exact absurd rfl hmode
      | service => exact ⟨rfl, rfl, rfl, rfl, rfl, rfl, rfl, rfl⟩
      | poller => exact ⟨rfl, rfl, rfl, rfl, rfl, rfl, rfl, rfl⟩
    obtain ⟨a1, a2, a3, a4, a5, a6, a7, a8⟩ := hrest
    show Svc ann target r (runDone mode { s with sources := l })
    refine ⟨a1.trans hs.main, a2.trans hs.direct, a3.trans hs.running, ?_, ?_, ?_, ?_, ?_, ?_⟩
    · rw [a4, a5]; rfl
    · rw [a6, a8, hprog]; exact hval
    · intro hn; exact absurd (a6.trans a7.symm) hn
    · rw [hacts, known_append, hs.known, a7, heq]; rfl
    · intro hb'; exact absurd (hb'.symm.trans a5) (by simp)
    · intro _
      exact ⟨s.acts, hacts, hs.before hb, by rw [hs.known, ← heq, hval], a6.trans a7.symm⟩

theorem step_svc (mode : Mode) (hmode : mode ≠ .alone) {ann target : Str} {total : List Str} {r : Nat} {s : St} (h : Inv total r s) (hs : Svc ann target r s) (c : Choice) :
    Inv total r (step mode s c) ∧ Svc ann target r (step mode s c) := by
  cases c with
  | thread =>
    have : step mode s .thread = takeOp mode s := by show threadStep mode s = _; unfold threadStep; rw [hs.direct]
    rw [this]
    refine ⟨op_inv mode total r s h hs.direct (fun hb => by rw [hs.freed, hb]; rfl) (fun ho => ?_), thread_svc mode hmode h hs⟩
    rw [hs.main] at ho; cases ho
  | main =>
    show Inv total r (mainStep mode s) ∧ Svc ann target r (mainStep mode s)
    unfold mainStep
    rw [hs.main]
    dsimp only
    split
    · next src l hl => have := main_svc mode hmode h hs src l hl; rw [hs.main] at this; exact this
    · exact ⟨h, hs⟩
  | leave =>
    have : step mode s .leave = s := by show leave s = s; unfold leave; rw [hs.main]; simp [hs.running]
    rw [this]; exact ⟨h, hs⟩
  | other =>
    have : step mode s .other = changed s := by cases mode <;> first | rfl | exact absurd rfl hmode
    rw [this]
    exact ⟨inv_congr h (changed_pipe s) rfl rfl rfl rfl rfl rfl, changed_svc hs⟩

theorem run_svc (mode : Mode) (hmode : mode ≠ .alone) {ann target : Str} {total : List Str} {r : Nat} (cs : List Choice) {s : St} (h : Inv total r s) (hs : Svc ann target r s) :
    Inv total r (run mode s cs) ∧ Svc ann target r (run mode s cs) := by
  induction cs generalizing s with
  | nil => exact ⟨h, hs⟩
  | cons c cs ih => have := step_svc mode hmode h hs c; exact ih this.1 this.2

/-- C84, safety in the service, for every interleaving of the installation thread, the main loop and other callbacks: nothing is used after it was freed and no assertion
fails; the messages are logged in order, each once; while the installation runs, no `Completed` is sent; when it has ended, `Completed` was sent exactly once, with the
result, after all messages, the service is not busy any more, and whoever has received `Completed` has received the final value of `LastError` before. -/
theorem C84_service (mode : Mode) (hmode : mode ≠ .alone) (body : List Body) (error : Option Str) (err ann : Str) (pending : Bool) (hp : err = ann ∨ pending = true) (cs : List Choice) :
    let s := run mode (init mode body error err ann pending) cs
    s.bad = false ∧ s.out <+: shown mode body error ∧
    (s.busy = true → ∀ a ∈ s.acts, ¬ IsCompleted a) ∧
    (s.busy = false → s.out = shown mode body error ∧
      ∃ before, s.acts = before ++ [.completed (some (result error))] ∧ (∀ a ∈ before, ¬ IsCompleted a) ∧ known ann before = error.getD []) := by
  intro s
  have h := run_svc mode hmode cs (init_inv mode body error err ann pending) (init_svc mode body error err ann pending hmode hp)
  refine ⟨h.1.ok, ⟨s.queue ++ pushes s.prog, by rw [← List.append_assoc]; exact h.1.msgs⟩, h.2.before, fun hb => ⟨?_, ?_⟩⟩
  · have hpp := h.1.pipe' hb
    have := h.1.msgs
    rw [hpp.2.1, hpp.2.2] at this
    simpa [pushes] using this
  · obtain ⟨b, h1, h2, h3, _⟩ := h.2.after hb
    exact ⟨b, h1, h2, h3⟩

/-! ## Fair schedules -/

theorem at_succ (mode : Mode) (s : St) (f : Nat → Choice) (n : Nat) : at' mode s f (n + 1) = step mode (at' mode s f n) (f n) := by
  have hr : ∀ (l : List Choice) (t : St) (c : Choice), run mode t (l ++ [c]) = step mode (run mode t l) c := by
    intro l
    induction l with
    | nil => intro t c; rfl
    | cons x l ih => intro t c; exact ih _ _
  unfold at'
  rw [List.range_succ, List.map_append]
  exact hr _ _ _

/-- a number that never grows and shrinks whenever the choice `c` is made gets zero, and stays zero -/
theorem fair_zero (g : Nat → Nat) (f : Nat → Choice) (c : Choice) (hf : ∀ n, ∃ m, n ≤ m ∧ f m = c) (N : Nat) (hmono : ∀ n, N ≤ n → g (n + 1) ≤ g n)
    (hdec : ∀ n, N ≤ n → f n = c → g n ≠ 0 → g (n + 1) < g n) : ∃ n, N ≤ n ∧ ∀ m, n ≤ m → g m = 0 := by
  have hle : ∀ k n, N ≤ n → g (n + k) ≤ g n := by
    intro k
    induction k with
    | zero => intro n _; exact Nat.le_refl _
    | succ k ih => intro n hn; exact Nat.le_trans (hmono (n + k) (by omega)) (ih n hn)
  have hall : ∀ v n, N ≤ n → g n ≤ v → ∃ n', N ≤ n' ∧ g n' = 0 := by
    intro v
    induction v with
    | zero => intro n hn hv; exact ⟨n, hn, by omega⟩
    | succ v ih =>
      intro n hn hv
      obtain ⟨m, hm, hc⟩ := hf n
      rcases Nat.eq_zero_or_pos (g m) with h0 | h0
      · exact ⟨m, by omega, h0⟩
      · have h1 := hdec m (by omega) hc (by omega)
        have h2 : g m ≤ g n := by have := hle (m - n) n hn; rwa [Nat.add_sub_cancel' hm] at this
        exact ih (m + 1) (by omega) (by omega)
  obtain ⟨n, hn, h0⟩ := hall (g N) N (Nat.le_refl _) (Nat.le_refl _)
  refine ⟨n, hn, fun m hm => ?_⟩
  have := hle (m - n) n hn
  rw [Nat.add_sub_cancel' hm, h0] at this
  omega

theorem runSrc_prog (mode : Mode) (s : St) (src : Src) : (runSrc mode s src).prog = s.prog ∧ (runSrc mode s src).direct = s.direct ∧ (runSrc mode s src).main = s.main := by
  cases src <;> cases mode <;> exact ⟨rfl, rfl, rfl⟩

theorem main_prog (mode : Mode) (s : St) : (mainStep mode s).prog = s.prog ∧ (mainStep mode s).direct = s.direct := by
  unfold mainStep
  split
  · split <;> exact ⟨rfl, rfl⟩
  · split
    · exact ⟨rfl, rfl⟩
    · split <;> exact ⟨rfl, rfl⟩
  · split
    · next src l _ => have := runSrc_prog mode { s with sources := l } src; exact ⟨this.1, this.2.1⟩
    · exact ⟨rfl, rfl⟩
  · exact ⟨rfl, rfl⟩
  · exact ⟨rfl, rfl⟩

theorem leave_prog (s : St) : (leave s).prog = s.prog ∧ (leave s).direct = s.direct := by
  unfold leave
  split
  · split <;> exact ⟨rfl, rfl⟩
  · exact ⟨rfl, rfl⟩

/-- what the thread has still to do -/
def todo (s : St) : Nat := 2 * s.prog.length + if s.direct.isSome then 1 else 0

theorem thread_todo (mode : Mode) (s : St) (h : todo s ≠ 0) : todo (threadStep mode s) < todo s := by
  unfold threadStep
  split
  · next src hd => have := runSrc_prog mode s src; simp [todo, this.1, hd]
  · next hd =>
    have h0 : todo s = 2 * s.prog.length := by simp [todo, hd]
    rw [h0] at h ⊢
    unfold takeOp
    split
    · next hp => rw [hp] at h; exact absurd rfl h
    · next hp => simp [todo, hd, hp]
    · next hp => simp [todo, hd, hp]
    · next hp => split <;> simp [todo, hd, hp, changed]
    · next hp => split <;> simp [todo, hd, hp, announce]
    · next hp => split <;> simp [todo, hd, hp] <;> omega

theorem thread_idle (mode : Mode) (s : St) (h : todo s = 0) : threadStep mode s = s := by
  have hd : s.direct = none := by
    cases hd : s.direct with
    | none => rfl
    | some x => simp [todo, hd] at h
  have hp : s.prog = [] := by
    cases hp : s.prog with
    | nil => rfl
    | cons x l => simp [todo, hp] at h
  simp [threadStep, hd, takeOp, hp]

theorem step_todo (mode : Mode) (s : St) (c : Choice) (hc : c ≠ .thread) : todo (step mode s c) = todo s := by
  cases c with
  | thread => exact absurd rfl hc
  | main => have := main_prog mode s; simp [step, todo, this.1, this.2]
  | leave => have := leave_prog s; simp [step, todo, this.1, this.2]
  | other => cases mode <;> rfl

theorem todo_mono (mode : Mode) (s : St) (c : Choice) : todo (step mode s c) ≤ todo s := by
  rcases Classical.em (c = .thread) with rfl | hc
  · rcases Nat.eq_zero_or_pos (todo s) with h | h
    · show todo (threadStep mode s) ≤ _; rw [thread_idle mode s h]; exact Nat.le_refl _
    · exact Nat.le_of_lt (thread_todo mode s (by omega))
  · rw [step_todo mode s c hc]; exact Nat.le_refl _

/-- in every fair schedule the thread ends -/
theorem thread_ends (mode : Mode) (s : St) (f : Nat → Choice) (hf : ∀ n, ∃ m, n ≤ m ∧ f m = .thread) : ∃ n, ∀ m, n ≤ m → todo (at' mode s f m) = 0 := by
  obtain ⟨n, _, h⟩ := fair_zero (fun n => todo (at' mode s f n)) f .thread hf 0 (fun n _ => by rw [at_succ]; exact todo_mono _ _ _)
    (fun n _ hc hn => by rw [at_succ, hc]; exact thread_todo mode _ hn)
  exact ⟨n, h⟩

/-- the position of `done` -/
def pos : List Src → Nat
  | [] => 0
  | .done :: _ => 0
  | .notify :: l => pos l + 1
  | .emit :: l => pos l + 1

/-- how many sources the main loop has to run until the end of the installation -/
def waitFor (s : St) : Nat := if s.busy then pos s.sources + 1 else 0

theorem pos_filter (l : List Src) : pos (l.filter (· ≠ .emit)) ≤ pos l := by
  induction l with
  | nil => simp
  | cons x l ih =>
    cases x with
    | emit => simp [pos] at ih ⊢; omega
    | notify => simp [pos] at ih ⊢; omega
    | done => simp [pos]

theorem pos_snoc (l : List Src) (x : Src) (h : .done ∈ l) : pos (l ++ [x]) = pos l := by
  induction l with
  | nil => cases h
  | cons y l ih => cases y <;> simp [pos] at h ⊢ <;> exact ih h

theorem runSrc_wait (mode : Mode) (s : St) (src : Src) (l : List Src) (hl : s.sources = src :: l) (hb : s.busy = true) :
    waitFor (runSrc mode { s with sources := l } src) < waitFor s := by
  have h0 : waitFor s = pos (src :: l) + 1 := by simp [waitFor, hb, hl]
  rw [h0]
  cases src with
  | notify => simp [runSrc, runNotify, waitFor, hb, pos]
  | emit => have := pos_filter l; simp [runSrc, announce, waitFor, hb, pos] at this ⊢; omega
  | done => cases mode <;> simp [runSrc, runDone, waitFor]

theorem done_mem {total : List Str} {r : Nat} {s : St} (h : Inv total r s) (hb : s.busy = true) (ht : todo s = 0) : .done ∈ s.sources := by
  obtain ⟨k, hk⟩ := h.pipe hb
  have hd : s.direct = none := by
    cases hd : s.direct with
    | none => rfl
    | some x => simp [todo, hd] at ht
  have hp : s.prog = [] := by
    cases hp : s.prog with
    | nil => rfl
    | cons x l => simp [todo, hp] at ht
  unfold pipeline at hk
  rw [hd, hp] at hk
  have hm : Src.done ∈ s.sources.filter (· ≠ .emit) := by
    have : s.sources.filter (· ≠ .emit) = List.replicate k .notify ++ [.done] := by simpa [invokes] using hk
    rw [this]; simp
  exact (List.mem_filter.1 hm).1

/-- C84, the service: whatever the schedule, as long as the thread and the main loop are run again and again, the installation ends (and then `C84_service` applies). -/
theorem C84_service_ends (mode : Mode) (hmode : mode ≠ .alone) (body : List Body) (error : Option Str) (err ann : Str) (pending : Bool) (hp : err = ann ∨ pending = true)
    (f : Nat → Choice) (hf : Fair [.thread, .main] f) : ∃ n, (at' mode (init mode body error err ann pending) f n).busy = false := by
  let s0 := init mode body error err ann pending
  have hall : ∀ n, Inv (shown mode body error) (result error) (at' mode s0 f n) ∧ Svc ann (error.getD []) (result error) (at' mode s0 f n) := fun n =>
    run_svc mode hmode _ (init_inv mode body error err ann pending) (init_svc mode body error err ann pending hmode hp)
  obtain ⟨N, hN⟩ := thread_ends mode s0 f (hf .thread (by simp))
  have hkey : ∀ n, N ≤ n → (f n ≠ .main → waitFor (at' mode s0 f (n + 1)) ≤ waitFor (at' mode s0 f n))
      ∧ (f n = .main → waitFor (at' mode s0 f n) ≠ 0 → waitFor (at' mode s0 f (n + 1)) < waitFor (at' mode s0 f n))
      ∧ (waitFor (at' mode s0 f n) = 0 → waitFor (at' mode s0 f (n + 1)) = 0) := by
    intro n hn
    obtain ⟨hi, hs⟩ := hall n
    have ht := hN n hn
    rw [at_succ]
    generalize hst : at' mode s0 f n = s at hi hs ht
    have hzero : waitFor s = 0 → s.busy = false := by
      intro h
      cases hb : s.busy with
      | false => rfl
      | true => simp [waitFor, hb] at h
    generalize f n = c
    cases c with
    | thread =>
      have : step mode s .thread = s := thread_idle mode s ht
      rw [this]
      exact ⟨fun _ => Nat.le_refl _, fun h => (by cases h), id⟩
    | leave =>
      have : step mode s .leave = s := by show leave s = s; unfold leave; rw [hs.main]; simp [hs.running]
      rw [this]
      exact ⟨fun _ => Nat.le_refl _, fun h => (by cases h), id⟩
    | other =>
      have : step mode s .other = changed s := by cases mode <;> first | rfl | exact absurd rfl hmode
      rw [this]
      have hle : waitFor (changed s) ≤ waitFor s := by
        cases hb : s.busy with
        | false => simp [waitFor, changed, hb]
        | true =>
          have hm := done_mem hi hb ht
          simp only [waitFor, changed, hb, if_true]
          split
          · exact Nat.le_refl _
          · rw [pos_snoc _ _ hm]; exact Nat.le_refl _
      exact ⟨fun _ => hle, fun h => (by cases h), fun h => by omega⟩
    | main =>
      refine ⟨fun h => absurd rfl h, fun _ h => ?_, fun h => ?_⟩
      · have hb : s.busy = true := by
          cases hb : s.busy with
          | true => rfl
          | false => simp [waitFor, hb] at h
        have hm := done_mem hi hb ht
        show waitFor (mainStep mode s) < _
        unfold mainStep
        rw [hs.main]
        dsimp only
        split
        · next src l hl => have := runSrc_wait mode s src l hl hb; rw [hs.main] at this; exact this
        · next hl => rw [hl] at hm; cases hm
      · have hb := hzero h
        show waitFor (mainStep mode s) = 0
        unfold mainStep
        rw [hs.main]
        dsimp only
        split
        · next src l hl =>
          have hpp := (hi.pipe' hb).1
          have hsrc : src = .emit := by
            cases src with
            | emit => rfl
            | notify => unfold pipeline at hpp; rw [hl] at hpp; simp at hpp
            | done => unfold pipeline at hpp; rw [hl] at hpp; simp at hpp
          subst hsrc
          simp [waitFor, runSrc, announce, hb]
        · exact h
  obtain ⟨n, hn, h0⟩ := fair_zero (fun n => waitFor (at' mode s0 f n)) f .main (hf .main (by simp)) N (fun n hn => by
      have := hkey n hn
      rcases Classical.em (f n = .main) with hc | hc
      · rcases Nat.eq_zero_or_pos (waitFor (at' mode s0 f n)) with h0 | h0
        · have h1 := this.2.2 h0; omega
        · exact Nat.le_of_lt (this.2.1 hc (by omega))
      · exact this.1 hc)
    (fun n hn hc h0 => (hkey n hn).2.1 hc h0)
  refine ⟨n, ?_⟩
  have := h0 n (Nat.le_refl _)
  cases hb : (at' mode s0 f n).busy with
  | false => rfl
  | true => simp [waitFor, hb] at this

/-! ## The build without the service -/

theorem alone_thread {total : List Str} {r : Nat} {s : St} (h : Inv total r s) (ha : Alone r s) : Inv total r (threadStep .alone s) ∧ Alone r (threadStep .alone s) := by
  unfold threadStep
  split
  · next src hd =>
    have hmain := ha.direct (by rw [hd]; simp)
    have hsrc := ha.early hmain
    have hfr : s.freed = false := by rw [ha.freed]; rcases hmain with hm | hm <;> rw [hm] <;> rfl
    have hacts : s.acts = [] := by rw [ha.acts]; rcases hmain with hm | hm <;> rw [hm] <;> rfl
    have hpipe : pipeline s = src :: pipeline { s with direct := none } := by unfold pipeline; rw [hsrc, hd]; rfl
    have hb : s.busy = true := by
      rcases Bool.eq_false_or_eq_true s.busy with hb | hb
      · exact hb
      · rw [(h.pipe' hb).1] at hpipe; cases hpipe
    have hne : src ≠ .emit := by
      rintro rfl
      obtain ⟨k, hk⟩ := h.pipe hb
      rw [hpipe] at hk
      exact head_emit hk
    have hrun : { runSrc .alone s src with direct := none } = runSrc .alone { s with direct := none } src := by cases src <;> rfl
    rw [hrun]
    refine ⟨run_inv .alone total r s { s with direct := none } src h (.inl hfr) (fun _ => hpipe) (fun he => absurd he hne) rfl rfl rfl rfl rfl rfl rfl, ?_⟩
    cases src with
    | emit => exact absurd rfl hne
    | notify => exact ⟨ha.noEmit, ha.early, fun hn => absurd rfl hn, ha.late, ha.stopped, ha.freed, ha.acts⟩
    | done => exact ⟨ha.noEmit, ha.early, fun hn => absurd rfl hn, fun _ => rfl, fun _ => .inr rfl, ha.freed, ha.acts⟩
  · next hd =>
    have hf : s.busy = true → s.freed = false := by
      intro hb
      rw [ha.freed]
      rcases Classical.em (s.main = .exited) with he | he
      · exact absurd (ha.late (.inr he)) (by rw [hb]; simp)
      · simp [he]
    have hrun : s.prog ≠ [] → s.main ≠ .returned ∧ s.main ≠ .exited := by
      intro hp
      have hb := busy_of_prog h hp
      exact ⟨fun hm => absurd (ha.late (.inl hm)) (by rw [hb]; simp), fun hm => absurd (ha.late (.inr hm)) (by rw [hb]; simp)⟩
    refine ⟨?_, ?_⟩
    · rcases Classical.em (s.prog = []) with hp | hp
      · have : takeOp .alone s = s := by unfold takeOp; rw [hp]
        rw [this]; exact h
      · refine op_inv .alone total r s h hd hf (fun ho => ?_)
        have hm := hrun hp
        rw [ha.early (by cases hmm : s.main <;> simp_all [Main.owns])]
        rfl
    · unfold takeOp
      split
      · exact ha
      · exact ⟨ha.noEmit, ha.early, ha.direct, ha.late, ha.stopped, ha.freed, ha.acts⟩
      · exact ⟨ha.noEmit, ha.early, ha.direct, ha.late, ha.stopped, ha.freed, ha.acts⟩
      · split
        · exact ⟨ha.noEmit, ha.early, ha.direct, ha.late, ha.stopped, ha.freed, ha.acts⟩
        · next hc => exact absurd (.inl rfl) hc
      · split
        · next hm => exact absurd hm ha.noEmit
        · exact ⟨ha.noEmit, ha.early, ha.direct, ha.late, ha.stopped, ha.freed, ha.acts⟩
      · next src p hp =>
        have hm := hrun (by rw [hp]; simp)
        have hne : src ≠ .emit := by
          rintro rfl
          obtain ⟨k, hk⟩ := h.pipe (busy_of_prog h (by rw [hp]; simp))
          have hmem : Src.emit ∈ pipeline s := by unfold pipeline; rw [hp]; simp [invokes]
          rw [hk] at hmem
          simp at hmem
        split
        · next ho =>
          have hl : s.main = .looping := by cases hmm : s.main <;> simp_all [Main.owns]
          refine ⟨?_, ?_, ha.direct, ha.late, ha.stopped, ha.freed, ha.acts⟩
          · intro hmem
            rcases List.mem_append.1 hmem with hmem | hmem
            · exact ha.noEmit hmem
            · exact hne (List.mem_singleton.1 hmem).symm
          · intro hmm
            have hmm : s.main = .before ∨ s.main = .waiting := hmm
            rw [hl] at hmm
            rcases hmm with hmm | hmm <;> cases hmm
        · next ho => exact ⟨ha.noEmit, ha.early, fun _ => by
            show s.main = .before ∨ s.main = .waiting
            cases hmm : s.main <;> simp_all [Main.owns], ha.late, ha.stopped, ha.freed, ha.acts⟩

theorem alone_main {total : List Str} {r : Nat} {s : St} (h : Inv total r s) (ha : Alone r s) : Inv total r (mainStep .alone s) ∧ Alone r (mainStep .alone s) := by
  obtain ⟨n1, n2, n3, n4, n5, n6, n7⟩ := ha
  unfold mainStep
  split
  · next hm =>
    rw [hm] at n2 n3 n4 n5 n6 n7
    split
    · exact ⟨inv_congr h rfl rfl rfl rfl rfl rfl rfl, n1, fun _ => n2 (.inl rfl), fun _ => .inr rfl, by simp, by simp, n6, n7⟩
    · next hd =>
      refine ⟨inv_congr h rfl rfl rfl rfl rfl rfl rfl, n1, by simp, fun hn => ?_, by simp, by simp, n6, n7⟩
      exact absurd hn (by simpa using hd)
  · next hm =>
    rw [hm] at n2 n3 n4 n5 n6 n7
    split
    · exact ⟨h, n1, fun _ => n2 (.inr rfl), fun _ => .inr hm, by simp [hm], fun hr => .inr (by simpa using n5 hr), by rw [hm]; exact n6, by rw [hm]; exact n7⟩
    · next hd =>
      split
      · refine ⟨inv_congr h rfl rfl rfl rfl rfl rfl rfl, n1, by simp, fun hn => ?_, by simp, by simp, n6, n7⟩
        exact absurd hn (by simpa using hd)
      · next hr =>
        have hb : s.busy = false := by simpa using n5 (by simpa using hr)
        refine ⟨inv_congr h rfl rfl rfl rfl rfl rfl rfl, n1, by simp, fun hn => ?_, fun _ => hb, fun _ => .inr hb, n6, n7⟩
        exact absurd hn (by simpa using hd)
  · next hm =>
    rw [hm] at n2 n3 n4 n5 n6 n7
    split
    · next src l hl =>
      have hd : s.direct = none := by
        rcases Classical.em (s.direct = none) with hd | hd
        · exact hd
        · exact absurd (n3 hd) (by simp)
      have hne : src ≠ .emit := fun he => n1 (by rw [hl, he]; simp)
      have hpe : pipeline s = src :: pipeline { s with sources := l } := by unfold pipeline; rw [hl]; simp [hne]
      have hfr : s.freed = false := by rw [n6]; rfl
      have hinv := run_inv .alone total r s { s with sources := l } src h (.inl hfr) (fun _ => hpe) (fun he => absurd he hne) rfl rfl rfl rfl rfl rfl rfl
      refine ⟨hinv, ?_⟩
      have h1 : .emit ∉ l := fun he => n1 (by rw [hl]; exact List.mem_cons_of_mem _ he)
      cases src with
      | emit => exact absurd rfl hne
      | notify => exact ⟨h1, by simp [runSrc, runNotify, hm], fun hn => absurd hd hn, by simp [runSrc, runNotify, hm], fun hr => .inr (by simpa [runSrc, runNotify] using n5 hr), by simp [runSrc, runNotify, hm, hfr], by simpa [runSrc, runNotify, hm] using n7⟩
      | done => exact ⟨h1, by simp [runSrc, runDone, hm], fun hn => absurd hd hn, fun _ => rfl, fun _ => .inr rfl, by simp [runSrc, runDone, hm, hfr], by simpa [runSrc, runDone, hm] using n7⟩
    · exact ⟨h, n1, by simp [hm], fun hn => absurd (n3 hn) (by simp), by simp [hm], fun hr => .inr (by simpa using n5 hr), by rw [hm]; exact n6, by rw [hm]; exact n7⟩
  · next hm =>
    rw [hm] at n2 n3 n4 n5 n6 n7
    have hb := n4 (.inl rfl)
    have hp := h.pipe' hb
    have hst : s.status = some r := by
      rcases h.fin with hf | hf
      · exact hf
      · rw [hp.2.2] at hf; cases hf
    have hacts : s.acts = [] := by simpa using n7
    have hfr : s.freed = false := by simpa using n6
    refine ⟨⟨h.msgs, h.good, h.pipe, h.pipe', h.queued, h.fin, h.fin', ?_⟩, n1, by simp [free], ?_, fun _ => hb, fun _ => .inr hb, rfl, ?_⟩
    · simp [free, h.ok, hfr, hst, hp.2.1]
    · intro hn; exact absurd (n3 hn) (by simp)
    · simp [free, hacts, hst]
  · exact ⟨h, n1, n2, n3, n4, n5, n6, n7⟩

theorem alone_leave {total : List Str} {r : Nat} {s : St} (h : Inv total r s) (ha : Alone r s) : Inv total r (leave s) ∧ Alone r (leave s) := by
  unfold leave
  split
  · next hm =>
    split
    · exact ⟨h, ha⟩
    · next hr =>
      have hb : s.busy = false := by
        rcases ha.stopped (by simpa using hr) with hx | hx
        · rw [hm] at hx; cases hx
        · exact hx
      refine ⟨inv_congr h rfl rfl rfl rfl rfl rfl rfl, ha.noEmit, by simp, fun hn => ?_, fun _ => hb, fun _ => .inr hb, ?_, ?_⟩
      · have := ha.direct hn; rw [hm] at this; rcases this with hx | hx <;> cases hx
      · have := ha.freed; rw [hm] at this; exact this
      · have := ha.acts; rw [hm] at this; exact this
  · exact ⟨h, ha⟩

theorem step_alone {total : List Str} {r : Nat} {s : St} (h : Inv total r s) (ha : Alone r s) (c : Choice) :
    Inv total r (step .alone s c) ∧ Alone r (step .alone s c) := by
  cases c with
  | thread => exact alone_thread h ha
  | main => exact alone_main h ha
  | leave => exact alone_leave h ha
  | other => exact ⟨h, ha⟩

theorem run_alone {total : List Str} {r : Nat} (cs : List Choice) {s : St} (h : Inv total r s) (ha : Alone r s) : Inv total r (run .alone s cs) ∧ Alone r (run .alone s cs) := by
  induction cs generalizing s with
  | nil => exact ⟨h, ha⟩
  | cons c cs ih => have := step_alone h ha c; exact ih this.1 this.2

/-- C84, safety in the build without the service: the same, with the exit status of `rauc install` in place of `Completed` -/
theorem C84_alone (body : List Body) (error : Option Str) (cs : List Choice) :
    let s := run .alone (init .alone body error [] [] false) cs
    s.bad = false ∧ s.out <+: messages body error ∧ (s.acts = [] ∨ (s.acts = [.exit (some (result error))] ∧ s.out = messages body error)) := by
  intro s
  have h := run_alone cs (init_inv .alone body error [] [] false) (init_alone body error)
  refine ⟨h.1.ok, ⟨s.queue ++ pushes s.prog, by rw [← List.append_assoc]; exact h.1.msgs⟩, ?_⟩
  rcases Classical.em (s.main = .exited) with he | he
  · right
    refine ⟨by rw [h.2.acts, if_pos he], ?_⟩
    have hpp := h.1.pipe' (h.2.late (.inr he))
    have := h.1.msgs
    rw [hpp.2.1, hpp.2.2] at this
    have hs : shown .alone body error = messages body error := by simp [shown]
    rw [hs] at this
    simpa [pushes] using this
  · left; rw [h.2.acts, if_neg he]

/-- the main thread has asked for the ownership of its context before the end of the installation, so it will not miss it -/
def Entered (s : St) : Prop := s.main ≠ .before ∧ (s.busy = false → s.running = false)

theorem entered_step {s : St} (he : Entered s) (c : Choice) : Entered (step .alone s c) := by
  obtain ⟨h1, h2⟩ := he
  cases c with
  | other => exact ⟨h1, h2⟩
  | leave =>
    show Entered (leave s)
    unfold leave
    split
    · split
      · exact ⟨h1, h2⟩
      · exact ⟨by simp, h2⟩
    · exact ⟨h1, h2⟩
  | thread =>
    show Entered (threadStep .alone s)
    unfold threadStep
    split
    · next src hd => cases src <;> first | exact ⟨h1, h2⟩ | exact ⟨h1, fun _ => rfl⟩
    · unfold takeOp
      split
      · exact ⟨h1, h2⟩
      · exact ⟨h1, h2⟩
      · exact ⟨h1, h2⟩
      · split <;> exact ⟨h1, h2⟩
      · split <;> exact ⟨h1, h2⟩
      · split <;> exact ⟨h1, h2⟩
  | main =>
    show Entered (mainStep .alone s)
    unfold mainStep
    split
    · next hm => exact absurd hm h1
    · split
      · exact ⟨h1, h2⟩
      · split
        · next hr => exact ⟨by simp, fun hb => by rw [h2 hb] at hr; cases hr⟩
        · next hr => exact ⟨by simp, fun _ => by simpa using hr⟩
    · split
      · next src l hl => cases src <;> first | exact ⟨h1, h2⟩ | exact ⟨h1, fun _ => rfl⟩
      · exact ⟨h1, h2⟩
    · exact ⟨by simp [free], h2⟩
    · exact ⟨h1, h2⟩

/-- a stage: something that holds from some time on -/
theorem stage {P : St → Prop} (S : Nat → St) (f : Nat → Choice) (c : Choice) (hf : ∀ n, ∃ m, n ≤ m ∧ f m = c) (N : Nat)
    (hkeep : ∀ n, N ≤ n → P (S n) → P (S (n + 1))) (hget : ∀ n, N ≤ n → f n = c → P (S (n + 1))) : ∃ n, N ≤ n ∧ ∀ m, n ≤ m → P (S m) := by
  obtain ⟨k, hk, hc⟩ := hf N
  refine ⟨k + 1, by omega, ?_⟩
  have : ∀ j, P (S (k + 1 + j)) := by
    intro j
    induction j with
    | zero => exact hget k hk hc
    | succ j ih => exact hkeep (k + 1 + j) (by omega) ih
  intro m hm
  have := this (m - (k + 1))
  rwa [Nat.add_sub_cancel' hm] at this

/-- C84, the build without the service (partial): in every schedule in which the main thread reaches `g_main_loop_run` before the end of the installation is handled, and
in which the thread and the main loop are run again and again, `rauc install` ends, with the result of the installation and all messages shown.
Missing: the case of `C84_alone_hang_violated`. -/
theorem C84_alone_ends_partial (body : List Body) (error : Option Str) (f : Nat → Choice) (hf : Fair [.thread, .main, .leave] f)
    (n0 : Nat) (h0 : (at' .alone (init .alone body error [] [] false) f n0).main ≠ .before) (hb0 : (at' .alone (init .alone body error [] [] false) f n0).busy = true) :
    ∃ n, (at' .alone (init .alone body error [] [] false) f n).acts = [.exit (some (result error))] ∧
      (at' .alone (init .alone body error [] [] false) f n).out = messages body error := by
  let s0 := init .alone body error [] [] false
  let S := at' .alone s0 f
  have hall : ∀ n, Inv (messages body error) (result error) (S n) ∧ Alone (result error) (S n) := fun n =>
    run_alone _ (init_inv .alone body error [] [] false) (init_alone body error)
  have hsucc : ∀ n, S (n + 1) = step .alone (S n) (f n) := fun n => at_succ _ _ _ _
  have hent : ∀ n, n0 ≤ n → Entered (S n) := by
    have : ∀ k, Entered (S (n0 + k)) := by
      intro k
      induction k with
      | zero => exact ⟨h0, fun hb => absurd (hb0.symm.trans hb) (by simp)⟩
      | succ k ih => show Entered (S (n0 + k + 1)); rw [hsucc]; exact entered_step ih _
    intro n hn
    have := this (n - n0)
    rwa [Nat.add_sub_cancel' hn] at this
  -- the thread ends
  obtain ⟨N1', h1'⟩ := thread_ends .alone s0 f (hf .thread (by simp))
  obtain ⟨N1, hN1, hN1'⟩ : ∃ N, N1' ≤ N ∧ n0 ≤ N := ⟨max N1' n0, by omega, by omega⟩
  have h1 : ∀ n, N1 ≤ n → todo (S n) = 0 := fun n hn => h1' n (by omega)
  have hdir : ∀ n, N1 ≤ n → (S n).direct = none := by
    intro n hn
    have := h1 n hn
    cases hd : (S n).direct with
    | none => rfl
    | some x => simp [todo, hd] at this
  have hth : ∀ n, N1 ≤ n → step .alone (S n) .thread = S n := fun n hn => thread_idle .alone _ (h1 n hn)
  -- the main thread has the context
  obtain ⟨N2, hN2, h2⟩ := stage (P := fun s => s.main ≠ .waiting) S f .main (hf .main (by simp)) N1
    (by
      intro n hn hP
      rw [hsucc]
      have hnb := (hent n (by omega)).1
      have hrs : ∀ (s : St) src, (runSrc .alone s src).main = s.main := fun s src => (runSrc_prog .alone s src).2.2
      cases f n with
      | thread => rw [hth n hn]; exact hP
      | other => exact hP
      | leave => show (leave (S n)).main ≠ _; unfold leave; split <;> first | exact hP | (split <;> first | exact hP | simp)
      | main =>
        show (mainStep .alone (S n)).main ≠ _
        unfold mainStep
        split
        · next hm => exact absurd hm hnb
        · next hm => exact absurd hm hP
        · next hm =>
          split
          · rw [hrs]; exact hP
          · exact hP
        · simp [free]
        · exact hP)
    (by
      intro n hn hc
      rw [hsucc, hc]
      have hnb := (hent n (by omega)).1
      have hrs : ∀ (s : St) src, (runSrc .alone s src).main = s.main := fun s src => (runSrc_prog .alone s src).2.2
      show (mainStep .alone (S n)).main ≠ _
      unfold mainStep
      split
      · next hm => exact absurd hm hnb
      · rw [hdir n hn]; simp only [Option.isSome_none]; split
        · next hx => cases hx
        · split <;> simp
      · next hm =>
        split
        · rw [hrs]; dsimp only; rw [hm]; simp
        · rw [hm]; simp
      · simp [free]
      · next hm => rw [hm]; simp)
  have hmain : ∀ n, N2 ≤ n → (S n).main = .looping ∨ (S n).main = .returned ∨ (S n).main = .exited := by
    intro n hn
    have a := (hent n (by omega)).1
    have b := h2 n hn
    cases hm : (S n).main <;> simp_all
  -- the end of the installation is handled
  have hbusyloop : ∀ n, N2 ≤ n → (S n).busy = true → (S n).main = .looping ∧ (S n).running = true := by
    intro n hn hb
    rcases hmain n hn with hm | hm | hm
    · refine ⟨hm, ?_⟩
      cases hr : (S n).running with
      | true => rfl
      | false =>
        rcases (hall n).2.stopped hr with hx | hx
        · rw [hm] at hx; cases hx
        · rw [hb] at hx; cases hx
    · exact absurd ((hall n).2.late (.inl hm)) (by rw [hb]; simp)
    · exact absurd ((hall n).2.late (.inr hm)) (by rw [hb]; simp)
  have hstay : ∀ n, N2 ≤ n → (S n).busy = false → (S (n + 1)).busy = false := by
    intro n hn hb
    rw [hsucc]
    cases f n with
    | thread => rw [hth n (by omega)]; exact hb
    | other => exact hb
    | leave => show (leave (S n)).busy = _; unfold leave; split <;> first | exact hb | (split <;> exact hb)
    | main =>
      show (mainStep .alone (S n)).busy = _
      unfold mainStep
      split
      · split <;> exact hb
      · split
        · exact hb
        · split <;> exact hb
      · split
        · next src l hl => cases src <;> first | exact hb | rfl
        · exact hb
      · exact hb
      · exact hb
  obtain ⟨N3, hN3, h3⟩ := fair_zero (fun n => waitFor (S n)) f .main (hf .main (by simp)) N2
    (by
      intro n hn
      cases hb : (S n).busy with
      | false => simp [waitFor, hstay n hn hb]
      | true =>
        obtain ⟨hm, hr⟩ := hbusyloop n hn hb
        rw [hsucc]
        cases f n with
        | thread => rw [hth n (by omega)]; exact Nat.le_refl _
        | other => exact Nat.le_refl _
        | leave => have : step .alone (S n) .leave = S n := by show leave (S n) = S n; unfold leave; rw [hm]; simp [hr]
                   rw [this]; exact Nat.le_refl _
        | main =>
          have hd := done_mem (hall n).1 hb (h1 n (by omega))
          show waitFor (mainStep .alone (S n)) ≤ _
          unfold mainStep
          rw [hm]
          dsimp only
          split
          · next src l hl => have := runSrc_wait .alone (S n) src l hl hb; rw [hm] at this; exact Nat.le_of_lt this
          · exact Nat.le_refl _)
    (by
      intro n hn hc hz
      have hb : (S n).busy = true := by
        cases hb : (S n).busy with
        | true => rfl
        | false => simp [waitFor, hb] at hz
      obtain ⟨hm, hr⟩ := hbusyloop n hn hb
      have hd := done_mem (hall n).1 hb (h1 n (by omega))
      rw [hsucc, hc]
      show waitFor (mainStep .alone (S n)) < _
      unfold mainStep
      rw [hm]
      dsimp only
      split
      · next src l hl => have := runSrc_wait .alone (S n) src l hl hb; rw [hm] at this; exact this
      · next hl => rw [hl] at hd; cases hd)
  have hfree : ∀ n, N3 ≤ n → (S n).busy = false := by
    intro n hn
    have := h3 n hn
    cases hb : (S n).busy with
    | false => rfl
    | true => simp [waitFor, hb] at this
  have hnosrc : ∀ n, N3 ≤ n → (S n).sources = [] := by
    intro n hn
    have hp := ((hall n).1.pipe' (hfree n hn)).1
    unfold pipeline at hp
    have hfil := (List.append_eq_nil_iff.1 (List.append_eq_nil_iff.1 hp).1).1
    cases hs : (S n).sources with
    | nil => rfl
    | cons x l =>
      have hx : x ≠ .emit := fun he => (hall n).2.noEmit (by rw [hs, he]; simp)
      rw [hs] at hfil
      simp [hx] at hfil
  -- the loop is left
  obtain ⟨N4, hN4, h4⟩ := stage (P := fun s => s.main ≠ .looping) S f .leave (hf .leave (by simp)) N3
    (by
      intro n hn hP
      rw [hsucc]
      have hm := hmain n (by omega)
      cases f n with
      | thread => rw [hth n (by omega)]; exact hP
      | other => exact hP
      | leave => show (leave (S n)).main ≠ _; unfold leave; split
                 · next hm => exact absurd hm hP
                 · exact hP
      | main =>
        show (mainStep .alone (S n)).main ≠ _
        unfold mainStep
        rcases hm with hm | hm | hm
        · exact absurd hm hP
        · rw [hm]; simp [free]
        · rw [hm]; dsimp only; rw [hm]; simp)
    (by
      intro n hn hc
      rw [hsucc, hc]
      have hr := (hent n (by omega)).2 (hfree n hn)
      show (leave (S n)).main ≠ _
      unfold leave
      split
      · rw [hr]; simp
      · next hm => exact hm)
  -- and the process ends
  obtain ⟨m, hm, hc⟩ := hf .main (by simp) N4
  have hexit : (S (m + 1)).main = .exited := by
    rw [hsucc, hc]
    show (mainStep .alone (S m)).main = _
    unfold mainStep
    rcases hmain m (by omega) with hx | hx | hx
    · exact absurd hx (h4 m hm)
    · rw [hx]; rfl
    · rw [hx]; exact hx
  refine ⟨m + 1, by rw [(hall (m + 1)).2.acts, if_pos hexit], ?_⟩
  have hpp := (hall (m + 1)).1.pipe' (hfree (m + 1) (by omega))
  have := (hall (m + 1)).1.msgs
  rw [hpp.2.1, hpp.2.2] at this
  simpa [pushes] using this

/-! ## Finding -/

/-- the thread runs to its end first; then all choices in turn -/
def lateMain (n : Nat) : Choice := if n < 20 then .thread else match n % 3 with | 0 => .main | 1 => .thread | _ => .leave

/-- C84, finding: in the build without the service, an installation that ends quickly (for example because the bundle does not exist) may end before the main thread
reaches `g_main_loop_run`. Then its thread runs `install_done` itself, the loop is asked to end before it has started, and `rauc install` waits forever. -/
theorem C84_alone_hang_violated : ∃ (error : Option Str) (f : Nat → Choice), Fair [.thread, .main, .leave] f ∧
    ∀ n, (at' .alone (init .alone [] error [] [] false) f n).acts = [] := by
  refine ⟨some c!"No such file", lateMain, ?_, ?_⟩
  · intro c hc n
    simp only [List.mem_cons, List.not_mem_nil, or_false] at hc
    rcases hc with rfl | rfl | rfl
    · exact ⟨3 * (n + 20) + 1, by omega, by unfold lateMain; rw [if_neg (by omega)]; have : (3 * (n + 20) + 1) % 3 = 1 := by omega
                                            rw [this]; rfl⟩
    · exact ⟨3 * (n + 20), by omega, by unfold lateMain; rw [if_neg (by omega)]; have : (3 * (n + 20)) % 3 = 0 := by omega
                                        rw [this]; rfl⟩
    · exact ⟨3 * (n + 20) + 2, by omega, by unfold lateMain; rw [if_neg (by omega)]; have : (3 * (n + 20) + 2) % 3 = 2 := by omega
                                            rw [this]; rfl⟩
  · let s0 := init .alone [] (some c!"No such file") [] [] false
    let e : St := at' .alone s0 lateMain 22
    have he : ∀ c, step .alone e c = e := by intro c; cases c <;> decide +kernel
    have hk : ∀ k, at' .alone s0 lateMain (22 + k) = e := by
      intro k
      induction k with
      | zero => rfl
      | succ k ih => show at' .alone s0 lateMain (22 + k + 1) = e; rw [at_succ, ih]; exact he _
    have hsmall : ∀ n : Fin 23, (at' .alone s0 lateMain n).acts = [] := by decide +kernel
    intro n
    rcases Nat.lt_or_ge n 23 with hn | hn
    · exact hsmall ⟨n, hn⟩
    · have := hk (n - 22)
      rw [Nat.add_sub_cancel' (by omega)] at this
      rw [this]
      exact hsmall ⟨22, by omega⟩

/-! ## Examples -/

/-- a failed installation in the service, with the previous error still to be announced and a refused call in between -/
example : let s := run .service (init .service [.msg c!"Checking slot rootfs.1", .progress] (some c!"no space") c!"old" c!"old" false) (List.replicate 8 Choice.thread ++ [Choice.main, Choice.other, Choice.main] ++ List.replicate 10 Choice.thread ++ List.replicate 10 Choice.main);
    s.busy = false ∧ s.out = [c!"started", c!"Checking slot rootfs.1", c!"no space", c!"finished"] ∧
    s.acts = [.lastError [], .lastError c!"no space", .completed (some 1)] := by decide +kernel

/-- while it runs nothing is complete -/
example : let s := run .service (init .service [.msg c!"Checking slot rootfs.1", .progress] (some c!"no space") c!"old" c!"old" false) (List.replicate 18 .thread);
    s.busy = true ∧ s.out = [] ∧ s.queue ≠ [] := by decide +kernel

/-- the poller shows no messages -/
example : let s := run .poller (init .poller [.msg c!"Checking slot rootfs.1"] none [] [] true) (List.replicate 10 Choice.thread ++ List.replicate 10 Choice.main);
    s.busy = false ∧ s.out = [] ∧ s.acts = [.completed (some 0)] := by decide +kernel

/-- a fair schedule in which the main thread enters its loop first -/
def inTurn (n : Nat) : Choice := match n % 3 with | 0 => .main | 1 => .thread | _ => .leave

theorem inTurn_fair : Fair [.thread, .main, .leave] inTurn := by
  intro c hc n
  simp only [List.mem_cons, List.not_mem_nil, or_false] at hc
  rcases hc with rfl | rfl | rfl
  · exact ⟨3 * n + 1, by omega, by unfold inTurn; have : (3 * n + 1) % 3 = 1 := by omega
                                   rw [this]; rfl⟩
  · exact ⟨3 * n, by omega, by unfold inTurn; have : (3 * n) % 3 = 0 := by omega
                               rw [this]; rfl⟩
  · exact ⟨3 * n + 2, by omega, by unfold inTurn; have : (3 * n + 2) % 3 = 2 := by omega
                                   rw [this]; rfl⟩

example : (at' .alone (init .alone [.msg c!"x"] none [] [] false) inTurn 1).main ≠ .before ∧ (at' .alone (init .alone [.msg c!"x"] none [] [] false) inTurn 1).busy = true := by
  decide +kernel

end Rauc.InstallThread
