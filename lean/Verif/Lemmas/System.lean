import Verif.Model.System
import Verif.Props.InstallCrash
import Verif.Props.InstallChecks
import Verif.Props.Plans

/-! Lemmas for C68 -/

namespace Rauc.System

open Rauc.Boot (Backend Req)
open Rauc.Install
open Rauc.Select (Plan Target makePlans isSlotPlan)

/-- an event that concerns neither the boot loader nor slots nor statuses -/
def quiet (e : Install.Ev) : Prop := reqOf e = none ∧ e.neutral = true ∧ e.isWrite = false

theorem reqOf_none {e : Install.Ev} (h : e.isBoot = false) : reqOf e = none := by
  cases e <;> first | rfl | (simp [Ev.isBoot] at h; done)

/-! ## EnvSteps -/

theorem EnvSteps.append {B : Backend} {slots : List Slot} {env env1 env2 : B.Env} {a b : List Install.Ev}
    (h : EnvSteps B slots env a env1) (h' : EnvSteps B slots env1 b env2) : EnvSteps B slots env (a ++ b) env2 := by
  induction h with
  | nil => exact h'
  | cons hs _ ih => exact .cons hs (ih h')

theorem EnvSteps.split {B : Backend} {slots : List Slot} {env env2 : B.Env} {a b : List Install.Ev}
    (h : EnvSteps B slots env (a ++ b) env2) : ∃ env1, EnvSteps B slots env a env1 ∧ EnvSteps B slots env1 b env2 := by
  induction a generalizing env with
  | nil => exact ⟨env, .nil env, h⟩
  | cons e es ih =>
    cases h with
    | cons hs ht =>
      obtain ⟨env1, h1, h2⟩ := ih ht
      exact ⟨env1, .cons hs h1, h2⟩

theorem EnvSteps.silent {B : Backend} {slots : List Slot} {env env2 : B.Env} {a : List Install.Ev} (hq : ∀ e ∈ a, reqOf e = none)
    (h : EnvSteps B slots env a env2) : env2 = env := by
  induction h with
  | nil => rfl
  | cons hs _ ih =>
    rw [ih (fun e he => hq e (List.mem_cons_of_mem _ he))]
    have := hq _ List.mem_cons_self
    cases hs with
    | other => rfl
    | badOk => simp [reqOf] at this
    | badFailed => simp [reqOf] at this
    | primaryOk => simp [reqOf] at this
    | primaryFailed => simp [reqOf] at this

theorem EnvSteps.mkSilent {B : Backend} {slots : List Slot} (env : B.Env) {a : List Install.Ev} (hq : ∀ e ∈ a, reqOf e = none) :
    EnvSteps B slots env a env := by
  induction a with
  | nil => exact .nil env
  | cons e es ih => exact .cons (.other env e (hq e (by simp))) (ih fun x hx => hq x (List.mem_cons_of_mem _ hx))

theorem ev_full {B : Backend} {slots : List Slot} {env : B.Env} {q : Req} {rd : Str → Bool} {ts : List B.Txn}
    (h : B.txns rd slots env q = some ts) : B.ev slots env ⟨q, rd, ts.length⟩ = B.appAll env ts := by
  simp [Backend.ev, h]

theorem ev_zero {B : Backend} {slots : List Slot} {env : B.Env} {q : Req} {rd : Str → Bool} :
    B.ev slots env ⟨q, rd, 0⟩ = env := by
  unfold Backend.ev
  split
  · rfl
  · rfl

/-! ## The events of an installation with the default handler -/

/-- around the default handler nothing that matters happens -/
theorem install_core (w : World) (a : Args) (c : Checked) (inner : Option Manifest) (m : Manifest)
    (hm : (c.manifest <|> inner) = some m) (hh : m.handlerName = none) :
    ∃ h dh post, (install w a c inner).1 = h ++ dh ++ post ∧ (∀ e ∈ h, quiet e) ∧ (∀ e ∈ post, quiet e) ∧
      (dh = [] ∨ (defaultHandler w m a.transaction h).1 = h ++ dh) ∧
      ((install w a c inner).2 = .ok → (defaultHandler w m a.transaction h).1 = h ++ dh ∧
        (defaultHandler w m a.transaction h).2 = .ok) := by
  have hnd : ∀ (en : Bool) (mk : Bool → Install.Ev) (g : List Install.Ev), (∀ b, quiet (mk b)) →
      ∃ evs, (handler w en mk g).1 = g ++ evs ∧ ∀ e ∈ evs, quiet e := by
    intro en mk g hmk
    unfold handler
    cases en with
    | false => exact ⟨[], by simp, by simp⟩
    | true => exact ⟨[mk (w.ok g)], by simp, by simp [hmk]⟩
  have hcm : ∀ g, ∃ evs, (compatStep w a m g).1 = g ++ evs ∧ (∀ e ∈ evs, quiet e) := by
    intro g
    unfold compatStep
    split
    · exact ⟨[.installCheck (w.ok g)], rfl, by simp [quiet, reqOf, Ev.neutral, Ev.isWrite]⟩
    · exact ⟨[], by simp, by simp⟩
  have hmt : ∀ g, (∀ e ∈ g, quiet e) → ∃ h dh post, (mounted w a m g).1 = h ++ dh ++ post ∧ (∀ e ∈ h, quiet e) ∧ (∀ e ∈ post, quiet e) ∧
      (dh = [] ∨ (defaultHandler w m a.transaction h).1 = h ++ dh) ∧
      ((mounted w a m g).2 = .ok → (defaultHandler w m a.transaction h).1 = h ++ dh ∧
        (defaultHandler w m a.transaction h).2 = .ok) := by
    intro g hg
    obtain ⟨e1, he1, hn1⟩ := hnd w.cfg.preHandler .preHandler g (fun _ => ⟨rfl, rfl, rfl⟩)
    unfold mounted
    simp only []
    have q1 : ∀ e ∈ g ++ e1, quiet e := by
      intro e he
      rcases List.mem_append.1 he with he | he
      · exact hg e he
      · exact hn1 e he
    split
    · exact ⟨g ++ e1, [], [], by rw [he1]; simp, q1, by simp, Or.inl rfl, by simp⟩
    · rw [he1]
      obtain ⟨e2, he2, hn2⟩ := hcm (g ++ e1)
      have q2 : ∀ e ∈ g ++ e1 ++ e2, quiet e := by
        intro e he
        rcases List.mem_append.1 he with he | he
        · exact q1 e he
        · exact hn2 e he
      split
      · exact ⟨g ++ e1 ++ e2, [], [], by rw [he2]; simp, q2, by simp, Or.inl rfl, by simp⟩
      · split
        · exact ⟨g ++ e1 ++ e2, [], [], by rw [he2]; simp, q2, by simp, Or.inl rfl, by simp⟩
        · rw [he2]
          have hms : mainStep w a m (g ++ e1 ++ e2) = defaultHandler w m a.transaction (g ++ e1 ++ e2) := by
            simp [mainStep, hh]
          rw [hms]
          obtain ⟨dh, hdh, -⟩ := defaultHandler_noMount w m a.transaction (g ++ e1 ++ e2)
          cases ho : (defaultHandler w m a.transaction (g ++ e1 ++ e2)).2 with
          | ok =>
            simp only []
            obtain ⟨e4, he4, hn4⟩ := hnd w.cfg.postHandler .postHandler (defaultHandler w m a.transaction (g ++ e1 ++ e2)).1
              (fun _ => ⟨rfl, rfl, rfl⟩)
            exact ⟨g ++ e1 ++ e2, dh, e4, by rw [he4, hdh], q2, hn4, Or.inr hdh, fun _ => ⟨hdh, ho⟩⟩
          | failed => exact ⟨g ++ e1 ++ e2, dh, [], by rw [List.append_nil]; exact hdh, q2, by simp, Or.inr hdh, by simp⟩
          | abort => exact ⟨g ++ e1 ++ e2, dh, [], by rw [List.append_nil]; exact hdh, q2, by simp, Or.inr hdh, by simp⟩
  have small : ∀ l : List Install.Ev, (∀ e ∈ l, quiet e) → ∀ o : Outcome, o ≠ .ok →
      ∃ h dh post, l = h ++ dh ++ post ∧ (∀ e ∈ h, quiet e) ∧ (∀ e ∈ post, quiet e) ∧
      (dh = [] ∨ (defaultHandler w m a.transaction h).1 = h ++ dh) ∧
      (o = .ok → (defaultHandler w m a.transaction h).1 = h ++ dh ∧ (defaultHandler w m a.transaction h).2 = .ok) :=
    fun l hl o ho => ⟨l, [], [], by simp, hl, by simp, Or.inl rfl, fun x => absurd x ho⟩
  unfold install
  simp only []
  split
  · exact small _ (by simp [quiet, reqOf, Ev.neutral, Ev.isWrite]) _ (by simp)
  · split
    · exact small _ (by simp [quiet, reqOf, Ev.neutral, Ev.isWrite]) _ (by simp)
    · split
      · exact small _ (by simp [quiet, reqOf, Ev.neutral, Ev.isWrite]) _ (by simp)
      · have hmb : (∃ t, mountBundle w c inner ([.extMounts true] ++ [.check true]) = (t, none) ∧ ∀ e ∈ t, quiet e) ∨
            mountBundle w c inner ([.extMounts true] ++ [.check true]) = ([.extMounts true, .check true, .mount true], some m) := by
          unfold mountBundle
          cases hc : c.manifest with
          | some m' =>
            rw [hc] at hm
            have : m' = m := by simpa using hm
            subst this
            simp only []
            split
            · exact Or.inr rfl
            · exact Or.inl ⟨_, rfl, by simp [quiet, reqOf, Ev.neutral, Ev.isWrite]⟩
          | none =>
            rw [hc] at hm
            simp only [] at hm ⊢
            have hin : inner = some m := by simpa using hm
            rw [hin]
            split
            · exact Or.inr rfl
            · exact Or.inl ⟨_, rfl, by simp [quiet, reqOf, Ev.neutral, Ev.isWrite]⟩
        rcases hmb with ⟨t, e, ht⟩ | e
        · rw [e]
          exact small _ ht _ (by simp)
        · rw [e]
          simp only []
          obtain ⟨h, dh, post, h1, h2, h3, h4, h5⟩ := hmt [.extMounts true, .check true, .mount true]
            (by simp [quiet, reqOf, Ev.neutral, Ev.isWrite])
          cases ho : (mounted w a m [.extMounts true, .check true, .mount true]).2 with
          | abort => exact ⟨h, dh, post, h1, h2, h3, h4, fun x => by simp only [] at x; exact h5 (by rw [ho] at x ⊢; exact x)⟩
          | ok =>
            refine ⟨h, dh, post ++ [.umount (w.ok (mounted w a m [.extMounts true, .check true, .mount true]).1)], by simp [h1], h2, ?_, h4,
              fun _ => h5 ho⟩
            intro x hx
            rcases List.mem_append.1 hx with hx | hx
            · exact h3 x hx
            · simp only [List.mem_cons, List.not_mem_nil, or_false] at hx; subst hx; exact ⟨rfl, rfl, rfl⟩
          | failed =>
            refine ⟨h, dh, post ++ [.umount (w.ok (mounted w a m [.extMounts true, .check true, .mount true]).1)], by simp [h1], h2, ?_, h4,
              by simp⟩
            intro x hx
            rcases List.mem_append.1 hx with hx | hx
            · exact h3 x hx
            · simp only [List.mem_cons, List.not_mem_nil, or_false] at hx; subst hx; exact ⟨rfl, rfl, rfl⟩

/-! ## Interruptions -/

theorem Interrupted.silent {B : Backend} {slots : List Slot} {env env' : B.Env} {a pre : List Install.Ev}
    (hq : ∀ e ∈ a, reqOf e = none) (h : Interrupted B slots env a pre env') : pre <+: a ∧ env' = env := by
  cases h with
  | between hp hs => exact ⟨hp, hs.silent (fun e he => hq e (hp.subset he))⟩
  | during rd n he hs hr =>
    rw [hq _ (by rw [he]; simp)] at hr
    simp at hr

theorem Interrupted.at {B : Backend} {slots : List Slot} {env env' : B.Env} {a b pre : List Install.Ev} {e : Install.Ev} {q : Req}
    (hq : ∀ e ∈ a, reqOf e = none) (hr : reqOf e = some q) (h : Interrupted B slots env (a ++ e :: b) pre env') :
    (pre <+: a ∧ env' = env) ∨ (pre = a ∧ ∃ rd n, env' = B.ev slots env ⟨q, rd, n⟩) ∨
    ∃ p' env1, pre = a ++ e :: p' ∧ EnvStep B slots env e env1 ∧ Interrupted B slots env1 b p' env' := by
  cases h with
  | between hp hs =>
    obtain ⟨t, ht⟩ := hp
    rcases List.append_eq_append_iff.1 ht with ⟨a', ha, hb⟩ | ⟨c, hc, hd⟩
    · left
      have hpa : pre <+: a := ⟨a', ha.symm⟩
      exact ⟨hpa, hs.silent (fun e he => hq e (hpa.subset he))⟩
    · cases c with
      | nil =>
        simp only [List.append_nil] at hc
        exact Or.inl ⟨hc ▸ List.prefix_refl _, hs.silent (fun e he => hq e (by rw [← hc]; exact he))⟩
      | cons x xs =>
        simp only [List.cons_append, List.cons.injEq] at hd
        obtain ⟨rfl, rfl⟩ := hd
        subst hc
        obtain ⟨env1, h1, h2⟩ := hs.split
        have := h1.silent hq
        subst this
        cases h2 with
        | cons h3 h4 => exact Or.inr (Or.inr ⟨xs, _, rfl, h3, .between ⟨t, rfl⟩ h4⟩)
  | during rd n he hs hr' =>
    rename_i rest x q' env1
    rcases List.append_eq_append_iff.1 he with ⟨c, hc, hd⟩ | ⟨c, hc, hd⟩
    · cases c with
      | nil =>
        simp only [List.append_nil] at hc
        simp only [List.nil_append, List.cons.injEq] at hd
        obtain ⟨rfl, rfl⟩ := hd
        rw [hr] at hr'
        cases hr'
        right; left
        refine ⟨hc, rd, n, ?_⟩
        rw [hs.silent (fun e he => hq e (by rw [← hc]; exact he))]
      | cons y ys =>
        simp only [List.cons_append, List.cons.injEq] at hd
        obtain ⟨rfl, rfl⟩ := hd
        subst hc
        obtain ⟨env0, h1, h2⟩ := hs.split
        have := h1.silent hq
        subst this
        cases h2 with
        | cons h3 h4 => exact Or.inr (Or.inr ⟨ys, _, rfl, h3, .during rd n rfl h4 hr'⟩)
    · cases c with
      | nil =>
        simp only [List.append_nil] at hc
        simp only [List.nil_append, List.cons.injEq] at hd
        obtain ⟨rfl, rfl⟩ := hd
        rw [hr] at hr'
        cases hr'
        right; left
        refine ⟨hc.symm, rd, n, ?_⟩
        rw [hs.silent (fun e he => hq e (by rw [hc]; exact he))]
      | cons y ys =>
        simp only [List.cons_append, List.cons.injEq] at hd
        obtain ⟨rfl, -⟩ := hd
        rw [hq _ (by rw [hc]; simp)] at hr'
        simp at hr'

/-! ## The phases of an installation that has a boot slot among its targets -/

/-- events after all plans were carried out: they leave the recorded results of the installation alone -/
def Closing (w : World) (t : Slot) (hist : List Install.Ev) (e : Install.Ev) : Prop :=
  e.neutral = true ∨ (∃ b, e = .save t.name b) ∨
    ∃ st, e = .setMem t.name st ∧ st.status = ((w.cur hist).mem t.name).status ∧ st.digest = ((w.cur hist).mem t.name).digest

inductive Phase (B : Backend) (slots : List Slot) (w : World) (m : Manifest) (txn : Str) (plans : List Plan) (t : Slot) (env0 : B.Env)
    (pre : List Install.Ev) (env' : B.Env) : Prop
  /-- nothing was written, the mark-bad is under way or failed -/
  | before (rd : Str → Bool) (n : Nat) : (∀ e ∈ pre, e.neutral = true ∧ e.isWrite = false) →
      env' = B.ev slots env0 ⟨.setState t false, rd, n⟩ → Phase B slots w m txn plans t env0 pre env'
  /-- the slot is marked bad -/
  | writing (rd : Str → Bool) (ts : List B.Txn) : B.setState rd slots env0 t false = some ts → env' = B.appAll env0 ts →
      Phase B slots w m txn plans t env0 pre env'
  /-- everything is written, the activation is under way, failed or done -/
  | activating (rd rd2 : Str → Bool) (ts : List B.Txn) (n : Nat) (h0 hist r : List Install.Ev) :
      B.setState rd slots env0 t false = some ts → env' = B.ev slots (B.appAll env0 ts) ⟨.setPrimary t, rd2, n⟩ →
      plansLoop w m txn plans h0 = (hist, true) → pre = hist ++ r → (∀ e ∈ r, Closing w t hist e) →
      Phase B slots w m txn plans t env0 pre env'

theorem phases {B : Backend} {slots : List Slot} {w : World} {a : Args} {c : Checked} {inner : Option Manifest} {m : Manifest}
    (hm : (c.manifest <|> inner) = some m) (hh : m.handlerName = none) {plans : List Plan} (hp : plansOf w m = some plans)
    {t : Slot} (hb : bootMarkSlot plans = some (some t)) {env0 env' : B.Env} {pre : List Install.Ev}
    (hi : Interrupted B slots env0 (install w a c inner).1 pre env') : Phase B slots w m a.transaction plans t env0 pre env' := by
  obtain ⟨h, dh, post, hE, hq1, hq2, hd, -⟩ := install_core w a c inner m hm hh
  rw [hE] at hi
  have quietPhase : ∀ l : List Install.Ev, (∀ e ∈ l, quiet e) → Interrupted B slots env0 l pre env' →
      Phase B slots w m a.transaction plans t env0 pre env' := by
    intro l hl hi
    obtain ⟨h1, rfl⟩ := hi.silent (fun e he => (hl e he).1)
    exact .before (fun _ => true) 0 (fun e he => ⟨(hl e (h1.subset he)).2.1, (hl e (h1.subset he)).2.2⟩) ev_zero.symm
  have hqq : ∀ e ∈ h ++ post, quiet e := by
    intro e he
    rcases List.mem_append.1 he with he | he
    · exact hq1 e he
    · exact hq2 e he
  rcases hd with rfl | hd
  · exact quietPhase (h ++ [] ++ post) (by simpa using hqq) hi
  rcases defaultHandler_shape w m a.transaction h with ⟨o, -, e⟩ | ⟨plans', boot, hp', hb', -, ⟨s, rfl, e⟩ |
    ⟨pre0, evs0, b0, tail, o, hpre, hl, e, ht⟩⟩
  · rw [e] at hd
    have : dh = [] := by simpa using hd
    subst this
    exact quietPhase (h ++ [] ++ post) (by simpa using hqq) hi
  · rw [plansOf, hp'] at hp
    cases hp
    rw [hb] at hb'
    simp only [Option.some.injEq] at hb'
    subst hb'
    rw [e] at hd
    have := List.append_cancel_left hd
    subst this
    rw [List.append_assoc] at hi
    rcases hi.at (fun e he => (hq1 e he).1) (q := .setState t false) rfl with ⟨h1, rfl⟩ | ⟨rfl, rd, n, h2⟩ | ⟨p', env1, rfl, h3, h4⟩
    · exact .before (fun _ => true) 0 (fun e he => ⟨(hq1 e (h1.subset he)).2.1, (hq1 e (h1.subset he)).2.2⟩) ev_zero.symm
    · exact .before rd n (fun e he => (hq1 e he).2) h2
    · obtain ⟨h5, rfl⟩ := h4.silent (fun e he => (hq2 e he).1)
      have hn : ∀ e ∈ h ++ Ev.markBad t false :: p', e.neutral = true ∧ e.isWrite = false := by
        intro e he
        simp only [List.mem_append, List.mem_cons] at he
        rcases he with he | rfl | he
        · exact (hq1 e he).2
        · exact ⟨rfl, rfl⟩
        · exact (hq2 e (h5.subset he)).2
      cases h3 with
      | badFailed _ rd n => exact .before rd n hn rfl
      | other _ h => simp [reqOf] at h
  · rw [plansOf, hp'] at hp
    cases hp
    rw [hb] at hb'
    simp only [Option.some.injEq] at hb'
    subst hb'
    have hpre' : pre0 = [.markBad t true] := by simpa using hpre
    subst hpre'
    have hd' : dh = [.markBad t true] ++ evs0 ++ tail := by
      rw [e] at hd
      apply List.append_cancel_left (as := h)
      rw [← hd]
      simp
    have hpost := plansLoop_post w m a.transaction plans (h ++ [.markBad t true])
    rw [hl] at hpost
    obtain ⟨evs, b, hl', hq3, -⟩ := hpost
    simp only [Prod.mk.injEq] at hl'
    have := List.append_cancel_left hl'.1
    subst this
    have hs3 : ∀ e ∈ evs0, reqOf e = none := fun e he => reqOf_none (hq3 e he).1
    have hi' : Interrupted B slots env0 (h ++ Ev.markBad t true :: (evs0 ++ tail ++ post)) pre env' := by
      rw [hd'] at hi
      simpa using hi
    rcases hi'.at (fun e he => (hq1 e he).1) (q := .setState t false) rfl with ⟨h1, rfl⟩ | ⟨rfl, rd, n, h2⟩ | ⟨p', env1, rfl, h3, h4⟩
    · exact .before (fun _ => true) 0 (fun e he => ⟨(hq1 e (h1.subset he)).2.1, (hq1 e (h1.subset he)).2.2⟩) ev_zero.symm
    · exact .before rd n (fun e he => (hq1 e he).2) h2
    · have hbad : ∃ rd ts, B.setState rd slots env0 t false = some ts ∧ env1 = B.appAll env0 ts := by
        cases h3 with
        | badOk _ rd ts hts => exact ⟨rd, ts, hts, rfl⟩
        | other _ h => simp [reqOf] at h
      obtain ⟨rd, ts, hts, rfl⟩ := hbad
      have still : (∀ e ∈ tail, reqOf e = none) → Phase B slots w m a.transaction plans t env0 (h ++ Ev.markBad t true :: p') env' := by
        intro hst
        obtain ⟨-, rfl⟩ := h4.silent (by
          intro e he
          simp only [List.mem_append] at he
          rcases he with (he | he) | he
          · exact hs3 e he
          · exact hst e he
          · exact (hq2 e he).1)
        exact .writing rd ts hts rfl
      have act : ∀ (x : Bool) (rest : List Install.Ev), b0 = true → tail = Ev.prune true :: Ev.setPrimary t x :: rest →
          (∀ e ∈ rest, reqOf e = none ∧ Closing w t (h ++ [.markBad t true] ++ evs0) e) →
          Phase B slots w m a.transaction plans t env0 (h ++ Ev.markBad t true :: p') env' := by
        intro x rest hb0 htl hrest
        subst htl hb0
        have h4' : Interrupted B slots (B.appAll env0 ts) ((evs0 ++ [.prune true]) ++ Ev.setPrimary t x :: (rest ++ post)) p' env' := by
          simpa using h4
        rcases h4'.at (by
          intro e he
          simp only [List.mem_append, List.mem_cons, List.not_mem_nil, or_false] at he
          rcases he with he | rfl
          · exact hs3 e he
          · rfl) (q := .setPrimary t) rfl with ⟨-, rfl⟩ | ⟨rfl, rd2, n, h6⟩ | ⟨p2, env2, rfl, h7, h8⟩
        · exact .writing rd ts hts rfl
        · refine .activating rd rd2 ts n _ _ [.prune true] hts h6 hl (by simp) ?_
          intro e he
          simp only [List.mem_cons, List.not_mem_nil, or_false] at he
          subst he
          exact Or.inl rfl
        · obtain ⟨h9, rfl⟩ := h8.silent (by
            intro e he
            rcases List.mem_append.1 he with he | he
            · exact (hrest e he).1
            · exact (hq2 e he).1)
          have hset : ∃ rd2 n, env' = B.ev slots (B.appAll env0 ts) ⟨.setPrimary t, rd2, n⟩ := by
            cases h7 with
            | primaryOk _ rd2 ts2 hts2 => exact ⟨rd2, ts2.length, (ev_full (q := .setPrimary t) hts2).symm⟩
            | primaryFailed _ rd2 n => exact ⟨rd2, n, rfl⟩
            | other _ h => simp [reqOf] at h
          obtain ⟨rd2, n, hset⟩ := hset
          refine .activating rd rd2 ts n _ _ (Ev.prune true :: Ev.setPrimary t x :: p2) hts hset hl (by simp) ?_
          intro e he
          simp only [List.mem_cons] at he
          rcases he with rfl | rfl | he
          · exact Or.inl rfl
          · exact Or.inl rfl
          · rcases List.mem_append.1 (h9.subset he) with he | he
            · exact (hrest e he).2
            · exact Or.inl (hq2 e he).2.1
      cases ht with
      | loopFailed => exact still (by simp)
      | pruneFailed => exact still (by simp [reqOf])
      | done _ => exact still (by simp [reqOf])
      | primaryFailed s hs _ =>
        cases hs
        exact act false [] rfl rfl (by simp)
      | activated s st b' hs _ hst hdg =>
        cases hs
        have hcur : (w.cur (h ++ [.markBad t true] ++ evs0 ++ [.prune true, .setPrimary t true])).mem t.name =
            (w.cur (h ++ [.markBad t true] ++ evs0)).mem t.name := by
          rw [cur_append]; rfl
        rw [hcur] at hst hdg
        refine act true [.setMem t.name st, .save t.name b'] rfl rfl ?_
        intro e he
        simp only [List.mem_cons, List.not_mem_nil, or_false] at he
        rcases he with rfl | rfl
        · exact ⟨rfl, Or.inr (Or.inr ⟨st, rfl, hst, hdg⟩)⟩
        · exact ⟨rfl, Or.inr (Or.inl ⟨b', rfl⟩)⟩

/-! ## What the events leave alone -/

/-- the slot whose content or status (in memory) an event changes -/
def about : Install.Ev → Option Str
  | .setMem n _ => some n
  | .writeStart s _ _ => some s.name
  | .writeEnd s _ _ => some s.name
  | _ => none

theorem apply_frame {c : Install.Cfg} {st : St} {e : Install.Ev} {k : Str} (h : about e ≠ some k) :
    (Install.apply c st e).mem k = st.mem k ∧ (Install.apply c st e).content k = st.content k ∧
    (st.disk k = st.mem k → (Install.apply c st e).disk k = st.mem k) := by
  cases e with
  | setMem n s =>
    have hn : k ≠ n := fun e => h (by simp [about, e])
    simp [Install.apply, upd, hn]
  | writeStart s img kp =>
    have hn : k ≠ s.name := fun e => h (by simp [about, e])
    simp only [Install.apply]
    refine ⟨trivial, by simp [upd, hn], ?_⟩
    intro hd
    split <;> simp [upd, hn, hd]
  | writeEnd s img b =>
    have hn : k ≠ s.name := fun e => h (by simp [about, e])
    cases b <;> simp [Install.apply, upd, hn]
  | save n b =>
    cases b with
    | false => exact ⟨rfl, rfl, fun h => h⟩
    | true =>
      simp only [Install.apply]
      split
      · split
        · refine ⟨rfl, rfl, ?_⟩
          intro hd
          simp only [upd]
          split
          · rename_i hk; rw [hk]
          · exact hd
        · exact ⟨rfl, rfl, fun h => h⟩
      · exact ⟨rfl, rfl, fun _ => rfl⟩
  | mount b => cases b <;> exact ⟨rfl, rfl, fun h => h⟩
  | umount b => cases b <;> exact ⟨rfl, rfl, fun h => h⟩
  | _ => exact ⟨rfl, rfl, fun h => h⟩

theorem replay_frame {c : Install.Cfg} {k : Str} (evs : List Install.Ev) (st : St) (h : ∀ e ∈ evs, about e ≠ some k) :
    (replay c st evs).mem k = st.mem k ∧ (replay c st evs).content k = st.content k ∧
    (st.disk k = st.mem k → (replay c st evs).disk k = st.mem k) := by
  induction evs generalizing st with
  | nil => exact ⟨rfl, rfl, fun h => h⟩
  | cons e es ih =>
    obtain ⟨a1, a2, a3⟩ := apply_frame (c := c) (st := st) (h e (by simp))
    obtain ⟨b1, b2, b3⟩ := ih (Install.apply c st e) (fun x hx => h x (List.mem_cons_of_mem _ hx))
    refine ⟨b1.trans a1, b2.trans a2, fun hd => ?_⟩
    have := b3 (by rw [a3 hd, a1])
    rw [a1] at this
    exact this

/-- the slots an installation is for -/
def IsTarget (plans : List Plan) (n : Str) : Prop := ∃ p ∈ plans, ∃ s hd, p.target = .slot s hd ∧ s.name = n

theorem slotPlan_about {w : World} {m : Manifest} {txn : Str} {img : Image} {s : Slot} {h evs : List Install.Ev} {b : Bool}
    (he : slotPlan w m txn img s h = (h ++ evs, b)) : ∀ e ∈ evs, ∀ k, about e = some k → k = s.name := by
  rcases slotPlan_cases w m txn img s h with ⟨-, e⟩ | ⟨-, hs, st, b', -, -, e⟩ | ⟨-, -, -, st, -, e⟩ |
    ⟨-, -, -, st, st', k, a, b', -, -, -, e⟩ | ⟨-, -, -, st', k, a, b', -, -, e⟩ <;>
    rw [he] at e <;> simp only [Prod.mk.injEq] at e <;> obtain ⟨e1, e2⟩ := e
  · have : evs = [] := by simpa using e1
    subst this; simp
  all_goals
    have := List.append_cancel_left e1
    subst this
    simp [about]

theorem plansLoop_about (w : World) (m : Manifest) (txn : Str) (plans : List Plan) (h : List Install.Ev) :
    ∃ evs b, plansLoop w m txn plans h = (h ++ evs, b) ∧ ∀ e ∈ evs, ∀ k, about e = some k → IsTarget plans k := by
  apply plansLoop_ind w m txn (fun plans _ evs _ => ∀ e ∈ evs, ∀ k, about e = some k → IsTarget plans k)
  · simp
  · intro p s hd ps h evs ht he e hm k hk
    exact ⟨p, by simp, s, hd, ht, (slotPlan_about he e hm k hk).symm⟩
  · intro p s hd ps h evs evs' b ht he ih e hm k hk
    rcases List.mem_append.1 hm with hm | hm
    · exact ⟨p, by simp, s, hd, ht, (slotPlan_about he e hm k hk).symm⟩
    · obtain ⟨q, hq, r⟩ := ih e hm k hk
      exact ⟨q, List.mem_cons_of_mem _ hq, r⟩
  · intro p n ps h ht e hm k hk
    simp only [List.mem_cons, List.not_mem_nil, or_false] at hm
    rcases hm with rfl | rfl <;> simp [about] at hk
  · intro p n ps h evs' b ht ih e hm k hk
    simp only [List.mem_cons] at hm
    rcases hm with rfl | rfl | hm
    · simp [about] at hk
    · simp [about] at hk
    · obtain ⟨q, hq, r⟩ := ih e hm k hk
      exact ⟨q, List.mem_cons_of_mem _ hq, r⟩

theorem quiet_about {e : Install.Ev} (h : e.neutral = true) : about e = none := by
  cases e <;> first | rfl | (simp [Ev.neutral] at h; done)

/-- an installation changes content and status of its targets only -/
theorem install_about (w : World) (a : Args) (c : Checked) (inner : Option Manifest) (m : Manifest)
    (hm : (c.manifest <|> inner) = some m) (hh : m.handlerName = none) :
    ∀ e ∈ (install w a c inner).1, ∀ k, about e = some k → ∃ plans, plansOf w m = some plans ∧ IsTarget plans k := by
  obtain ⟨h, dh, post, hE, hq1, hq2, hd, -⟩ := install_core w a c inner m hm hh
  have key : ∀ e ∈ dh, ∀ k, about e = some k → ∃ plans, plansOf w m = some plans ∧ IsTarget plans k := by
    rcases hd with rfl | hd
    · simp
    rcases defaultHandler_shape w m a.transaction h with ⟨o, -, e⟩ | ⟨plans', boot, hp', hb', -, ⟨s, rfl, e⟩ |
      ⟨pre0, evs0, b0, tail, o, hpre, hl, e, ht⟩⟩
    · rw [e] at hd
      have : dh = [] := by simpa using hd
      subst this; simp
    · rw [e] at hd
      have := List.append_cancel_left hd
      subst this; simp [about]
    · have hd' : dh = pre0 ++ evs0 ++ tail := by
        rw [e] at hd
        apply List.append_cancel_left (as := h)
        rw [← hd]; simp
      obtain ⟨evs, b, hl', hq3⟩ := plansLoop_about w m a.transaction plans' (h ++ pre0)
      rw [hl] at hl'
      simp only [Prod.mk.injEq] at hl'
      have := List.append_cancel_left hl'.1
      subst this
      intro x hx k hk
      refine ⟨plans', hp', ?_⟩
      rw [hd'] at hx
      simp only [List.mem_append] at hx
      rcases hx with (hx | hx) | hx
      · rw [hpre, List.mem_map] at hx
        obtain ⟨s, -, rfl⟩ := hx
        simp [about] at hk
      · exact hq3 x hx k hk
      · cases ht <;> simp only [List.mem_cons, List.not_mem_nil, or_false] at hx
        · subst hx; simp [about] at hk
        · subst hx; simp [about] at hk
        · rcases hx with rfl | rfl <;> simp [about] at hk
        · rename_i s st b' hs h1 h2 h3
          have hsm : s ∈ plans'.filterMap bootTarget := by
            rw [bootMarkSlot_unique hb', hs]; simp
          rw [List.mem_filterMap] at hsm
          obtain ⟨p, hp, hpb⟩ := hsm
          have htg : IsTarget plans' s.name := by
            unfold bootTarget at hpb
            split at hpb
            · rename_i s' hd' htg
              split at hpb
              · simp only [Option.some.injEq] at hpb
                exact ⟨p, hp, s', hd', htg, by rw [hpb]⟩
              · simp at hpb
            · simp at hpb
          rcases hx with rfl | rfl | rfl | rfl <;> simp only [about, reduceCtorEq, Option.some.injEq] at hk
          rw [← hk]; exact htg
  intro e he k hk
  rw [hE] at he
  simp only [List.mem_append] at he
  rcases he with (he | he) | he
  · rw [quiet_about (hq1 e he).2.1] at hk; simp at hk
  · exact key e he k hk
  · rw [quiet_about (hq2 e he).2.1] at hk; simp at hk

/-! ## All plans carried out -/

/-- no slot is the target of two plans -/
def Distinct (plans : List Plan) : Prop :=
  plans.Pairwise fun p q => ∀ s hd s' hd', p.target = .slot s hd → q.target = .slot s' hd' → s.name ≠ s'.name

/-- recorded as installed with this image, in memory and on disk -/
def Recorded (st : St) (s : Slot) (img : Image) : Prop :=
  (st.mem s.name).status = some (c!"ok") ∧ (st.mem s.name).digest = img.digest ∧
  (st.disk s.name).status = some (c!"ok") ∧ (st.disk s.name).digest = img.digest

theorem slotPlan_recorded {w : World} (hc : w.cfg.perSlot = false) {m : Manifest} {txn : Str} {img : Image} {s : Slot}
    {h evs : List Install.Ev} (he : slotPlan w m txn img s h = (h ++ evs, true)) :
    Recorded (w.cur (h ++ evs)) s img ∧ (w.cur (h ++ evs)).disk = (w.cur (h ++ evs)).mem := by
  rcases slotPlan_cases w m txn img s h with ⟨-, e⟩ | ⟨-, hs, st, b', h1, h2, e⟩ | ⟨-, -, -, st, -, e⟩ |
    ⟨-, -, -, st, st', k, a, b', h1, h2, h3, e⟩ | ⟨-, -, hps, st', k, a, b', -, -, e⟩ <;>
    rw [he] at e <;> simp only [Prod.mk.injEq] at e <;> obtain ⟨e1, e2⟩ := e
  · simp at e2
  · have := List.append_cancel_left e1
    subst this
    subst e2
    rw [cur_append]
    simp [replay, Install.apply, hc, upd, Recorded, h1, h2]
  · simp at e2
  · have := List.append_cancel_left e1
    subst this
    rw [eq_comm, Bool.and_eq_true] at e2
    obtain ⟨rfl, rfl⟩ := e2
    rw [cur_append]
    simp [replay, Install.apply, hc, upd, Recorded, h2, h3]
  · rw [hc] at hps; simp at hps

theorem plansLoop_recorded {w : World} (hc : w.cfg.perSlot = false) (m : Manifest) (txn : Str) (plans : List Plan) (h : List Install.Ev) :
    ∃ evs b, plansLoop w m txn plans h = (h ++ evs, b) ∧ (∀ e ∈ evs, ∀ k, about e = some k → IsTarget plans k) ∧
      (Distinct plans → b = true → ∀ p ∈ plans, ∀ s hd, p.target = .slot s hd → Recorded (w.cur (h ++ evs)) s p.image ∧
        (w.cur (h ++ evs)).disk s.name = (w.cur (h ++ evs)).mem s.name) := by
  apply plansLoop_ind w m txn (fun plans h evs b => (∀ e ∈ evs, ∀ k, about e = some k → IsTarget plans k) ∧
      (Distinct plans → b = true → ∀ p ∈ plans, ∀ s hd, p.target = .slot s hd → Recorded (w.cur (h ++ evs)) s p.image ∧
        (w.cur (h ++ evs)).disk s.name = (w.cur (h ++ evs)).mem s.name))
  · intro h; simp
  · intro p s hd ps h evs ht he
    exact ⟨fun e hm k hk => ⟨p, by simp, s, hd, ht, (slotPlan_about he e hm k hk).symm⟩, by simp⟩
  · intro p s hd ps h evs evs' b ht he ih
    refine ⟨?_, ?_⟩
    · intro e hm k hk
      rcases List.mem_append.1 hm with hm | hm
      · exact ⟨p, by simp, s, hd, ht, (slotPlan_about he e hm k hk).symm⟩
      · obtain ⟨q, hq, r⟩ := ih.1 e hm k hk
        exact ⟨q, List.mem_cons_of_mem _ hq, r⟩
    · intro hdis hb q hq s' hd' ht'
      rw [Distinct, List.pairwise_cons] at hdis
      rcases List.mem_cons.1 hq with rfl | hq
      · rw [ht] at ht'
        cases ht'
        obtain ⟨r1, r2⟩ := slotPlan_recorded hc he
        have hfr : ∀ e ∈ evs', about e ≠ some s.name := by
          intro e hm hk
          obtain ⟨q', hq', s2, hd2, ht2, hn⟩ := ih.1 e hm _ hk
          exact hdis.1 q' hq' s hd s2 hd2 ht ht2 hn.symm
        obtain ⟨f1, -, f3⟩ := replay_frame (c := w.cfg) evs' (w.cur (h ++ evs)) hfr
        rw [← List.append_assoc, cur_append]
        have hdm : (w.cur (h ++ evs)).disk s.name = (w.cur (h ++ evs)).mem s.name := by rw [r2]
        have f3' := f3 hdm
        refine ⟨?_, by rw [f3', f1]⟩
        obtain ⟨c1, c2, -, -⟩ := r1
        refine ⟨by rw [f1]; exact c1, by rw [f1]; exact c2, by rw [f3']; exact c1, by rw [f3']; exact c2⟩
      · rw [← List.append_assoc]
        exact ih.2 hdis.2 hb q hq s' hd' ht'
  · intro p n ps h ht
    refine ⟨?_, by simp⟩
    intro e hm k hk
    simp only [List.mem_cons, List.not_mem_nil, or_false] at hm
    rcases hm with rfl | rfl <;> simp [about] at hk
  · intro p n ps h evs' b ht ih
    refine ⟨?_, ?_⟩
    · intro e hm k hk
      simp only [List.mem_cons] at hm
      rcases hm with rfl | rfl | hm
      · simp [about] at hk
      · simp [about] at hk
      · obtain ⟨q, hq, r⟩ := ih.1 e hm k hk
        exact ⟨q, List.mem_cons_of_mem _ hq, r⟩
    · intro hdis hb q hq s' hd' ht'
      rw [Distinct, List.pairwise_cons] at hdis
      rcases List.mem_cons.1 hq with rfl | hq
      · rw [ht] at ht'; cases ht'
      · have := ih.2 hdis.2 hb q hq s' hd' ht'
        simpa using this

/-- what follows does not change the records -/
theorem closing_recorded {w : World} (hc : w.cfg.perSlot = false) {t s : Slot} {img : Image} {hist : List Install.Ev}
    (r : List Install.Ev) (hr : ∀ e ∈ r, Closing w t hist e) (h0 : Recorded (w.cur hist) s img) :
    Recorded (w.cur (hist ++ r)) s img := by
  rw [cur_append]
  have key : ∀ (r : List Install.Ev) (st : St), (∀ e ∈ r, Closing w t hist e) → Recorded st s img → Recorded (replay w.cfg st r) s img := by
    intro r
    induction r with
    | nil => intro st _ h; exact h
    | cons e es ih =>
      intro st hr h
      apply ih (Install.apply w.cfg st e) (fun x hx => hr x (List.mem_cons_of_mem _ hx))
      rcases hr e (by simp) with hn | ⟨b, rfl⟩ | ⟨st', rfl, h1, h2⟩
      · obtain ⟨a1, a2, -⟩ := apply_neutral (c := w.cfg) (st := st) hn
        unfold Recorded
        rw [a1, a2]
        exact h
      · cases b with
        | false => exact h
        | true =>
          obtain ⟨c1, c2, -, -⟩ := h
          have e : Install.apply w.cfg st (.save t.name true) = { st with disk := st.mem } := by
            simp [Install.apply, hc]
          rw [e]
          exact ⟨c1, c2, c1, c2⟩
      · obtain ⟨c1, c2, c3, c4⟩ := h
        simp only [Install.apply, Recorded, upd]
        split
        · rename_i hk
          rw [h1, h2, ← hk]
          exact ⟨h0.1, h0.2.1, c3, c4⟩
        · exact ⟨c1, c2, c3, c4⟩
  exact key r _ hr h0

/-- plans made from one target per class have distinct targets -/
theorem distinct_of_plans {variant : Option Str} {group : Str → Option Slot} {repos : List Str} {aok : Bool} {images : List Image}
    {plans : List Plan} {slots : List Slot} (hwf : SlotsWF slots) (hg : ∀ c t, group c = some t → t ∈ slots ∧ t.sclass = c)
    (h : makePlans variant group repos aok images = some plans) : Distinct plans := by
  have hcls : ∀ l : List Plan, (∀ c, (l.filter (fun p => isSlotPlan p && decide (p.image.slotclass = c))).length ≤ 1) →
      l.Pairwise (fun p q => isSlotPlan p = true → isSlotPlan q = true → p.image.slotclass ≠ q.image.slotclass) := by
    intro l
    induction l with
    | nil => simp
    | cons p ps ih =>
      intro hl
      rw [List.pairwise_cons]
      refine ⟨?_, ih (fun c => ?_)⟩
      · intro q hq h1 h2 he
        have := hl p.image.slotclass
        rw [List.filter_cons_of_pos (by simp [h1])] at this
        have hmem : q ∈ ps.filter (fun x => isSlotPlan x && decide (x.image.slotclass = p.image.slotclass)) :=
          List.mem_filter.2 ⟨hq, by simp [h2, he]⟩
        have := List.length_pos_of_mem hmem
        simp only [List.length_cons] at *
        omega
      · have := hl c
        rw [List.filter_cons] at this
        split at this
        · simp only [List.length_cons] at this; omega
        · exact this
  have h1 := hcls plans (fun c => by
    rw [Select.C12_exactly_once variant group repos aok images plans h c]
    split <;> omega)
  refine h1.imp_of_mem ?_
  intro p q hp hq hne s hd s' hd' hs hs' hn
  obtain ⟨-, -, -, g1, -, -⟩ := Select.C12_plan_ok variant group repos aok images plans h p hp s hd hs
  obtain ⟨-, -, -, g2, -, -⟩ := Select.C12_plan_ok variant group repos aok images plans h q hq s' hd' hs'
  have e : s = s' := hwf.name_inj s (hg _ _ g1).1 s' (hg _ _ g2).1 hn
  subst e
  exact hne (by simp [isSlotPlan, hs]) (by simp [isSlotPlan, hs']) (by rw [← (hg _ _ g1).2, ← (hg _ _ g2).2])

end Rauc.System
