import Verif.Model.ServiceCalls
import Verif.Props.Daemon
import Verif.Props.Stream
import Verif.Props.Mark

/-!
# C86: the methods of the service
-/

namespace Rauc.ServiceCalls

open Daemon (Cfg St)
open Stream (Args Access V)

/-! ## Specification -/

def Reply.isError : Reply → Bool
  | .error _ => true
  | _ => false

def Effect.isReply : Effect → Bool
  | .reply _ => true
  | _ => false

/-- everything the service did in a history -/
def effects (cfg : Cfg) : SSt → List Ev → List Effect
  | _, [] => []
  | s, e :: l => (step cfg s e).2 ++ effects cfg (step cfg s e).1 l

/-- what the running installation reports -/
def reported (s : SSt) : Ev → List (Int × Str × Int)
  | .report p => if s.d.dead = false ∧ s.d.thread ≠ none then [p] else []
  | _ => []

/-- what the running installations reported, in order -/
def reports (cfg : Cfg) : SSt → List Ev → List (Int × Str × Int)
  | _, [] => []
  | s, e :: l => reported s e ++ reports cfg (step cfg s e).1 l

/-- what the boot loader was told last about a slot, with success -/
def told (b : Slot) : List Effect → Option Bool → Option Bool
  | [], o => o
  | .bootloader (.setState s x, true) :: l, o => told b l (if s = b then some x else o)
  | _ :: l, o => told b l o

/-! ## The same decisions as in `Model/Daemon` -/

def markState (state : Str) : Daemon.MarkState := if state = c!"good" then .good else if state = c!"bad" then .bad else .active

def evOf (w : World) : Call → Daemon.Ev
  | .install _ => .install true none
  | .installBundle _ args => .install (Stream.installRequest args).isSome ((Stream.installRequest args).bind (·.requireHash))
  | .mark state ident => .mark (decide (ident = c!"booted")) (markState state) (Mark.markRun w.bootOk w.slots w.booted w.plf state ident).2.isSome
  | _ => .query

def evs1 : Ev → Option Daemon.Ev
  | .call c w => some (evOf w c)
  | .report _ => none
  | .auto p => some (.auto p)
  | .finished a b c d => some (.done a b c d)
  | .pollRequest n => some (.pollRequest n)
  | .tick e => some (.tick e)

theorem installRequest_nil : Stream.installRequest [] = some {} := by decide +kernel

theorem inspectRequest_nil : Stream.inspectRequest [] = some {} := by decide +kernel

theorem onInstall_daemon (cfg : Cfg) (s : SSt) (src : Str) (args : List (Str × V)) (hd : s.d.dead = false) :
    (onInstallBundle s src args).1.d = (Daemon.step cfg s.d (.install (Stream.installRequest args).isSome ((Stream.installRequest args).bind (·.requireHash)))).1 := by
  unfold onInstallBundle Daemon.step
  cases hb : s.d.busy <;> cases hr : Stream.installRequest args <;> simp [hd, Daemon.installRun, hb]

theorem markRun_state (ok : Nat → Bool) (slots : List Slot) (booted : Option Slot) (plf : Bool) (state ident : Str)
    (h : (Mark.markRun ok slots booted plf state ident).2.isSome) : state = c!"good" ∨ state = c!"bad" ∨ state = c!"active" := by
  unfold Mark.markRun at h
  split at h
  · cases h
  · split at h
    · next hs => exact Or.inl hs
    · split at h
      · next hs => exact Or.inr (Or.inl hs)
      · split at h
        · next hs => exact Or.inr (Or.inr hs)
        · cases h

theorem onMark_daemon (cfg : Cfg) (w : World) (s : SSt) (state ident : Str) (hd : s.d.dead = false) :
    (onMark w s state ident).1.d = (Daemon.step cfg s.d (evOf w (.mark state ident))).1 := by
  unfold onMark Daemon.step evOf
  have hst := markRun_state w.bootOk w.slots w.booted w.plf state ident
  cases hb : s.d.busy with
  | true => simp [hd]
  | false =>
    dsimp only
    cases hr : (Mark.markRun w.bootOk w.slots w.booted w.plf state ident).2 with
    | none => simp [hd]
    | some l =>
      rw [hr] at hst
      by_cases hi : ident = c!"booted"
      · rcases hst rfl with h | h | h
        · subst h; subst hi; simp [hd, hb, hr, markState]
        · subst h; subst hi; simp [hd, hb, hr, markState]
        · subst h; subst hi; simp [hd, hb, hr, markState]
      · simp [hd, hi]

theorem handle_daemon (cfg : Cfg) (w : World) (s : SSt) (c : Call) (hd : s.d.dead = false) : (handle w s c).1.d = (Daemon.step cfg s.d (evOf w c)).1 := by
  cases c with
  | install src => exact (onInstall_daemon cfg s src [] hd).trans (by rw [installRequest_nil]; rfl)
  | installBundle src args => exact onInstall_daemon cfg s src args hd
  | mark st i => exact onMark_daemon cfg w s st i hd
  | info b => simp only [handle, onInspectBundle, evOf, Daemon.step, hd]; (repeat' split) <;> try rfl
  | inspectBundle b args => simp only [handle, onInspectBundle, evOf, Daemon.step, hd]; (repeat' split) <;> try rfl
  | getSlotStatus => simp only [handle, evOf, Daemon.step, hd]; (repeat' split) <;> try rfl
  | getArtifactStatus => simp only [handle, evOf, Daemon.step, hd]; (repeat' split) <;> try rfl
  | getPrimary => simp only [handle, evOf, Daemon.step, hd]; (repeat' split) <;> try rfl

/-- the service with its methods makes the same decisions as the one of `Model/Daemon`, so that C39, C45 and C54 hold for it -/
theorem C86_refines (cfg : Cfg) (s : SSt) (e : Ev) : (step cfg s e).1.d = match evs1 e with | some x => (Daemon.step cfg s.d x).1 | none => s.d := by
  cases e with
  | call c w =>
    simp only [step, evs1]
    cases hd : s.d.dead with
    | true => simp [Daemon.step, hd]
    | false => simp only [Bool.false_eq_true, if_false]; exact handle_daemon cfg w s c hd
  | report p =>
    simp only [step, evs1, sendProgress]
    split
    · rfl
    · split <;> rfl
  | auto p => rfl
  | finished a b c d => rfl
  | pollRequest n => rfl
  | tick e => rfl

theorem step_inv (cfg : Cfg) (s : SSt) (e : Ev) (h : Daemon.Inv s.d) : Daemon.Inv (step cfg s e).1.d := by
  rw [C86_refines]
  cases evs1 e with
  | none => exact h
  | some x => exact Daemon.step_inv cfg s.d x h

theorem run_inv (cfg : Cfg) (evs : List Ev) : ∀ s, Daemon.Inv s.d → Daemon.Inv (run cfg s evs).d := by
  induction evs with
  | nil => intro s h; exact h
  | cons e l ih => intro s h; exact ih _ (step_inv cfg s e h)

theorem run_daemon (cfg : Cfg) (evs : List Ev) : ∀ s, (run cfg s evs).d = Daemon.final cfg s.d (evs.filterMap evs1) := by
  induction evs with
  | nil => intro s; rfl
  | cons e l ih =>
    intro s
    show (run cfg (step cfg s e).1 l).d = _
    rw [ih, C86_refines, List.filterMap_cons]
    cases evs1 e <;> rfl

/-! ## C86 -/

/-- C86: every call is answered exactly once, and the answer is the last thing the service does about it. -/
theorem C86_one_reply (w : World) (s : SSt) (c : Call) : ∃ pre r, (handle w s c).2 = pre ++ [.reply r] ∧ ∀ x ∈ pre, x.isReply = false := by
  have nil : ∀ r, ∃ pre r', [Effect.reply r] = pre ++ [.reply r'] ∧ ∀ x ∈ pre, x.isReply = false := fun r => ⟨[], r, rfl, by simp⟩
  have one : ∀ e r, e.isReply = false → ∃ pre r', [e, Effect.reply r] = pre ++ [.reply r'] ∧ ∀ x ∈ pre, x.isReply = false := fun e r h => ⟨[e], r, rfl, by simpa using h⟩
  cases c with
  | install src => simp only [handle, onInstallBundle]; (repeat' split) <;> first | exact nil _ | (refine one _ _ ?_; rfl)
  | installBundle src args => simp only [handle, onInstallBundle]; (repeat' split) <;> first | exact nil _ | (refine one _ _ ?_; rfl)
  | info b => simp only [handle, onInspectBundle]; (repeat' split) <;> first | exact nil _ | (refine one _ _ ?_; rfl)
  | inspectBundle b args => simp only [handle, onInspectBundle]; (repeat' split) <;> first | exact nil _ | (refine one _ _ ?_; rfl)
  | mark st i =>
    simp only [handle, onMark]
    split
    · exact nil _
    · split
      · exact ⟨_, _, rfl, by intro x hx; obtain ⟨y, _, rfl⟩ := List.mem_map.1 hx; rfl⟩
      · exact ⟨_, _, rfl, by intro x hx; obtain ⟨y, _, rfl⟩ := List.mem_map.1 hx; rfl⟩
  | getSlotStatus => simp only [handle]; (repeat' split) <;> first | exact nil _ | (refine one _ _ ?_; rfl)
  | getArtifactStatus => simp only [handle]; (repeat' split) <;> first | exact nil _ | (refine one _ _ ?_; rfl)
  | getPrimary => simp only [handle]; (repeat' split) <;> first | exact nil _ | (refine one _ _ ?_; rfl)

/-- C86: while an installation runs (however it was started), every call is refused: an error is returned and nothing else is done, and the state of the service stays the same; only the property
`Operation` is reset by a request to install (see the finding of C45). -/
theorem C86_busy (cfg : Cfg) (evs : List Ev) (h : (run cfg {} evs).d.thread ≠ none) (c : Call) (w : World) :
    (∃ m, (handle w (run cfg {} evs) c).2 = [.reply (.error m)]) ∧
    ((handle w (run cfg {} evs) c).1 = run cfg {} evs ∨
      ((∃ src args, c = .install src ∨ c = .installBundle src args) ∧
        (handle w (run cfg {} evs) c).1 = { run cfg {} evs with d := { (run cfg {} evs).d with installing := false } })) := by
  have hi := run_inv cfg evs {} Daemon.inv_init
  revert h hi
  generalize run cfg {} evs = s
  intro h hi
  have hb : s.d.busy = true := by
    rw [hi.busy]
    cases ht : s.d.thread with
    | none => exact absurd ht h
    | some j => rfl
  have hq : ∀ x : SSt × List Effect, x = (s, [.reply (.error busyMsg)]) → ∀ P : Prop, (∃ m, x.2 = [.reply (.error m)]) ∧ (x.1 = s ∨ P) := by rintro x rfl P; exact ⟨⟨_, rfl⟩, Or.inl rfl⟩
  cases c with
  | install src =>
    have : handle w s (.install src) = ({ s with d := { s.d with installing := false } }, [.reply (.error c!"Already processing a different method")]) := if_pos hb
    rw [this]
    exact ⟨⟨_, rfl⟩, Or.inr ⟨⟨src, [], Or.inl rfl⟩, rfl⟩⟩
  | installBundle src args =>
    have : handle w s (.installBundle src args) = ({ s with d := { s.d with installing := false } }, [.reply (.error c!"Already processing a different method")]) := if_pos hb
    rw [this]
    exact ⟨⟨_, rfl⟩, Or.inr ⟨⟨src, args, Or.inr rfl⟩, rfl⟩⟩
  | info b => exact hq _ (if_pos hb) _
  | inspectBundle b args => exact hq _ (if_pos hb) _
  | mark st i => exact hq _ (if_pos hb) _
  | getSlotStatus => exact hq _ (if_pos hb) _
  | getArtifactStatus => exact hq _ (if_pos hb) _
  | getPrimary => exact hq _ (if_pos hb) _

/-- C86: an installation is started by a call exactly if none is running and the call is `Install`, or `InstallBundle` with documented options of the right types only; it gets exactly the given
source and options. -/
theorem C86_start (cfg : Cfg) (evs : List Ev) (c : Call) (w : World) (src : Str) (a : Args) :
    .start src a ∈ (handle w (run cfg {} evs) c).2 ↔
      (run cfg {} evs).d.thread = none ∧ ((c = .install src ∧ a = {}) ∨
        ∃ args, c = .installBundle src args ∧ (∀ k v, Stream.last args k = some v → Stream.Option.Ok k v) ∧ a = Stream.argsOf (Stream.last args)) := by
  have hi := run_inv cfg evs {} Daemon.inv_init
  revert hi
  generalize run cfg {} evs = s
  intro hi
  have hth : s.d.thread = none ↔ s.d.busy = false := by rw [hi.busy]; cases s.d.thread <;> simp
  rw [hth]
  have key : ∀ src' args, .start src a ∈ (onInstallBundle s src' args).2 ↔ s.d.busy = false ∧ src = src' ∧ Stream.installRequest args = some a := by
    intro src' args
    unfold onInstallBundle
    cases hb : s.d.busy with
    | true => simp
    | false =>
      cases hr : Stream.installRequest args with
      | none => simp
      | some a' => simp [eq_comm]
  cases c with
  | install src' =>
    rw [show (handle w s (.install src')).2 = (onInstallBundle s src' []).2 from rfl, key, installRequest_nil]
    constructor
    · rintro ⟨h1, h2, h3⟩; exact ⟨h1, Or.inl ⟨by rw [h2], (Option.some.inj h3).symm⟩⟩
    · rintro ⟨h1, ⟨h2, h3⟩ | ⟨args', h2, h3⟩⟩
      · cases h2; exact ⟨h1, rfl, by rw [h3]⟩
      · cases h2
  | installBundle src' args =>
    rw [show (handle w s (.installBundle src' args)).2 = (onInstallBundle s src' args).2 from rfl, key, Stream.C72_install]
    constructor
    · rintro ⟨h1, h2, h3⟩; exact ⟨h1, Or.inr ⟨args, by rw [h2], h3⟩⟩
    · rintro ⟨h1, h2 | ⟨args', h2, h3⟩⟩
      · cases h2.1
      · cases h2; exact ⟨h1, rfl, h3⟩
  | info b => simp only [handle, onInspectBundle]; (repeat' split) <;> simp
  | inspectBundle b args => simp only [handle, onInspectBundle]; (repeat' split) <;> simp
  | mark st i => simp only [handle, onMark]; (repeat' split) <;> simp
  | getSlotStatus => simp only [handle]; (repeat' split) <;> simp
  | getArtifactStatus => simp only [handle]; (repeat' split) <;> simp
  | getPrimary => simp only [handle]; (repeat' split) <;> simp

/-- C86: `Install` is `InstallBundle` without options, and `Info` checks the same bundle in the same way as `InspectBundle` without options, and answers with the compatible and version of the
manifest that this one returns -/
theorem C86_legacy (w : World) (s : SSt) (src : Str) :
    handle w s (.install src) = handle w s (.installBundle src []) ∧
    (handle w s (.info src)).1 = (handle w s (.inspectBundle src [])).1 ∧
    (handle w s (.info src)).2 = (handle w s (.inspectBundle src [])).2.map (fun
      | .reply (.manifest m) => .reply (.info m.compatible (m.version.getD []))
      | x => x) := by
  refine ⟨rfl, ?_, ?_⟩
  · simp only [handle, onInspectBundle]; (repeat' split) <;> rfl
  · simp only [handle, onInspectBundle]
    split
    · rfl
    · rw [inspectRequest_nil]
      dsimp only
      split <;> rfl

theorem mem_calls {l : List Mark.Call} {m : List Effect} (hm : ∀ x ∈ m, ∀ c, x ≠ .bootloader c) {c : Mark.Call} (h : .bootloader c ∈ l.map Effect.bootloader ++ m) : c ∈ l := by
  rcases List.mem_append.1 h with h | h
  · obtain ⟨d, hd, he⟩ := List.mem_map.1 h
    cases he; exact hd
  · exact absurd rfl (hm _ h c)

/-- C86: `Mark` reports success only if the boot loader was told, successfully, about every slot it names; the names are separated by spaces. -/
theorem C86_marked (w : World) (s : SSt) (state ident ns msg : Str) (h : .reply (.marked ns msg) ∈ (handle w s (.mark state ident)).2) :
    ∃ l : List Slot, l ≠ [] ∧ ns = [' '].intercalate (l.map (·.name)) ∧ msg = c!"marked slot(s) " ++ ns ++ c!" as " ++ state ∧
      (∀ t ∈ l, Mark.Denotes w.slots w.booted ident t ∧ ∃ r, Mark.kindOf state t = some r ∧ .bootloader (r, true) ∈ (handle w s (.mark state ident)).2) ∧
      ∀ r, .bootloader (r, false) ∉ (handle w s (.mark state ident)).2 := by
  have hnames : ∀ l : List Slot, names l = [' '].intercalate (l.map (·.name)) := by
    intro l
    induction l with
    | nil => rfl
    | cons x l ih =>
      cases l with
      | nil => simp [names]
      | cons y l => rw [names, ih]; simp [List.intercalate]; simp
  have hsucc := Mark.C06_success_is_true w.bootOk w.slots w.booted w.plf state ident
  simp only [handle, onMark] at h ⊢
  split at h
  · simp at h
  · next hb =>
    simp only [if_neg hb]
    split at h
    · simp at h
    · next l hl =>
      obtain ⟨h1, h2, h3⟩ := hsucc l hl
      simp only [List.mem_append, List.mem_map, List.mem_singleton, Effect.reply.injEq, Reply.marked.injEq, reduceCtorEq, and_false, exists_false, false_or] at h
      refine ⟨l, h1, by rw [h.1, hnames], by rw [h.2, h.1], ?_, ?_⟩
      · intro t ht
        obtain ⟨hd, r, hr, hm⟩ := h2 t ht
        exact ⟨hd, r, hr, List.mem_append_left _ (List.mem_map.2 ⟨_, hm, rfl⟩)⟩
      · intro r hm
        have := h3 _ (mem_calls (by simp) hm)
        cases this

/-! ### Progress -/

/-- requests to install come only while no installation runs, and there is no automatic installation -/
def Polite (cfg : Cfg) : SSt → List Ev → Prop
  | _, [] => True
  | s, e :: l => (match e with
      | .call (.install _) _ => s.d.thread = none
      | .call (.installBundle _ _) _ => s.d.thread = none
      | .auto true => False
      | _ => True) ∧ Polite cfg (step cfg s e).1 l

/-- the property `Operation` is right -/
def OpOk (s : SSt) : Prop := s.d.thread ≠ none → s.d.installing = true

theorem opOk_daemon (cfg : Cfg) (s : St) (ev : Daemon.Ev) (hi : Daemon.Inv s) (h : s.thread ≠ none → s.installing = true) (ha : ev ≠ .auto true)
    (hin : ∀ k r, ev = .install k r → s.thread = none) : (Daemon.step cfg s ev).1.thread ≠ none → (Daemon.step cfg s ev).1.installing = true := by
  unfold Daemon.step
  split
  · exact h
  · cases ev with
    | install k r =>
      have hth : s.thread = none := hin k r rfl
      have hbz := hi.1
      rw [hth] at hbz
      replace hbz : s.busy = false := hbz
      cases k with
      | false => simp [hth]
      | true => simp [Daemon.installRun, hbz]
    | auto p =>
      cases p with
      | true => exact absurd rfl ha
      | false => exact h
    | query => exact h
    | mark b st ok =>
      simp only
      split
      · exact h
      · split
        · cases st <;> exact h
        · exact h
    | done st sl ar now =>
      simp only
      split
      · exact h
      · simp
      · simp
    | pollRequest now =>
      simp only
      split
      · exact h
      · exact h
    | tick e =>
      have hr := Daemon.tick_res cfg s e
      simp only
      generalize (Daemon.tick cfg s e).1 = s' at hr ⊢
      generalize (Daemon.tick cfg s e).2 = a at hr
      cases hr
      case install => simp
      all_goals exact h

theorem step_opOk (cfg : Cfg) (s : SSt) (e : Ev) (hi : Daemon.Inv s.d) (h : OpOk s) (l : List Ev) (hp : Polite cfg s (e :: l)) : OpOk (step cfg s e).1 := by
  unfold OpOk
  rw [C86_refines]
  have hp1 := hp.1
  cases e with
  | report p => exact h
  | auto p =>
    cases p with
    | true => exact absurd hp1 (by simp)
    | false => exact opOk_daemon cfg s.d _ hi h (by simp) (by intro k r hk; cases hk)
  | finished a b c d => exact opOk_daemon cfg s.d _ hi h (by simp) (by intro k r hk; cases hk)
  | pollRequest n => exact opOk_daemon cfg s.d _ hi h (by simp) (by intro k r hk; cases hk)
  | tick t => exact opOk_daemon cfg s.d _ hi h (by simp) (by intro k r hk; cases hk)
  | call c w =>
    refine opOk_daemon cfg s.d _ hi h (by cases c <;> simp [evOf]) ?_
    intro k r hk
    cases c <;> first | exact hp1 | (simp [evOf] at hk)

theorem handle_progress (w : World) (s : SSt) (c : Call) : (handle w s c).1.progress = s.progress := by
  cases c with
  | install src => simp only [handle, onInstallBundle]; (repeat' split) <;> rfl
  | installBundle src args => simp only [handle, onInstallBundle]; (repeat' split) <;> rfl
  | info b => simp only [handle, onInspectBundle]; (repeat' split) <;> rfl
  | inspectBundle b args => simp only [handle, onInspectBundle]; (repeat' split) <;> rfl
  | mark st i => simp only [handle, onMark]; (repeat' split) <;> rfl
  | getSlotStatus => simp only [handle]; (repeat' split) <;> rfl
  | getArtifactStatus => simp only [handle]; (repeat' split) <;> rfl
  | getPrimary => simp only [handle]; (repeat' split) <;> rfl

/-- C86, partial (false without the hypothesis, see below): as long as nobody asks for an installation while another one runs, and none was started automatically, the property `Progress` is what the
running installation reported last. -/
theorem C86_progress_partial (cfg : Cfg) (evs : List Ev) (h : Polite cfg {} evs) : (run cfg {} evs).progress = (reports cfg {} evs).getLast? := by
  have key : ∀ (evs : List Ev) (s : SSt) (l : List (Int × Str × Int)), Daemon.Inv s.d → OpOk s → s.progress = l.getLast? → Polite cfg s evs →
      (run cfg s evs).progress = (l ++ reports cfg s evs).getLast? := by
    intro evs
    induction evs with
    | nil => intro s l _ _ h _; simpa [reports, run] using h
    | cons e r ih =>
      intro s l hi ho hl hp
      have hn : (step cfg s e).1.progress = (l ++ reported s e).getLast? := by
        unfold reported
        cases e with
        | report p =>
          unfold step
          dsimp only
          by_cases hd : s.d.dead = true
          · simp [hd, hl]
          · by_cases ht : s.d.thread = none
            · simp [ht, hl]
            · have := ho ht
              have ht' : s.d.thread.isNone = false := by cases hx : s.d.thread <;> simp_all
              simp [hd, ht, ht', sendProgress, this]
        | call c w =>
          unfold step
          dsimp only
          split
          · simpa using hl
          · rw [handle_progress]; simpa using hl
        | auto p => simpa [step] using hl
        | finished a b c d => simpa [step] using hl
        | pollRequest n => simpa [step] using hl
        | tick t => simpa [step] using hl
      have := ih (step cfg s e).1 _ (step_inv cfg s e hi) (step_opOk cfg s e hi ho r hp) hn hp.2
      rw [List.append_assoc] at this
      exact this
  simpa using key evs {} [] Daemon.inv_init (by intro h; exact absurd rfl h) rfl h

def exCfg : Cfg := { intervalMs := 86400000, maxMs := 345600000, candidate := [], install := none, reboot := none, system := c!"1" }

def exSlot (n b : Str) : Slot := { name := n, sclass := c!"rootfs", bootname := some b }

def exWorld : World :=
  { check := fun _ _ => .ok { compatible := c!"device", version := some c!"2" }, slots := [exSlot c!"rootfs.0" c!"A", exSlot c!"rootfs.1" c!"B"], booted := some (exSlot c!"rootfs.0" c!"A"), plf := false,
    bootOk := fun _ => true, markMsg := c!"failed", slotStatus := .ok 1, artifactStatus := 2, primary := .ok c!"rootfs.0" }

/-- C86, finding: somebody asks for a second installation while one runs. It is refused, but from then on the progress of the running installation is not reported any more, -/
theorem C86_progress_violated :
    let evs := [.call (.install c!"a.raucb") exWorld, .report (20, c!"Checking bundle", 1), .call (.install c!"b.raucb") exWorld, .report (60, c!"Copying image", 2)]
    (run exCfg {} evs).progress = some (20, c!"Checking bundle", 1) ∧ (reports exCfg {} evs).getLast? = some (60, c!"Copying image", 2) := by decide +kernel

/-- and an automatic installation never reports any progress -/
theorem C86_auto_progress_violated :
    let evs := [.auto true, .report (20, c!"Checking bundle", 1)]
    (run exCfg {} evs).progress = none ∧ (reports exCfg {} evs).getLast? = some (20, c!"Checking bundle", 1) := by decide +kernel

example : Polite exCfg {} [.call (.install c!"a.raucb") exWorld, .report (20, c!"Checking bundle", 1), .call .getPrimary exWorld, .finished 0 true false 5, .call (.install c!"b.raucb") exWorld] := by
  simp [Polite]; decide +kernel

/-! ### Is the booted slot good? -/

/-- all requests about the booted slot `b` call it "booted", and none stops after telling the boot loader (this can happen with `prevent-late-fallback`) -/
def Direct (b : Slot) : List Ev → Prop
  | [] => True
  | e :: l => (match e with
      | .call (.mark state ident) w => w.booted = some b ∧ ident ≠ b.name ∧
          ((Mark.markRun w.bootOk w.slots w.booted w.plf state ident).2 = none → ∀ r, (r, true) ∉ (Mark.markRun w.bootOk w.slots w.booted w.plf state ident).1)
      | _ => True) ∧ Direct b l

theorem told_append (b : Slot) (l m : List Effect) : ∀ o, told b (l ++ m) o = told b m (told b l o) := by
  induction l with
  | nil => intro o; rfl
  | cons x l ih =>
    intro o
    cases x with
    | bootloader r =>
      obtain ⟨q, ok⟩ := r
      cases ok <;> cases q <;> exact ih _
    | _ => exact ih _

theorem told_other (b : Slot) (l : List Effect) (h : ∀ s x, .bootloader (.setState s x, true) ∈ l → s ≠ b) : ∀ o, told b l o = o := by
  induction l with
  | nil => intro o; rfl
  | cons x l ih =>
    intro o
    have ih' := ih (fun s x hm => h s x (List.mem_cons_of_mem _ hm))
    cases x with
    | bootloader r =>
      obtain ⟨q, ok⟩ := r
      cases q with
      | setState s v =>
        cases ok with
        | false => exact ih' o
        | true =>
          have := h s v List.mem_cons_self
          show told b l (if s = b then some v else o) = o
          rw [if_neg this]; exact ih' o
      | _ => cases ok <;> exact ih' o
    | _ => exact ih' o

theorem other_ne {slots : List Slot} {b t : Slot} (h : Mark.Denotes slots (some b) c!"other" t) : t ≠ b := by
  rcases h with ⟨h, _⟩ | ⟨_, _, _, _, b', hb, _, hne⟩ | ⟨_, h, _⟩
  · cases h
  · cases hb; exact hne
  · exact absurd rfl h

theorem mark_told (b : Slot) (w : World) (s : SSt) (state ident : Str) (h1 : w.booted = some b) (h2 : ident ≠ b.name)
    (h3 : (Mark.markRun w.bootOk w.slots w.booted w.plf state ident).2 = none → ∀ r, (r, true) ∉ (Mark.markRun w.bootOk w.slots w.booted w.plf state ident).1)
    (o : Option Bool) (ho : s.d.good = o.getD false) : (onMark w s state ident).1.d.good = (told b (onMark w s state ident).2 o).getD false := by
  unfold onMark
  have hshape := Mark.markRun_shape w.bootOk w.slots w.booted w.plf state ident
  have hst := markRun_state w.bootOk w.slots w.booted w.plf state ident
  dsimp only
  split
  · exact ho
  · split
    · next hn =>
      rw [told_other]
      · exact ho
      · intro t x hm
        exact absurd (mem_calls (by simp) hm) (h3 hn _)
    · next l hl =>
      by_cases hb : ident = c!"booted"
      · rw [if_pos hb]
        have hres : Mark.resolve w.slots w.booted ident = some [b] := by simp [Mark.resolve, hb, h1]
        rw [hl] at hst
        rcases hst rfl with hs | hs | hs
        · rw [if_pos hs]
          have hr : ∃ rest, (Mark.markRun w.bootOk w.slots w.booted w.plf state ident).1 = (.setState b true, true) :: rest ∧
              ∀ c ∈ rest, ∃ t, t ≠ b ∧ c.1 = .setState t false := by
            unfold Mark.markRun at hl ⊢
            rw [hres] at hl ⊢
            simp only [hs, if_true] at hl ⊢
            cases hok : w.bootOk 0 with
            | false => rw [hok] at hl; cases hl
            | true =>
              simp only [if_true]
              split
              · refine ⟨_, rfl, ?_⟩
                intro c hc
                unfold Mark.markOtherBad at hc
                split at hc
                · cases hc
                · next l' hl' =>
                  obtain ⟨t, ht, he⟩ := (Mark.markBads_calls w.bootOk 1 l').1 c hc
                  have hd := (Mark.resolve_sound hl').2.1 t ht
                  rw [h1] at hd
                  exact ⟨t, other_ne hd, he⟩
              · exact ⟨[], rfl, by simp⟩
          obtain ⟨rest, hr1, hr2⟩ := hr
          rw [hr1]
          show true = (told b (rest.map Effect.bootloader ++ _) (if b = b then some true else o)).getD false
          rw [told_other, if_pos rfl]
          · rfl
          · intro t x hm
            obtain ⟨t', hne, he⟩ := hr2 _ (mem_calls (by simp) hm)
            cases he; exact hne
        · rw [if_neg (by rw [hs]; decide), if_pos hs]
          have hr : (Mark.markRun w.bootOk w.slots w.booted w.plf state ident).1 = [(.setState b false, true)] := by
            unfold Mark.markRun at hl ⊢
            rw [hres] at hl ⊢
            have hng : ¬ c!"bad" = c!"good" := by decide
            simp only [hs, if_neg hng, if_true] at hl ⊢
            cases hok : w.bootOk 0 with
            | false => simp [Mark.markBads, hok] at hl
            | true => simp [Mark.markBads, hok]
          rw [hr]
          show false = (told b _ (if b = b then some false else o)).getD false
          rw [if_pos rfl]; rfl
        · rw [if_neg (by rw [hs]; decide), if_neg (by rw [hs]; decide), told_other]
          · exact ho
          · intro t x hm
            rcases hshape _ (mem_calls (by simp) hm) with ⟨t', _, hk⟩ | ⟨_, hg, _⟩
            · rw [hs] at hk; simp [Mark.kindOf] at hk
            · rw [hs] at hg; exact absurd hg (by decide)
      · rw [if_neg hb, told_other]
        · exact ho
        · intro t x hm
          rcases hshape _ (mem_calls (by simp) hm) with ⟨t', hd, hk⟩ | ⟨_, _, hi, _⟩
          · have htt : t' = t := by
              unfold Mark.kindOf at hk
              split at hk
              · cases hk; rfl
              · split at hk
                · cases hk; rfl
                · split at hk <;> cases hk
            subst htt
            rcases hd with ⟨h, _⟩ | ⟨h, hrest⟩ | ⟨_, _, _, hname, _⟩
            · exact absurd h hb
            · obtain ⟨_, _, _, b', hb', _, hne⟩ := hrest
              rw [h1] at hb'; cases hb'; exact hne
            · intro he; rw [he] at hname; exact h2 hname.symm
          · exact absurd hi hb

theorem daemon_good (cfg : Cfg) (s : St) (ev : Daemon.Ev) (h : ∀ a b c, ev ≠ .mark a b c) : (Daemon.step cfg s ev).1.good = s.good := by
  unfold Daemon.step
  split
  · rfl
  · cases ev with
    | mark a b c => exact absurd rfl (h a b c)
    | install k r =>
      simp only
      split
      · rfl
      · unfold Daemon.installRun; split <;> rfl
    | auto p =>
      simp only
      split
      · rfl
      · split
        · rfl
        · unfold Daemon.installRun; split <;> rfl
    | query => rfl
    | done st sl ar now =>
      simp only
      split <;> rfl
    | pollRequest now => simp only; split <;> rfl
    | tick e =>
      have hr := Daemon.tick_res cfg s e
      simp only
      generalize (Daemon.tick cfg s e).1 = s' at hr ⊢
      generalize (Daemon.tick cfg s e).2 = a at hr
      cases hr <;> rfl

theorem handle_quiet (w : World) (s : SSt) (c : Call) (h : ∀ a b, c ≠ .mark a b) : ∀ x ∈ (handle w s c).2, ∀ r, x ≠ .bootloader r := by
  cases c with
  | mark a b => exact absurd rfl (h a b)
  | install src => simp only [handle, onInstallBundle]; (repeat' split) <;> simp
  | installBundle src args => simp only [handle, onInstallBundle]; (repeat' split) <;> simp
  | info b => simp only [handle, onInspectBundle]; (repeat' split) <;> simp
  | inspectBundle b args => simp only [handle, onInspectBundle]; (repeat' split) <;> simp
  | getSlotStatus => simp only [handle]; (repeat' split) <;> simp
  | getArtifactStatus => simp only [handle]; (repeat' split) <;> simp
  | getPrimary => simp only [handle]; (repeat' split) <;> simp

theorem step_told (cfg : Cfg) (b : Slot) (s : SSt) (e : Ev) (l : List Ev) (h : Direct b (e :: l)) (o : Option Bool) (ho : s.d.good = o.getD false) :
    (step cfg s e).1.d.good = (told b (step cfg s e).2 o).getD false := by
  have quiet : (∀ x ∈ (step cfg s e).2, ∀ r, x ≠ .bootloader r) → (∀ x, evs1 e = some x → ∀ a b c, x ≠ .mark a b c) → (step cfg s e).1.d.good = (told b (step cfg s e).2 o).getD false := by
    intro h1 h2
    rw [told_other]
    · rw [C86_refines]
      cases hx : evs1 e with
      | none => exact ho
      | some x => exact (daemon_good cfg s.d x (h2 x hx)).trans ho
    · intro t x hm
      exact absurd rfl (h1 _ hm _)
  cases e with
  | call c w =>
    by_cases hm : ∃ a b, c = .mark a b
    · obtain ⟨st, i, rfl⟩ := hm
      obtain ⟨h1, h2, h3⟩ := h.1
      unfold step
      dsimp only
      split
      · exact ho
      · exact mark_told b w s st i h1 h2 h3 o ho
    · refine quiet ?_ ?_
      · unfold step
        dsimp only
        split
        · simp
        · exact handle_quiet w s c (fun a b he => hm ⟨a, b, he⟩)
      · intro x hx a b' c'
        cases c with
        | mark a b => exact absurd ⟨a, b, rfl⟩ hm
        | _ => cases hx; simp [evOf]
  | report p => exact quiet (by unfold step; dsimp only; split <;> simp) (by intro x hx; cases hx)
  | auto p => exact quiet (by simp [step]) (by intro x hx; cases hx; simp)
  | finished st sl ar now => exact quiet (by simp [step]) (by intro x hx; cases hx; simp)
  | pollRequest n => exact quiet (by simp [step]) (by intro x hx; cases hx; simp)
  | tick t => exact quiet (by simp [step]) (by intro x hx; cases hx; simp)

/-- C86, partial (false without the hypothesis, see below): what the poller believes about the booted slot is what the boot loader was told last about it since the service was started. -/
theorem C86_good_partial (cfg : Cfg) (b : Slot) (evs : List Ev) (h : Direct b evs) : (run cfg {} evs).d.good = (told b (effects cfg {} evs) none).getD false := by
  have key : ∀ (evs : List Ev) (s : SSt) (o : Option Bool), Direct b evs → s.d.good = o.getD false → (run cfg s evs).d.good = (told b (effects cfg s evs) o).getD false := by
    intro evs
    induction evs with
    | nil => intro s o _ ho; exact ho
    | cons e l ih =>
      intro s o hd ho
      show (run cfg (step cfg s e).1 l).d.good = (told b ((step cfg s e).2 ++ effects cfg (step cfg s e).1 l) o).getD false
      rw [told_append]
      exact ih _ _ hd.2 (step_told cfg b s e l hd o ho)
  exact key evs {} none h rfl

example : Direct (exSlot c!"rootfs.0" c!"A") [.call (.mark c!"good" c!"booted") exWorld, .call (.mark c!"bad" c!"rootfs.1") exWorld, .call (.mark c!"active" c!"other") exWorld] ∧
    (run exCfg {} [.call (.mark c!"good" c!"booted") exWorld, .call (.mark c!"bad" c!"rootfs.1") exWorld, .call (.mark c!"active" c!"other") exWorld]).d.good = true := by
  refine ⟨?_, by decide +kernel⟩
  simp only [Direct]
  refine ⟨⟨rfl, by decide, ?_⟩, ⟨rfl, by decide, ?_⟩, ⟨rfl, by decide, ?_⟩, trivial⟩
  · intro h; exact absurd h (by decide +kernel)
  · intro h; exact absurd h (by decide +kernel)
  · intro h; exact absurd h (by decide +kernel)

/-- C86, finding: marking the booted slot by its name is not noticed. After `rauc status mark-good rootfs.0` the poller waits on although the slot is good, -/
theorem C86_good_violated :
    let evs := [.call (.mark c!"good" c!"rootfs.0") exWorld]
    (run exCfg {} evs).d.good = false ∧ told (exSlot c!"rootfs.0" c!"A") (effects exCfg {} evs) none = some true := by decide +kernel

/-- and after `rauc status mark-bad rootfs.0` it goes on polling, installing and rebooting although the running system was found to be bad. -/
theorem C86_bad_violated :
    let evs := [.call (.mark c!"good" c!"booted") exWorld, .call (.mark c!"bad" c!"rootfs.0") exWorld]
    (run exCfg {} evs).d.good = true ∧ told (exSlot c!"rootfs.0" c!"A") (effects exCfg {} evs) none = some false := by decide +kernel

example : (handle exWorld {} (.info c!"b.raucb")).2 = [.check c!"b.raucb" {}, .reply (.info c!"device" c!"2")] ∧
    (run exCfg {} [.call (.install c!"a.raucb") exWorld]).d.thread ≠ none := by
  refine ⟨by decide +kernel, by decide +kernel⟩

end Rauc.ServiceCalls
