import Verif.Props.Install
import Verif.Props.Semver

/-!
# C16 – C18: checks before anything is written, pinned manifest hash, unmounting
-/

namespace Rauc.Install

open Rauc.Select (Plan Target makePlans)

/-! ## Lemmas -/

theorem defaultHandler_noMount (w : World) (m : Manifest) (txn : Str) (h : List Ev) :
    ∃ evs, (defaultHandler w m txn h).1 = h ++ evs ∧ ∀ e ∈ evs, e.isMountEv = false := by
  rcases defaultHandler_shape w m txn h with ⟨o, -, e⟩ | ⟨plans, boot, hp, hb, -, ⟨s, rfl, e⟩ | ⟨pre0, evs0, b0, tail, o, hpre, hl, e, ht⟩⟩
  · exact ⟨[], by rw [e]; simp, by simp⟩
  · exact ⟨_, by rw [e], by simp [Ev.isMountEv]⟩
  · obtain ⟨evs, bb, hl', hq1, -⟩ := plansLoop_post w m txn plans (h ++ pre0)
    rw [hl] at hl'
    simp only [Prod.mk.injEq] at hl'
    have := List.append_cancel_left hl'.1
    subst this
    refine ⟨pre0 ++ evs0 ++ tail, by rw [e]; simp, ?_⟩
    intro x hm
    simp only [List.mem_append] at hm
    rcases hm with (hm | hm) | hm
    · rw [hpre, List.mem_map] at hm
      obtain ⟨s, -, rfl⟩ := hm
      rfl
    · exact (hq1 _ hm).2
    · cases ht <;> simp only [List.mem_cons, List.not_mem_nil, or_false] at hm
      · rw [hm]; rfl
      · rw [hm]; rfl
      · rcases hm with rfl | rfl <;> rfl
      · rcases hm with rfl | rfl | rfl | rfl <;> rfl

/-- the conditions under which slots may be touched -/
structure Guard (w : World) (a : Args) (m : Manifest) (evs : List Ev) : Prop where
  hook : m.installCheck = true → Ev.installCheck true ∈ evs
  compat : m.installCheck = false → a.ignoreCompatible = true ∨ w.cfg.compatible = m.compatible
  version : w.cfg.minBundleVersion = none ∨ a.ignoreVersionLimit = true ∨
    ∃ lim v, w.cfg.minBundleVersion = some lim ∧ m.version = some v ∧ Semver.lessEqual lim v = some true

def Ev.touches (e : Ev) : Bool := e.isWrite || e.isBoot

theorem version_guard {w : World} {a : Args} {m : Manifest}
    (h : Semver.checkVersionLimits w.cfg.minBundleVersion a.ignoreVersionLimit m.version = true) :
    w.cfg.minBundleVersion = none ∨ a.ignoreVersionLimit = true ∨
    ∃ lim v, w.cfg.minBundleVersion = some lim ∧ m.version = some v ∧ Semver.lessEqual lim v = some true := by
  unfold Semver.checkVersionLimits at h
  cases hl : w.cfg.minBundleVersion with
  | none => exact Or.inl rfl
  | some lim =>
    right
    rw [hl] at h
    simp only [] at h
    cases hi : a.ignoreVersionLimit with
    | true => exact Or.inl rfl
    | false =>
      right
      rw [hi] at h
      cases hv : m.version with
      | none => rw [hv] at h; exact absurd h (by simp)
      | some v =>
        rw [hv] at h
        simp only [Bool.false_eq_true, ↓reduceIte] at h
        refine ⟨lim, v, rfl, rfl, ?_⟩
        split at h
        · assumption
        · exact absurd h (by simp)

theorem mounted_shape (w : World) (a : Args) (m : Manifest) (h : List Ev) :
    ∃ e1 e2, (mounted w a m h).1 = h ++ (e1 ++ e2) ∧ (∀ e ∈ e1, e.touches = false) ∧
      (∀ e ∈ e1 ++ e2, e.isMountEv = false) ∧ (e2 ≠ [] → Guard w a m e1) := by
  have hnd : ∀ (en : Bool) (mk : Bool → Ev) (g : List Ev), (∀ b, (mk b).touches = false ∧ (mk b).isMountEv = false) →
      ∃ evs, (handler w en mk g).1 = g ++ evs ∧ ∀ e ∈ evs, e.touches = false ∧ e.isMountEv = false := by
    intro en mk g hmk
    unfold handler
    cases en with
    | false => exact ⟨[], by simp, by simp⟩
    | true => exact ⟨[mk (w.ok g)], by simp, by simp [hmk]⟩
  obtain ⟨e1, he1, hn1⟩ := hnd w.cfg.preHandler .preHandler h (fun _ => ⟨rfl, rfl⟩)
  have hcm : ∀ g, ∃ evs, (compatStep w a m g).1 = g ++ evs ∧ (∀ e ∈ evs, e.touches = false ∧ e.isMountEv = false) ∧
      ((compatStep w a m g).2 = true → (m.installCheck = true → Ev.installCheck true ∈ evs) ∧
        (m.installCheck = false → a.ignoreCompatible = true ∨ w.cfg.compatible = m.compatible)) := by
    intro g
    unfold compatStep
    split
    · rename_i hi
      refine ⟨[.installCheck (w.ok g)], rfl, by simp [Ev.touches, Ev.isWrite, Ev.isBoot, Ev.isMountEv], ?_⟩
      intro ho
      simp only [] at ho
      exact ⟨fun _ => by rw [ho]; simp, fun hf => by rw [hi] at hf; exact absurd hf (by simp)⟩
    · rename_i hi
      refine ⟨[], by simp, by simp, ?_⟩
      intro ho
      refine ⟨fun ht => absurd ht hi, fun _ => ?_⟩
      simpa [verifyCompatible] using ho
  unfold mounted
  simp only []
  split
  · exact ⟨e1, [], by rw [he1]; simp, fun e he => (hn1 e he).1, by simpa using fun e he => (hn1 e he).2, by simp⟩
  · rw [he1]
    obtain ⟨e2, he2, hn2, hg2⟩ := hcm (h ++ e1)
    have hq : ∀ e ∈ e1 ++ e2, e.touches = false ∧ e.isMountEv = false := by
      intro e he
      rcases List.mem_append.mp he with he | he
      · exact hn1 e he
      · exact hn2 e he
    split
    · exact ⟨e1 ++ e2, [], by rw [he2]; simp, fun e he => (hq e he).1, by simpa using fun e he => (hq e (by simpa using he)).2, by simp⟩
    · rename_i hok
      split
      · exact ⟨e1 ++ e2, [], by rw [he2]; simp, fun e he => (hq e he).1, by simpa using fun e he => (hq e (by simpa using he)).2, by simp⟩
      · rename_i hv
        have hok' : (compatStep w a m (h ++ e1)).2 = true := by simpa using hok
        have hv' : Semver.checkVersionLimits w.cfg.minBundleVersion a.ignoreVersionLimit m.version = true := by simpa using hv
        have guard : Guard w a m (e1 ++ e2) := by
          obtain ⟨g1, g2⟩ := hg2 hok'
          exact ⟨fun hx => List.mem_append_right _ (g1 hx), g2, version_guard hv'⟩
        rw [he2]
        have hmain : ∃ e3, (mainStep w a m (h ++ e1 ++ e2)).1 = h ++ e1 ++ e2 ++ e3 ∧ ∀ e ∈ e3, e.isMountEv = false := by
          unfold mainStep
          split
          · exact ⟨_, by simp only [List.append_assoc]; rfl, by simp [Ev.isMountEv]⟩
          · exact defaultHandler_noMount w m a.transaction _
        obtain ⟨e3, he3, hn3⟩ := hmain
        split
        · obtain ⟨e4, he4, hn4⟩ := hnd w.cfg.postHandler .postHandler (mainStep w a m (h ++ e1 ++ e2)).1 (fun _ => ⟨rfl, rfl⟩)
          refine ⟨e1 ++ e2, e3 ++ e4, ?_, fun e he => (hq e he).1, ?_, fun _ => guard⟩
          · rw [he4, he3]; simp
          · intro e he
            simp only [List.mem_append] at he
            rcases he with (he | he) | he | he
            · exact (hn1 e he).2
            · exact (hn2 e he).2
            · exact hn3 e he
            · exact (hn4 e he).2
        · refine ⟨e1 ++ e2, e3, by rw [he3]; simp, fun e he => (hq e he).1, ?_, fun _ => guard⟩
          intro e he
          simp only [List.mem_append] at he
          rcases he with (he | he) | he
          · exact (hn1 e he).2
          · exact (hn2 e he).2
          · exact hn3 e he

/-- the three kinds of runs -/
theorem install_shape (w : World) (a : Args) (c : Checked) (inner : Option Manifest) :
    (∃ x y, (install w a c inner).1 = [.extMounts x] ++ y ∧ (y = [] ∨ ∃ b, y = [.check b]) ∧ (install w a c inner).2 = .failed) ∨
    (acceptable a c = true ∧ (∃ t, (install w a c inner).1 = [.extMounts true, .check true] ++ t ∧
      (t = [.mount false] ∨ (c.manifest = none ∧ inner = none ∧ ∃ b, t = [.mount true, .umount b]))) ∧
      (install w a c inner).2 = .failed) ∨
    (acceptable a c = true ∧ ∃ m e1 e2 u, (c.manifest <|> inner) = some m ∧
      (install w a c inner).1 = [.extMounts true, .check true, .mount true] ++ (e1 ++ e2) ++ u ∧
      (∀ e ∈ e1, e.touches = false) ∧ (∀ e ∈ e1 ++ e2, e.isMountEv = false) ∧ (e2 ≠ [] → Guard w a m e1) ∧
      ((install w a c inner).2 = .abort ∧ u = [] ∨ (install w a c inner).2 ≠ .abort ∧ ∃ b, u = [.umount b])) := by
  unfold install
  simp only []
  split
  · exact Or.inl ⟨false, [], rfl, Or.inl rfl, rfl⟩
  · split
    · exact Or.inl ⟨true, [.check false], rfl, Or.inr ⟨false, rfl⟩, rfl⟩
    · split
      · exact Or.inl ⟨true, [.check true], rfl, Or.inr ⟨true, rfl⟩, rfl⟩
      · rename_i hacc
        have hacc' : acceptable a c = true := by simpa using hacc
        right
        have hm : (∃ t, mountBundle w c inner ([.extMounts true] ++ [.check true]) = ([.extMounts true, .check true] ++ t, none) ∧
              (t = [.mount false] ∨ (c.manifest = none ∧ inner = none ∧ ∃ b, t = [.mount true, .umount b]))) ∨
            ∃ m, (c.manifest <|> inner) = some m ∧
              mountBundle w c inner ([.extMounts true] ++ [.check true]) = ([.extMounts true, .check true, .mount true], some m) := by
          unfold mountBundle
          cases hc : c.manifest with
          | some m =>
            simp only []
            split
            · exact Or.inr ⟨m, rfl, rfl⟩
            · exact Or.inl ⟨[.mount false], rfl, Or.inl rfl⟩
          | none =>
            simp only []
            split
            · cases inner with
              | some m => exact Or.inr ⟨m, rfl, rfl⟩
              | none => exact Or.inl ⟨_, rfl, Or.inr ⟨trivial, rfl, _, rfl⟩⟩
            · exact Or.inl ⟨[.mount false], rfl, Or.inl rfl⟩
        rcases hm with ⟨t, e, ht⟩ | ⟨m, hm, e⟩
        · left
          rw [e]
          exact ⟨hacc', ⟨t, rfl, ht⟩, rfl⟩
        · right
          rw [e]
          simp only []
          obtain ⟨e1, e2, he, h1, h2, h3⟩ := mounted_shape w a m [.extMounts true, .check true, .mount true]
          refine ⟨hacc', m, e1, e2, ?_⟩
          cases ho : (mounted w a m [.extMounts true, .check true, .mount true]).2 with
          | abort =>
            refine ⟨[], hm, ?_, h1, h2, h3, Or.inl ⟨?_, rfl⟩⟩
            · simpa using he
            · simpa using ho
          | ok =>
            refine ⟨[.umount (w.ok (mounted w a m [.extMounts true, .check true, .mount true]).1)], hm, ?_, h1, h2, h3, Or.inr ⟨by simp, _, rfl⟩⟩
            simp only [he]
          | failed =>
            refine ⟨[.umount (w.ok (mounted w a m [.extMounts true, .check true, .mount true]).1)], hm, ?_, h1, h2, h3, Or.inr ⟨by simp, _, rfl⟩⟩
            simp only [he]

/-! ## C16 -/

/-- Before any write (or boot loader request, or the start of a custom handler), the bundle's compatible string was found to be
that of the system, or this was explicitly ignored, or the bundle's own install-check hook ran and accepted; and the version
limit is met, absent or explicitly ignored. `m` is the manifest in use. -/
theorem C16_checked_before_write (w : World) (a : Args) (c : Checked) (inner : Option Manifest) (m : Manifest)
    (hm : (c.manifest <|> inner) = some m) (pre post : List Ev) (e : Ev)
    (he : (install w a c inner).1 = pre ++ e :: post) (hw : e.isWrite = true ∨ e.isBoot = true) :
    (m.installCheck = true ∧ Ev.installCheck true ∈ pre ∨
      m.installCheck = false ∧ (a.ignoreCompatible = true ∨ w.cfg.compatible = m.compatible)) ∧
    (w.cfg.minBundleVersion = none ∨ a.ignoreVersionLimit = true ∨
      ∃ lim v, w.cfg.minBundleVersion = some lim ∧ m.version = some v ∧ Semver.lessEqual lim v = some true) := by
  have ht : e.touches = true := by simpa [Ev.touches] using hw
  have hmem : e ∈ (install w a c inner).1 := by rw [he]; simp
  rcases install_shape w a c inner with ⟨x, y, hx, hy, -⟩ | ⟨-, ⟨t, hx, htt⟩, -⟩ | ⟨-, m', e1, e2, u, hm', hx, h1, h2, h3, hu⟩
  · rw [hx] at hmem
    rcases hy with rfl | ⟨b, rfl⟩
    · simp only [List.append_nil, List.mem_cons, List.not_mem_nil, or_false] at hmem
      rw [hmem] at ht; exact absurd ht (by simp [Ev.touches, Ev.isWrite, Ev.isBoot])
    · simp only [List.cons_append, List.nil_append, List.mem_cons, List.not_mem_nil, or_false] at hmem
      rcases hmem with rfl | rfl <;> exact absurd ht (by simp [Ev.touches, Ev.isWrite, Ev.isBoot])
  · rw [hx] at hmem
    rcases htt with rfl | ⟨-, -, b, rfl⟩ <;>
      simp only [List.cons_append, List.nil_append, List.mem_cons, List.not_mem_nil, or_false] at hmem
    · rcases hmem with rfl | rfl | rfl <;> exact absurd ht (by simp [Ev.touches, Ev.isWrite, Ev.isBoot])
    · rcases hmem with rfl | rfl | rfl | rfl <;> exact absurd ht (by simp [Ev.touches, Ev.isWrite, Ev.isBoot])
  · rw [hm] at hm'
    cases hm'
    have hnotfirst : ∀ x ∈ [Ev.extMounts true, .check true, .mount true] ++ e1, x.touches = false := by
      intro x hxm
      simp only [List.cons_append, List.nil_append, List.mem_cons] at hxm
      rcases hxm with rfl | rfl | rfl | hxm
      · rfl
      · rfl
      · rfl
      · exact h1 x hxm
    -- e comes after the first part
    have hall : (install w a c inner).1 = ([Ev.extMounts true, .check true, .mount true] ++ e1) ++ (e2 ++ u) := by
      rw [hx]; simp
    rw [hall] at he
    have hpre : ∃ t, pre = ([Ev.extMounts true, .check true, .mount true] ++ e1) ++ t ∧ e2 ++ u = t ++ e :: post := by
      rcases List.append_eq_append_iff.mp he with ⟨t, ha, hb⟩ | ⟨t, ha, hb⟩
      · exact ⟨t, ha, hb⟩
      · cases t with
        | nil => exact ⟨[], by simpa using ha.symm, by simpa using hb.symm⟩
        | cons y t =>
          simp only [List.cons_append, List.cons.injEq] at hb
          have := hnotfirst y (by rw [ha]; simp)
          rw [← hb.1, ht] at this
          exact absurd this (by simp)
    obtain ⟨t, hp, heu⟩ := hpre
    have hne : e2 ≠ [] := by
      rintro rfl
      rw [List.nil_append] at heu
      rcases hu with ⟨-, rfl⟩ | ⟨-, b, rfl⟩
      · simp at heu
      · cases t with
        | nil =>
          simp only [List.nil_append, List.cons.injEq] at heu
          rw [← heu.1] at ht
          exact absurd ht (by simp [Ev.touches, Ev.isWrite, Ev.isBoot])
        | cons y t => simp at heu
    have g := h3 hne
    refine ⟨?_, g.version⟩
    cases hi : m.installCheck with
    | true => exact Or.inl ⟨rfl, by rw [hp]; simp [g.hook hi]⟩
    | false => exact Or.inr ⟨rfl, g.compat hi⟩

/-! ## C17 -/

/-- With a required manifest hash, the bundle is mounted (and all that follows happens) only if it has a signed manifest with
exactly this hash. -/
theorem C17_pinned (w : World) (a : Args) (c : Checked) (inner : Option Manifest) (r : Str)
    (hr : a.requireManifestHash = some r) (e : Ev) (he : e ∈ (install w a c inner).1)
    (hn : ∀ b, e ≠ .extMounts b ∧ e ≠ .check b) :
    ∃ m, c.manifest = some m ∧ m.hash = some r := by
  have key : acceptable a c = true → ∃ m, c.manifest = some m ∧ m.hash = some r := by
    intro h
    unfold acceptable at h
    rw [hr] at h
    simp only [Bool.and_eq_true] at h
    cases hc : c.manifest with
    | none => rw [hc] at h; exact absurd h.1 (by simp)
    | some m => rw [hc] at h; exact ⟨m, rfl, by simpa using h.1⟩
  rcases install_shape w a c inner with ⟨x, y, hx, hy, -⟩ | ⟨ha, -⟩ | ⟨ha, -⟩
  · rw [hx] at he
    rcases hy with rfl | ⟨b, rfl⟩
    · simp only [List.append_nil, List.mem_cons, List.not_mem_nil, or_false] at he
      exact absurd he (hn x).1
    · simp only [List.cons_append, List.nil_append, List.mem_cons, List.not_mem_nil, or_false] at he
      rcases he with rfl | rfl
      · exact absurd rfl (hn x).1
      · exact absurd rfl (hn b).2
  · exact key ha
  · exact key ha

/-- and nothing in the bundle other than this signed manifest is used as manifest -/
theorem C17_signed_manifest_used (w : World) (a : Args) (c : Checked) (m : Manifest) (hm : c.manifest = some m)
    (inner inner' : Option Manifest) : install w a c inner = install w a c inner' := by
  simp only [install, mountBundle, hm]

/-! ## C18 -/

theorem replay_mounted_other {c : Cfg} {st : St} {evs : List Ev} (h : ∀ e ∈ evs, e.isMountEv = false) :
    (replay c st evs).mounted = st.mounted := by
  induction evs generalizing st with
  | nil => rfl
  | cons e es ih =>
    have h1 := ih (st := apply c st e) (fun x hx => h x (List.mem_cons_of_mem _ hx))
    rw [show replay c st (e :: es) = replay c (apply c st e) es from rfl, h1]
    have h2 := h e (by simp)
    cases e
    case save n b =>
      cases b
      · rfl
      · simp only [apply]
        split
        · split <;> rfl
        · rfl
    all_goals first
      | rfl
      | (simp only [Ev.isMountEv, Bool.true_eq_false] at h2; done)
      | (rename_i b; cases b <;> rfl)

/-- Unless the process aborts, or unmounting itself fails, the bundle is not mounted when the installation returns. -/
theorem C18_unmounted (w : World) (a : Args) (c : Checked) (inner : Option Manifest) (h0 : w.st0.mounted = false)
    (ho : (install w a c inner).2 ≠ .abort) (hu : Ev.umount false ∉ (install w a c inner).1) :
    (replay w.cfg w.st0 (install w a c inner).1).mounted = false := by
  rcases install_shape w a c inner with ⟨x, y, hx, hy, -⟩ | ⟨-, ⟨t, hx, htt⟩, -⟩ | ⟨-, m', e1, e2, u, hm', hx, h1, h2, h3, hu'⟩
  · rw [hx, replay_mounted_other, h0]
    rcases hy with rfl | ⟨b, rfl⟩ <;> simp [Ev.isMountEv]
  · rw [hx] at hu ⊢
    rcases htt with rfl | ⟨-, -, b, rfl⟩
    · simp [replay, apply, h0]
    · cases b with
      | false => exact absurd (by simp) hu
      | true => simp [replay, apply]
  · rcases hu' with ⟨hb, -⟩ | ⟨-, b, rfl⟩
    · exact absurd hb ho
    · rw [hx] at hu ⊢
      cases b with
      | false => exact absurd (by simp) hu
      | true =>
        rw [replay_append]
        simp [replay, apply]

/-- Unmounting is attempted exactly once for a mounted bundle, and never for one that was not mounted. -/
theorem C18_once (w : World) (a : Args) (c : Checked) (inner : Option Manifest) (ho : (install w a c inner).2 ≠ .abort) :
    ((install w a c inner).1.filter (fun e => match e with | .umount _ => true | _ => false)).length =
      ((install w a c inner).1.filter (fun e => match e with | .mount true => true | _ => false)).length := by
  have other : ∀ l : List Ev, (∀ e ∈ l, e.isMountEv = false) →
      l.filter (fun e => match e with | .umount _ => true | _ => false) = [] ∧
      l.filter (fun e => match e with | .mount true => true | _ => false) = [] := by
    intro l hl
    constructor <;> rw [List.filter_eq_nil_iff] <;> intro e he <;> have := hl e he <;> cases e <;> simp_all [Ev.isMountEv]
  rcases install_shape w a c inner with ⟨x, y, hx, hy, -⟩ | ⟨-, ⟨t, hx, htt⟩, -⟩ | ⟨-, m', e1, e2, u, hm', hx, h1, h2, h3, hu'⟩
  · rw [hx]
    have := other ([.extMounts x] ++ y) (by rcases hy with rfl | ⟨b, rfl⟩ <;> simp [Ev.isMountEv])
    rw [this.1, this.2]
  · rw [hx]
    rcases htt with rfl | ⟨-, -, b, rfl⟩ <;> rfl
  · rcases hu' with ⟨hb, -⟩ | ⟨-, b, rfl⟩
    · exact absurd hb ho
    · rw [hx]
      obtain ⟨o1, o2⟩ := other (e1 ++ e2) h2
      generalize e1 ++ e2 = e12 at o1 o2
      rw [List.filter_append, List.filter_append, List.filter_append, List.filter_append, o1, o2]
      rfl

/-- When the process aborts: the plans contain two boot slots, or an image without file name and without install hook. -/
theorem C18_abort_causes (w : World) (m : Manifest) (txn : Str) (h : List Ev) (ha : (defaultHandler w m txn h).2 = .abort) :
    ∃ plans, plansOf w m = some plans ∧
      (2 ≤ (plans.filter (fun p => (bootTarget p).isSome)).length ∨
       ∃ p ∈ plans, p.image.filename = none ∧ p.image.hooks.install = false) := by
  unfold defaultHandler at ha
  cases hp : plansOf w m with
  | none => rw [plansOf] at hp; rw [hp] at ha; exact absurd ha (by simp)
  | some plans =>
    refine ⟨plans, rfl, ?_⟩
    rw [plansOf] at hp; rw [hp] at ha
    simp only [] at ha
    cases hb : bootMarkSlot plans with
    | none =>
      left
      have hlen : (plans.filterMap bootTarget).length = (plans.filter (fun p => (bootTarget p).isSome)).length := by
        clear hb ha hp
        induction plans with
        | nil => rfl
        | cons p ps ih => cases hx : bootTarget p <;> simp [hx, ih]
      rw [← hlen]
      unfold bootMarkSlot at hb
      split at hb
      · exact absurd hb (by simp)
      · exact absurd hb (by simp)
      · rename_i h1 h2
        cases hf : plans.filterMap bootTarget with
        | nil => exact absurd hf h1
        | cons x l =>
          cases l with
          | nil => exact absurd hf (h2 x)
          | cons y l => simp
    | some boot =>
      right
      rw [hb] at ha
      simp only [] at ha
      have hpc : preChecks w plans = .abort := by
        cases hc : preChecks w plans with
        | abort => rfl
        | failed => rw [hc] at ha; exact absurd ha (by simp)
        | ok =>
          rw [hc] at ha
          simp only [] at ha
          exfalso
          cases boot with
          | none =>
            obtain ⟨_, _, _, o, _, e, ht⟩ := updateSlots_shape w m txn plans none h
            simp only [e] at ha; cases ht <;> simp at ha
          | some s =>
            simp only [] at ha
            split at ha
            · obtain ⟨_, _, _, o, _, e, ht⟩ := updateSlots_shape w m txn plans (some s) (h ++ [.markBad s true])
              rw [e] at ha; cases ht <;> simp at ha
            · simp at ha
      clear ha hb hp
      induction plans with
      | nil => exact absurd hpc (by simp [preChecks])
      | cons p ps ih =>
        rw [preChecks] at hpc
        cases hx : preCheck w p with
        | ok =>
          rw [hx] at hpc
          obtain ⟨q, hq, h1⟩ := ih hpc
          exact ⟨q, List.mem_cons_of_mem _ hq, h1⟩
        | failed => rw [hx] at hpc; exact absurd hpc (by simp)
        | abort =>
          refine ⟨p, by simp, ?_⟩
          unfold preCheck at hx
          simp only [] at hx
          cases hf : p.image.filename with
          | none =>
            refine ⟨rfl, ?_⟩
            cases hh : p.image.hooks.install with
            | false => rfl
            | true =>
              exfalso
              simp only [hf, hh, ↓reduceIte] at hx
              cases ht : p.target with
              | slot s hd =>
                simp only [ht] at hx
                split at hx <;> simp at hx
              | repo n =>
                simp only [ht] at hx
                split at hx <;> simp at hx
          | some f =>
            exfalso
            simp only [hf] at hx
            split at hx
            · split at hx <;> split at hx <;> simp at hx
            · rename_i hne
              split at hx
              · simp at hx
              · split at hx <;> simp at hx

/-! ## Concrete cases -/

/-- a manifest accepted by the parser (emptyfs image without file name) that aborts the process with the bundle mounted -/
theorem C18_emptyfs_aborts :
    let img : Image := { slotclass := c!"rootfs", typ := some (c!"emptyfs") }
    let grp : Str → Option Slot := fun _ => some { name := c!"rootfs.1", sclass := c!"rootfs", bootname := some (c!"B"), typ := c!"ext4" }
    let w : World := { exWorld with group := grp, cfg := { compatible := c!"x" } }
    let r := install w {} ⟨some (exManifest [img]), false⟩ none
    r.2 = .abort ∧ (replay w.cfg w.st0 r.1).mounted = true := by
  decide

example :
    let w : World := { exWorld with cfg := { compatible := c!"y" } }
    trace (install w {} ⟨some (exManifest [exRoot]), false⟩ none).1 = [(c!"mount", [], true), (c!"umount", [], true)] := by decide

example :
    let w : World := { exWorld with cfg := { compatible := c!"x" } }
    (install w { requireManifestHash := some (c!"h") } ⟨some { exManifest [exRoot] with hash := some (c!"h") }, false⟩ none).2 = .ok ∧
    (install w { requireManifestHash := some (c!"h") } ⟨some { exManifest [exRoot] with hash := some (c!"g") }, false⟩ none).2 = .failed ∧
    (install w { requireManifestHash := some (c!"h") } ⟨none, false⟩ (some { exManifest [exRoot] with hash := some (c!"h") })).2 = .failed := by
  decide

end Rauc.Install
