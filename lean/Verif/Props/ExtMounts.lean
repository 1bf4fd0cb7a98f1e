import Verif.Model.ExtMounts
import Verif.Props.InstallChecks
import Verif.Props.StatusView

/-!
# C92: slots in use by somebody else are not overwritten, and are shown as mounted
-/

namespace Rauc.ExtMounts

open Rauc.Install (World Args Checked Ev install)

/-! ## Specification -/

/-- `src` mentions the loop device `n` right after `pre` -/
def LoopAt (src pre n : Str) : Prop :=
  ∃ ds rest, src = pre ++ c!"/dev/" ++ n ++ rest ∧ n = c!"loop" ++ ds ∧ ds ≠ [] ∧ (∀ c ∈ ds, '0' ≤ c ∧ c ≤ '9') ∧ (∀ c r, rest = c :: r → ¬ ('0' ≤ c ∧ c ≤ '9'))

/-- the first loop device a source mentions -/
def FirstLoop (src n : Str) : Prop := ∃ pre, LoopAt src pre n ∧ ∀ pre' n', LoopAt src pre' n' → pre.length ≤ pre'.length

/-- the device (or file) behind the source of a mount: for loop devices the file they are set up with -/
def Denotes (sys : Str → Option Str) (src dev : Str) : Prop :=
  ((∀ pre n, ¬ LoopAt src pre n) ∧ dev = src) ∨
  ∃ n text, FirstLoop src n ∧ sys (c!"/sys/block/" ++ n ++ c!"/loop/backing_file") = some text ∧ dev = chomp text

/-- the first mount of a device -/
def FirstMount (sys : Str → Option Str) (mounts : List Mount) (dev point : Str) : Prop :=
  ∃ pre m post, mounts = pre ++ m :: post ∧ Denotes sys m.source dev ∧ m.point = point ∧ ∀ q ∈ pre, ¬ Denotes sys q.source dev

/-- nothing in the mount table is the device -/
def Unmounted (sys : Str → Option Str) (mounts : List Mount) (dev : Str) : Prop := ∀ m ∈ mounts, ¬ Denotes sys m.source dev

/-! ## Loop devices -/

theorem isDigit_iff (c : Char) : isDigit c = true ↔ '0' ≤ c ∧ c ≤ '9' := by simp [isDigit]

theorem after_some {p s t : Str} : after p s = some t ↔ s = p ++ t := by
  unfold after
  constructor
  · intro h
    split at h
    · rename_i hp
      obtain ⟨r, rfl⟩ := hp
      cases h
      simp
    · cases h
  · rintro rfl
    rw [if_pos (List.prefix_append _ _)]
    simp

theorem takeWhile_split {l ds rest : Str} (h : l = ds ++ rest) (hd : ∀ c ∈ ds, '0' ≤ c ∧ c ≤ '9') (hr : ∀ c r, rest = c :: r → ¬ ('0' ≤ c ∧ c ≤ '9')) :
    l.takeWhile isDigit = ds := by
  subst h
  rw [List.takeWhile_append_of_pos (fun c hc => (isDigit_iff c).2 (hd c hc))]
  cases rest with
  | nil => simp
  | cons c r =>
    have := hr c r rfl
    rw [List.takeWhile_cons, if_neg (fun e => this ((isDigit_iff c).1 e))]
    simp

/-- a match at the beginning -/
theorem loopAt_nil {src n : Str} : LoopAt src [] n ↔ ∃ t, after c!"/dev/loop" src = some t ∧ t.takeWhile isDigit ≠ [] ∧ n = c!"loop" ++ t.takeWhile isDigit := by
  constructor
  · rintro ⟨ds, rest, h1, rfl, h2, h3, h4⟩
    refine ⟨ds ++ rest, after_some.2 (by rw [h1]; simp), ?_⟩
    rw [takeWhile_split rfl h3 h4]
    exact ⟨h2, rfl⟩
  · rintro ⟨t, h1, h2, rfl⟩
    refine ⟨t.takeWhile isDigit, t.dropWhile isDigit, ?_, rfl, h2, ?_, ?_⟩
    · rw [after_some.1 h1]
      have := List.takeWhile_append_dropWhile (p := isDigit) (l := t)
      conv => lhs; rw [← this]
      simp
    · intro c hc
      have := List.all_takeWhile (p := isDigit) (l := t)
      exact (isDigit_iff c).1 (List.all_eq_true.1 this c hc)
    · intro c r hr hd
      have hne : t.dropWhile isDigit ≠ [] := by rw [hr]; simp
      have := List.head_dropWhile_not isDigit hne
      simp only [hr, List.head_cons] at this
      rw [(isDigit_iff c).2 hd] at this
      exact absurd this (by simp)

theorem loopAt_cons {c : Char} {r pre n : Str} {x : Char} : LoopAt (c :: r) (x :: pre) n ↔ c = x ∧ LoopAt r pre n := by
  constructor
  · rintro ⟨ds, rest, h1, h2⟩
    simp only [List.cons_append, List.cons.injEq] at h1
    exact ⟨h1.1, ds, rest, h1.2, h2⟩
  · rintro ⟨rfl, ds, rest, h1, h2⟩
    exact ⟨ds, rest, by simp [h1], h2⟩

theorem loopAt_of_nil {pre n : Str} : ¬ LoopAt [] pre n := by
  rintro ⟨ds, rest, h1, h2⟩
  simp at h1

theorem loopAt_unique {src n n' : Str} (h : LoopAt src [] n) (h' : LoopAt src [] n') : n = n' := by
  obtain ⟨t, h1, -, rfl⟩ := loopAt_nil.1 h
  obtain ⟨t', h1', -, rfl⟩ := loopAt_nil.1 h'
  rw [h1] at h1'
  cases h1'
  rfl

theorem loopName_spec (src : Str) :
    (∀ n, loopName src = some n ↔ FirstLoop src n) ∧ (loopName src = none ↔ ∀ pre n, ¬ LoopAt src pre n) := by
  induction src with
  | nil =>
    refine ⟨fun n => ⟨fun h => by simp [loopName] at h, ?_⟩, fun _ _ _ => loopAt_of_nil, fun _ => rfl⟩
    rintro ⟨pre, h, -⟩
    exact absurd h loopAt_of_nil
  | cons c r ih =>
    by_cases hm : ∃ n, LoopAt (c :: r) [] n
    · obtain ⟨n0, h0⟩ := hm
      obtain ⟨t, ht, hne, rfl⟩ := loopAt_nil.1 h0
      have hl : loopName (c :: r) = some (c!"loop" ++ t.takeWhile isDigit) := by
        rw [loopName, ht]
        simp [hne]
      rw [hl]
      refine ⟨fun n => ⟨?_, ?_⟩, by simp, fun h => absurd h0 (h _ _)⟩
      · intro h
        cases h
        exact ⟨[], h0, by simp⟩
      · rintro ⟨pre, h1, h2⟩
        have : pre = [] := List.length_eq_zero_iff.1 (Nat.le_zero.1 (by simpa using h2 [] _ h0))
        subst this
        rw [loopAt_unique h0 h1]
    · have hl : loopName (c :: r) = loopName r := by
        rw [loopName]
        cases ha : after c!"/dev/loop" (c :: r) with
        | none => rfl
        | some t =>
          have : t.takeWhile isDigit = [] := Classical.byContradiction (fun hne => hm ⟨_, loopAt_nil.2 ⟨t, ha, hne, rfl⟩⟩)
          simp [this]
      have hshift : ∀ pre n, LoopAt (c :: r) pre n ↔ ∃ p, pre = c :: p ∧ LoopAt r p n := by
        intro pre n
        cases pre with
        | nil => exact ⟨fun h => absurd ⟨n, h⟩ hm, by rintro ⟨p, h, -⟩; cases h⟩
        | cons x p => rw [loopAt_cons]; exact ⟨fun ⟨e, h⟩ => ⟨p, by rw [e], h⟩, fun ⟨q, e, h⟩ => by cases e; exact ⟨rfl, h⟩⟩
      rw [hl]
      constructor
      · intro n
        rw [ih.1 n]
        constructor
        · rintro ⟨pre, h1, h2⟩
          refine ⟨c :: pre, (hshift _ _).2 ⟨pre, rfl, h1⟩, fun pre' n' h' => ?_⟩
          obtain ⟨p, rfl, hp⟩ := (hshift _ _).1 h'
          simpa using h2 p n' hp
        · rintro ⟨pre, h1, h2⟩
          obtain ⟨p, rfl, hp⟩ := (hshift _ _).1 h1
          exact ⟨p, hp, fun p' n' h' => by simpa using h2 (c :: p') n' ((hshift _ _).2 ⟨p', rfl, h'⟩)⟩
      · rw [ih.2]
        exact ⟨fun h pre n h' => by obtain ⟨p, -, hp⟩ := (hshift _ _).1 h'; exact h p n hp, fun h p n hp => h (c :: p) n ((hshift _ _).2 ⟨p, rfl, hp⟩)⟩

theorem resolve_iff (sys : Str → Option Str) (src dev : Str) : resolve sys src = some dev ↔ Denotes sys src dev := by
  obtain ⟨h1, h2⟩ := loopName_spec src
  unfold resolve Denotes
  cases hl : loopName src with
  | none =>
    have hn := h2.1 hl
    constructor
    · intro h; cases h; exact Or.inl ⟨hn, rfl⟩
    · rintro (⟨-, rfl⟩ | ⟨n, text, ⟨pre, hf, -⟩, -⟩)
      · rfl
      · exact absurd hf (hn _ _)
  | some n =>
    have hf := (h1 n).1 hl
    constructor
    · intro h
      obtain ⟨text, ht, rfl⟩ := Option.map_eq_some_iff.1 h
      exact Or.inr ⟨n, text, hf, ht, rfl⟩
    · rintro (⟨hn, -⟩ | ⟨n', text, hf', ht, rfl⟩)
      · obtain ⟨pre, hp, -⟩ := hf
        exact absurd hp (hn _ _)
      · have : n' = n := Option.some.inj (((h1 n').2 hf').symm.trans hl)
        subst this
        dsimp only
        rw [ht]
        rfl

theorem denotes_unique {sys : Str → Option Str} {src d d' : Str} (h : Denotes sys src d) (h' : Denotes sys src d') : d = d' :=
  Option.some.inj (((resolve_iff _ _ _).2 h).symm.trans ((resolve_iff _ _ _).2 h'))

/-! ## The table -/

theorem find_iff {slots : List (Str × Str)} (hd : (slots.map (·.2)).Nodup) {n d : Str} : findByDevice slots d = some n ↔ (n, d) ∈ slots := by
  unfold findByDevice
  constructor
  · intro h
    obtain ⟨x, hx, rfl⟩ := Option.map_eq_some_iff.1 h
    have h1 := List.mem_of_find?_eq_some hx
    have h2 := List.find?_some hx
    have : x.2 = d := by simpa using h2
    rw [← this]
    exact h1
  · intro h
    induction slots with
    | nil => simp at h
    | cons x l ih =>
      rw [List.map_cons, List.nodup_cons] at hd
      by_cases hx : x.2 = d
      · rw [List.find?_cons_of_pos (by simpa using hx)]
        rcases List.mem_cons.1 h with rfl | h
        · rfl
        · exact absurd (List.mem_map.2 ⟨(n, d), h, rfl⟩) (hx ▸ hd.1)
      · rw [List.find?_cons_of_neg (by simpa using hx)]
        rcases List.mem_cons.1 h with rfl | h
        · exact absurd rfl hx
        · exact ih hd.2 h

theorem loop_fails (sys : Str → Option Str) (slots : List (Str × Str)) (mounts : List Mount) (ext : Str → Option Str) :
    (loop sys slots mounts ext).2 = true ↔ ∀ m ∈ mounts, ∃ d, Denotes sys m.source d := by
  induction mounts generalizing ext with
  | nil => simp [loop]
  | cons m l ih =>
    unfold loop
    cases hr : resolve sys m.source with
    | none =>
      refine ⟨by simp, fun h => ?_⟩
      obtain ⟨d, hd⟩ := h m (by simp)
      rw [(resolve_iff _ _ _).2 hd] at hr
      cases hr
    | some dev =>
      have hd := (resolve_iff _ _ _).1 hr
      have key : ∀ ext', (loop sys slots l ext').2 = true ↔ ∀ q ∈ m :: l, ∃ d, Denotes sys q.source d := by
        intro ext'
        rw [ih ext']
        exact ⟨fun h q hq => by rcases List.mem_cons.1 hq with rfl | hq; exacts [⟨dev, hd⟩, h q hq], fun h q hq => h q (List.mem_cons_of_mem _ hq)⟩
      dsimp only
      split
      · exact key _
      · split <;> exact key _

/-- a mount point that is known stays; otherwise it is the first in the rest of the table -/
theorem loop_view {sys : Str → Option Str} {slots : List (Str × Str)} (hn : (slots.map (·.1)).Nodup) (hd : (slots.map (·.2)).Nodup) {n d : Str} (hs : (n, d) ∈ slots)
    {mounts : List Mount} {ext : Str → Option Str} (h : (loop sys slots mounts ext).2 = true) (p : Str) :
    (loop sys slots mounts ext).1 n = some p ↔ ext n = some p ∨ ext n = none ∧ FirstMount sys mounts d p := by
  induction mounts generalizing ext with
  | nil =>
    simp only [loop]
    refine ⟨Or.inl, ?_⟩
    rintro (h | ⟨-, pre, m, post, h, -⟩)
    · exact h
    · simp at h
  | cons m l ih =>
    have first : ∀ p, FirstMount sys (m :: l) d p ↔ (Denotes sys m.source d ∧ m.point = p) ∨ (¬ Denotes sys m.source d ∧ FirstMount sys l d p) := by
      intro p
      constructor
      · rintro ⟨pre, q, post, h1, h2, h3, h4⟩
        cases pre with
        | nil => cases h1; exact Or.inl ⟨h2, h3⟩
        | cons x pre =>
          cases h1
          exact Or.inr ⟨h4 m (by simp), pre, q, post, rfl, h2, h3, fun y hy => h4 y (List.mem_cons_of_mem _ hy)⟩
      · rintro (⟨h1, h2⟩ | ⟨h1, pre, q, post, rfl, h2, h3, h4⟩)
        · exact ⟨[], m, l, rfl, h1, h2, by simp⟩
        · exact ⟨m :: pre, q, post, rfl, h2, h3, fun y hy => by rcases List.mem_cons.1 hy with rfl | hy; exacts [h1, h4 y hy]⟩
    unfold loop at h ⊢
    cases hr : resolve sys m.source with
    | none => rw [hr] at h; simp at h
    | some dev =>
      rw [hr] at h
      have hden := (resolve_iff _ _ _).1 hr
      have hiff : Denotes sys m.source d ↔ dev = d := ⟨fun hx => denotes_unique hden hx, fun e => e ▸ hden⟩
      rw [first, hiff]
      dsimp only at h ⊢
      cases hf : findByDevice slots dev with
      | none =>
        rw [hf] at h
        dsimp only at h ⊢
        have hne : dev ≠ d := by
          rintro rfl
          rw [(find_iff hd).2 hs] at hf
          cases hf
        rw [ih h]
        simp [hne]
      | some k =>
        rw [hf] at h
        have hk := (find_iff hd).1 hf
        dsimp only at h ⊢
        by_cases hkn : k = n
        · have hdd : dev = d := by
            subst hkn
            have h1 := List.inj_on_of_nodup_map hn hk hs rfl
            exact congrArg Prod.snd h1
          subst hkn
          by_cases he : (ext k).isSome = true
          · rw [if_pos he] at h ⊢
            rw [ih h]
            obtain ⟨x, hx⟩ := Option.isSome_iff_exists.1 he
            simp [hx]
          · rw [if_neg he] at h ⊢
            rw [ih h]
            have he' : ext k = none := by simpa using he
            simp [Install.upd, he', hdd]
        · have hdd : dev ≠ d := by
            rintro rfl
            have h1 := List.inj_on_of_nodup_map hd hk hs rfl
            exact hkn (congrArg Prod.fst h1)
          split at h
          · rename_i he
            rw [if_pos he, ih h]
            simp [hdd]
          · rename_i he
            rw [if_neg he, ih h]
            simp [hdd, Install.upd, Ne.symm hkn]

/-- **C92.** The external mount points are determined exactly if the file behind each mounted loop device is known, and then the one of a slot is the first mount point of its
device. -/
theorem C92_view (sys : Str → Option Str) (slots : List (Str × Str)) (hn : (slots.map (·.1)).Nodup) (hd : (slots.map (·.2)).Nodup) (mounts : List Mount) :
    ((update sys slots mounts).2 = true ↔ ∀ m ∈ mounts, ∃ d, Denotes sys m.source d) ∧
    ((update sys slots mounts).2 = true → ∀ n d, (n, d) ∈ slots →
      (∀ p, (update sys slots mounts).1 n = some p ↔ FirstMount sys mounts d p) ∧
      ((update sys slots mounts).1 n = none ↔ Unmounted sys mounts d)) := by
  refine ⟨loop_fails _ _ _ _, fun h n d hs => ?_⟩
  have key : ∀ p, (update sys slots mounts).1 n = some p ↔ FirstMount sys mounts d p := fun p => by
    unfold update at h ⊢
    rw [loop_view hn hd hs h]
    simp
  refine ⟨key, ?_⟩
  constructor
  · intro hx m hm hden
    classical
    have hex : ∃ p, FirstMount sys mounts d p := by
      clear key hx h
      induction mounts with
      | nil => simp at hm
      | cons q l ih =>
        by_cases hq : Denotes sys q.source d
        · exact ⟨q.point, [], q, l, rfl, hq, rfl, by simp⟩
        · rcases List.mem_cons.1 hm with rfl | hm
          · exact absurd hden hq
          · obtain ⟨p, pre, x, post, rfl, h2, h3, h4⟩ := ih hm
            exact ⟨p, q :: pre, x, post, rfl, h2, h3, fun y hy => by rcases List.mem_cons.1 hy with rfl | hy; exacts [hq, h4 y hy]⟩
    obtain ⟨p, hp⟩ := hex
    rw [(key p).2 hp] at hx
    cases hx
  · intro hu
    cases hx : (update sys slots mounts).1 n with
    | none => rfl
    | some p =>
      obtain ⟨pre, m, post, rfl, h2, -⟩ := (key p).1 hx
      exact absurd h2 (hu m (by simp))

/-! ## Installations -/

open Rauc.Install in
theorem touch_mounted {w : World} {a : Args} {m : Manifest} {h : List Ev} {e : Ev} (hh : ∀ x ∈ h, x.touches = false) (he : e ∈ (mounted w a m h).1) (ht : e.touches = true) :
    ∃ h', (∀ x ∈ h', x.touches = false) ∧ e ∈ (mainStep w a m h').1 := by
  have hand : ∀ (en : Bool) (mk : Bool → Ev) (g : List Ev), (∀ b, (mk b).touches = false) → ∀ x ∈ (handler w en mk g).1, x ∈ g ∨ x.touches = false := by
    intro en mk g hmk x hx
    unfold handler at hx
    split at hx
    · rcases List.mem_append.1 hx with hx | hx
      · exact Or.inl hx
      · rw [List.mem_singleton.1 hx]; exact Or.inr (hmk _)
    · exact Or.inl hx
  have h1 : ∀ x ∈ (handler w w.cfg.preHandler .preHandler h).1, x.touches = false := fun x hx =>
    (hand _ _ _ (fun _ => rfl) x hx).elim (hh x) id
  have h2 : ∀ x ∈ (compatStep w a m (handler w w.cfg.preHandler .preHandler h).1).1, x.touches = false := by
    intro x hx
    unfold compatStep at hx
    split at hx
    · rcases List.mem_append.1 hx with hx | hx
      · exact h1 x hx
      · rw [List.mem_singleton.1 hx]; rfl
    · exact h1 x hx
  have no : ∀ {l : List Ev}, (∀ x ∈ l, x.touches = false) → e ∉ l := fun hl hm => by rw [hl e hm] at ht; cases ht
  unfold mounted at he
  dsimp only at he
  split at he
  · exact absurd he (no h1)
  · split at he
    · exact absurd he (no h2)
    · split at he
      · exact absurd he (no h2)
      · refine ⟨_, h2, ?_⟩
        split at he
        · rcases hand _ _ _ (fun _ => rfl) e he with hx | hx
          · exact hx
          · rw [ht] at hx; cases hx
        · exact he

open Rauc.Install in
theorem touch_install {w : World} {a : Args} {c : Checked} {inner : Option Manifest} {m : Manifest} (hm : (c.manifest <|> inner) = some m) {e : Ev}
    (he : e ∈ (install w a c inner).1) (ht : e.touches = true) :
    w.ok [] = true ∧ ∃ h', (∀ x ∈ h', x.touches = false) ∧ e ∈ (mainStep w a m h').1 := by
  have no : ∀ {l : List Ev}, (∀ x ∈ l, x.touches = false) → e ∉ l := fun hl hm => by rw [hl e hm] at ht; cases ht
  unfold install at he
  split at he
  · exact absurd he (no (by simp [Ev.touches, Ev.isWrite, Ev.isBoot]))
  · rename_i hok
    refine ⟨by simpa using hok, ?_⟩
    dsimp only at he
    split at he
    · exact absurd he (no (by simp [Ev.touches, Ev.isWrite, Ev.isBoot]))
    · split at he
      · exact absurd he (no (by simp [Ev.touches, Ev.isWrite, Ev.isBoot]))
      · have hmb : (∀ x ∈ (mountBundle w c inner ([.extMounts true] ++ [.check true])).1, x.touches = false) ∧
            ∀ m', (mountBundle w c inner ([.extMounts true] ++ [.check true])).2 = some m' → m' = m := by
          unfold mountBundle
          cases hcm : c.manifest with
          | some m1 =>
            rw [hcm] at hm
            cases hm
            dsimp only
            split
            · exact ⟨by simp [Ev.touches, Ev.isWrite, Ev.isBoot], by rintro _ ⟨⟩; rfl⟩
            · exact ⟨by simp [Ev.touches, Ev.isWrite, Ev.isBoot], by rintro _ ⟨⟩⟩
          | none =>
            rw [hcm] at hm
            dsimp only
            split
            · cases inner with
              | none => cases hm
              | some m1 => cases hm; exact ⟨by simp [Ev.touches, Ev.isWrite, Ev.isBoot], by rintro _ ⟨⟩; rfl⟩
            · exact ⟨by simp [Ev.touches, Ev.isWrite, Ev.isBoot], by rintro _ ⟨⟩⟩
        split at he
        · exact absurd he (no hmb.1)
        · rename_i m' hm'
          have := hmb.2 m' hm'
          subst this
          split at he
          · exact touch_mounted hmb.1 he ht
          · rcases List.mem_append.1 he with he | he
            · exact touch_mounted hmb.1 he ht
            · rw [List.mem_singleton.1 he] at ht
              cases ht

theorem preChecks_mem {w : World} {plans : List Select.Plan} (h : Install.preChecks w plans = .ok) {p : Select.Plan} (hp : p ∈ plans) : Install.preCheck w p = .ok := by
  induction plans with
  | nil => simp at hp
  | cons q l ih =>
    unfold Install.preChecks at h
    cases hq : Install.preCheck w q with
    | ok =>
      rw [hq] at h
      rcases List.mem_cons.1 hp with rfl | hp
      · exact hq
      · exact ih h hp
    | failed => rw [hq] at h; cases h
    | abort => rw [hq] at h; cases h

theorem preCheck_free {w : World} {p : Select.Plan} (h : Install.preCheck w p = .ok) {s : Slot} {hd : Handlers.Handler} (ht : p.target = .slot s hd) :
    w.slotMounted s.name = false ∨ w.cfg.allowMounted s.name = true ∧ p.image.hooks.install = true := by
  unfold Install.preCheck at h
  dsimp only at h
  rw [ht] at h
  split at h
  · dsimp only at h
    split at h
    · rename_i hc
      simp only [Bool.and_eq_true, Install.mountStatusOk, Bool.or_eq_true, Bool.not_eq_true'] at hc
      exact hc.2
    · cases h
  · rename_i hne
    exact absurd h hne

/-- the writes of the loop belong to plans -/
theorem plansLoop_writes (w : World) (m : Manifest) (txn : Str) (plans : List Select.Plan) (h : List Ev) :
    ∃ evs b, Install.plansLoop w m txn plans h = (h ++ evs, b) ∧
      ∀ s img k, Ev.writeStart s img k ∈ evs → ∃ p ∈ plans, p.image = img ∧ ∃ hd, p.target = .slot s hd := by
  have slot : ∀ {p : Select.Plan} {s : Slot} {hd : Handlers.Handler} {h evs : List Ev} {b : Bool}, p.target = .slot s hd →
      Install.slotPlan w m txn p.image s h = (h ++ evs, b) → ∀ s' img k, Ev.writeStart s' img k ∈ evs → p.image = img ∧ ∃ hd, p.target = .slot s' hd := by
    intro p s hd h evs b ht e s' img k hm
    rcases Install.slotPlan_cases w m txn p.image s h with ⟨-, e'⟩ | ⟨-, -, _, _, -, -, e'⟩ | ⟨-, -, -, _, -, e'⟩ |
          ⟨-, -, -, _, _, _, _, _, -, -, -, e'⟩ | ⟨-, -, -, _, _, _, _, -, -, e'⟩
    · rw [e', ← List.append_nil h] at e
      have := List.append_cancel_left (as := h) (by simpa using congrArg Prod.fst e : h ++ [] = h ++ evs)
      subst this
      simp at hm
    all_goals
      rw [e'] at e
      have := List.append_cancel_left (congrArg Prod.fst e)
      subst this
      simp at hm
    all_goals
      obtain ⟨rfl, rfl, -⟩ := hm
      exact ⟨rfl, hd, ht⟩
  refine Install.plansLoop_ind w m txn (fun plans _ evs _ => ∀ s img k, Ev.writeStart s img k ∈ evs → ∃ p ∈ plans, p.image = img ∧ ∃ hd, p.target = .slot s hd)
    ?_ ?_ ?_ ?_ ?_ plans h
  · intro h s img k hm; simp at hm
  · intro p s hd ps h evs ht e s' img k hm
    exact ⟨p, by simp, slot ht e s' img k hm⟩
  · intro p s hd ps h evs evs' b ht e ih s' img k hm
    rcases List.mem_append.1 hm with hm | hm
    · exact ⟨p, by simp, slot ht e s' img k hm⟩
    · obtain ⟨q, hq, h2⟩ := ih s' img k hm
      exact ⟨q, List.mem_cons_of_mem _ hq, h2⟩
  · intro p n ps h ht s img k hm; simp at hm
  · intro p n ps h evs' b ht ih s img k hm
    simp only [List.mem_cons, reduceCtorEq, false_or] at hm
    obtain ⟨q, hq, h2⟩ := ih s img k hm
    exact ⟨q, List.mem_cons_of_mem _ hq, h2⟩

/-- as soon as an installation by the default handler touches anything, it has a plan and all its checks were passed -/
theorem touched {w : World} {a : Args} {c : Checked} {inner : Option Manifest} {m : Manifest} (hm : (c.manifest <|> inner) = some m) (hh : m.handlerName = none) {e : Ev}
    (he : e ∈ (install w a c inner).1) (ht : e.touches = true) :
    w.ok [] = true ∧ ∃ plans, Install.plansOf w m = some plans ∧ Install.preChecks w plans = .ok ∧
      ∀ s img k, e = Ev.writeStart s img k → ∃ p ∈ plans, p.image = img ∧ ∃ hd, p.target = .slot s hd := by
  obtain ⟨hok, h', hn, he⟩ := touch_install hm he ht
  refine ⟨hok, ?_⟩
  unfold Install.mainStep at he
  rw [hh] at he
  rw [if_neg (by simp)] at he
  have hne : e ∉ h' := fun hx => by rw [hn e hx] at ht; cases ht
  rcases Install.defaultHandler_shape w m a.transaction h' with ⟨o, -, e'⟩ | ⟨plans, boot, hp, hb, hc, hrest⟩
  · rw [e'] at he
    exact absurd he hne
  · refine ⟨plans, hp, hc, ?_⟩
    rintro s img k rfl
    rcases hrest with ⟨b, -, e'⟩ | ⟨pre, evs, b, tail, o, hpre, hl, e', htl⟩
    · rw [e'] at he
      rcases List.mem_append.1 he with he | he
      · exact absurd he hne
      · simp at he
    · rw [e'] at he
      simp only [List.mem_append] at he
      rcases he with ((he | he) | he) | he
      · exact absurd he hne
      · rw [hpre] at he; simp at he
      · obtain ⟨evs', b', hl', hw⟩ := plansLoop_writes w m a.transaction plans (h' ++ pre)
        rw [hl] at hl'
        have := List.append_cancel_left (congrArg Prod.fst hl')
        subst this
        exact hw s img k he
      · cases htl <;> simp at he

open Rauc.Install in
/-- the same for installations that succeed -/
theorem succeeded {w : World} {a : Args} {c : Checked} {inner : Option Manifest} {m : Manifest} (hm : (c.manifest <|> inner) = some m) (hh : m.handlerName = none)
    (ho : (install w a c inner).2 = .ok) : w.ok [] = true ∧ ∃ plans, plansOf w m = some plans ∧ preChecks w plans = .ok := by
  have hmain : ∀ h, (mounted w a m h).2 = .ok → ∃ h', (mainStep w a m h').2 = .ok := by
    intro h hx
    unfold mounted at hx
    dsimp only at hx
    split at hx
    · cases hx
    · split at hx
      · cases hx
      · split at hx
        · cases hx
        · split at hx
          · rename_i he
            exact ⟨_, he⟩
          · rename_i hne
            exact absurd hx hne
  unfold install at ho
  split at ho
  · cases ho
  · rename_i hok
    refine ⟨by simpa using hok, ?_⟩
    dsimp only at ho
    split at ho
    · cases ho
    · split at ho
      · cases ho
      · split at ho
        · cases ho
        · rename_i m' hm'
          have hmm : m' = m := by
            unfold mountBundle at hm'
            cases hcm : c.manifest with
            | some m1 =>
              rw [hcm] at hm hm'
              cases hm
              dsimp only at hm'
              split at hm' <;> cases hm'
              rfl
            | none =>
              rw [hcm] at hm hm'
              dsimp only at hm'
              split at hm'
              · cases inner with
                | none => cases hm
                | some m1 => cases hm; cases hm'; rfl
              · cases hm'
          subst hmm
          have hx : ∃ h, (mounted w a m' h).2 = .ok := by
            split at ho
            · exact ⟨_, ho⟩
            · exact ⟨_, ho⟩
          obtain ⟨h, hx⟩ := hx
          obtain ⟨h', hx⟩ := hmain h hx
          unfold mainStep at hx
          rw [hh, if_neg (by simp)] at hx
          rcases defaultHandler_shape w m' a.transaction h' with ⟨o, hno, e'⟩ | ⟨plans, boot, hp, hb, hc, -⟩
          · rw [e'] at hx
            exact absurd hx hno
          · exact ⟨plans, hp, hc⟩

/-- **C92.** Every slot an installation writes to was not mounted by RAUC, and nothing in the mount table was its device, unless the configuration allows this for the slot and the
image brings its own install hook. (The custom handlers of old bundles do what they want.) -/
theorem C92_protected (w : World) (sys : Str → Option Str) (slots : List (Str × Str)) (hn : (slots.map (·.1)).Nodup) (hd : (slots.map (·.2)).Nodup) (mounts : List Mount)
    (own : Str → Bool) (hg : ∀ cls s, w.group cls = some s → (s.name, s.device) ∈ slots) (a : Args) (c : Checked) (inner : Option Manifest) (m : Manifest)
    (hm : (c.manifest <|> inner) = some m) (hh : m.handlerName = none) (s : Slot) (img : Image) (k : Bool)
    (he : Ev.writeStart s img k ∈ (install (world w sys slots mounts own) a c inner).1) :
    (own s.name = false ∧ Unmounted sys mounts s.device) ∨ (w.cfg.allowMounted s.name = true ∧ img.hooks.install = true) := by
  obtain ⟨hok, plans, hp, hc, hw⟩ := touched hm hh he rfl
  obtain ⟨p, hpm, rfl, hd', ht⟩ := hw s img k rfl
  have hgs := (Select.C12_plan_ok _ _ _ _ _ _ hp p hpm s hd' ht).2.2.2.1
  rcases preCheck_free (preChecks_mem hc hpm) ht with h | h
  · left
    simp only [world, Bool.or_eq_false_iff] at h
    refine ⟨h.1, ?_⟩
    have hok' : (update sys slots mounts).2 = true := by simpa [world] using hok
    exact (((C92_view sys slots hn hd mounts).2 hok' s.name s.device (hg _ _ hgs)).2).1 (by simpa using h.2)
  · exact Or.inr h

/-- **C92.** If one of the slots to be installed is mounted (and this is not allowed as above), nothing at all is touched: no slot is written, no artifact installed, no boot slot
marked; and the installation fails. -/
theorem C92_untouched (w : World) (sys : Str → Option Str) (slots : List (Str × Str)) (hn : (slots.map (·.1)).Nodup) (hd : (slots.map (·.2)).Nodup) (mounts : List Mount)
    (own : Str → Bool) (hg : ∀ cls s, w.group cls = some s → (s.name, s.device) ∈ slots) (a : Args) (c : Checked) (inner : Option Manifest) (m : Manifest)
    (hm : (c.manifest <|> inner) = some m) (hh : m.handlerName = none) (plans : List Select.Plan)
    (hp : Install.plansOf w m = some plans) (p : Select.Plan) (hpm : p ∈ plans) (s : Slot) (hd' : Handlers.Handler) (ht : p.target = .slot s hd')
    (hmt : own s.name = true ∨ ∃ x ∈ mounts, Denotes sys x.source s.device)
    (hna : ¬ (w.cfg.allowMounted s.name = true ∧ p.image.hooks.install = true)) :
    (∀ e ∈ (install (world w sys slots mounts own) a c inner).1, e.isWrite = false ∧ e.isBoot = false) ∧
    (install (world w sys slots mounts own) a c inner).2 ≠ .ok := by
  have key : (world w sys slots mounts own).ok [] = true → ∀ plans', Install.plansOf (world w sys slots mounts own) m = some plans' →
      Install.preChecks (world w sys slots mounts own) plans' = .ok → False := by
    intro hok plans' hp' hc
    have : plans' = plans := Option.some.inj (hp'.symm.trans hp)
    subst this
    have hgs := (Select.C12_plan_ok _ _ _ _ _ _ hp p hpm s hd' ht).2.2.2.1
    rcases preCheck_free (preChecks_mem hc hpm) ht with h | h
    · simp only [world, Bool.or_eq_false_iff] at h
      have hok' : (update sys slots mounts).2 = true := by simpa [world] using hok
      have hu := (((C92_view sys slots hn hd mounts).2 hok' s.name s.device (hg _ _ hgs)).2).1 (by simpa using h.2)
      rcases hmt with h1 | ⟨x, hx, h1⟩
      · rw [h.1] at h1; cases h1
      · exact hu x hx h1
    · exact hna h
  refine ⟨fun e he => ?_, fun ho => ?_⟩
  · by_cases hte : e.touches = true
    · obtain ⟨hok, plans', hp', hc, -⟩ := touched hm hh he hte
      exact (key hok plans' hp' hc).elim
    · simpa [Ev.touches] using hte
  · obtain ⟨hok, plans', hp', hc⟩ := succeeded hm hh ho
    exact key hok plans' hp' hc

/-! ## GetSlotStatus -/

/-- how a boot state is shown -/
def shownBoot : Option Bool → Str
  | none => c!"unknown"
  | some true => c!"good"
  | some false => c!"bad"

/-- **C92.** GetSlotStatus fails exactly if the file behind a mounted loop device is not known; otherwise the reply has every slot, with RAUC's own mount point of it or else the
first one in the mount table, and with the boot state of slots that have a boot name. -/
theorem C92_status (sys : Str → Option Str) (slots : List StatusView.RSlot) (dev : StatusView.RSlot → Str) (hn : (slots.map (·.name)).Nodup) (hd : (slots.map dev).Nodup)
    (mounts : List Mount) (get : Str → Option Bool) (load : Str → SlotStatus) :
    (getSlotStatus sys slots dev mounts get load = none ↔ ∃ m ∈ mounts, ∀ d, ¬ Denotes sys m.source d) ∧
    ∀ reply, getSlotStatus sys slots dev mounts get load = some reply →
      reply.map (·.1) = slots.map (·.name) ∧
      ∀ s ∈ slots, ∃ d, (s.name, d) ∈ reply ∧
        (∀ p, d.getS c!"mountpoint" = some p ↔ s.mountPoint = some p ∨ s.mountPoint = none ∧ FirstMount sys mounts (dev s) p) ∧
        d.getS c!"boot-status" = (if s.bootname.isSome then some (shownBoot (get s.name)) else none) := by
  have hn' : ((slots.map (fun s => (s.name, dev s))).map (·.1)).Nodup := by simpa [List.map_map, Function.comp_def] using hn
  have hd' : ((slots.map (fun s => (s.name, dev s))).map (·.2)).Nodup := by simpa [List.map_map, Function.comp_def] using hd
  obtain ⟨v1, v2⟩ := C92_view sys _ hn' hd' mounts
  unfold getSlotStatus
  generalize hu : update sys (slots.map (fun s => (s.name, dev s))) mounts = u at v1 v2
  obtain ⟨ext, b⟩ := u
  dsimp only at v1 v2
  cases b with
  | false =>
    refine ⟨⟨fun _ => ?_, fun _ => rfl⟩, by rintro _ ⟨⟩⟩
    have : ¬ ∀ m ∈ mounts, ∃ d, Denotes sys m.source d := fun h => by simpa using v1.2 h
    simpa using this
  | true =>
    refine ⟨⟨by rintro ⟨⟩, ?_⟩, ?_⟩
    · rintro ⟨m, hm, hx⟩
      obtain ⟨d, hd⟩ := v1.1 rfl m hm
      exact absurd hd (hx d)
    · rintro reply ⟨⟩
      have nm : ∀ x : StatusView.RSlot, (StatusView.bootStates (fun s => get s.name) x).name = x.name := fun x => by unfold StatusView.bootStates; split <;> rfl
      refine ⟨by simp [StatusView.slotStatusArray, List.map_map, Function.comp_def, nm], fun s hs => ?_⟩
      let t := StatusView.bootStates (fun s => get s.name) { s with extMountPoint := ext s.name }
      have htn : t.name = s.name := nm _
      refine ⟨StatusView.toDict t (load s.name), ?_, ?_, ?_⟩
      · rw [StatusView.slotStatusArray, List.mem_map]
        exact ⟨t, List.mem_map.2 ⟨_, List.mem_map.2 ⟨s, hs, rfl⟩, rfl⟩, by rw [htn]⟩
      · intro p
        rw [(StatusView.toDict_slot t _).2.2.2.2.2.2.2.1]
        have h1 : t.mountPoint = s.mountPoint := by show (StatusView.bootStates _ _).mountPoint = _; unfold StatusView.bootStates; split <;> rfl
        have h2 : t.extMountPoint = ext s.name := by show (StatusView.bootStates _ _).extMountPoint = _; unfold StatusView.bootStates; split <;> rfl
        rw [h1, h2]
        have := (v2 rfl s.name (dev s) (List.mem_map.2 ⟨s, hs, rfl⟩)).1 p
        cases hmp : s.mountPoint with
        | none => simpa using this
        | some q => simp
      · rw [(StatusView.toDict_slot t _).2.2.2.2.2.2.2.2]
        show ((StatusView.bootStates _ _).bootname).map (fun _ => StatusView.bootStr (StatusView.bootStates _ _).bootState) = _
        unfold StatusView.bootStates
        cases hb : s.bootname with
        | none => simp [hb]
        | some b =>
          simp only [Option.isSome_some, if_true, hb, Option.map_some]
          cases get s.name with
          | none => rfl
          | some x => cases x <;> rfl

/-! ## Examples and limits -/

def exDevs : List (Str × Str) := [(c!"rootfs.0", c!"/dev/mmcblk0p1"), (c!"rootfs.1", c!"/dev/mmcblk0p2"), (c!"appfs.1", c!"/data/app.img")]
def exSys (p : Str) : Option Str := if p = c!"/sys/block/loop7/loop/backing_file" then some c!"/data/app.img\n" else none
def exTable : List Mount := [⟨c!"proc", c!"/proc"⟩, ⟨c!"/dev/mmcblk0p1", c!"/"⟩, ⟨c!"/dev/loop7", c!"/mnt/app"⟩, ⟨c!"/dev/mmcblk0p1", c!"/srv"⟩]

example : (update exSys exDevs exTable).2 = true ∧ (update exSys exDevs exTable).1 c!"rootfs.0" = some c!"/" ∧ (update exSys exDevs exTable).1 c!"rootfs.1" = none ∧
    (update exSys exDevs exTable).1 c!"appfs.1" = some c!"/mnt/app" := by decide +kernel

def exGroup (cls : Str) : Option Slot :=
  if cls = c!"rootfs" then some { name := c!"rootfs.1", sclass := c!"rootfs", bootname := some c!"B", typ := c!"raw", device := c!"/dev/mmcblk0p2" }
  else if cls = c!"appfs" then some { name := c!"appfs.1", sclass := c!"appfs", parent := some c!"rootfs.1", typ := c!"raw", device := c!"/data/app.img" }
  else none

def exW : World := { Install.exWorld with cfg := { Install.exWorld.cfg with compatible := c!"x" }, group := exGroup }

/-- the bundle for the root file system only is installed; with an image for the mounted application slot, nothing is touched -/
example :
    (install (world exW exSys exDevs exTable (fun _ => false)) {} ⟨some (Install.exManifest [Install.exRoot]), false⟩ none).2 = .ok ∧
    (install (world exW exSys exDevs exTable (fun _ => false)) {} ⟨some (Install.exManifest [Install.exRoot, Install.exApp]), false⟩ none).2 = .failed ∧
    (install (world exW exSys exDevs exTable (fun _ => false)) {} ⟨some (Install.exManifest [Install.exRoot, Install.exApp]), false⟩ none).1.all (fun e => !e.touches) = true := by
  decide +kernel

/-- **Finding (C92).** The expression is not anchored: any mounted file system with a source that contains the name of a loop device which is not set up, for example a network file
system `nas:/dev/loop0` or a FUSE file system of an unprivileged user with such a name, makes every installation and every status query fail. -/
theorem C92_finding_foreign_source (sys : Str → Option Str) (hs : sys c!"/sys/block/loop0/loop/backing_file" = none) (slots : List (Str × Str)) (pre post : List Mount) (pt : Str)
    (w : World) (own : Str → Bool) (a : Args) (c : Checked) (inner : Option Manifest) :
    (install (world w sys slots (pre ++ ⟨c!"nas:/dev/loop0", pt⟩ :: post) own) a c inner).2 = .failed := by
  have h : (update sys slots (pre ++ ⟨c!"nas:/dev/loop0", pt⟩ :: post)).2 = false := by
    rw [Bool.eq_false_iff]
    intro h
    obtain ⟨d, hd⟩ := (loop_fails _ _ _ _).1 h ⟨c!"nas:/dev/loop0", pt⟩ (by simp)
    have := (resolve_iff _ _ _).2 hd
    have hl : loopName c!"nas:/dev/loop0" = some c!"loop0" := by decide
    rw [resolve, hl] at this
    dsimp only at this
    rw [show c!"/sys/block/" ++ c!"loop0" ++ c!"/loop/backing_file" = c!"/sys/block/loop0/loop/backing_file" from rfl, hs] at this
    cases this
  unfold install
  rw [if_pos (by simp [world, h])]

/-- a configuration with a symbolic link -/
def exLink (cls : Str) : Option Slot :=
  if cls = c!"rootfs" then some { name := c!"rootfs.1", sclass := c!"rootfs", bootname := some c!"B", typ := c!"raw", device := c!"/dev/disk/by-partlabel/B" } else none

/-- **Finding (C92).** Devices are compared as text: a slot configured by a symbolic link (`/dev/disk/by-partlabel/B` for `/dev/mmcblk0p2`) is not recognised as mounted, and its
handler is started. -/
theorem C92_finding_alias :
    let r := install (world { exW with group := exLink } (fun _ => none) [(c!"rootfs.1", c!"/dev/disk/by-partlabel/B")] [⟨c!"/dev/mmcblk0p2", c!"/srv"⟩] (fun _ => false)) {}
      ⟨some (Install.exManifest [Install.exRoot]), false⟩ none
    r.2 = .ok ∧ (c!"end", c!"rootfs.1", true) ∈ Install.trace r.1 := by decide +kernel

/-- **Finding (C92).** Two slots may be configured with the same device; then only the first of them is recognised as mounted. -/
theorem C92_finding_same_device (sys : Str → Option Str) (n n' pt : Str) (h : n ≠ n') :
    (update sys [(n, c!"/dev/sda1"), (n', c!"/dev/sda1")] [⟨c!"/dev/sda1", pt⟩]).1 n' = none ∧ (update sys [(n, c!"/dev/sda1"), (n', c!"/dev/sda1")] [⟨c!"/dev/sda1", pt⟩]).2 = true := by
  have hl : loopName c!"/dev/sda1" = none := by decide
  simp [update, loop, resolve, hl, findByDevice, Install.upd, Ne.symm h]

end Rauc.ExtMounts
