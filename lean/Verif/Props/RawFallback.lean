import Verif.Props.BootSwitch

/-!
# C42: raw fallback updates keep one copy
-/

namespace Rauc.Switch

open Rauc.Copy

/-! ## Specification -/

/-- the image `I` is stored at position `s` -/
def Holds (d : Disk) (s : Nat) (I : Bytes) : Prop := d.read s I.length = I

/-- a sector is written completely or not at all -/
def Torn (d : Disk) (op : Op) (d' : Disk) : Prop :=
  ∀ t, (∀ x, 512 * t ≤ x → x < 512 * t + 512 → d' x = d x) ∨ (∀ x, 512 * t ≤ x → x < 512 * t + 512 → d' x = applyOp d op x)

/-- what is on the device after power was lost, if writes reach the device in order, sector by sector -/
def Ordered (d : Disk) (ops : List Op) (d' : Disk) : Prop :=
  ∃ a c, ops = a ++ c ∧ (d' = apply d a ∨ ∃ op c', c = op :: c' ∧ Torn (apply d a) op d')

/-- the header (the first 512 bytes) of the image has a byte which is neither 0x00 nor 0xFF -/
def HeaderUsed (I : Bytes) : Prop := ∃ b ∈ I.take 512, b ≠ 0x00 ∧ b ≠ 0xFF

/-! ## Lemmas -/

theorem ordered_append {d d' : Disk} {a b : List Op} (h : Ordered d (a ++ b) d') : Ordered d a d' ∨ Ordered (apply d a) b d' := by
  obtain ⟨x, y, he, hv⟩ := h
  rcases List.append_eq_append_iff.1 he with ⟨z, hz1, hz2⟩ | ⟨z, hz1, hz2⟩
  · -- `a` is a prefix of `x`
    right
    subst hz1
    refine ⟨z, y, hz2, ?_⟩
    rw [apply_append] at hv
    exact hv
  · rcases z with _ | ⟨op, z⟩
    · right
      simp only [List.append_nil] at hz1
      simp only [List.nil_append] at hz2
      subst hz1 hz2
      refine ⟨[], _, rfl, ?_⟩
      exact hv
    · left
      refine ⟨x, op :: z, hz1, ?_⟩
      rcases hv with hv | ⟨o, c', hc, ht⟩
      · exact Or.inl hv
      · rw [hz2] at hc
        simp only [List.cons_append, List.cons.injEq] at hc
        obtain ⟨rfl, _⟩ := hc
        exact Or.inr ⟨op, z, rfl, ht⟩

theorem torn_at {d d' : Disk} {op : Op} (h : Torn d op d') (x : Nat) : d' x = d x ∨ d' x = applyOp d op x := by
  rcases h (x / 512) with h | h
  · exact Or.inl (h x (by omega) (by omega))
  · exact Or.inr (h x (by omega) (by omega))

theorem ordered_outside {lo hi : Nat} {ops : List Op} (h : ∀ op ∈ ops, Within lo hi op) {d d' : Disk} (hc : Ordered d ops d') (x : Nat) (hx : x < lo ∨ hi ≤ x) : d' x = d x := by
  obtain ⟨a, c, rfl, hv⟩ := hc
  have ha : apply d a x = d x := apply_outside (fun o ho => h o (by simp [ho])) d x hx
  rcases hv with rfl | ⟨op, c', rfl, ht⟩
  · exact ha
  · rcases torn_at ht x with h1 | h1
    · rw [h1, ha]
    · rw [h1, applyOp_outside (h op (by simp)) _ x hx, ha]

theorem ordered_nil {d d' : Disk} (h : Ordered d [] d') (x : Nat) : d' x = d x := ordered_outside (lo := 0) (hi := 0) (by simp) h x (by omega)

theorem ordered_apply (d : Disk) (ops : List Op) : Ordered d ops (apply d ops) := ⟨ops, [], by simp, Or.inl rfl⟩

theorem ordered_cons {d d' : Disk} {op : Op} {ops : List Op} (h : Ordered d (op :: ops) d') : (∀ x, d' x = d x) ∨ Torn d op d' ∨ Ordered (applyOp d op) ops d' := by
  obtain ⟨a, c, he, hv⟩ := h
  rcases a with _ | ⟨o, a⟩
  · rcases hv with hv | ⟨o, c', hc, ht⟩
    · exact Or.inl (fun x => by rw [hv]; rfl)
    · simp only [List.nil_append] at he
      rw [hc] at he
      injection he with he1 he2
      subst he1
      exact Or.inr (Or.inl ht)
  · simp only [List.cons_append, List.cons.injEq] at he
    obtain ⟨rfl, rfl⟩ := he
    exact Or.inr (Or.inr ⟨a, c, rfl, hv⟩)

theorem areaClear_zero {d : Disk} {s n : Nat} (h : ∀ x, s ≤ x → x < s + n → d x = 0) : areaClear d s n = true := by
  unfold areaClear
  rw [List.all_eq_true]
  intro b hb
  simp only [Disk.read, List.mem_map, List.mem_range] at hb
  obtain ⟨i, hi, rfl⟩ := hb
  rw [h _ (by omega) (by omega)]
  rfl

theorem areaClear_congr {d d' : Disk} {s n : Nat} (h : ∀ x, s ≤ x → x < s + n → d' x = d x) : areaClear d' s n = areaClear d s n := by
  unfold areaClear
  rw [(Disk.read_eq_iff d' d s n).2 h]

theorem holds_at {d : Disk} {s : Nat} {I : Bytes} (h : Holds d s I) (i : Nat) (hi : i < I.length) : d (s + i) = I[i] := by
  have e : (d.read s I.length)[i]? = I[i]? := by rw [h]
  rw [List.getElem?_eq_getElem (by rw [Disk.read_length]; exact hi), List.getElem?_eq_getElem hi, Disk.read_get _ _ _ _ hi] at e
  exact Option.some.inj e

/-- a complete image has a header that is not clear -/
theorem holds_not_clear {d : Disk} {s : Nat} {I : Bytes} (h : Holds d s I) (hl : 512 ≤ I.length) (hu : HeaderUsed I) : areaClear d s 512 = false := by
  obtain ⟨b, hb, h1, h2⟩ := hu
  obtain ⟨i, hi, rfl⟩ := List.getElem_of_mem hb
  rw [List.length_take] at hi
  rw [List.getElem_take] at h1 h2
  unfold areaClear
  rw [List.all_eq_false]
  refine ⟨d (s + i), ?_, ?_⟩
  · simp only [Disk.read, List.mem_map, List.mem_range]
    exact ⟨i, by omega, rfl⟩
  · rw [holds_at h i (by omega)]
    simp [h1, h2]

theorem holds_congr {d d' : Disk} {s : Nat} {I : Bytes} (h : ∀ x, s ≤ x → x < s + I.length → d' x = d x) (hd : Holds d s I) : Holds d' s I := by
  unfold Holds
  rw [(Disk.read_eq_iff d' d s I.length).2 h]
  exact hd

/-! ## The shape of clearing -/

/-- writes of the clearing do not end early -/
def FullCounts (counts : Nat → Option Nat) : Prop := ∀ i c, counts i = some c → 512 ≤ c

theorem clear_shape (of : Bool) (counts : Nat → Option Nat) (hfull : FullCounts counts) (fuel start size : Nat) (hs : size < 4294967296) (h512 : 512 ≤ size) :
    ((clearPartition of counts fuel start size).ops = []) ∨
    ∃ rest, (clearPartition of counts fuel start size).ops = .write start (List.replicate 512 0) :: rest ∧ ∀ op ∈ rest, Within (start + 512) (start + size) op := by
  unfold clearPartition
  split
  · exact Or.inl rfl
  split
  · exact Or.inl rfl
  simp only []
  rcases fuel with _ | fuel
  · exact Or.inl rfl
  unfold clearLoop
  rw [if_pos (by omega)]
  simp only []
  cases hc : counts 0 with
  | none => exact Or.inl rfl
  | some c =>
    right
    have := hfull _ _ hc
    have hm : min (min 512 (size - 0)) c = 512 := by omega
    simp only [hm]
    refine ⟨_, rfl, ?_⟩
    intro op ho
    rw [Nat.mod_eq_of_lt (by omega)] at ho
    have := clearLoop_within counts size hs fuel 1 (0 + 512) (start + 512) (by omega) op ho
    exact this.1.mono (Nat.le_refl _) (by omega)

/-- the conditions under which an update is done: the file has a full header, is not longer than announced; sectors are written as a whole -/
structure FbOk (e : Env) (size : Nat) (data : Bytes) : Prop where
  counts : FullCounts e.counts
  header : ∀ j, e.faults.header = some j → j = 0 ∨ 512 ≤ j
  len : 512 ≤ data.length ∧ data.length ≤ size

/-- the shape of all that is written to a half: the header is cleared first and written last, when the rest is complete -/
theorem refresh_shape (e : Env) (p : Part) (size sector : Nat) (data : Bytes) (hs : p.size < 4294967296) (hfit : size ≤ p.size) (hok : FbOk e size data) :
    ((refresh e p size 512 sector data).ops = []) ∨
    ∃ rest tail, (refresh e p size 512 sector data).ops = .write p.start (List.replicate 512 0) :: (rest ++ tail) ∧
      (∀ op ∈ rest, Within (p.start + 512) (p.start + p.size) op) ∧
      (tail = [] ∨ (data.length = size ∧ (∀ d : Disk, (apply d rest).read (p.start + 512) (data.length - 512) = data.drop 512) ∧
        (tail = [.write p.start []] ∨ tail = [.write p.start (data.take 512)] ∨ tail = [.write p.start (data.take 512), .sync]))) := by
  have h512 : 512 ≤ p.size := by have := hok.len; omega
  have hlt : (data.take 512).length = 512 := by rw [List.length_take]; have := hok.len; omega
  have hld : (data.drop 512).length = data.length - 512 := List.length_drop
  unfold refresh
  simp only []
  rcases clear_shape e.clearOpen e.counts hok.counts (p.size + 1) p.start p.size hs h512 with hc | ⟨crest, hc, hcw⟩
  · -- nothing cleared: then clearing was not successful
    left
    have hno : (clearPartition e.clearOpen e.counts (p.size + 1) p.start p.size).ok ≠ true := by
      intro h
      have := congrFun (clear_ok _ _ _ _ _ hs h (fun _ => 1)) p.start
      rw [hc] at this
      have e2 := Disk.write_in (fun _ => 1) p.start (List.replicate p.size 0) 0 (by rw [List.length_replicate]; omega)
      rw [Nat.add_zero] at e2
      rw [e2, List.getElem_replicate] at this
      exact absurd (show (1 : UInt8) = 0 from this) (by decide)
    rw [if_pos (by simpa using hno)]
    exact hc
  · right
    by_cases hcok : (clearPartition e.clearOpen e.counts (p.size + 1) p.start p.size).ok = true
    rotate_left
    · rw [if_pos (by simpa using hcok)]
      exact ⟨crest, [], by rw [List.append_nil]; exact hc, hcw, Or.inl rfl⟩
    rw [if_neg (by simpa using hcok)]
    simp only [hc]
    -- the operations of the copy
    have hcopy : ∃ rest tail, (copyRaw e.faults e.io size 512 sector p.start data).ops = rest ++ tail ∧
      (∀ op ∈ rest, Within (p.start + 512) (p.start + p.size) op) ∧
      (tail = [] ∨ (data.length = size ∧ (∀ d : Disk, (apply d rest).read (p.start + 512) (data.length - 512) = data.drop 512) ∧
        (tail = [.write p.start []] ∨ tail = [.write p.start (data.take 512)] ∨ tail = [.write p.start (data.take 512), .sync]))) := by
      have hstream : ∀ op ∈ (copyStream e.io size (p.start + (data.take 512).length) (data.drop 512)).ops, Within (p.start + 512) (p.start + p.size) op := by
        intro op ho
        obtain ⟨_, w2, _⟩ := copyStream_within _ _ _ _ op ho
        rw [hlt] at w2
        exact w2.mono (Nat.le_refl _) (by have := hok.len; omega)
      have hstreams : ∀ op ∈ (copyStream e.io size (p.start + (data.take 512).length) (data.drop 512)).ops ++ [.sync], Within (p.start + 512) (p.start + p.size) op := by
        intro op ho
        rw [List.mem_append, List.mem_singleton] at ho
        rcases ho with ho | rfl
        · exact hstream op ho
        · trivial
      have hdone : (copyStream e.io size (p.start + (data.take 512).length) (data.drop 512)).ok = true →
          (data.take 512).length + (copyStream e.io size (p.start + (data.take 512).length) (data.drop 512)).read = size →
          data.length = size ∧ ∀ d : Disk, (apply d ((copyStream e.io size (p.start + (data.take 512).length) (data.drop 512)).ops ++ [.sync])).read (p.start + 512) (data.length - 512) = data.drop 512 := by
        intro hr hsz
        constructor
        · rcases copyStream_ok _ _ _ _ hr (fun _ => 0) with ⟨z, _, _⟩ | ⟨_, z, _⟩
          · have := hok.len; omega
          · have := hok.len; omega
        · intro d
          rcases copyStream_ok _ _ _ _ hr d with ⟨z, _, _⟩ | ⟨z, _, _⟩
          · have := hok.len; omega
          · rw [apply_append, z, hlt]
            show (d.write (p.start + 512) (data.drop 512)).read (p.start + 512) (data.length - 512) = _
            rw [← hld]
            exact Disk.read_write_same _ _ _
      rcases copyRaw_cases e.faults e.io size 512 sector p.start data with h | ⟨_, r, rfl, h | ⟨hr, hsz, ⟨h0, h⟩ | ⟨h0, h | ⟨j, hf, h⟩ | h | h⟩⟩⟩
      · exact ⟨[], [], by rw [h]; rfl, by simp, Or.inl rfl⟩
      · exact ⟨_, [], by rw [h, List.append_nil], hstream, Or.inl rfl⟩
      · omega
      · exact ⟨_, [], by rw [h, List.append_nil], hstreams, Or.inl rfl⟩
      · obtain ⟨k1, k2⟩ := hdone hr hsz
        -- which `j` this is
        have hj : (data.take 512).take j = [] ∨ (data.take 512).take j = data.take 512 := by
          rcases hok.header j hf with rfl | hj
          · left; rw [List.take_zero]
          · right; rw [List.take_of_length_le (by omega)]
        refine ⟨_, [.write p.start ((data.take 512).take j)], by rw [h]; simp, hstreams, Or.inr ⟨k1, k2, ?_⟩⟩
        rcases hj with hj | hj <;> rw [hj]
        · exact Or.inl rfl
        · exact Or.inr (Or.inl rfl)
      · obtain ⟨k1, k2⟩ := hdone hr hsz
        exact ⟨_, [.write p.start (data.take 512)], by rw [h]; simp, hstreams, Or.inr ⟨k1, k2, Or.inr (Or.inl rfl)⟩⟩
      · obtain ⟨k1, k2⟩ := hdone hr hsz
        exact ⟨_, [.write p.start (data.take 512), .sync], by rw [h]; simp, hstreams, Or.inr ⟨k1, k2, Or.inr (Or.inr rfl)⟩⟩
    obtain ⟨rest, tail, hops, hw, ht⟩ := hcopy
    rcases writePartition_cases e.writeOpen e.writeClose e.faults e.io size 512 sector p.start data with h | ⟨_, h⟩
    · exact ⟨crest, [], by rw [h, List.append_nil, List.append_nil], hcw, Or.inl rfl⟩
    · have hops' : (writePartition e.writeOpen e.writeClose e.faults e.io size 512 sector p.start data).ops = rest ++ tail := by
        rcases h with h | h <;> rw [h] <;> exact hops
      rw [hops']
      refine ⟨crest ++ rest, tail, by rw [List.append_assoc]; rfl, ?_, ?_⟩
      · intro op ho
        rw [List.mem_append] at ho
        exact ho.elim (hcw op) (hw op)
      · rcases ht with ht | ⟨t1, t2, t3⟩
        · exact Or.inl ht
        · refine Or.inr ⟨t1, ?_, t3⟩
          intro d
          rw [apply_append]
          exact t2 _

/-! ## One half -/

theorem write_zero_at (d : Disk) (s x : Nat) (h1 : s ≤ x) (h2 : x < s + 512) : d.write s (List.replicate 512 0) x = 0 := by
  unfold Disk.write
  rw [List.length_replicate, if_pos ⟨h1, h2⟩, List.getD_eq_getElem _ _ (by rw [List.length_replicate]; omega), List.getElem_replicate]

/-- whenever power is lost while a half is updated (in order): nothing has changed, or its header is cleared, or it contains the complete image -/
theorem refresh_ordered (e : Env) (p : Part) (size sector : Nat) (data : Bytes) (hs : p.size < 4294967296) (hfit : size ≤ p.size) (hal : p.start % 512 = 0) (hok : FbOk e size data) (d d' : Disk)
    (hc : Ordered d (refresh e p size 512 sector data).ops d') :
    (∀ x, d' x = d x) ∨ (∀ x, p.start ≤ x → x < p.start + 512 → d' x = 0) ∨ Holds d' p.start data := by
  rcases refresh_shape e p size sector data hs hfit hok with h | ⟨rest, tail, h, hrest, ht⟩ <;> rw [h] at hc
  · exact Or.inl (ordered_nil hc)
  obtain ⟨k, hk⟩ := Nat.dvd_of_mod_eq_zero hal
  rcases ordered_cons hc with hc | hc | hc
  · exact Or.inl hc
  · -- the first write is torn: but it is one sector
    rcases hc k with hv | hv
    · left
      intro x
      by_cases hx : p.start ≤ x ∧ x < p.start + 512
      · exact hv x (by omega) (by omega)
      · rcases torn_at hc x with h1 | h1
        · exact h1
        · rw [h1]
          exact Disk.write_out _ _ _ _ (by rw [List.length_replicate]; omega)
    · right; left
      intro x h1 h2
      rw [hv x (by omega) (by omega)]
      exact write_zero_at d p.start x h1 h2
  · -- the header is cleared
    have hz : ∀ x, p.start ≤ x → x < p.start + 512 → applyOp d (.write p.start (List.replicate 512 0)) x = 0 := fun x h1 h2 => write_zero_at d p.start x h1 h2
    generalize applyOp d (.write p.start (List.replicate 512 0)) = d0 at *
    rcases ordered_append hc with hc | hc
    · right; left
      intro x h1 h2
      rw [ordered_outside hrest hc x (by omega), hz x h1 h2]
    · rcases ht with rfl | ⟨hlen, hbody, ht⟩
      · right; left
        intro x h1 h2
        rw [ordered_nil hc x, apply_outside hrest d0 x (by omega), hz x h1 h2]
      have hb := hbody d0
      have hz1 : ∀ x, p.start ≤ x → x < p.start + 512 → apply d0 rest x = 0 := fun x h1 h2 => by rw [apply_outside hrest d0 x (by omega), hz x h1 h2]
      generalize apply d0 rest = d1 at *
      have hlt : (data.take 512).length = 512 := by rw [List.length_take]; have := hok.len; omega
      have hdone : ∀ d', (∀ x, d' x = d1.write p.start (data.take 512) x) → Holds d' p.start data := by
        intro d' hd'
        unfold Holds
        have e1 : data.length = 512 + (data.length - 512) := by have := hok.len; omega
        rw [e1, Disk.read_append]
        have e2 : d'.read p.start 512 = data.take 512 := by
          have := Disk.read_write_same d1 p.start (data.take 512)
          rw [hlt] at this
          refine Eq.trans ?_ this
          rw [Disk.read_eq_iff]
          intro i _ _
          exact hd' i
        have e3 : d'.read (p.start + 512) (data.length - 512) = data.drop 512 := by
          refine Eq.trans ?_ hb
          rw [Disk.read_eq_iff]
          intro i _ _
          rw [hd']
          exact Disk.write_out _ _ _ _ (by rw [hlt]; omega)
        rw [e2, e3, List.take_append_drop]
      have hhead : ∀ d', Torn d1 (.write p.start (data.take 512)) d' → (∀ x, p.start ≤ x → x < p.start + 512 → d' x = 0) ∨ Holds d' p.start data := by
        intro d' ht
        rcases ht k with hv | hv
        · left
          intro x h1 h2
          rw [hv x (by omega) (by omega), hz1 x h1 h2]
        · right
          refine hdone d' ?_
          intro x
          by_cases hx : p.start ≤ x ∧ x < p.start + 512
          · exact hv x (by omega) (by omega)
          · have ho : d1.write p.start (data.take 512) x = d1 x := Disk.write_out _ _ _ _ (by rw [hlt]; omega)
            rcases torn_at ht x with h1 | h1
            · rw [h1, ho]
            · exact h1
      right
      rcases ht with rfl | rfl | rfl
      · left
        intro x h1 h2
        have hw : ∀ op ∈ [Op.write p.start []], Within 0 0 op := by
          intro op ho; rw [List.mem_singleton] at ho; subst ho; exact Or.inl rfl
        rw [ordered_outside hw hc x (by omega), hz1 x h1 h2]
      · rcases ordered_cons hc with hc | hc | hc
        · left; intro x h1 h2; rw [hc, hz1 x h1 h2]
        · exact hhead _ hc
        · exact Or.inr (hdone _ (ordered_nil hc))
      · rcases ordered_cons hc with hc | hc | hc
        · left; intro x h1 h2; rw [hc, hz1 x h1 h2]
        · exact hhead _ hc
        · refine Or.inr (hdone _ ?_)
          exact ordered_outside (lo := 0) (hi := 0) (by intro op ho; rw [List.mem_singleton] at ho; subst ho; trivial) hc |> fun h x => h x (by omega)

/-! ## The handler -/

theorem fallbackRun_cases (e : FbEnv) (sector start rsize size : Nat) (data : Bytes) (d : Disk) (hw : start + rsize < U64) :
    ((fallbackRun e sector start rsize size data d).ops = [] ∧ (fallbackRun e sector start rsize size data d).ok = false) ∨
    (start % 512 = 0 ∧ (rsize / 2) % 512 = 0 ∧ size ≤ rsize / 2 ∧ ∃ a b : Part,
      ((areaClear d start 512 = true ∧ a = ⟨start, rsize / 2⟩ ∧ b = ⟨start + rsize / 2, rsize / 2⟩) ∨ (areaClear d start 512 = false ∧ a = ⟨start + rsize / 2, rsize / 2⟩ ∧ b = ⟨start, rsize / 2⟩)) ∧
      (((fallbackRun e sector start rsize size data d).ops = (refresh e.first a size 512 sector data).ops ∧ (fallbackRun e sector start rsize size data d).ok = false) ∨
       ((refresh e.first a size 512 sector data).ok = true ∧
        (fallbackRun e sector start rsize size data d).ops = (refresh e.first a size 512 sector data).ops ++ (refresh e.second b size 512 sector data).ops ∧
        ((fallbackRun e sector start rsize size data d).ok = true → (refresh e.second b size 512 sector data).ok = true)))) := by
  have hm : (start + rsize / 2) % U64 = start + rsize / 2 := Nat.mod_eq_of_lt (by unfold U64 at *; omega)
  unfold fallbackRun
  simp only [hm]
  by_cases h1 : start % 512 ≠ 0
  · rw [if_pos h1]; exact Or.inl ⟨rfl, rfl⟩
  rw [if_neg h1]
  by_cases h2 : rsize / 2 % 512 ≠ 0
  · rw [if_pos h2]; exact Or.inl ⟨rfl, rfl⟩
  rw [if_neg h2]
  by_cases h3 : rsize / 2 < size
  · rw [if_pos h3]; exact Or.inl ⟨rfl, rfl⟩
  rw [if_neg h3]
  by_cases h4 : e.pre = true
  rotate_left
  · rw [if_pos (by simpa using h4)]; exact Or.inl ⟨rfl, rfl⟩
  rw [if_neg (by simpa using h4)]
  by_cases h5 : e.checkFails = true
  · rw [if_pos h5]; exact Or.inl ⟨rfl, rfl⟩
  rw [if_neg h5]
  right
  refine ⟨by omega, by omega, by omega, ?_⟩
  have fin : ∀ a b : Part,
      (((if !(refresh e.first a size 512 sector data).ok then refresh e.first a size 512 sector data
          else ⟨(refresh e.first a size 512 sector data).ops ++ (refresh e.second b size 512 sector data).ops, (refresh e.second b size 512 sector data).ok && e.post⟩ : Run).ops = (refresh e.first a size 512 sector data).ops ∧
        (if !(refresh e.first a size 512 sector data).ok then refresh e.first a size 512 sector data
          else ⟨(refresh e.first a size 512 sector data).ops ++ (refresh e.second b size 512 sector data).ops, (refresh e.second b size 512 sector data).ok && e.post⟩ : Run).ok = false) ∨
       ((refresh e.first a size 512 sector data).ok = true ∧
        (if !(refresh e.first a size 512 sector data).ok then refresh e.first a size 512 sector data
          else ⟨(refresh e.first a size 512 sector data).ops ++ (refresh e.second b size 512 sector data).ops, (refresh e.second b size 512 sector data).ok && e.post⟩ : Run).ops =
          (refresh e.first a size 512 sector data).ops ++ (refresh e.second b size 512 sector data).ops ∧
        ((if !(refresh e.first a size 512 sector data).ok then refresh e.first a size 512 sector data
          else ⟨(refresh e.first a size 512 sector data).ops ++ (refresh e.second b size 512 sector data).ops, (refresh e.second b size 512 sector data).ok && e.post⟩ : Run).ok = true →
          (refresh e.second b size 512 sector data).ok = true))) := by
    intro a b
    by_cases h6 : (refresh e.first a size 512 sector data).ok = true
    · rw [if_neg (by simpa using h6)]
      refine Or.inr ⟨h6, rfl, ?_⟩
      intro h
      simp only [Bool.and_eq_true] at h
      exact h.1
    · rw [if_pos (by simpa using h6)]
      exact Or.inl ⟨rfl, by simpa using h6⟩
  by_cases hcl : areaClear d start 512 = true
  · simp only [hcl, if_true]
    exact ⟨_, _, Or.inl ⟨trivial, rfl, rfl⟩, fin _ _⟩
  · have hcl' : areaClear d start 512 = false := by simpa using hcl
    simp only [hcl', Bool.false_eq_true, if_false]
    exact ⟨_, _, Or.inr ⟨trivial, rfl, rfl⟩, fin _ _⟩

/-- **C42, for a single update.** Whatever fails and whenever power is lost -- even if everything that was not synced reaches the device in any order and only in parts --, one of the halves is exactly as before or the other one contains the complete new
image. More precisely: at first only the fallback is written (or the primary, if its header is clear), and the other one only when the first one is complete and durable. -/
theorem C42_single (e : FbEnv) (sector start rsize size : Nat) (data : Bytes) (d d' : Disk) (hw : start + rsize < U64) (hhalf : rsize / 2 < 4294967296) (hlen : data.length ≤ size) (hsz : 0 < size)
    (hc : Crash d (fallbackRun e sector start rsize size data d).ops d') :
    (∀ x, x < start ∨ start + 2 * (rsize / 2) ≤ x → d' x = d x) ∧
    ((areaClear d start 512 = false ∧ ((∀ x, start ≤ x → x < start + rsize / 2 → d' x = d x) ∨ Holds d' (start + rsize / 2) data)) ∨
     (areaClear d start 512 = true ∧ ((∀ x, start + rsize / 2 ≤ x → x < start + 2 * (rsize / 2) → d' x = d x) ∨ Holds d' start data))) := by
  have hnil : ∀ {ops}, ops = [] → Crash d ops d' → ∀ x, d' x = d x := by
    rintro ops rfl h x
    exact crash_outside (lo := 0) (hi := 0) (by simp) h x (by omega)
  rcases fallbackRun_cases e sector start rsize size data d hw with ⟨h, _⟩ | ⟨_, _, hfit, a, b, hab, h⟩
  · have hall := hnil h hc
    refine ⟨fun x _ => hall x, ?_⟩
    cases areaClear d start 512 with
    | true => exact Or.inr ⟨rfl, Or.inl fun x _ _ => hall x⟩
    | false => exact Or.inl ⟨rfl, Or.inl fun x _ _ => hall x⟩
  have has : a.size = rsize / 2 ∧ b.size = rsize / 2 := by rcases hab with ⟨_, rfl, rfl⟩ | ⟨_, rfl, rfl⟩ <;> exact ⟨rfl, rfl⟩
  have hwa := refresh_within e.first a size 512 sector data (by omega) (by omega) (Or.inr hlen)
  have hwb := refresh_within e.second b size 512 sector data (by omega) (by omega) (Or.inr hlen)
  -- outside of both
  have hout : ∀ x, x < start ∨ start + 2 * (rsize / 2) ≤ x → d' x = d x := by
    intro x hx
    have hin : ∀ op ∈ (refresh e.first a size 512 sector data).ops ++ (refresh e.second b size 512 sector data).ops, Within start (start + 2 * (rsize / 2)) op := by
      intro op ho
      rw [List.mem_append] at ho
      rcases ho with ho | ho
      · have := hwa op ho
        refine this.mono ?_ ?_ <;> rcases hab with ⟨_, rfl, rfl⟩ | ⟨_, rfl, rfl⟩ <;> simp only <;> omega
      · have := hwb op ho
        refine this.mono ?_ ?_ <;> rcases hab with ⟨_, rfl, rfl⟩ | ⟨_, rfl, rfl⟩ <;> simp only <;> omega
    rcases h with ⟨h, _⟩ | ⟨_, h, _⟩ <;> rw [h] at hc
    · exact crash_outside (fun op ho => hin op (List.mem_append_left _ ho)) hc x hx
    · exact crash_outside hin hc x hx
  refine ⟨hout, ?_⟩
  -- the one that is written second is unchanged, or the first one is complete
  have key : (∀ x, b.start ≤ x → x < b.start + rsize / 2 → d' x = d x) ∨ Holds d' a.start data := by
    rcases h with ⟨h, _⟩ | ⟨hok, h, _⟩ <;> rw [h] at hc
    · left
      intro x h1 h2
      refine crash_outside hwa hc x ?_
      rcases hab with ⟨_, rfl, rfl⟩ | ⟨_, rfl, rfl⟩ <;> simp only at h1 h2 ⊢ <;> omega
    · obtain ⟨r1, ⟨a', ha'⟩, r3⟩ := refresh_ok e.first a size 512 sector data (by omega) hok
      have hread := refresh_read e.first a size 512 sector data (by omega) hok d
      have hsplit : Crash d (refresh e.first a size 512 sector data).ops d' ∨ Crash (apply d (refresh e.first a size 512 sector data).ops) (refresh e.second b size 512 sector data).ops d' := by
        rw [ha'] at hc ⊢
        exact crash_split hc
      rcases hsplit with hcr | hcr
      · left
        intro x h1 h2
        refine crash_outside hwa hcr x ?_
        rcases hab with ⟨_, rfl, rfl⟩ | ⟨_, rfl, rfl⟩ <;> simp only at h1 h2 ⊢ <;> omega
      · right
        have hl : data.length = size := by omega
        unfold Holds
        rw [hl]
        have : data.take size = data := List.take_of_length_le (by omega)
        rw [this] at hread
        refine Eq.trans ?_ hread
        rw [Disk.read_eq_iff]
        intro x h1 h2
        refine crash_outside hwb hcr x ?_
        rcases hab with ⟨_, rfl, rfl⟩ | ⟨_, rfl, rfl⟩ <;> simp only at h1 h2 ⊢ <;> omega
  rcases hab with ⟨hcl, rfl, rfl⟩ | ⟨hcl, rfl, rfl⟩
  · refine Or.inr ⟨hcl, ?_⟩
    rcases key with k | k
    · exact Or.inl (fun x h1 h2 => k x h1 (by simp only; omega))
    · exact Or.inr k
  · refine Or.inl ⟨hcl, ?_⟩
    rcases key with k | k
    · exact Or.inl (fun x h1 h2 => k x h1 h2)
    · exact Or.inr k

/-! ## Histories of updates -/

/-- all that can be on the device after any number of updates from `imgs`, each of which may fail or be interrupted at any point -/
inductive History (sector start rsize : Nat) (imgs : Bytes → Prop) (d0 : Disk) : Disk → Prop
  | init : History sector start rsize imgs d0 d0
  | update {d d' : Disk} (h : History sector start rsize imgs d0 d) (e : FbEnv) (size : Nat) (data : Bytes) (hi : imgs data) (h1 : FbOk e.first size data) (h2 : FbOk e.second size data)
      (hc : Ordered d (fallbackRun e sector start rsize size data d).ops d') : History sector start rsize imgs d0 d'

/-- **C42, for histories, if writes reach the device in order and sectors are written as a whole.** If the primary half contains an image at first, then after any number of updates -- each of which may fail, or be interrupted at any point -- at least one of the halves contains one of
the images completely.
Missing: writes that are reordered by the device, for which this is false (`C42_finding_unsynced_clear`); halves of 4 GiB and more; files longer than announced; images whose first sector consists only of the bytes 0x00 and 0xFF. -/
theorem C42_histories_partial (sector start rsize : Nat) (imgs : Bytes → Prop) (d0 d : Disk) (hw : start + rsize < U64) (hhalf : rsize / 2 < 4294967296)
    (hlen : ∀ I, imgs I → 512 ≤ I.length ∧ I.length ≤ rsize / 2 ∧ HeaderUsed I) (hinit : ∃ I, imgs I ∧ Holds d0 start I) (h : History sector start rsize imgs d0 d) :
    ∃ I, imgs I ∧ (Holds d start I ∨ (areaClear d start 512 = true ∧ Holds d (start + rsize / 2) I)) := by
  induction h with
  | init =>
    obtain ⟨I, h1, h2⟩ := hinit
    exact ⟨I, h1, Or.inl h2⟩
  | @update d d' _ e size data hi h1 h2 hc ih =>
    obtain ⟨I, hI, hinv⟩ := ih
    obtain ⟨hl1, hl2, hu⟩ := hlen I hI
    rcases fallbackRun_cases e sector start rsize size data d hw with ⟨h, _⟩ | ⟨hal1, hal2, hfit, a, b, hab, h⟩
    · rw [h] at hc
      have hall := ordered_nil hc
      have : d' = d := funext hall
      rw [this]
      exact ⟨I, hI, hinv⟩
    have has : a.size = rsize / 2 ∧ b.size = rsize / 2 ∧ a.start % 512 = 0 ∧ b.start % 512 = 0 := by
      rcases hab with ⟨_, rfl, rfl⟩ | ⟨_, rfl, rfl⟩
      · exact ⟨rfl, rfl, hal1, by simp only; omega⟩
      · exact ⟨rfl, rfl, by simp only; omega, hal1⟩
    have hwa := refresh_within e.first a size 512 sector data (by omega) (by omega) (Or.inr h1.len.2)
    have hwb := refresh_within e.second b size 512 sector data (by omega) (by omega) (Or.inr h1.len.2)
    have hoa := refresh_ordered e.first a size sector data (by omega) (by omega) has.2.2.1 h1
    have hob := refresh_ordered e.second b size sector data (by omega) (by omega) has.2.2.2 h2
    -- in the first or in the second half
    have hcase : Ordered d (refresh e.first a size 512 sector data).ops d' ∨
        ((∃ d1, (∀ x, x < a.start ∨ a.start + rsize / 2 ≤ x → d1 x = d x) ∧ Holds d1 a.start data ∧ Ordered d1 (refresh e.second b size 512 sector data).ops d')) := by
      rcases h with ⟨h, _⟩ | ⟨hok, h, _⟩ <;> rw [h] at hc
      · exact Or.inl hc
      · rcases ordered_append hc with hc | hc
        · exact Or.inl hc
        · right
          refine ⟨_, ?_, ?_, hc⟩
          · intro x hx
            exact apply_outside hwa d x (by omega)
          · obtain ⟨r1, _, _⟩ := refresh_ok e.first a size 512 sector data (by omega) hok
            have hread := refresh_read e.first a size 512 sector data (by omega) hok d
            have hl : data.length = size := by have := h1.len; omega
            unfold Holds
            rw [hl, hread, List.take_of_length_le (by omega)]
    rcases hab with ⟨hcl, rfl, rfl⟩ | ⟨hcl, rfl, rfl⟩
    · -- the primary is clear: the fallback is complete
      have hF : Holds d (start + rsize / 2) I := by
        rcases hinv with hp | ⟨_, hF⟩
        · rw [holds_not_clear hp hl1 hu] at hcl; cases hcl
        · exact hF
      rcases hcase with hc | ⟨d1, _, hd1, hc⟩
      · have hF' : Holds d' (start + rsize / 2) I := by
          refine holds_congr (fun x h1 h2 => ordered_outside hwa hc x ?_) hF
          simp only; omega
        rcases hoa d d' hc with hv | hv | hv
        · exact ⟨I, hI, Or.inr ⟨by rw [areaClear_congr (fun x _ _ => hv x)]; exact hcl, hF'⟩⟩
        · exact ⟨I, hI, Or.inr ⟨areaClear_zero hv, hF'⟩⟩
        · exact ⟨data, hi, Or.inl hv⟩
      · refine ⟨data, hi, Or.inl (holds_congr (fun x h1' h2' => ordered_outside hwb hc x ?_) hd1)⟩
        have := h1.len
        simp only at h2' ⊢
        omega
    · -- the primary is not clear: it is complete
      have hP : Holds d start I := by
        rcases hinv with hp | ⟨hc', _⟩
        · exact hp
        · rw [hc'] at hcl; cases hcl
      rcases hcase with hc | ⟨d1, hd1o, hd1, hc⟩
      · refine ⟨I, hI, Or.inl (holds_congr (fun x h1' h2' => ordered_outside hwa hc x ?_) hP)⟩
        simp only; omega
      · have hF' : Holds d' (start + rsize / 2) data := by
          refine holds_congr (fun x h1' h2' => ordered_outside hwb hc x ?_) hd1
          simp only at h1' ⊢; omega
        rcases hob d1 d' hc with hv | hv | hv
        · refine ⟨I, hI, Or.inl (holds_congr (fun x h1' h2' => ?_) hP)⟩
          rw [hv, hd1o x (by simp only; omega)]
        · exact ⟨data, hi, Or.inr ⟨areaClear_zero hv, hF'⟩⟩
        · exact ⟨data, hi, Or.inl hv⟩

/-! ## Non-vacuity -/

theorem fbOk_default (data : Bytes) (h : 512 ≤ data.length) : FbOk {} data.length data :=
  ⟨fun i c hc => (by have e : some 512 = some c := hc
                     injection e; omega), fun j hj => (by cases hj), ⟨h, Nat.le_refl _⟩⟩

/-- without failures, an update is successful -/
theorem fallbackRun_total (start rsize : Nat) (data : Bytes) (d : Disk) (h1 : start % 512 = 0) (h2 : (rsize / 2) % 512 = 0) (h3 : data.length ≤ rsize / 2) (hw : start + rsize < 9223372036854775808) (hhalf : rsize / 2 < 4294967296) :
    (fallbackRun {} 512 start rsize data.length data d).ok = true := by
  unfold fallbackRun
  simp only [Bool.not_true, Bool.false_eq_true, if_false]
  rw [if_neg (by omega), if_neg (by omega), if_neg (by omega)]
  have hm : (start + rsize / 2) % U64 = start + rsize / 2 := Nat.mod_eq_of_lt (by unfold U64; omega)
  rw [hm]
  have hr : ∀ p : Part, (p = ⟨start, rsize / 2⟩ ∨ p = ⟨start + rsize / 2, rsize / 2⟩) → (refresh {} p data.length 512 512 data).ok = true := by
    intro p hp
    refine refresh_total p ?_ ?_ 512 512 (Or.inr rfl) data
    · rcases hp with rfl | rfl <;> exact hhalf
    · rcases hp with rfl | rfl <;> simp only <;> omega
  cases areaClear d start 512 with
  | true =>
    simp only [if_true]
    rw [hr _ (Or.inl rfl), if_neg (by simp), hr _ (Or.inr rfl)]; rfl
  | false =>
    simp only [Bool.false_eq_true, if_false]
    rw [hr _ (Or.inr rfl), if_neg (by simp), hr _ (Or.inl rfl)]; rfl

/-- histories with any number of successful updates exist: the hypotheses of `C42_histories_partial` are met -/
example (I J : Bytes) (hI : I.length = 1024) (hJ : J.length = 600) (hI' : HeaderUsed I) (hJ' : HeaderUsed J) :
    let d0 : Disk := (Disk.write (fun _ => 7) 4096 I)
    let d1 := apply d0 (fallbackRun {} 512 4096 4096 J.length J d0).ops
    History 512 4096 4096 (fun X => X = I ∨ X = J) d0 d1 ∧ (∃ X, (X = I ∨ X = J) ∧ Holds d0 4096 X) ∧ (∀ X, (X = I ∨ X = J) → 512 ≤ X.length ∧ X.length ≤ 4096 / 2 ∧ HeaderUsed X) := by
  refine ⟨History.update History.init {} J.length J (Or.inr rfl) (fbOk_default J (by omega)) (fbOk_default J (by omega)) (ordered_apply _ _), ⟨I, Or.inl rfl, Disk.read_write_same _ _ _⟩, ?_⟩
  rintro X (rfl | rfl)
  · exact ⟨by omega, by omega, hI'⟩
  · exact ⟨by omega, by omega, hJ'⟩

/-! ## Finding -/

theorem applyOp_puts {d : Disk} {op : Op} {x : Nat} (h : applyOp d op x ≠ d x) : Puts x (applyOp d op x) op := by
  cases op with
  | sync => exact absurd rfl h
  | write off b =>
    show off ≤ x ∧ x < off + b.length ∧ b.getD (x - off) 0 = d.write off b x
    have h' : d.write off b x ≠ d x := h
    unfold Disk.write at h' ⊢
    split
    · rename_i hc; exact ⟨hc.1, hc.2, rfl⟩
    · rename_i hc; rw [if_neg hc] at h'; exact absurd rfl h'

theorem apply_puts {d : Disk} {ops : List Op} {x : Nat} (h : apply d ops x ≠ d x) : ∃ op ∈ ops, Puts x (apply d ops x) op := by
  induction ops generalizing d with
  | nil => exact absurd rfl h
  | cons op l ih =>
    have he : apply d (op :: l) = apply (applyOp d op) l := rfl
    rw [he] at h ⊢
    by_cases h1 : apply (applyOp d op) l x = applyOp d op x
    · rw [h1] at h ⊢
      exact ⟨op, List.mem_cons_self, applyOp_puts h⟩
    · obtain ⟨o, ho, hp⟩ := ih h1
      exact ⟨o, List.mem_cons_of_mem _ ho, hp⟩

/-- while a partition is being cleared, power may be lost such that nothing but a single byte of it is cleared -/
theorem crash_clear_byte (p : Part) (hs : p.size < 4294967296) (hp : p.start < 9223372036854775808) (d : Disk) (x : Nat) (h1 : p.start ≤ x) (h2 : x < p.start + p.size) (rest : List Op) :
    Crash d ((clearPartition false (fun _ => some 512) (p.size + 1) p.start p.size).ops ++ rest) (d.write x [0]) := by
  have hc : (clearPartition false (fun _ => some 512) (p.size + 1) p.start p.size).ok = true := by
    unfold clearPartition
    rw [if_neg (by simp), if_neg (by omega)]
    simp only [decide_eq_true_eq]
    exact clearLoop_total p.size hs _ _ _ _ (by omega) (by omega)
  have hap := clear_ok _ _ _ _ _ hs hc (fun _ => 1)
  have hx : apply (fun _ => 1) (clearPartition false (fun _ => some 512) (p.size + 1) p.start p.size).ops x = 0 := by
    rw [hap]
    unfold Disk.write
    rw [List.length_replicate, if_pos ⟨h1, h2⟩, List.getD_eq_getElem _ _ (by rw [List.length_replicate]; omega), List.getElem_replicate]
  have hput : ∃ op ∈ (clearPartition false (fun _ => some 512) (p.size + 1) p.start p.size).ops, Puts x 0 op := by
    have := apply_puts (d := fun _ => 1) (ops := (clearPartition false (fun _ => some 512) (p.size + 1) p.start p.size).ops) (x := x) (by rw [hx]; decide)
    rwa [hx] at this
  refine ⟨[], (clearPartition false (fun _ => some 512) (p.size + 1) p.start p.size).ops, rest, by simp, Or.inl rfl, ?_, ?_⟩
  · intro hm
    obtain ⟨_, o, w, hw⟩ := clear_within _ _ _ _ _ hs _ hm
    cases hw
  · intro y
    by_cases hy : y = x
    · right
      subst hy
      have : d.write y [0] y = 0 := by
        unfold Disk.write; rw [if_pos (by simp)]; simp
      rw [this]; exact hput
    · left
      exact Disk.write_out _ _ _ _ (by simp only [List.length_cons, List.length_nil]; omega)

/-- **C42, finding.** Clearing a half is not synced before the rest is written. If the device reorders writes, two interrupted attempts to install the same image destroy both copies: the first one is interrupted while the primary is being updated,
with its header still in place but with a part of its content already cleared; the second one takes this for a working primary and starts with the fallback, the only complete copy. -/
theorem C42_finding_unsynced_clear (start rsize : Nat) (I : Bytes) (h1 : start % 512 = 0) (h2 : (rsize / 2) % 512 = 0) (hfit : I.length ≤ rsize / 2) (hw : start + rsize < 9223372036854775808) (hhalf : rsize / 2 < 4294967296)
    (hl : 512 ≤ I.length) (hu : HeaderUsed I) (k : Nat) (hk : 512 ≤ k) (hkl : k < I.length) (hkz : I[k] ≠ 0) (d : Disk) (hP : Holds d start I) (hF : Holds d (start + rsize / 2) I) :
    ∃ d1 d2, Crash d (fallbackRun {} 512 start rsize I.length I d).ops d1 ∧ Crash d1 (fallbackRun {} 512 start rsize I.length I d1).ops d2 ∧ ¬ Holds d2 start I ∧ ¬ Holds d2 (start + rsize / 2) I := by
  have hwu : start + rsize < U64 := by unfold U64; omega
  -- the operations of a run whose primary is not clear
  have hrun : ∀ d, areaClear d start 512 = false → ∃ r1 r2, (∃ a', r1 = a' ++ [.sync]) ∧
      (fallbackRun {} 512 start rsize I.length I d).ops = ((clearPartition false (fun _ => some 512) (rsize / 2 + 1) (start + rsize / 2) (rsize / 2)).ops ++ r2) ∧
      (fallbackRun {} 512 start rsize I.length I d).ops = r1 ++ (refresh {} ⟨start, rsize / 2⟩ I.length 512 512 I).ops ∧
      (∀ x, start ≤ x → x < start + rsize / 2 → apply d r1 x = d x) := by
    intro d hcl
    have hok := fallbackRun_total start rsize I d h1 h2 hfit hw hhalf
    rcases fallbackRun_cases {} 512 start rsize I.length I d hwu with ⟨_, h⟩ | ⟨_, _, _, a, b, hab, h⟩
    · rw [hok] at h; cases h
    rcases hab with ⟨hcl', _, _⟩ | ⟨_, rfl, rfl⟩
    · rw [hcl] at hcl'; cases hcl'
    rcases h with ⟨_, h⟩ | ⟨hrok, h, _⟩
    · rw [hok] at h; cases h
    have hshape : ∃ t, (refresh {} ⟨start + rsize / 2, rsize / 2⟩ I.length 512 512 I).ops = (clearPartition false (fun _ => some 512) (rsize / 2 + 1) (start + rsize / 2) (rsize / 2)).ops ++ t := by
      unfold refresh
      simp only []
      split
      · exact ⟨[], by simp⟩
      · exact ⟨_, rfl⟩
    obtain ⟨t, ht⟩ := hshape
    refine ⟨_, t ++ (refresh {} ⟨start, rsize / 2⟩ I.length 512 512 I).ops, (refresh_ok {} ⟨start + rsize / 2, rsize / 2⟩ I.length 512 512 I hhalf hrok).2.1, ?_, h, ?_⟩
    · rw [← List.append_assoc, ← ht]; exact h
    · intro x hx1 hx2
      exact apply_outside (refresh_within {} ⟨start + rsize / 2, rsize / 2⟩ I.length 512 512 I hhalf hfit (Or.inr (Nat.le_refl _))) d x (by simp only; omega)
  -- a copy with a byte cleared is not complete
  have hbroken : ∀ (d : Disk) s, Holds d s I → ¬ Holds (d.write (s + k) [0]) s I := by
    intro d s _ hcon
    have := holds_at hcon k hkl
    have e0 : d.write (s + k) [0] (s + k) = 0 := Disk.write_in d (s + k) [0] 0 (by simp)
    rw [e0] at this
    exact hkz this.symm
  obtain ⟨r1, r2, ⟨a', ha'⟩, _, hops, hkeep⟩ := hrun d (holds_not_clear hP hl hu)
  have hPr : Holds (apply d r1) start I := holds_congr (fun x hx1 hx2 => hkeep x hx1 (by omega)) hP
  -- the first interruption
  have hcl1 : areaClear ((apply d r1).write (start + k) [0]) start 512 = false := by
    rw [areaClear_congr (d := apply d r1) (fun x hx1 hx2 => Disk.write_out _ _ _ _ (by omega))]
    exact holds_not_clear hPr hl hu
  have hc1 : Crash d (fallbackRun {} 512 start rsize I.length I d).ops ((apply d r1).write (start + k) [0]) := by
    rw [hops]
    have hshape : ∃ t, (refresh {} ⟨start, rsize / 2⟩ I.length 512 512 I).ops = (clearPartition false (fun _ => some 512) (rsize / 2 + 1) start (rsize / 2)).ops ++ t := by
      unfold refresh
      simp only []
      split
      · exact ⟨[], by simp⟩
      · exact ⟨_, rfl⟩
    obtain ⟨t, ht⟩ := hshape
    rw [ht]
    obtain ⟨x, y, z, he, hx, hy, hv⟩ := crash_clear_byte ⟨start, rsize / 2⟩ hhalf (by simp only; omega) (apply d r1) (start + k) (by simp only; omega) (by simp only; omega) t
    refine ⟨r1 ++ x, y, z, ?_, ?_, hy, ?_⟩
    · simp only at he
      rw [he]; simp
    · right
      rcases hx with rfl | ⟨x', rfl⟩
      · exact ⟨a', by rw [ha', List.append_nil]⟩
      · exact ⟨r1 ++ x', by simp⟩
    · intro q; rw [apply_append]; exact hv q
  -- the second one
  obtain ⟨s1, s2, _, hops2, _, _⟩ := hrun _ hcl1
  refine ⟨_, ((apply d r1).write (start + k) [0]).write (start + rsize / 2 + k) [0], hc1, ?_, ?_, ?_⟩
  · rw [hops2]
    exact crash_clear_byte ⟨start + rsize / 2, rsize / 2⟩ hhalf (by simp only; omega) _ (start + rsize / 2 + k) (by simp only; omega) (by simp only; omega) s2
  · intro hcon
    refine hbroken _ start hPr (holds_congr (fun x hx1 hx2 => ?_) hcon)
    exact (Disk.write_out _ _ _ _ (by omega)).symm
  · intro hcon
    have := holds_at hcon k hkl
    have e0 : ((apply d r1).write (start + k) [0]).write (start + rsize / 2 + k) [0] (start + rsize / 2 + k) = 0 := Disk.write_in _ (start + rsize / 2 + k) [0] 0 (by simp)
    rw [e0] at this
    exact hkz this.symm

/-- the hypotheses of the finding are met, for example by an image of 513 bytes in halves of 1024 -/
example : ∃ I : Bytes, 512 ≤ I.length ∧ I.length ≤ 2048 / 2 ∧ HeaderUsed I ∧ ∃ h : 512 < I.length, I[512] ≠ 0 :=
  have hl : (List.replicate 513 (1 : UInt8)).length = 513 := List.length_replicate
  ⟨List.replicate 513 1, by omega, by omega, ⟨1, by rw [List.take_replicate]; exact List.mem_replicate.2 ⟨by omega, rfl⟩, by decide, by decide⟩, by omega, by rw [List.getElem_replicate]; decide⟩

end Rauc.Switch
