import Verif.Model.Copy

/-!
# C49: copying images to devices
-/

namespace Rauc.Copy

/-! ## Specification -/

/-- the writes are inside of `[lo, hi)` -/
def Within (lo hi : Nat) : Op → Prop
  | .write off b => b = [] ∨ (lo ≤ off ∧ off + b.length ≤ hi)
  | .sync => True

/-- the operation may put the byte `v` at position `x` -/
def Puts (x : Nat) (v : UInt8) : Op → Prop
  | .write off b => off ≤ x ∧ x < off + b.length ∧ b.getD (x - off) 0 = v
  | .sync => False

/-- what may be on the device `d` after power was lost during `ops`: everything before the last completed sync (`a`), and for every byte either that or what one of the writes after it (`b`) put there -- in any order
and combination -/
def Crash (d : Disk) (ops : List Op) (d' : Disk) : Prop :=
  ∃ a b c, ops = a ++ b ++ c ∧ (a = [] ∨ ∃ a', a = a' ++ [.sync]) ∧ .sync ∉ b ∧ ∀ x, d' x = apply d a x ∨ ∃ op ∈ b, Puts x (d' x) op

/-! ## Lemmas about operations -/

theorem apply_append (d : Disk) (a b : List Op) : apply d (a ++ b) = apply (apply d a) b := List.foldl_append ..

theorem applyOp_outside {lo hi : Nat} {op : Op} (h : Within lo hi op) (d : Disk) (x : Nat) (hx : x < lo ∨ hi ≤ x) : applyOp d op x = d x := by
  cases op with
  | sync => rfl
  | write off b =>
    rcases h with rfl | h
    · exact congrFun (Disk.write_nil d off) x
    · exact Disk.write_out d off b x (by omega)

theorem apply_outside {lo hi : Nat} {ops : List Op} (h : ∀ op ∈ ops, Within lo hi op) (d : Disk) (x : Nat) (hx : x < lo ∨ hi ≤ x) : apply d ops x = d x := by
  induction ops generalizing d with
  | nil => rfl
  | cons op l ih =>
    show apply (applyOp d op) l x = d x
    rw [ih (fun o ho => h o (List.mem_cons_of_mem _ ho)), applyOp_outside (h op List.mem_cons_self) d x hx]

theorem puts_within {lo hi x : Nat} {v : UInt8} {op : Op} (h : Within lo hi op) (hp : Puts x v op) : lo ≤ x ∧ x < hi := by
  cases op with
  | sync => exact hp.elim
  | write off b =>
    rcases h with rfl | h
    · obtain ⟨h1, h2, _⟩ := hp; simp at h2; omega
    · obtain ⟨h1, h2, _⟩ := hp; omega

/-- outside of the area that is written, nothing changes, whenever power is lost -/
theorem crash_outside {lo hi : Nat} {ops : List Op} (h : ∀ op ∈ ops, Within lo hi op) {d d' : Disk} (hc : Crash d ops d') (x : Nat) (hx : x < lo ∨ hi ≤ x) : d' x = d x := by
  obtain ⟨a, b, c, rfl, _, _, hv⟩ := hc
  rcases hv x with hv | ⟨op, ho, hp⟩
  · rw [hv]; exact apply_outside (fun o ho => h o (by simp [ho])) d x hx
  · have := puts_within (h op (by simp [ho])) hp; omega

theorem crash_refl (d : Disk) (ops : List Op) : Crash d ops d := ⟨[], [], ops, rfl, Or.inl rfl, by simp, fun _ => Or.inl rfl⟩

theorem crash_prefix {d d' : Disk} {a b : List Op} (h : Crash d a d') : Crash d (a ++ b) d' := by
  obtain ⟨x, y, z, rfl, h1, h2, h3⟩ := h
  exact ⟨x, y, z ++ b, by simp, h1, h2, h3⟩

/-- a completed sync separates what is before from what is after -/
theorem crash_split {d d' : Disk} {a b : List Op} (h : Crash d (a ++ [.sync] ++ b) d') : Crash d (a ++ [.sync]) d' ∨ Crash (apply d (a ++ [.sync])) b d' := by
  obtain ⟨x, y, z, he, h1, h2, h3⟩ := h
  by_cases hl : (a ++ [Op.sync]).length ≤ x.length
  · right
    have hx : a ++ [Op.sync] <+: x := by
      have p1 : a ++ [Op.sync] <+: x ++ y ++ z := by rw [← he]; exact List.prefix_append _ _
      have p2 : x <+: x ++ y ++ z := by rw [List.append_assoc]; exact List.prefix_append _ _
      exact List.prefix_of_prefix_length_le p1 p2 hl
    obtain ⟨x', rfl⟩ := hx
    have he' : b = x' ++ y ++ z := by
      have : (a ++ [Op.sync]) ++ b = (a ++ [Op.sync]) ++ (x' ++ y ++ z) := by rw [he]; simp
      exact List.append_cancel_left this
    refine ⟨x', y, z, he', ?_, h2, ?_⟩
    · rcases List.eq_nil_or_concat x' with rfl | ⟨w, o, rfl⟩
      · exact Or.inl rfl
      · right
        rcases h1 with h1 | ⟨a', h1⟩
        · simp at h1
        · refine ⟨w, ?_⟩
          rw [List.concat_eq_append] at h1 ⊢
          rw [← List.append_assoc] at h1
          have := (List.append_inj' h1 rfl).2
          rw [this]
    · intro q; rw [← apply_append]; exact h3 q
  · left
    have hlen : x.length ≤ a.length := by simp at hl; omega
    -- the sync is not in `y`
    have hy : (x ++ y).length ≤ a.length := by
      rcases Nat.lt_or_ge a.length (x ++ y).length with hgt | hle
      · exfalso
        apply h2
        have e1 : (a ++ [Op.sync] ++ b)[a.length]? = some .sync := by simp
        rw [he] at e1
        rw [List.getElem?_append_left hgt, List.getElem?_append_right hlen] at e1
        exact List.mem_of_getElem? e1
      · exact hle
    have hp : x ++ y <+: a ++ [Op.sync] := by
      have p1 : x ++ y <+: (a ++ [Op.sync]) ++ b := by rw [he]; exact List.prefix_append _ _
      exact List.prefix_of_prefix_length_le p1 (List.prefix_append _ _) (by simp at hy ⊢; omega)
    obtain ⟨c, hc⟩ := hp
    exact ⟨x, y, c, hc.symm, h1, h2, h3⟩

/-- if nothing was synced, every byte is the old one or one that was written -/
theorem crash_nosync {d d' : Disk} {ops : List Op} (hs : .sync ∉ ops) (h : Crash d ops d') (x : Nat) : d' x = d x ∨ ∃ op ∈ ops, Puts x (d' x) op := by
  obtain ⟨a, b, c, rfl, h1, _, h3⟩ := h
  have ha : a = [] := by
    rcases h1 with h1 | ⟨a', rfl⟩
    · exact h1
    · exact absurd (by simp) hs
  subst ha
  rcases h3 x with h3 | ⟨op, ho, hp⟩
  · exact Or.inl h3
  · exact Or.inr ⟨op, by simp [ho], hp⟩

/-! ## The loop -/

theorem chunk_prefix (k : Nat) (rest : Bytes) : chunk k rest ++ rest.drop (chunk k rest).length = rest := by
  unfold chunk
  rw [List.length_take]
  rcases Nat.le_total (max 1 (min k 8192)) rest.length with h | h
  · rw [Nat.min_eq_left h, List.take_append_drop]
  · rw [Nat.min_eq_right h, List.drop_length, List.append_nil, List.take_of_length_le h]

theorem chunk_nil {k : Nat} {rest : Bytes} (h : chunk k rest = []) : rest = [] := by
  unfold chunk at h
  rcases rest with _ | ⟨a, l⟩
  · rfl
  · exfalso
    have : (max 1 (min k 8192)) = (max 1 (min k 8192) - 1) + 1 := by omega
    rw [this] at h
    simp at h

/-- all writes of the loop are inside of what is left of the size, and of the file -/
theorem copyLoop_within (io : Nat → Io) (size i sum pos : Nat) (rest : Bytes) (hs : sum ≤ size) :
    ∀ op ∈ (copyLoop io size i sum pos rest).ops, Within pos (pos + (size - sum)) op ∧ Within pos (pos + rest.length) op ∧ op ≠ .sync := by
  induction h : rest.length using Nat.strongRecOn generalizing i sum pos rest with
  | _ n ih =>
    subst h
    intro op hop
    rw [copyLoop.eq_def] at hop
    split at hop
    · cases hop
    · rename_i k _
      split at hop
      · cases hop
      · rename_i hle
        split at hop
        · cases hop
        · rename_i hne
          have hcl : (chunk k rest).length ≤ rest.length := by
            have := congrArg List.length (chunk_prefix k rest); simp only [List.length_append] at this; omega
          split at hop
          · rename_i j _
            simp only [List.mem_singleton] at hop
            subst hop
            have : ((chunk k rest).take j).length ≤ (chunk k rest).length := by simp; omega
            exact ⟨Or.inr ⟨by omega, by omega⟩, Or.inr ⟨by omega, by omega⟩, by simp⟩
          · simp only [List.mem_cons] at hop
            rcases hop with rfl | hop
            · exact ⟨Or.inr ⟨by omega, by omega⟩, Or.inr ⟨by omega, by omega⟩, by simp⟩
            · obtain ⟨h1, h2, h3⟩ := ih _ (drop_lt k rest hne) (i + 1) _ (pos + (chunk k rest).length) _ (by omega) rfl op hop
              refine ⟨?_, ?_, h3⟩
              · cases op with
                | sync => trivial
                | write off b =>
                  rcases h1 with h1 | h1
                  · exact Or.inl h1
                  · exact Or.inr ⟨by omega, by omega⟩
              · cases op with
                | sync => trivial
                | write off b =>
                  rcases h2 with h2 | h2
                  · exact Or.inl h2
                  · rw [List.length_drop] at h2
                    exact Or.inr ⟨by omega, by omega⟩

/-- success means that all was copied -/
theorem copyLoop_ok (io : Nat → Io) (size i sum pos : Nat) (rest : Bytes) (hs : sum ≤ size) (hok : (copyLoop io size i sum pos rest).ok = true) (d : Disk) :
    apply d (copyLoop io size i sum pos rest).ops = d.write pos rest ∧ (copyLoop io size i sum pos rest).read = sum + rest.length ∧ sum + rest.length ≤ size := by
  induction h : rest.length using Nat.strongRecOn generalizing i sum pos rest d with
  | _ n ih =>
    subst h
    rw [copyLoop.eq_def] at hok ⊢
    split at hok
    · cases hok
    · rename_i k hk
      split at hok
      · cases hok
      · rename_i hle
        rw [if_neg hle]
        split at hok
        · rename_i hnil
          rw [dif_pos hnil]
          have := chunk_nil hnil
          subst this
          exact ⟨by simp [apply, Disk.write_nil], by simp, by simpa using hs⟩
        · rename_i hne
          rw [dif_neg hne]
          split at hok
          · cases hok
          · rename_i hw
            simp only at hok ⊢
            obtain ⟨h1, h2, h3⟩ := ih _ (drop_lt k rest hne) (i + 1) (sum + (chunk k rest).length) (pos + (chunk k rest).length) _ (by omega) hok (d.write pos (chunk k rest)) rfl
            have hlen := congrArg List.length (chunk_prefix k rest)
            simp only [List.length_append] at hlen
            refine ⟨?_, by rw [h2]; omega, by omega⟩
            show apply (d.write pos (chunk k rest)) _ = _
            rw [h1, Disk.write_append, chunk_prefix]

theorem copyStream_within (io : Nat → Io) (size pos : Nat) (data : Bytes) :
    ∀ op ∈ (copyStream io size pos data).ops, Within pos (pos + size) op ∧ Within pos (pos + data.length) op ∧ op ≠ .sync := by
  intro op hop
  unfold copyStream at hop
  split at hop
  · cases hop
  · exact copyLoop_within io size 0 0 pos data (by omega) op hop

theorem copyStream_ok (io : Nat → Io) (size pos : Nat) (data : Bytes) (hok : (copyStream io size pos data).ok = true) (d : Disk) :
    (size = 0 ∧ (copyStream io size pos data).ops = [] ∧ (copyStream io size pos data).read = 0) ∨
    (apply d (copyStream io size pos data).ops = d.write pos data ∧ (copyStream io size pos data).read = data.length ∧ data.length ≤ size) := by
  unfold copyStream at hok ⊢
  split at hok
  · rename_i h0; rw [if_pos h0]; exact Or.inl ⟨h0, rfl, rfl⟩
  · rename_i h0
    rw [if_neg h0]
    obtain ⟨h1, h2, h3⟩ := copyLoop_ok io size 0 0 pos data (by omega) hok d
    exact Or.inr ⟨h1, by omega, by omega⟩

/-! ## Copying an image -/

theorem Within.mono {lo hi lo' hi' : Nat} {op : Op} (h : Within lo hi op) (h1 : lo' ≤ lo) (h2 : hi ≤ hi') : Within lo' hi' op := by
  cases op with
  | sync => trivial
  | write off b =>
    rcases h with h | h
    · exact Or.inl h
    · exact Or.inr ⟨by omega, by omega⟩

theorem take_drop_length (hdr : Nat) (data : Bytes) : data.drop (data.take hdr).length = data.drop hdr := by
  rw [List.length_take]
  rcases Nat.le_total hdr data.length with h | h
  · rw [Nat.min_eq_left h]
  · rw [Nat.min_eq_right h, List.drop_length, List.drop_eq_nil_of_le h]

/-- the possible outcomes of `copyRaw` -/
theorem copyRaw_cases (f : Faults) (io : Nat → Io) (size hdr sector start : Nat) (data : Bytes) :
    (copyRaw f io size hdr sector start data = ⟨[], false⟩) ∨
    ((hdr = 0 ∨ hdr = sector) ∧
     ∃ r, r = copyStream io size (start + (data.take hdr).length) (data.drop hdr) ∧
      ((copyRaw f io size hdr sector start data = ⟨r.ops, false⟩) ∨
       (r.ok = true ∧ (data.take hdr).length + r.read = size ∧
        (((data.take hdr).length = 0 ∧ copyRaw f io size hdr sector start data = ⟨r.ops ++ [.sync], true⟩) ∨
         ((data.take hdr).length ≠ 0 ∧
          (copyRaw f io size hdr sector start data = ⟨r.ops ++ [.sync], false⟩ ∨
           (∃ j, f.header = some j ∧ copyRaw f io size hdr sector start data = ⟨r.ops ++ [.sync, .write start ((data.take hdr).take j)], false⟩) ∨
           copyRaw f io size hdr sector start data = ⟨r.ops ++ [.sync, .write start (data.take hdr)], false⟩ ∨
           copyRaw f io size hdr sector start data = ⟨r.ops ++ [.sync, .write start (data.take hdr), .sync], true⟩)))))) := by
  unfold copyRaw
  by_cases h1 : f.openImage = true
  · rw [if_pos h1]; exact Or.inl rfl
  rw [if_neg h1]
  by_cases h2 : hdr ≠ 0 ∧ hdr ≠ sector
  · rw [if_pos h2]; exact Or.inl rfl
  rw [if_neg h2]
  by_cases h3 : hdr ≠ 0 ∧ (f.readHeader = true ∨ f.skip = true)
  · rw [if_pos h3]; exact Or.inl rfl
  rw [if_neg h3]
  right
  refine ⟨by omega, _, rfl, ?_⟩
  simp only [take_drop_length]
  generalize copyStream io size (start + (data.take hdr).length) (data.drop hdr) = r
  by_cases h4 : r.ok = true
  rotate_left
  · rw [if_pos (by simpa using h4)]; exact Or.inl rfl
  rw [if_neg (by simpa using h4)]
  by_cases h5 : (data.take hdr).length + r.read ≠ size
  · rw [if_pos h5]; exact Or.inl rfl
  rw [if_neg h5]
  have h5' : (data.take hdr).length + r.read = size := by omega
  by_cases h6 : (data.take hdr).length = 0
  · rw [if_pos h6]
    split
    · exact Or.inl rfl
    · split
      · exact Or.inl rfl
      · exact Or.inr ⟨h4, h5', Or.inl ⟨h6, rfl⟩⟩
  rw [if_neg h6]
  split
  · exact Or.inl rfl
  · split
    · exact Or.inr ⟨h4, h5', Or.inr ⟨h6, Or.inl rfl⟩⟩
    · split
      · rename_i j hj
        exact Or.inr ⟨h4, h5', Or.inr ⟨h6, Or.inr (Or.inl ⟨j, hj, rfl⟩)⟩⟩
      · split
        · exact Or.inr ⟨h4, h5', Or.inr ⟨h6, Or.inr (Or.inr (Or.inl rfl))⟩⟩
        · exact Or.inr ⟨h4, h5', Or.inr ⟨h6, Or.inr (Or.inr (Or.inr rfl))⟩⟩

/-- the header fits into the size once the copy was successful -/
theorem copyRaw_within (f : Faults) (io : Nat → Io) (size hdr sector start : Nat) (data : Bytes) :
    ∀ op ∈ (copyRaw f io size hdr sector start data).ops, Within start (start + (data.take hdr).length + size) op ∧
      (hdr = 0 ∨ data.length ≤ size → Within start (start + size) op) := by
  intro op hop
  have hlen : (data.take hdr).length + (data.drop hdr).length = data.length := by
    rw [← List.length_append, List.take_append_drop]
  -- the writes of the loop
  have hstream : ∀ op ∈ (copyStream io size (start + (data.take hdr).length) (data.drop hdr)).ops, Within start (start + (data.take hdr).length + size) op ∧
      (hdr = 0 ∨ data.length ≤ size → Within start (start + size) op) := by
    intro op hop
    obtain ⟨w1, w2, _⟩ := copyStream_within io size _ _ op hop
    refine ⟨w1.mono (by omega) (by omega), ?_⟩
    rintro (h0 | h0)
    · subst h0; exact w1.mono (by omega) (by simp)
    · exact w2.mono (by omega) (by omega)
  have hheader : ∀ j, (data.take hdr).length ≤ size → Within start (start + (data.take hdr).length + size) (.write start ((data.take hdr).take j)) ∧
      (hdr = 0 ∨ data.length ≤ size → Within start (start + size) (.write start ((data.take hdr).take j))) := by
    intro j hj
    have : ((data.take hdr).take j).length ≤ (data.take hdr).length := by rw [List.length_take]; omega
    exact ⟨Or.inr ⟨by omega, by omega⟩, fun _ => Or.inr ⟨by omega, by omega⟩⟩
  have hheader' : (data.take hdr).length ≤ size → Within start (start + (data.take hdr).length + size) (.write start (data.take hdr)) ∧
      (hdr = 0 ∨ data.length ≤ size → Within start (start + size) (.write start (data.take hdr))) := by
    intro hj
    have := hheader (data.take hdr).length hj
    rwa [List.take_length] at this
  have hsync : Within start (start + (data.take hdr).length + size) .sync ∧ (hdr = 0 ∨ data.length ≤ size → Within start (start + size) .sync) := ⟨trivial, fun _ => trivial⟩
  rcases copyRaw_cases f io size hdr sector start data with h | ⟨_, r, rfl, h | ⟨_, hs, ⟨_, h⟩ | ⟨_, h | ⟨j, _, h⟩ | h | h⟩⟩⟩ <;> rw [h] at hop
  · cases hop
  · exact hstream op hop
  · simp only [List.mem_append, List.mem_singleton] at hop
    rcases hop with hop | rfl
    · exact hstream op hop
    · exact hsync
  · simp only [List.mem_append, List.mem_singleton] at hop
    rcases hop with hop | rfl
    · exact hstream op hop
    · exact hsync
  · simp only [List.mem_append, List.mem_cons, List.not_mem_nil, or_false] at hop
    rcases hop with hop | rfl | rfl
    · exact hstream op hop
    · exact hsync
    · exact hheader j (by omega)
  · simp only [List.mem_append, List.mem_cons, List.not_mem_nil, or_false] at hop
    rcases hop with hop | rfl | rfl
    · exact hstream op hop
    · exact hsync
    · exact hheader' (by omega)
  · simp only [List.mem_append, List.mem_cons, List.not_mem_nil, or_false] at hop
    rcases hop with hop | rfl | rfl | rfl
    · exact hstream op hop
    · exact hsync
    · exact hheader' (by omega)
    · exact hsync

/-- **C49.** Without header-last mode, nothing is written beyond the announced size, whatever the file contains, however it is read and whatever fails; with header-last mode this holds if the file is not longer than announced,
otherwise one header more may be written (see `C49_finding_header`). -/
theorem C49_within (f : Faults) (io : Nat → Io) (size hdr sector start : Nat) (data : Bytes) (h : hdr = 0 ∨ data.length ≤ size) (d d' : Disk)
    (hc : Crash d (copyRaw f io size hdr sector start data).ops d') (x : Nat) (hx : x < start ∨ start + size ≤ x) : d' x = d x :=
  crash_outside (fun op hop => (copyRaw_within f io size hdr sector start data op hop).2 h) hc x hx

theorem C49_within_header_partial (f : Faults) (io : Nat → Io) (size hdr sector start : Nat) (data : Bytes) (d d' : Disk)
    (hc : Crash d (copyRaw f io size hdr sector start data).ops d') (x : Nat) (hx : x < start ∨ start + size + hdr ≤ x) : d' x = d x :=
  crash_outside (hi := start + size + hdr) (fun op hop => (copyRaw_within f io size hdr sector start data op hop).1.mono (Nat.le_refl _) (by rw [List.length_take]; omega)) hc x (by omega)

/-- success: all ends with a sync, and the image is on the device -/
theorem copyRaw_ok (f : Faults) (io : Nat → Io) (size hdr sector start : Nat) (data : Bytes) (hok : (copyRaw f io size hdr sector start data).ok = true) :
    (data.length = size ∨ (size = 0 ∧ hdr = 0)) ∧ (∃ a, (copyRaw f io size hdr sector start data).ops = a ++ [.sync]) ∧
    ∀ d : Disk, apply d (copyRaw f io size hdr sector start data).ops = d.write start (data.take size) := by
  have hlen : (data.take hdr).length + (data.drop hdr).length = data.length := by
    rw [← List.length_append, List.take_append_drop]
  rcases copyRaw_cases f io size hdr sector start data with h | ⟨hhs, r, rfl, h | ⟨hr, hs, ⟨h0, h⟩ | ⟨h0, h | ⟨j, _, h⟩ | h | h⟩⟩⟩ <;> rw [h] at hok ⊢ <;> try cases hok
  · -- without header
    rcases copyStream_ok io size _ _ hr (fun _ => 0) with ⟨z1, z2, z3⟩ | ⟨_, z2, z3⟩
    · subst z1
      refine ⟨?_, ⟨_, rfl⟩, ?_⟩
      · by_cases hz : hdr = 0
        · exact Or.inr ⟨rfl, hz⟩
        · left
          rcases data with _ | ⟨a, l⟩
          · rfl
          · exfalso
            rw [List.length_take] at h0
            simp at h0; omega
      · intro d
        rw [apply_append, z2]
        simp [apply, applyOp, Disk.write_nil]
    · have hd : data.length = size := by omega
      refine ⟨Or.inl hd, ⟨_, rfl⟩, ?_⟩
      intro d
      rcases copyStream_ok io size _ _ hr d with ⟨_, y2, y3⟩ | ⟨y1, _, _⟩
      · have hd0 : data.drop hdr = [] := List.eq_nil_of_length_eq_zero (by omega)
        have : data = [] := List.eq_nil_of_length_eq_zero (by omega)
        rw [apply_append, y2, this]
        simp [apply, applyOp, Disk.write_nil]
      · have hdrop : data.drop hdr = data := by
          have ht : data.take hdr = [] := List.eq_nil_of_length_eq_zero h0
          have := List.take_append_drop hdr data
          rw [ht, List.nil_append] at this; exact this
        rw [apply_append, y1, h0, hdrop, ← hd, List.take_length]
        rfl
  · -- with header
    rcases copyStream_ok io size _ _ hr (fun _ => 0) with ⟨z1, z2, z3⟩ | ⟨_, z2, z3⟩
    · exfalso; omega
    · have hd : data.length = size := by omega
      refine ⟨Or.inl hd, ⟨(copyStream io size (start + (data.take hdr).length) (data.drop hdr)).ops ++ [.sync, .write start (data.take hdr)], by simp⟩, ?_⟩
      intro d
      rcases copyStream_ok io size _ _ hr d with ⟨y1, _, _⟩ | ⟨y1, _, _⟩
      · exfalso; omega
      · have e : copyRaw f io size hdr sector start data = _ := h
        rw [apply_append, y1]
        show (d.write (start + (data.take hdr).length) (data.drop hdr)).write start (data.take hdr) = _
        rw [← hd, List.take_length]
        -- the order of the two writes does not matter
        have hsw : (d.write (start + (data.take hdr).length) (data.drop hdr)).write start (data.take hdr) = (d.write start (data.take hdr)).write (start + (data.take hdr).length) (data.drop hdr) := by
          funext x
          unfold Disk.write
          by_cases c1 : start ≤ x ∧ x < start + (data.take hdr).length
          · rw [if_pos c1, if_neg (by omega), if_pos c1]
          · rw [if_neg c1]
            by_cases c2 : start + (data.take hdr).length ≤ x ∧ x < start + (data.take hdr).length + (data.drop hdr).length
            · rw [if_pos c2, if_pos c2]
            · rw [if_neg c2, if_neg c2, if_neg c1]
        rw [hsw, Disk.write_append, List.take_append_drop]

/-- **C49.** Success is reported only if exactly the announced number of bytes was copied: then the device contains the image, durably, and nothing else changed; and the file had exactly this size (unless nothing was announced). -/
theorem C49_complete (f : Faults) (io : Nat → Io) (size hdr sector start : Nat) (data : Bytes) (hok : (copyRaw f io size hdr sector start data).ok = true) :
    (data.length = size ∨ (size = 0 ∧ hdr = 0)) ∧ (∃ a, (copyRaw f io size hdr sector start data).ops = a ++ [.sync]) ∧
    ∀ d : Disk, (apply d (copyRaw f io size hdr sector start data).ops).read start size = data.take size ∧
      ∀ x, x < start ∨ start + size ≤ x → apply d (copyRaw f io size hdr sector start data).ops x = d x := by
  obtain ⟨h1, h2, h3⟩ := copyRaw_ok f io size hdr sector start data hok
  refine ⟨h1, h2, fun d => ?_⟩
  rw [h3 d]
  have hl : (data.take size).length = size := by
    rw [List.length_take]; omega
  refine ⟨?_, fun x hx => Disk.write_out _ _ _ _ (by omega)⟩
  have := Disk.read_write_same d start (data.take size)
  rwa [hl] at this

/-- if there is a byte of the header area that changed, everything after the header is complete -/
theorem copyRaw_header_last (f : Faults) (io : Nat → Io) (size hdr sector start : Nat) (data : Bytes) (d d' : Disk)
    (hc : Crash d (copyRaw f io size hdr sector start data).ops d') (x : Nat) (hx : start ≤ x ∧ x < start + (data.take hdr).length) (hne : d' x ≠ d x) :
    data.length = size ∧ d'.read (start + (data.take hdr).length) (size - (data.take hdr).length) = data.drop hdr ∧ ∀ y, start ≤ y ∧ y < start + (data.take hdr).length → d' y = d y ∨ d' y = data.getD (y - start) 0 := by
  have hlen : (data.take hdr).length + (data.drop hdr).length = data.length := by
    rw [← List.length_append, List.take_append_drop]
  -- nothing of the loop is in the header area
  have hloop : ∀ d d', Crash d (copyStream io size (start + (data.take hdr).length) (data.drop hdr)).ops d' → d' x = d x := by
    intro d d' h
    exact crash_outside (fun op ho => (copyStream_within io size _ _ op ho).1) h x (by omega)
  have hloops : ∀ d d', Crash d ((copyStream io size (start + (data.take hdr).length) (data.drop hdr)).ops ++ [.sync]) d' → d' x = d x := by
    intro d d' h
    refine crash_outside (lo := start + (data.take hdr).length) (hi := start + (data.take hdr).length + size) ?_ h x (by omega)
    intro op ho
    rw [List.mem_append, List.mem_singleton] at ho
    rcases ho with ho | rfl
    · exact (copyStream_within io size _ _ op ho).1
    · trivial
  -- what follows is only a part of the header
  have main : ∀ (b : List Op), (∀ op ∈ b, op = .sync ∨ ∃ j, op = .write start ((data.take hdr).take j)) → Crash d ((copyStream io size (start + (data.take hdr).length) (data.drop hdr)).ops ++ [.sync] ++ b) d' →
      (copyStream io size (start + (data.take hdr).length) (data.drop hdr)).ok = true → (data.take hdr).length + (copyStream io size (start + (data.take hdr).length) (data.drop hdr)).read = size → (data.take hdr).length ≠ 0 →
      data.length = size ∧ d'.read (start + (data.take hdr).length) (size - (data.take hdr).length) = data.drop hdr ∧ ∀ y, start ≤ y ∧ y < start + (data.take hdr).length → d' y = d y ∨ d' y = data.getD (y - start) 0 := by
    intro b hb hcr hok hs hn0
    rcases crash_split hcr with h | h
    · exact absurd (hloops _ _ h) hne
    · rcases copyStream_ok io size _ _ hok d with ⟨z1, _, _⟩ | ⟨y1, y2, y3⟩
      · exfalso; omega
      have hwi : ∀ op ∈ b, Within start (start + (data.take hdr).length) op := by
        intro op ho
        rcases hb op ho with rfl | ⟨j, rfl⟩
        · trivial
        · exact Or.inr ⟨Nat.le_refl _, by have : ((data.take hdr).take j).length ≤ (data.take hdr).length := by { rw [List.length_take]; omega }
                                          omega⟩
      have hdone : apply d ((copyStream io size (start + (data.take hdr).length) (data.drop hdr)).ops ++ [.sync]) = d.write (start + (data.take hdr).length) (data.drop hdr) := by
        rw [apply_append, y1]; rfl
      rw [hdone] at h
      refine ⟨by omega, ?_, ?_⟩
      · have e1 : size - (data.take hdr).length = (data.drop hdr).length := by omega
        rw [e1]
        have := Disk.read_write_same d (start + (data.take hdr).length) (data.drop hdr)
        refine Eq.trans ?_ this
        rw [Disk.read_eq_iff]
        intro i hi1 hi2
        exact crash_outside hwi h i (by omega)
      · intro y hy
        obtain ⟨a', b', c', rfl, _, _, hv⟩ := h
        have key : ∀ (l : List Op), (∀ op ∈ l, op = .sync ∨ ∃ j, op = .write start ((data.take hdr).take j)) → ∀ e : Disk, (e y = d y ∨ e y = data.getD (y - start) 0) → (apply e l y = d y ∨ apply e l y = data.getD (y - start) 0) := by
          intro l
          induction l with
          | nil => intro _ e he; exact he
          | cons op l ih =>
            intro hl e he
            show apply (applyOp e op) l y = d y ∨ apply (applyOp e op) l y = data.getD (y - start) 0
            refine ih (fun o ho => hl o (List.mem_cons_of_mem _ ho)) _ ?_
            rcases hl op List.mem_cons_self with rfl | ⟨j, rfl⟩
            · exact he
            · show e.write start ((data.take hdr).take j) y = d y ∨ e.write start ((data.take hdr).take j) y = data.getD (y - start) 0
              unfold Disk.write
              split
              · rename_i hin
                right
                rw [List.take_take] at hin ⊢
                rw [List.length_take] at hin
                rw [List.getD_eq_getElem _ _ (by rw [List.length_take]; omega), List.getElem_take, List.getD_eq_getElem _ _ (by omega)]
              · exact he
        rcases hv y with hv | ⟨op, ho, hp⟩
        · rw [hv]
          refine key a' (fun op ho => hb op (by simp [ho])) _ (Or.inl ?_)
          exact Disk.write_out _ _ _ _ (by omega)
        · rcases hb op (by simp [ho]) with rfl | ⟨j, rfl⟩
          · exact hp.elim
          · right
            obtain ⟨p1, p2, p3⟩ := hp
            rw [← p3]
            rw [List.take_take] at p2 ⊢
            rw [List.length_take] at p2
            rw [List.getD_eq_getElem _ _ (by rw [List.length_take]; omega), List.getElem_take, List.getD_eq_getElem _ _ (by omega)]
  have hfull : data.take hdr = (data.take hdr).take hdr := by rw [List.take_take, Nat.min_self]
  rcases copyRaw_cases f io size hdr sector start data with h | ⟨_, r, rfl, h | ⟨hr, hs, ⟨h0, h⟩ | ⟨h0, h | ⟨j, _, h⟩ | h | h⟩⟩⟩ <;> rw [h] at hc
  · exact absurd (crash_outside (lo := 0) (hi := 0) (by simp) hc x (by omega)) hne
  · exact absurd (hloop _ _ hc) hne
  · omega
  · exact absurd (hloops _ _ hc) hne
  · refine main [.write start ((data.take hdr).take j)] ?_ (by simpa using hc) hr hs h0
    intro op ho; rw [List.mem_singleton] at ho; exact Or.inr ⟨j, ho⟩
  · refine main [.write start (data.take hdr)] ?_ (by simpa using hc) hr hs h0
    intro op ho; rw [List.mem_singleton] at ho; exact Or.inr ⟨hdr, by rw [← hfull]; exact ho⟩
  · refine main [.write start (data.take hdr), .sync] ?_ (by simpa using hc) hr hs h0
    intro op ho
    simp only [List.mem_cons, List.not_mem_nil, or_false] at ho
    rcases ho with rfl | rfl
    · exact Or.inr ⟨hdr, by rw [← hfull]⟩
    · exact Or.inl rfl

/-- **C49.** With header-last mode, whenever power is lost: as long as the rest of the image is not complete and durable, no byte of the header area has changed. -/
theorem C49_header_last (f : Faults) (io : Nat → Io) (size hdr sector start : Nat) (data : Bytes) (hlong : hdr ≤ data.length) (d d' : Disk)
    (hc : Crash d (copyRaw f io size hdr sector start data).ops d') (hrest : d'.read (start + hdr) (size - hdr) ≠ data.drop hdr) :
    d'.read start hdr = d.read start hdr := by
  rw [Disk.read_eq_iff]
  intro x h1 h2
  have hl : (data.take hdr).length = hdr := by rw [List.length_take]; omega
  refine Decidable.not_not.1 fun hne => ?_
  have := (copyRaw_header_last f io size hdr sector start data d d' hc x (by omega) hne).2.1
  rw [hl] at this
  exact hrest this

/-! ## Non-vacuity and findings for copying -/

/-- nothing fails -/
def noFail : Faults := {}
def goodIo : Nat → Io := fun _ => ⟨some 8192, none⟩

/-- without failures the loop succeeds if the data fits -/
theorem copyLoop_total (io : Nat → Io) (hio : ∀ i, (io i).read ≠ none ∧ (io i).write = none) (size i sum pos : Nat) (rest : Bytes) (hs : sum + rest.length ≤ size) :
    (copyLoop io size i sum pos rest).ok = true := by
  induction h : rest.length using Nat.strongRecOn generalizing i sum pos rest with
  | _ n ih =>
    subst h
    rw [copyLoop.eq_def]
    obtain ⟨h1, h2⟩ := hio i
    cases hk : (io i).read with
    | none => exact absurd hk h1
    | some k =>
      have hcl := congrArg List.length (chunk_prefix k rest)
      simp only [List.length_append] at hcl
      simp only [h2]
      rw [if_neg (by omega)]
      split
      · rfl
      · rename_i hne
        exact ih _ (drop_lt k rest hne) (i + 1) _ _ _ (by rw [List.length_drop]; omega) rfl

/-- without failures, an image of the announced size is copied successfully: the hypotheses of `C49_complete` are met by every image -/
theorem copyRaw_total (io : Nat → Io) (hio : ∀ i, (io i).read ≠ none ∧ (io i).write = none) (hdr sector start : Nat) (hh : hdr = 0 ∨ hdr = sector) (data : Bytes) :
    (copyRaw noFail io data.length hdr sector start data).ok = true := by
  have hlen : (data.take hdr).length + (data.drop hdr).length = data.length := by
    rw [← List.length_append, List.take_append_drop]
  unfold copyRaw
  rw [if_neg (by simp [noFail]), if_neg (by omega), if_neg (by simp [noFail])]
  simp only [take_drop_length]
  have hst : (copyStream io data.length (start + (data.take hdr).length) (data.drop hdr)).ok = true ∧
      (copyStream io data.length (start + (data.take hdr).length) (data.drop hdr)).read = (data.drop hdr).length := by
    have hok : (copyStream io data.length (start + (data.take hdr).length) (data.drop hdr)).ok = true := by
      unfold copyStream
      split
      · rfl
      · exact copyLoop_total io hio _ _ _ _ _ (by omega)
    refine ⟨hok, ?_⟩
    rcases copyStream_ok io _ _ _ hok (fun _ => 0) with ⟨z1, _, z3⟩ | ⟨_, z2, _⟩
    · omega
    · exact z2
  rw [if_neg (by rw [hst.1]; simp), if_neg (by omega)]
  split
  · simp [noFail]
  · simp [noFail]

/-- **C49, finding.** With header-last mode, the header does not count for the limit: if the file is longer than announced by one header, the copy fails, but only after all of the file has been written -- a header beyond the
announced size. -/
theorem C49_finding_header (io : Nat → Io) (hio : ∀ i, (io i).read ≠ none ∧ (io i).write = none) (hdr start : Nat) (hh : 0 < hdr) (data : Bytes) (hl : 2 * hdr ≤ data.length) (d : Disk) :
    (copyRaw noFail io (data.length - hdr) hdr hdr start data).ok = false ∧
    (apply d (copyRaw noFail io (data.length - hdr) hdr hdr start data).ops).read (start + (data.length - hdr)) hdr = data.drop (data.length - hdr) := by
  have ht : (data.take hdr).length = hdr := by rw [List.length_take]; omega
  have hdl : (data.drop hdr).length = data.length - hdr := List.length_drop
  have hok : (copyStream io (data.length - hdr) (start + hdr) (data.drop hdr)).ok = true := by
    unfold copyStream
    rw [if_neg (by omega)]
    exact copyLoop_total io hio _ _ _ _ _ (by omega)
  have hcr : copyRaw noFail io (data.length - hdr) hdr hdr start data = ⟨(copyStream io (data.length - hdr) (start + hdr) (data.drop hdr)).ops, false⟩ := by
    unfold copyRaw
    rw [if_neg (by simp [noFail]), if_neg (by omega), if_neg (by simp [noFail])]
    simp only [take_drop_length, ht]
    rw [if_neg (by simp [hok])]
    rcases copyStream_ok io _ _ _ hok d with ⟨z1, _, _⟩ | ⟨_, z2, _⟩
    · omega
    · rw [if_pos (by omega)]
  rw [hcr]
  refine ⟨rfl, ?_⟩
  rcases copyStream_ok io _ _ _ hok d with ⟨z1, _, _⟩ | ⟨z1, _, _⟩
  · omega
  · show (apply d (copyStream io (data.length - hdr) (start + hdr) (data.drop hdr)).ops).read _ _ = _
    rw [z1]
    have h1 := Disk.read_write_same d (start + hdr) (data.drop hdr)
    have h2 : (data.drop hdr).length = (data.length - 2 * hdr) + hdr := by omega
    rw [h2, Disk.read_append] at h1
    have h3 : start + hdr + (data.length - 2 * hdr) = start + (data.length - hdr) := by omega
    rw [h3] at h1
    have h4 := congrArg (List.drop (data.length - 2 * hdr)) h1
    rw [List.drop_append_of_le_length (by rw [Disk.read_length]; exact Nat.le_refl _), List.drop_eq_nil_of_le (by rw [Disk.read_length]; exact Nat.le_refl _), List.nil_append, List.drop_drop] at h4
    rw [h4]
    congr 1
    omega

/-- the hypotheses of `C49_header_last` are met when power is lost before the data was synced -/
example : ∃ d', Crash (fun _ => 7) (copyRaw noFail goodIo 3 1 1 0 [1, 2, 3]).ops d' ∧ d'.read 1 2 ≠ [2, 3] := ⟨_, crash_refl _ _, by decide⟩

/-! ## Copying to a whole device -/

/-- **C49.** Copying to a slot never writes beyond the end of its block device, nor beyond its size limit, and success means that the image is on the device durably. -/
theorem C49_device (openFails closeFails : Bool) (f : Faults) (io : Nat → Io) (limit : Nat) (dev : Option Nat) (size sector : Nat) (data : Bytes) :
    (∀ d d', Crash d (copyToDev openFails closeFails f io limit dev size sector data).ops d' →
      ∀ x, size ≤ x ∨ (0 < limit ∧ limit ≤ x) ∨ (∃ n, dev = some n ∧ n ≤ x) → d' x = d x) ∧
    ((copyToDev openFails closeFails f io limit dev size sector data).ok = true →
      (size = 0 ∨ data.length = size) ∧ (∃ a, (copyToDev openFails closeFails f io limit dev size sector data).ops = a ++ [.sync]) ∧
      ∀ d, (apply d (copyToDev openFails closeFails f io limit dev size sector data).ops).read 0 size = data.take size) := by
  have triv : (∀ d d', Crash d [] d' → ∀ x, size ≤ x ∨ (0 < limit ∧ limit ≤ x) ∨ (∃ n, dev = some n ∧ n ≤ x) → d' x = d x) :=
    fun d d' hc x _ => crash_outside (lo := 0) (hi := 0) (by simp) hc x (by omega)
  unfold copyToDev
  by_cases h1 : openFails = true
  · rw [if_pos h1]; exact ⟨triv, fun h => by cases h⟩
  rw [if_neg h1]
  by_cases h2 : checkImageSize limit dev size = true
  rotate_left
  · rw [if_pos (by simpa using h2)]; exact ⟨triv, fun h => by cases h⟩
  rw [if_neg (by simpa using h2)]
  have hlim : (0 < limit → size ≤ limit) ∧ ∀ n, dev = some n → size ≤ n := by
    unfold checkImageSize at h2
    split at h2
    · cases h2
    · rename_i hl
      refine ⟨fun h0 => by omega, ?_⟩
      rintro n rfl
      simpa using h2
  have hw : ∀ d d', Crash d (copyRaw f io size 0 sector 0 data).ops d' →
      ∀ x, size ≤ x ∨ (0 < limit ∧ limit ≤ x) ∨ (∃ n, dev = some n ∧ n ≤ x) → d' x = d x := by
    intro d d' hc x hx
    refine C49_within f io size 0 sector 0 data (Or.inl rfl) d d' hc x (Or.inr ?_)
    rcases hx with hx | ⟨h0, hx⟩ | ⟨n, hn, hx⟩
    · omega
    · have := hlim.1 h0; omega
    · have := hlim.2 n hn; omega
  simp only []
  by_cases h3 : ((copyRaw f io size 0 sector 0 data).ok && closeFails) = true
  · rw [if_pos h3]; exact ⟨hw, fun h => by cases h⟩
  · rw [if_neg h3]
    refine ⟨hw, fun hok => ?_⟩
    obtain ⟨c1, c2, c3⟩ := C49_complete f io size 0 sector 0 data hok
    exact ⟨by omega, c2, fun d => (c3 d).1⟩

/-- an image that fits is installed -/
example : (copyToDev false false noFail goodIo 0 (some 4) 3 512 [1, 2, 3]).ok = true := by
  have := copyRaw_total goodIo (fun _ => ⟨by simp [goodIo], rfl⟩) 0 512 0 (Or.inl rfl) [1, 2, 3]
  simpa [copyToDev, checkImageSize] using this

/-! ## Clearing a partition -/

theorem clearLoop_within (counts : Nat → Option Nat) (size : Nat) (hs : size < 4294967296) (fuel i cnt pos : Nat) (hc : cnt ≤ size) :
    ∀ op ∈ (clearLoop counts size fuel i cnt pos).1, Within pos (pos + (size - cnt)) op ∧ ∃ o w, op = .write o (List.replicate w 0) := by
  induction fuel generalizing i cnt pos with
  | zero => intro op ho; cases ho
  | succ n ih =>
    intro op ho
    unfold clearLoop at ho
    split at ho
    · simp only [] at ho
      split at ho
      · cases ho
      · rename_i hlt _ c _
        have hw : min (min 512 (size - cnt)) c ≤ size - cnt := by omega
        rw [Nat.mod_eq_of_lt (show cnt + min (min 512 (size - cnt)) c < 4294967296 by omega)] at ho
        rcases List.mem_cons.1 ho with rfl | ho
        · exact ⟨Or.inr ⟨Nat.le_refl _, by rw [List.length_replicate]; omega⟩, _, _, rfl⟩
        · obtain ⟨h1, h2⟩ := ih (i + 1) _ _ (by omega) op ho
          exact ⟨h1.mono (by omega) (by omega), h2⟩
    · cases ho

theorem clearLoop_ok (counts : Nat → Option Nat) (size : Nat) (hs : size < 4294967296) (fuel i cnt pos : Nat) (hc : cnt ≤ size) (hok : (clearLoop counts size fuel i cnt pos).2 = some size) (d : Disk) :
    apply d (clearLoop counts size fuel i cnt pos).1 = d.write pos (List.replicate (size - cnt) 0) := by
  induction fuel generalizing i cnt pos d with
  | zero => cases hok
  | succ n ih =>
    unfold clearLoop at hok ⊢
    by_cases hlt : cnt < size
    · rw [if_pos hlt] at hok ⊢
      simp only [] at hok ⊢
      cases hcn : counts i with
      | none => simp only [hcn] at hok; injection hok; omega
      | some c =>
        simp only [hcn] at hok ⊢
        have hw : min (min 512 (size - cnt)) c ≤ size - cnt := by omega
        rw [Nat.mod_eq_of_lt (show cnt + min (min 512 (size - cnt)) c < 4294967296 by omega)] at hok ⊢
        show apply (d.write pos _) _ = _
        rw [ih (i + 1) _ _ (by omega) hok]
        have := Disk.write_append d pos (List.replicate (min (min 512 (size - cnt)) c) 0) (List.replicate (size - (cnt + min (min 512 (size - cnt)) c)) 0)
        rw [List.length_replicate] at this
        rw [this, List.replicate_append_replicate]
        congr 2
        omega
    · rw [if_neg hlt]
      have : size - cnt = 0 := by omega
      rw [this]
      simp [apply, Disk.write_nil]

theorem clearLoop_end (counts : Nat → Option Nat) (hcs : ∀ i c, counts i = some c → 1 ≤ c) (size : Nat) (hs : size < 4294967296) (fuel i cnt pos : Nat) (hc : cnt ≤ size) (hf : size - cnt < fuel) :
    (clearLoop counts size fuel i cnt pos).2 ≠ none := by
  induction fuel generalizing i cnt pos with
  | zero => omega
  | succ n ih =>
    unfold clearLoop
    split
    · rename_i hlt
      simp only []
      split
      · simp
      · rename_i c hcn
        have h1 := hcs _ _ hcn
        rw [Nat.mod_eq_of_lt (show cnt + min (min 512 (size - cnt)) c < 4294967296 by omega)]
        exact ih _ _ _ (by omega) (by omega)
    · simp

/-- for partitions of less than 4 GiB: clearing writes only inside of the partition, and only zeroes; it ends, and success means that the partition is zeroed -/
theorem clear_small (openFails : Bool) (counts : Nat → Option Nat) (hcs : ∀ i c, counts i = some c → 1 ≤ c) (fuel start size : Nat) (hs : size < 4294967296) :
    (∀ op ∈ (clearPartition openFails counts fuel start size).ops, Within start (start + size) op ∧ ∃ o w, op = .write o (List.replicate w 0)) ∧
    ((clearPartition openFails counts fuel start size).ok = true → ∀ d, apply d (clearPartition openFails counts fuel start size).ops = d.write start (List.replicate size 0)) ∧
    (size < fuel → (clearLoop counts size fuel 0 0 start).2 ≠ none) := by
  refine ⟨?_, ?_, fun h => clearLoop_end counts hcs size hs fuel 0 0 start (by omega) (by omega)⟩
  · intro op ho
    unfold clearPartition at ho
    split at ho
    · cases ho
    · split at ho
      · cases ho
      · have := clearLoop_within counts size hs fuel 0 0 start (by omega) op ho
        exact ⟨this.1.mono (Nat.le_refl _) (by omega), this.2⟩
  · intro hok d
    unfold clearPartition at hok ⊢
    split at hok
    · cases hok
    · rename_i h1
      rw [if_neg h1]
      split at hok
      · cases hok
      · rename_i h2
        rw [if_neg h2]
        have := clearLoop_ok counts size hs fuel 0 0 start (by omega) (by simpa using hok) d
        simpa using this

/-- **C41, finding.** The counter that is used for clearing a partition has 32 bits: if the partition has 4 GiB or more, clearing never ends (it stays without result for any number of iterations), and it writes zeroes at every
sector from the start of the partition on, without end -- also beyond the end of the partition. -/
theorem C41_finding_clear_forever (size : Nat) (hs : 4294967296 ≤ size) (start fuel : Nat) :
    (clearLoop (fun _ => some 512) size fuel 0 0 start).2 = none ∧
    ∀ i < fuel, .write (start + 512 * i) (List.replicate 512 0) ∈ (clearLoop (fun _ => some 512) size fuel 0 0 start).1 := by
  have key : ∀ fuel i cnt pos, cnt % 512 = 0 → cnt < 4294967296 → (clearLoop (fun _ => some 512) size fuel i cnt pos).2 = none ∧
      ∀ i' < fuel, .write (pos + 512 * i') (List.replicate 512 0) ∈ (clearLoop (fun _ => some 512) size fuel i cnt pos).1 := by
    intro fuel
    induction fuel with
    | zero => intro i cnt pos _ _; exact ⟨rfl, fun i' h => by omega⟩
    | succ n ih =>
      intro i cnt pos h1 h2
      unfold clearLoop
      rw [if_pos (by omega)]
      simp only []
      have hm : min (min 512 (size - cnt)) 512 = 512 := by omega
      rw [hm]
      obtain ⟨k1, k2⟩ := ih (i + 1) ((cnt + 512) % 4294967296) (pos + 512) (by omega) (Nat.mod_lt _ (by omega))
      refine ⟨k1, ?_⟩
      intro i' hi'
      rcases i' with _ | i'
      · exact List.mem_cons_self
      · have := k2 i' (by omega)
        have e : pos + 512 * (i' + 1) = pos + 512 + 512 * i' := by omega
        rw [e]
        exact List.mem_cons_of_mem _ this
  exact key fuel 0 0 start rfl (by omega)

end Rauc.Copy
