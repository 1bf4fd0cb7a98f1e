import Verif.Model.Create
import Verif.Props.Bundle
import Verif.Props.Crypt
import Verif.Props.ManifestRound2

/-!
# Lemmas for C61: verity data of files, digests of manifests
-/

namespace Rauc.Verity

theorem createBlocks_size {P : Par} {H : Bytes → Bytes} (hH : ∀ b, (H b).length = P.D) {rd wr : Nat} : ∀ m i f f',
    createBlocks P H rd wr m i f = some f' → f.size ≤ f'.size ∧ f'.size ≤ max f.size (wr * P.B + (i + m) * P.D) := by
  intro m
  induction m with
  | zero => intro i f f' h; cases h; exact ⟨le_refl _, le_max_left _ _⟩
  | succ m ih =>
    intro i f f' h
    simp only [createBlocks] at h
    split at h
    · cases h
    obtain ⟨h1, h2⟩ := ih _ _ _ h
    simp only [File.write, hH] at h1 h2
    have e : (i + 1 + m) = (i + (m + 1)) := by omega
    rw [e] at h2
    have e2 : i * P.D + P.D ≤ (i + (m + 1)) * P.D := by
      have := Nat.mul_le_mul_right P.D (show i + 1 ≤ i + (m + 1) by omega)
      rw [Nat.add_mul, Nat.one_mul] at this
      exact this
    generalize (i + (m + 1)) * P.D = q at *
    generalize i * P.D = r at *
    generalize wr * P.B = s at *
    omega

theorem createLevel_size {P : Par} (w : P.WF) {H : Bytes → Bytes} (hH : ∀ b, (H b).length = P.D) {rd wr blocks : Nat} {f f' : File}
    (h : createLevel P H rd wr blocks f = some f') : f.size ≤ f'.size ∧ f'.size ≤ max f.size ((wr + P.up blocks) * P.B) := by
  unfold createLevel at h
  split at h
  · cases h
  rename_i f1 h1
  cases h
  obtain ⟨h2, h3⟩ := createBlocks_size hH _ _ _ _ h1
  have := up_mul P w blocks
  simp only [File.write, List.length_replicate]
  rw [Nat.zero_add] at h3
  rw [Nat.add_mul]
  generalize P.up blocks * P.B = q at *
  generalize blocks * P.D = r at *
  generalize wr * P.B = s at *
  omega

theorem createLevels_size {P : Par} (w : P.WF) {H : Bytes → Bytes} (hH : ∀ b, (H b).length = P.D) {n L : Nat} : ∀ m i f f', i + m = L →
    createLevels P H n L m i f = some f' → f.size ≤ f'.size ∧ f'.size ≤ max f.size (endPos P n L n * P.B) := by
  intro m
  induction m with
  | zero => intro i f f' _ h; cases h; exact ⟨le_refl _, le_max_left _ _⟩
  | succ m ih =>
    intro i f f' hi h
    simp only [createLevels] at h
    split at h
    · cases h
    rename_i f1 h1
    obtain ⟨h2, h3⟩ := createLevel_size w hH h1
    obtain ⟨h4, h5⟩ := ih _ _ _ (by omega) h
    have hp := (posOf_bounds P n L n i (by omega)).2
    rw [levelSize_up w n L i] at hp
    have := Nat.mul_le_mul_right P.B hp
    omega

/-- the file that contains the data and the tree ends at the number of blocks returned -/
theorem create_size {P : Par} (w : P.WF) {H : Bytes → Bytes} (hH : ∀ b, (H b).length = P.D) {n : Nat} {f f' : File} {root : Bytes} {total : Nat}
    (hf : f.size = n * P.B) (h : create P H n f = some (f', root, total)) : f'.size = total * P.B := by
  obtain ⟨-, -, h1, h2⟩ := C31_roundtrip P w H hH n f f' root total h
  unfold create at h
  split at h
  · split at h
    · cases h
    rename_i f1 hf1
    split at h
    · cases h
    cases h
    obtain ⟨h3, h4⟩ := createLevels_size w hH _ _ _ _ (by omega) hf1
    have := Nat.mul_le_mul_right P.B h1
    omega
  · cases h

/-- `g` contains at least what `f` does -/
def Ext (f g : File) : Prop := ∀ off n b, f.read? off n = some b → g.read? off n = some b

theorem Ext.blocks {f g : File} (e : Ext f g) {P : Par} {H : Bytes → Bytes} {rd wr : Nat} : ∀ m i, verifyBlocks P H rd wr f m i = true → verifyBlocks P H rd wr g m i = true := by
  intro m
  induction m with
  | zero => intro i _; rfl
  | succ m ih =>
    intro i h
    simp only [verifyBlocks] at h ⊢
    split at h
    · cases h
    rename_i b hb
    rw [e _ _ _ hb]
    split at h
    · cases h
    rename_i x hx
    rw [e _ _ _ hx]
    split at h
    · rename_i hh
      simp only [if_pos hh]
      exact ih _ h
    · cases h

theorem Ext.zero {f g : File} (e : Ext f g) {off n : Nat} (h : verifyZero f off n = true) : verifyZero g off n = true := by
  unfold verifyZero at h ⊢
  split at h
  · rename_i h0; rw [if_pos h0]
  rename_i h0
  rw [if_neg h0]
  split at h
  · cases h
  rename_i b hb
  rw [e _ _ _ hb]
  exact h

theorem Ext.verify {f g : File} (e : Ext f g) {P : Par} {H : Bytes → Bytes} {n : Nat} {root : Bytes} (h : verify P H n root f = true) : verify P H n root g = true := by
  unfold Verity.verify at h ⊢
  simp only [Bool.and_eq_true] at h ⊢
  obtain ⟨⟨h1, h2⟩, h3⟩ := h
  refine ⟨⟨h1, ?_⟩, ?_⟩
  · rw [verifyLevels_iff] at h2 ⊢
    intro j hj1 hj2
    have := h2 j hj1 hj2
    unfold verifyLevel at this ⊢
    simp only [Bool.and_eq_true] at this ⊢
    exact ⟨e.blocks _ _ this.1, e.zero this.2⟩
  · split at h3
    · cases h3
    rename_i r hr
    have : rootOf P H n (levels P n) g = some r := by
      unfold rootOf at hr ⊢
      rw [Option.map_eq_some_iff] at hr ⊢
      obtain ⟨a, h4, h5⟩ := hr
      exact ⟨a, e _ _ _ h4, h5⟩
    rw [this]
    exact h3

end Rauc.Verity

namespace Rauc.Create

open Bundle (fileDisk)

theorem bytesOf_length (f : Verity.File) : (bytesOf f).length = f.size := Disk.read_length _ _ _

/-- reading a file that starts with the bytes of another one -/
theorem ext_append (f : Verity.File) (rest : Bytes) : Verity.Ext f (fileDisk (bytesOf f ++ rest)) := by
  intro off n b h
  unfold Verity.File.read? at h ⊢
  split at h
  · rename_i hl
    cases h
    rw [if_pos (by simp only [fileDisk, List.length_append, bytesOf_length]; omega)]
    congr 1
    rw [Disk.read_eq_iff]
    intro x hx1 hx2
    have hx : x < (bytesOf f).length := by rw [bytesOf_length]; omega
    simp only [fileDisk]
    rw [List.getD_append _ _ _ _ hx, List.getD_eq_getElem _ _ hx]
    have := Disk.read_get f.data 0 f.size x (by omega)
    rw [Nat.zero_add] at this
    exact this
  · cases h

theorem read_fileDisk (p : Bytes) : (fileDisk p).data.read 0 p.length = p := by
  apply List.ext_getElem
  · rw [Disk.read_length]
  intro i h1 h2
  rw [Disk.read_get _ _ _ _ h2, Nat.zero_add]
  exact List.getD_eq_getElem _ _ h2

theorem read_take (d : Disk) (n m : Nat) (h : n ≤ m) : (d.read 0 m).take n = d.read 0 n := by
  unfold Disk.read
  rw [← List.map_take, List.take_range, Nat.min_eq_left h]

theorem rootOf_length {P : Verity.Par} {H : Bytes → Bytes} (hH : ∀ b, (H b).length = P.D) {n L : Nat} {f : Verity.File} {r : Bytes}
    (h : Verity.rootOf P H n L f = some r) : r.length = P.D := by
  unfold Verity.rootOf at h
  rw [Option.map_eq_some_iff] at h
  obtain ⟨b, -, rfl⟩ := h
  exact hH b

theorem code_wf : Verity.code.WF := ⟨rfl, by decide, by decide⟩

theorem C31_roundtrip_use (T : Tools) (salt : Bytes) (hsha : ∀ b, (T.sha b).length = 32) {n : Nat} {f f' : Verity.File} {root : Bytes} {total : Nat}
    (h : Verity.create Verity.code (fun b => T.sha (salt ++ b)) n f = some (f', root, total)) :
    Verity.verify Verity.code (fun b => T.sha (salt ++ b)) n root f' = true ∧ f'.data.read 0 (n * Verity.code.B) = f.data.read 0 (n * Verity.code.B) ∧
    n ≤ total ∧ total * Verity.code.B ≤ max f'.size (n * Verity.code.B) :=
  Verity.C31_roundtrip Verity.code code_wf _ (fun b => hsha (salt ++ b)) n f f' root total h

/-- what `create_verity` appends to the payload -/
theorem createVerity_spec {T : Tools} (hsha : ∀ b, (T.sha b).length = 32) {R : Run} {m m' : Manifest} {p f : Bytes} (h : createVerity T R m p = some (m', f)) :
    ∃ salt root tree : Bytes, R.salt = some salt ∧ root.length = 32 ∧ f = p ++ tree ∧ p.length % 4096 = 0 ∧ 4096 < p.length ∧ tree.length % 4096 = 0 ∧ tree.length < 2 ^ 64 ∧
      m' = { m with veritySalt := some (Utils.hexEncode salt), verityHash := some (Utils.hexEncode root), veritySize := tree.length } ∧
      ∀ rest, Bundle.verityFile T.sha fileDisk (f ++ rest) (p.length / 4096) root salt = true := by
  unfold createVerity at h
  split at h
  · cases h
  rename_i salt hs
  split at h
  · cases h
  rename_i hp
  split at h
  · cases h
  rename_i f1 root total hc
  simp only [Option.some.injEq, Prod.mk.injEq] at h
  obtain ⟨rfl, rfl⟩ := h
  have hmod : p.length % 4096 = 0 := by omega
  have hlen : 4096 < p.length := by omega
  have hn : (fileDisk p).size = p.length / 4096 * Verity.code.B := by
    simp only [fileDisk, Verity.code]; omega
  have hsize := Verity.create_size code_wf (fun b => hsha (salt ++ b)) hn hc
  obtain ⟨h1, h2, h3, -⟩ := C31_roundtrip_use T salt hsha hc
  have hB : Verity.code.B = 4096 := rfl
  rw [hB] at hsize h2
  have hpl : p.length / 4096 * 4096 = p.length := by omega
  rw [hpl, read_fileDisk] at h2
  have hle : p.length ≤ f1.size := by omega
  have hpre : (bytesOf f1).take p.length = p := by
    unfold bytesOf
    rw [read_take _ _ _ hle, h2]
  have htl : ((bytesOf f1).drop p.length).length = total * 4096 - p.length := by
    rw [List.length_drop, bytesOf_length, hsize]
  refine ⟨salt, root, (bytesOf f1).drop p.length, hs, ?_, ?_, hmod, hlen, ?_, ?_, ?_, ?_⟩
  · unfold Verity.create at hc
    split at hc
    · split at hc
      · cases hc
      · split at hc
        · cases hc
        · rename_i r hr
          cases hc
          exact rootOf_length (P := Verity.code) (fun b => hsha (salt ++ b)) hr
    · cases hc
  · conv => lhs; rw [← List.take_append_drop p.length (bytesOf f1), hpre]
  · rw [htl]; omega
  · rw [htl]
    unfold Verity.create at hc
    split at hc
    · rename_i hso
      rw [Verity.sizesOk_iff] at hso
      split at hc
      · cases hc
      · split at hc
        · cases hc
        · cases hc
          have := hso.2.2
          rw [hB] at this
          omega
    · cases hc
  · rw [htl]
  · intro rest
    exact (ext_append f1 rest).verify h1

end Rauc.Create
