import Verif.Model.Bundle
import Mathlib.Data.List.Induction

/-!
# C32: the bundle trailer
-/

namespace Rauc.Bundle

/-! ## Specification -/

/-- A bundle file: payload, signature, and the length of the signature in eight bytes, most significant first. -/
def BundleFile (f payload sig : Bytes) : Prop := f = payload ++ sig ++ beBytes 8 sig.length

/-! ## Big-endian numbers -/

theorem beVal_snoc (l : Bytes) (b : UInt8) : beVal (l ++ [b]) = beVal l * 256 + b.toNat := by
  simp [beVal]

theorem beBytes_length (k n : Nat) : (beBytes k n).length = k := by
  induction k generalizing n with
  | zero => rfl
  | succ k ih => simp [beBytes, ih]

theorem beVal_beBytes (k n : Nat) : beVal (beBytes k n) = n % 256 ^ k := by
  induction k generalizing n with
  | zero => simp [beBytes, beVal, Nat.mod_one]
  | succ k ih =>
    rw [beBytes, beVal_snoc, ih, UInt8.toNat_ofNat']
    have e : 256 ^ (k + 1) = 256 * 256 ^ k := by rw [Nat.pow_succ, Nat.mul_comm]
    rw [e, Nat.mod_mul]
    omega

theorem beVal_lt (l : Bytes) : beVal l < 256 ^ l.length := by
  induction l using List.reverseRecOn with
  | nil => simp [beVal]
  | append_singleton l b ih =>
    rw [beVal_snoc]
    have := b.toNat_lt
    simp only [List.length_append, List.length_cons, List.length_nil, Nat.pow_succ]
    omega

theorem beBytes_beVal (l : Bytes) : beBytes l.length (beVal l) = l := by
  induction l using List.reverseRecOn with
  | nil => rfl
  | append_singleton l b ih =>
    have := b.toNat_lt
    rw [beVal_snoc]
    simp only [List.length_append, List.length_cons, List.length_nil, beBytes]
    have h1 : (beVal l * 256 + b.toNat) / 256 = beVal l := by omega
    have h2 : (beVal l * 256 + b.toNat) % 256 = b.toNat := by omega
    rw [h1, h2, ih]
    simp

/-- every number below 2^64 is represented by its eight bytes -/
theorem beVal_trailer (n : Nat) (h : n < 2 ^ 64) : beVal (beBytes 8 n) = n := by
  rw [beVal_beBytes]
  exact Nat.mod_eq_of_lt h

/-! ## Opening -/

theorem fileRead_append (a b c : Bytes) : fileRead (a ++ b ++ c) a.length b.length = some b := by
  unfold fileRead
  rw [if_pos (by simp only [List.length_append]; omega)]
  simp [List.append_assoc]

theorem openWith_file (aligned : Bool) (maxSig : Nat) (f : Bytes) (n : Nat) (s : Bytes) :
    openWith aligned maxSig f.length (fileRead f) = some ⟨n, s⟩ ↔
      ∃ p, BundleFile f p s ∧ p.length = n ∧ s ≠ [] ∧ s.length ≤ maxSig ∧ s.length < 2 ^ 64 ∧ (aligned = true → 4096 ∣ n) := by
  constructor
  · intro h
    unfold openWith at h
    split at h
    · cases h
    · rename_i hlen
      have hr : fileRead f (f.length - 8) 8 = some (f.drop (f.length - 8)) := by
        unfold fileRead
        rw [if_pos (by omega), List.take_of_length_le]
        simp
        omega
      simp only [hr] at h
      have htl : (f.drop (f.length - 8)).length = 8 := by simp; omega
      generalize htt : f.drop (f.length - 8) = t at h htl
      split at h
      · cases h
      split at h
      · cases h
      split at h
      · cases h
      split at h
      · cases h
      rename_i h0 h1 h2 h3
      have hr2 : fileRead f (f.length - 8 - beVal t) (beVal t) = some ((f.drop (f.length - 8 - beVal t)).take (beVal t)) := by
        unfold fileRead
        rw [if_pos (by omega)]
      simp only [hr2] at h
      have hn : f.length - 8 - beVal t = n := by
        injection h with h; injection h
      have hs : (f.drop (f.length - 8 - beVal t)).take (beVal t) = s := by
        injection h with h; injection h
      have hsl : s.length = beVal t := by
        rw [← hs]; simp; omega
      refine ⟨f.take n, ?_, ?_, ?_, ?_, ?_, ?_⟩
      · unfold BundleFile
        have ht8 : beBytes 8 s.length = t := by
          rw [hsl]
          have := beBytes_beVal t
          rwa [htl] at this
        rw [ht8]
        have e1 : f = f.take n ++ f.drop n := (List.take_append_drop n f).symm
        have e2 : f.drop n = (f.drop n).take (beVal t) ++ (f.drop n).drop (beVal t) := (List.take_append_drop _ _).symm
        have e3 : (f.drop n).drop (beVal t) = t := by
          have e : n + beVal t = f.length - 8 := by omega
          rw [List.drop_drop, e]; exact htt
        rw [hn] at hs
        rw [e3, hs] at e2
        rw [e2, ← List.append_assoc] at e1
        exact e1
      · simp; omega
      · intro e; rw [e] at hsl; exact h0 hsl.symm
      · omega
      · rw [hsl]
        have := beVal_lt t
        rw [htl] at this
        simpa using this
      · intro ha
        rw [ha] at h3
        simp at h3
        rw [hn] at h3
        omega
  · rintro ⟨p, hf, hp, hs, hm, hl, ha⟩
    unfold BundleFile at hf
    have hbl := beBytes_length 8 s.length
    have hfl : f.length = n + s.length + 8 := by
      rw [hf]; simp only [List.length_append, hbl]; omega
    have hsl : s.length ≠ 0 := by simpa using hs
    have hr : fileRead f (f.length - 8) 8 = some (beBytes 8 s.length) := by
      have := fileRead_append (p ++ s) (beBytes 8 s.length) []
      rw [List.append_nil, ← hf, hbl] at this
      rw [← this]; congr 1; simp; omega
    have hr2 : fileRead f n s.length = some s := by
      have := fileRead_append p s (beBytes 8 s.length)
      rwa [← hf, hp] at this
    unfold openWith
    rw [if_neg (by omega)]
    simp only [hr, beVal_trailer _ hl]
    rw [if_neg hsl, if_neg (by omega), if_neg (by omega)]
    have e : f.length - 8 - s.length = n := by omega
    rw [e, hr2]
    rw [if_neg]
    simp
    intro h
    have := ha h
    omega

/-- **C32** Opening a local bundle succeeds, with payload size `n` and signature `s`, exactly if it is a regular file which consists of `n` bytes of payload,
the signature and the eight-byte big-endian length of the signature, where the signature is not empty and not larger than the configured maximum. -/
theorem C32_open_local (maxSig : Nat) (regular : Bool) (f : Bytes) (n : Nat) (s : Bytes) :
    openLocal maxSig regular f = some ⟨n, s⟩ ↔
      regular = true ∧ ∃ p, BundleFile f p s ∧ p.length = n ∧ s ≠ [] ∧ s.length ≤ maxSig ∧ s.length < 2 ^ 64 := by
  unfold openLocal
  cases regular
  · simp
  · simp only [Bool.not_true, Bool.false_eq_true, if_false, true_and]
    rw [openWith_file]
    simp

/-- The split is unique: payload and signature are determined by the file. -/
theorem C32_unique (f p s p' s' : Bytes) (h : BundleFile f p s) (h' : BundleFile f p' s') (hl : s.length < 2 ^ 64) (hl' : s'.length < 2 ^ 64) :
    p = p' ∧ s = s' := by
  unfold BundleFile at h h'
  have e := h.symm.trans h'
  have ht := List.append_inj' e (by rw [beBytes_length, beBytes_length])
  have hsl : s.length = s'.length := by
    have := congrArg beVal ht.2
    rwa [beVal_trailer _ hl, beVal_trailer _ hl'] at this
  exact List.append_inj' ht.1 hsl

/-- a server that delivers slices of a file, or fails -/
def Serves (f : Bytes) (read : Nat → Nat → Option Bytes) : Prop :=
  ∀ off len r, read off len = some r → fileRead f off len = some r

/-- **C32** (streaming) Whatever the server answers or fails to answer: if its answers are parts of a file of the announced size, then opening a remote bundle
yields the payload size and the signature of that file, and the payload consists of whole 4096-byte blocks. -/
theorem C32_open_remote (maxSig : Nat) (f : Bytes) (read : Nat → Nat → Option Bytes) (hs : Serves f read) (n : Nat) (s : Bytes)
    (h : openWith true maxSig f.length read = some ⟨n, s⟩) :
    ∃ p, BundleFile f p s ∧ p.length = n ∧ s ≠ [] ∧ s.length ≤ maxSig ∧ 4096 ∣ n := by
  have key : openWith true maxSig f.length (fileRead f) = some ⟨n, s⟩ := by
    unfold openWith at h ⊢
    split at h
    · cases h
    rename_i h8
    rw [if_neg h8]
    cases hr : read (f.length - 8) 8 with
    | none => simp only [hr] at h; cases h
    | some t =>
      have ht := hs _ _ _ hr
      simp only [hr] at h
      simp only [ht]
      split at h
      · cases h
      rename_i a
      rw [if_neg a]
      split at h
      · cases h
      rename_i a
      rw [if_neg a]
      split at h
      · cases h
      rename_i a
      rw [if_neg a]
      split at h
      · cases h
      rename_i a
      rw [if_neg a]
      cases hr2 : read (f.length - 8 - beVal t) (beVal t) with
      | none => simp only [hr2] at h; cases h
      | some s' =>
        simp only [hr2] at h
        simp only [hs _ _ _ hr2]
        exact h
  obtain ⟨p, h1, h2, h3, h4, _, h6⟩ := (openWith_file _ _ _ _ _).1 key
  exact ⟨p, h1, h2, h3, h4, h6 rfl⟩

/-- **C32** (streaming, as a bundle is opened) The bundle that is opened from a server consists of whole 4096-byte blocks, and its payload is not
kept locally. -/
theorem C32_bundle_remote (cfg : Config) (f : Bytes) (read : Nat → Nat → Option Bytes) (hs : Serves f read) (started : Bool) (st : Option Bytes) (n : Nat) (s : Bytes)
    (h : openBundle cfg (.remote started f.length read) = some (st, ⟨n, s⟩)) :
    started = true ∧ st = none ∧ ∃ p, BundleFile f p s ∧ p.length = n ∧ s ≠ [] ∧ s.length ≤ cfg.maxSig ∧ 4096 ∣ n := by
  unfold openBundle at h
  cases started
  · cases h
  · dsimp only at h
    rw [if_neg (by decide)] at h
    cases ho : openWith true cfg.maxSig f.length read with
    | none => rw [ho] at h; cases h
    | some o =>
      rw [ho] at h
      injection h with h
      injection h with h1 h2
      subst h2
      exact ⟨rfl, h1.symm, C32_open_remote _ _ _ hs _ _ ho⟩

/-- **C32** What is written when a bundle is signed is what is found when it is opened. -/
theorem C32_append_open (maxSig : Nat) (payload sig : Bytes) (hs : sig ≠ []) (hm : sig.length ≤ maxSig) (hl : sig.length < 2 ^ 64) :
    openLocal maxSig true (appendSignature payload sig) = some ⟨payload.length, sig⟩ :=
  (C32_open_local _ _ _ _ _).2 ⟨rfl, payload, rfl, rfl, hs, hm, hl⟩

/-- **C32** Replacing the signature of a bundle keeps the payload byte by byte and exchanges the signature, whatever it was before. -/
theorem C32_replace (maxSig maxSig' : Nat) (f : Bytes) (o : Opened) (ho : openLocal maxSig true f = some o) (sig : Bytes) (hs : sig ≠ [])
    (hm : sig.length ≤ maxSig') (hl : sig.length < 2 ^ 64) :
    openLocal maxSig' true (replaceSig f o sig) = some ⟨o.size, sig⟩ ∧ (replaceSig f o sig).take o.size = f.take o.size := by
  obtain ⟨n, s⟩ := o
  obtain ⟨_, p, hf, hp, _⟩ := (C32_open_local _ _ _ _ _).1 ho
  unfold BundleFile at hf
  have ht : f.take n = p := by
    rw [hf, ← hp]; simp [List.append_assoc]
  unfold replaceSig truncateBundle
  simp only [ht]
  refine ⟨?_, ?_⟩
  · have := C32_append_open maxSig' p sig hs hm hl
    rwa [hp] at this
  · unfold appendSignature
    rw [← hp]; simp [List.append_assoc]

/-- Replacing a signature by the original one restores the file. -/
theorem C32_replace_restores (maxSig : Nat) (f : Bytes) (o o' : Opened) (sig : Bytes) (maxSig' : Nat) (ho : openLocal maxSig true f = some o)
    (ho' : openLocal maxSig' true (replaceSig f o sig) = some o') (hl : sig.length < 2 ^ 64) :
    replaceSig (replaceSig f o sig) o' o.sig = f := by
  obtain ⟨n, s⟩ := o
  obtain ⟨n', s'⟩ := o'
  obtain ⟨_, p, hf, hp, _⟩ := (C32_open_local _ _ _ _ _).1 ho
  have ht : f.take n = p := by
    rw [hf, ← hp]; simp [List.append_assoc]
  have hr : replaceSig f ⟨n, s⟩ sig = p ++ sig ++ beBytes 8 sig.length := by
    unfold replaceSig truncateBundle appendSignature; simp only [ht]
  obtain ⟨_, p', hf', hp', _, _, hl'⟩ := (C32_open_local _ _ _ _ _).1 ho'
  obtain ⟨e1, e2⟩ := C32_unique _ _ _ _ _ hr hf' hl hl'
  rw [hr]
  unfold replaceSig truncateBundle appendSignature
  simp only
  rw [hf, ← hp', ← e1]
  simp [List.append_assoc]

/-! ## Examples -/

/-- a bundle with payload `1 2 3` and signature `7 8` -/
example : openLocal 100 true [1, 2, 3, 7, 8, 0, 0, 0, 0, 0, 0, 0, 2] = some ⟨3, [7, 8]⟩ := by decide
/-- a size larger than the file is refused -/
example : openLocal 100 true [1, 2, 3, 7, 8, 0, 0, 0, 0, 0, 0, 1, 2] = none := by decide
example : openLocal 1 true [1, 2, 3, 7, 8, 0, 0, 0, 0, 0, 0, 0, 2] = none := by decide
private def exCfg : Config := { keyring := true, formats := fun _ => true, allowedCns := none, useSigningTime := false, encryptionKey := false, maxSig := 100, preCheck := false }
/-- the payload of a remote bundle has whole blocks, or it is refused -/
example : openBundle exCfg (.remote true 10 (fileRead [7, 8, 0, 0, 0, 0, 0, 0, 0, 2])) = some (none, ⟨0, [7, 8]⟩) := by decide
example : openBundle exCfg (.remote true 13 (fileRead [1, 2, 3, 7, 8, 0, 0, 0, 0, 0, 0, 0, 2])) = none := by decide
example : openBundle exCfg (.file true [1, 2, 3, 7, 8, 0, 0, 0, 0, 0, 0, 0, 2]) = some (some [1, 2, 3, 7, 8, 0, 0, 0, 0, 0, 0, 0, 2], ⟨3, [7, 8]⟩) := by decide
example : openLocal 100 true (replaceSig [1, 2, 3, 7, 8, 0, 0, 0, 0, 0, 0, 0, 2] ⟨3, [7, 8]⟩ [9]) = some ⟨3, [9]⟩ := by decide

end Rauc.Bundle
