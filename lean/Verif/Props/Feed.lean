import Verif.Model.Feed

/-!
# C90 — a program that gets an image on its standard input gets the image, the whole image and nothing but the image
-/

namespace Rauc.Feed

/-! ## Specification -/

/-- how archives are unpacked, by the ending of their name; tar(1), `--auto-compress` -/
inductive Unpacks : Str → Option Str → Prop
  | plain : Unpacks c!".tar" none
  | gz : Unpacks c!".gz" (some c!"-z")
  | tgz : Unpacks c!".tgz" (some c!"-z")
  | taz : Unpacks c!".taz" (some c!"-z")
  | Z : Unpacks c!".Z" (some c!"-Z")
  | taZ : Unpacks c!".taZ" (some c!"-Z")
  | bz2 : Unpacks c!".bz2" (some c!"-j")
  | tbz : Unpacks c!".tbz" (some c!"-j")
  | tbz2 : Unpacks c!".tbz2" (some c!"-j")
  | tz2 : Unpacks c!".tz2" (some c!"-j")
  | lz : Unpacks c!".lz" (some c!"--lzip")
  | lzma : Unpacks c!".lzma" (some c!"--lzma")
  | tlz : Unpacks c!".tlz" (some c!"--lzma")
  | lzo : Unpacks c!".lzo" (some c!"--lzop")
  | xz : Unpacks c!".xz" (some c!"-J")
  | txz : Unpacks c!".txz" (some c!"-J")
  | zst : Unpacks c!".zst" (some c!"--zstd")
  | tzst : Unpacks c!".tzst" (some c!"--zstd")

/-! ## The loop -/

theorem block_append (k : Nat) (rest : Bytes) : block k rest ++ rest.drop (block k rest).length = rest := by
  unfold block
  rw [List.length_take]
  by_cases h : max 1 (min k (1024 * 1024)) ≤ rest.length
  · rw [Nat.min_eq_left h]; exact List.take_append_drop _ _
  · have h' : rest.length ≤ max 1 (min k (1024 * 1024)) := by omega
    rw [Nat.min_eq_right h', List.take_of_length_le h', List.drop_length, List.append_nil]

theorem block_nil (k : Nat) (rest : Bytes) : block k rest = [] ↔ rest = [] := by
  unfold block
  rw [List.take_eq_nil_iff]
  constructor
  · rintro (h | h)
    · omega
    · exact h
  · exact Or.inr

theorem loop_prefix (E : Env) (size i sum : Nat) (rest : Bytes) : (spliceLoop E size i sum rest).moved <+: rest := by
  fun_induction spliceLoop E size i sum rest with
  | case1 => exact List.nil_prefix
  | case2 => exact List.take_prefix _ _
  | case3 => exact List.nil_prefix
  | case4 i sum rest k hk b hc p hb r ih =>
    have := block_append k rest
    conv => rhs; rw [← this]
    exact (List.prefix_append_right_inj _).2 ih

theorem loop_ok (E : Env) (size i sum : Nat) (rest : Bytes) (h : (spliceLoop E size i sum rest).out = .ok) : (spliceLoop E size i sum rest).moved = rest := by
  fun_induction spliceLoop E size i sum rest with
  | case1 => cases h
  | case2 => cases h
  | case3 i sum rest k hk b hc p hb => exact ((block_nil k rest).1 hb).symm
  | case4 i sum rest k hk b hc p hb r ih =>
    have := block_append k rest
    rw [ih h]
    exact this

theorem loop_crash (E : Env) (size i sum : Nat) (rest : Bytes) : (spliceLoop E size i sum rest).out = .crash ↔ E.progress = true ∧ size = 0 ∧ E.splice i ≠ none := by
  fun_induction spliceLoop E size i sum rest with
  | case1 i sum rest h => simp [h]
  | case2 i sum rest k hk b hc => simpa [hk] using hc
  | case3 i sum rest k hk b hc p hb =>
    simp only [reduceCtorEq, false_iff]
    rintro ⟨h1, h2, -⟩
    exact hc (by simp [h1, h2])
  | case4 i sum rest k hk b hc p hb r ih =>
    rw [ih]
    constructor <;> rintro ⟨h1, h2, -⟩ <;> exact absurd (by simp [h1, h2]) hc

theorem loop_works (E : Env) (size i sum : Nat) (rest : Bytes) (h : ∀ j, E.splice j ≠ none) : (spliceLoop E size i sum rest).out ≠ .failed := by
  fun_induction spliceLoop E size i sum rest with
  | case1 i sum rest hk => exact absurd hk (h i)
  | case2 => simp
  | case3 => simp
  | case4 i sum rest k hk b hc p hb r ih => exact ih

/-- after `sum` of `size` bytes -/
theorem loop_percents (E : Env) (size i sum : Nat) (rest : Bytes) (hs : size = sum + rest.length) (h0 : size ≠ 0) (hp : E.progress = true) :
    (∀ p ∈ (spliceLoop E size i sum rest).percents, sum * 100 / size ≤ p ∧ p ≤ 100) ∧ (spliceLoop E size i sum rest).percents.Pairwise (· ≤ ·) ∧
    ((spliceLoop E size i sum rest).out = .ok → (spliceLoop E size i sum rest).percents.getLast? = some 100) := by
  fun_induction spliceLoop E size i sum rest with
  | case1 => simp
  | case2 => simp
  | case3 i sum rest k hk b hc p hb =>
    have hr := (block_nil k rest).1 hb
    subst hr
    simp only [List.length_nil, Nat.add_zero] at hs
    subst hs
    have hb' : b = [] := hb
    have : p = [100] := by
      show (if E.progress then [(size + b.length) * 100 / size] else []) = _
      rw [if_pos hp, hb', List.length_nil, Nat.add_zero, Nat.mul_div_cancel_left _ (by omega)]
    rw [this, Nat.mul_div_cancel_left _ (by omega)]
    simp
  | case4 i sum rest k hk b hc p hb r ih =>
    have happ := block_append k rest
    have hlen : b.length + (rest.drop b.length).length = rest.length := by
      conv => rhs; rw [← happ]
      rw [List.length_append]
    obtain ⟨k1, k2, k3⟩ := ih (by omega)
    have hp' : p = [(sum + b.length) * 100 / size] := by
      show (if E.progress then _ else _) = _
      rw [if_pos hp]
    rw [hp']
    have hm : sum * 100 / size ≤ (sum + b.length) * 100 / size := Nat.div_le_div_right (by omega)
    have hle : (sum + b.length) * 100 / size ≤ 100 := by
      apply Nat.div_le_of_le_mul
      exact Nat.mul_le_mul_right _ (by omega)
    refine ⟨?_, ?_, ?_⟩
    · intro q hq
      rcases List.mem_append.1 hq with hq | hq
      · rw [List.mem_singleton.1 hq]; exact ⟨hm, hle⟩
      · exact ⟨Nat.le_trans hm (k1 q hq).1, (k1 q hq).2⟩
    · exact List.pairwise_cons.2 ⟨fun q hq => (k1 q hq).1, k2⟩
    · intro h
      have := k3 h
      show ([_] ++ r.percents).getLast? = _
      rw [List.getLast?_append, this]; rfl

/-! ## Theorems -/

/-- **C90 (the whole image).** When the step is reported as successful, the program was started with the given arguments, got exactly the image and then the end of its input, and its end was awaited: it
exited with status 0. -/
theorem C90_whole (E : Env) (argv : List Str) (img : Bytes) (h : (feed E argv img).out = .ok) :
    (feed E argv img).argv = some argv ∧ (feed E argv img).stdin = img ∧ (feed E argv img).eof = true ∧ (feed E argv img).waited = true ∧ E.spawn = true ∧ E.exit = true := by
  unfold feed at h ⊢
  cases h1 : E.spawn <;> simp only [h1, Bool.not_true, Bool.not_false, if_true, Bool.false_eq_true, if_false] at h ⊢
  · cases h
  cases h2 : E.openImage <;> simp only [h2, Bool.not_true, Bool.not_false, if_true, Bool.false_eq_true, if_false] at h ⊢
  · cases h
  cases h3 : E.fstat with
  | none => simp [h3] at h
  | some size =>
    simp only [h3] at h ⊢
    by_cases h4 : (spliceLoop E size 0 0 img).out = .ok
    · have := loop_ok E size 0 0 img h4
      cases h5 : E.closeOut <;> cases h6 : E.closeIn <;> cases h7 : E.exit <;> simp [h4, h5, h6, h7] at h ⊢
      exact this
    · rw [if_pos h4] at h
      exact absurd h h4

/-- **C90 (nothing but the image).** Whatever fails, what the program got is the beginning of the image. -/
theorem C90_prefix (E : Env) (argv : List Str) (img : Bytes) : (feed E argv img).stdin <+: img := by
  unfold feed
  dsimp only
  (repeat' split) <;> first
    | exact List.nil_prefix
    | exact loop_prefix _ _ _ _ _

/-- **C90 (end of the input only after the image).** The program sees the end of its input only after the whole image: an image that could not be read completely is not mistaken for a shorter one. -/
theorem C90_eof (E : Env) (argv : List Str) (img : Bytes) (h : (feed E argv img).eof = true) : (feed E argv img).stdin = img := by
  unfold feed at h ⊢
  cases h1 : E.spawn <;> simp only [h1, Bool.not_true, Bool.not_false, if_true, Bool.false_eq_true, if_false] at h ⊢
  cases h2 : E.openImage <;> simp only [h2, Bool.not_true, Bool.not_false, if_true, Bool.false_eq_true, if_false] at h ⊢
  cases h3 : E.fstat with
  | none => simp [h3] at h
  | some size =>
    simp only [h3] at h ⊢
    by_cases h4 : (spliceLoop E size 0 0 img).out = .ok
    · have := loop_ok E size 0 0 img h4
      cases h5 : E.closeOut <;> cases h6 : E.closeIn <;> simp [h4, h5, h6] at h ⊢ <;> exact this
    · rw [if_pos h4] at h
      cases h

/-- **C90 (it works).** For an image that is not empty the step succeeds if no call fails and the program exits with status 0. -/
theorem C90_works_partial (E : Env) (argv : List Str) (img : Bytes) (hi : img ≠ []) (h1 : E.spawn = true) (h2 : E.openImage = true) (h3 : E.fstat = some img.length)
    (h4 : ∀ i, E.splice i ≠ none) (h5 : E.closeOut = true) (h6 : E.closeIn = true) (h7 : E.exit = true) : (feed E argv img).out = .ok := by
  have hc : (spliceLoop E img.length 0 0 img).out ≠ .crash := by
    rw [ne_eq, loop_crash]
    rintro ⟨-, h, -⟩
    exact hi (List.length_eq_zero_iff.1 h)
  have hf := loop_works E img.length 0 0 img h4
  have hok : (spliceLoop E img.length 0 0 img).out = .ok := by
    cases h : (spliceLoop E img.length 0 0 img).out with
    | ok => rfl
    | failed => exact absurd h hf
    | crash => exact absurd h hc
  simp [feed, h1, h2, h3, h5, h6, h7, hok]

/-- **C90 (survival).** The process that installs is only lost for an empty image. -/
theorem C90_survives_partial (E : Env) (argv : List Str) (img : Bytes) (hi : img ≠ []) (hf : ∀ n, E.fstat = some n → n = img.length) : (feed E argv img).out ≠ .crash := by
  unfold feed
  cases h1 : E.spawn <;> simp only [Bool.not_true, Bool.not_false, if_true, Bool.false_eq_true, if_false]
  · simp
  cases h2 : E.openImage <;> simp only [Bool.not_true, Bool.not_false, if_true, Bool.false_eq_true, if_false]
  · simp
  cases h3 : E.fstat with
  | none => simp
  | some size =>
    have hs := hf size h3
    subst hs
    have hc : (spliceLoop E img.length 0 0 img).out ≠ .crash := by
      rw [ne_eq, loop_crash]
      rintro ⟨-, h, -⟩
      exact hi (List.length_eq_zero_iff.1 h)
    dsimp only
    split
    · exact hc
    · (repeat' split) <;> simp

/-- **C90 (progress).** While an image is fed to the program, the percentages never go back and never exceed 100; a successful step ends at 100. -/
theorem C90_progress (E : Env) (argv : List Str) (img : Bytes) (hi : img ≠ []) (hf : E.fstat = some img.length) (hp : E.progress = true) :
    (feed E argv img).percents.Pairwise (· ≤ ·) ∧ (∀ p ∈ (feed E argv img).percents, p ≤ 100) ∧
    ((feed E argv img).out = .ok → (feed E argv img).percents.getLast? = some 100) := by
  obtain ⟨k1, k2, k3⟩ := loop_percents E img.length 0 0 img (by simp) (by simpa using hi) hp
  unfold feed
  cases h1 : E.spawn <;> simp only [Bool.not_true, Bool.not_false, if_true, Bool.false_eq_true, if_false]
  · simp
  cases h2 : E.openImage <;> simp only [Bool.not_true, Bool.not_false, if_true, Bool.false_eq_true, if_false]
  · simp
  rw [hf]
  dsimp only
  split
  · exact ⟨k2, fun p h => (k1 p h).2, fun h => k3 h⟩
  · rename_i h
    have hok : (spliceLoop E img.length 0 0 img).out = .ok := by simpa using h
    (repeat' split) <;> exact ⟨k2, fun p h => (k1 p h).2, fun _ => k3 hok⟩

/-- **C90 (arguments of tar).** An archive is unpacked into the given directory, with the numeric owners in it, and with the decompressor for the ending of its name. -/
theorem C90_tar (E : Env) (base suf dest : Str) (flag : Option Str) (hu : Unpacks suf flag) (img : Bytes) (h : (untar E (base ++ suf) dest img).out = .ok) :
    (untar E (base ++ suf) dest img).argv = some ([c!"tar", c!"xf", c!"-", c!"-C", dest, c!"--numeric-owner"] ++ flag.toList) := by
  rw [untar, (C90_whole _ _ _ h).1, tarArgs]
  have : Update.tarFlag (base ++ suf) = flag := by
    unfold Update.tarFlag
    cases hu <;> simp [Update.tarSuffixes, List.isSuffixOf, List.find?, List.isPrefixOf]
  rw [this]

/-- **C90 (arguments of nandwrite).** -/
theorem C90_nand (E : Env) (device : Str) (img : Bytes) (h : (nandWrite E device img).out = .ok) :
    (nandWrite E device img).argv = some [c!"nandwrite", c!"--pad", c!"--quiet", device, c!"-"] := (C90_whole _ _ _ h).1

/-! ## What the code does not guarantee -/

/-- **C90 violated (empty image).** An empty image (a bundle with an empty archive is valid) crashes the process that installs - the service -: the size of the file is a divisor. -/
theorem C90_finding_empty (E : Env) (argv : List Str) (h1 : E.spawn = true) (h2 : E.openImage = true) (h3 : E.fstat = some 0) (h4 : E.splice 0 ≠ none) (h5 : E.progress = true) :
    (feed E argv []).out = .crash := by
  have := (loop_crash E 0 0 0 []).2 ⟨h5, rfl, h4⟩
  simp [feed, h1, h2, h3, this]

/-- **C90 violated (orphans).** When the image cannot be read to its end, the program is left behind: the step fails, but the program neither sees the end of its input nor is its end awaited. `tar` waits for
data in the target directory, which then cannot be unmounted. -/
theorem C90_finding_orphan (E : Env) (argv : List Str) (img : Bytes) (h1 : E.spawn = true) (h : (feed E argv img).stdin ≠ img) :
    (feed E argv img).argv = some argv ∧ (feed E argv img).eof = false ∧ (feed E argv img).waited = false ∧ (feed E argv img).out ≠ .ok := by
  have hne : (feed E argv img).out ≠ .ok := fun h' => h (C90_whole E argv img h').2.1
  have heof : (feed E argv img).eof = false := by
    cases he : (feed E argv img).eof with
    | false => rfl
    | true => exact absurd (C90_eof E argv img he) h
  refine ⟨?_, heof, ?_, hne⟩
  · unfold feed
    simp only [h1, Bool.not_true, Bool.false_eq_true, if_false]
    (repeat' split) <;> rfl
  · revert heof
    unfold feed
    simp only [h1, Bool.not_true, Bool.false_eq_true, if_false]
    (repeat' split) <;> simp

/-! ## Satisfiable -/

/-- an archive that is moved in two pieces -/
example : let r := untar { fstat := some 3, splice := fun i => some (if i = 0 then 2 else 5) } c!"rootfs.tar.xz" c!"/mnt" [1, 2, 3]
    r.out = .ok ∧ r.stdin = [1, 2, 3] ∧ r.eof = true ∧ r.percents = [66, 100, 100] ∧ r.argv = some [c!"tar", c!"xf", c!"-", c!"-C", c!"/mnt", c!"--numeric-owner", c!"-J"] := by
  decide +kernel

example : Unpacks c!".xz" (some c!"-J") := .xz

/-- a read error after two bytes: `tar` is left behind -/
example : let r := untar { fstat := some 3, splice := fun i => if i = 0 then some 2 else none } c!"rootfs.tar.xz" c!"/mnt" [1, 2, 3]
    r.out = .failed ∧ r.stdin = [1, 2] ∧ r.eof = false ∧ r.waited = false := by
  decide +kernel

end Rauc.Feed
