import Verif.Props.Create

/-!
# C61: a complete set of tools and a device that meet the hypotheses

The tools are simple but real: a self-delimiting format for directories and key files, a signature that contains what is signed.
-/

namespace Rauc.Create

open Bundle (Crypto checkBundle)
open ManifestFile (reload ManifestWf ImageWf)

/-- a self-delimiting encoding -/
structure Codec (α : Type) where
  enc : α → Bytes
  dec : Bytes → Option (α × Bytes)
  law : ∀ a r, dec (enc a ++ r) = some (a, r)

/-- numbers below 2^24 in three bytes; the rest is cut off -/
def enc24 (n : Nat) : Bytes := [UInt8.ofNat (n / 65536 % 256), UInt8.ofNat (n / 256 % 256), UInt8.ofNat (n % 256)]

def dec24 : Bytes → Option (Nat × Bytes)
  | a :: b :: c :: r => some (a.toNat * 65536 + b.toNat * 256 + c.toNat, r)
  | _ => none

theorem law24 (n : Nat) (h : n < 2 ^ 24) (r : Bytes) : dec24 (enc24 n ++ r) = some (n, r) := by
  simp only [enc24, List.cons_append, List.nil_append, dec24, UInt8.toNat_ofNat']
  congr 2
  omega

def charCodec : Codec Char where
  enc c := enc24 c.toNat
  dec b := (dec24 b).map (fun x => (Char.ofNat x.1, x.2))
  law c r := by
    rw [law24 _ (by have := c.valid; have : c.toNat < 0x110000 := by { rcases c.valid with h | h <;> simp only [Char.toNat] <;> omega }; omega)]
    simp

def byteCodec : Codec UInt8 where
  enc b := [b]
  dec | [] => none | b :: r => some (b, r)
  law _ _ := rfl

def pairCodec {α β : Type} (a : Codec α) (b : Codec β) : Codec (α × β) where
  enc x := a.enc x.1 ++ b.enc x.2
  dec r := (a.dec r).bind (fun x => (b.dec x.2).map (fun y => ((x.1, y.1), y.2)))
  law x r := by
    rw [List.append_assoc, a.law]
    simp only [Option.bind_some, b.law, Option.map_some]

/-- the elements are announced one by one -/
def encList {α : Type} (c : Codec α) : List α → Bytes
  | [] => [0]
  | a :: l => 1 :: (c.enc a ++ encList c l)

def decList {α : Type} (c : Codec α) : Nat → Bytes → Option (List α × Bytes)
  | _, 0 :: r => some ([], r)
  | fuel + 1, 1 :: r => (c.dec r).bind (fun x => (decList c fuel x.2).map (fun y => (x.1 :: y.1, y.2)))
  | _, _ => none

theorem decList_law {α : Type} (c : Codec α) : ∀ (l : List α) (fuel : Nat) (r : Bytes), l.length ≤ fuel → decList c fuel (encList c l ++ r) = some (l, r) := by
  intro l
  induction l with
  | nil => intro fuel r _; cases fuel <;> rfl
  | cons a l ih =>
    intro fuel r h
    cases fuel with
    | zero => simp at h
    | succ fuel =>
      simp only [encList, List.cons_append, decList, List.append_assoc, c.law, Option.bind_some]
      rw [ih fuel r (by simpa using h)]
      rfl

theorem encList_length {α : Type} (c : Codec α) (l : List α) : l.length ≤ (encList c l).length := by
  induction l with
  | nil => simp [encList]
  | cons a l ih => simp only [encList, List.length_cons, List.length_append]; omega

def listCodec {α : Type} (c : Codec α) : Codec (List α) where
  enc := encList c
  dec b := decList c b.length b
  law l r := by
    apply decList_law
    rw [List.length_append]
    have := encList_length c l
    omega

def strCodec : Codec Str := listCodec charCodec
def bytesCodec : Codec Bytes := listCodec byteCodec
def kvCodec : Codec (List (Str × Str)) := listCodec (pairCodec strCodec strCodec)
def keyFileCodec : Codec KeyFile := listCodec (pairCodec strCodec kvCodec)
def filesCodec : Codec (List (Str × Bytes)) := listCodec (pairCodec strCodec bytesCodec)

/-- only files are supported -/
def toFiles : Dir → Option (List (Str × Bytes))
  | [] => some []
  | (n, .file b) :: l => (toFiles l).map ((n, b) :: ·)
  | _ => none

def ofFiles (l : List (Str × Bytes)) : Dir := l.map (fun x => (x.1, .file x.2))

theorem ofFiles_toFiles : ∀ {d : Dir} {l : List (Str × Bytes)}, toFiles d = some l → ofFiles l = d := by
  intro d
  induction d with
  | nil => intro l h; cases h; rfl
  | cons e d ih =>
    intro l h
    obtain ⟨n, x⟩ := e
    cases x with
    | file b =>
      simp only [toFiles, Option.map_eq_some_iff] at h
      obtain ⟨l', h1, rfl⟩ := h
      simp only [ofFiles, List.map_cons]
      have := ih h1
      unfold ofFiles at this
      rw [this]
    | dir e => simp [toFiles] at h
    | link t => simp [toFiles] at h
    | special => simp [toFiles] at h

/-- padded to whole blocks, at least two -/
def pad (b : Bytes) : Bytes := b ++ List.replicate (8192 - b.length % 4096) 0

/-- the tools -/
def toy : Tools where
  pack _ d := (toFiles d).map (fun l => pad (filesCodec.enc l))
  unpack b := (filesCodec.dec b).map (fun x => ofFiles x.1)
  tar _ := none
  composefs := false
  mkcomposefs _ _ := none
  mountCfs _ _ := none
  index b := some [UInt8.ofNat b.length]
  sha b := UInt8.ofNat b.length :: (b.take 31 ++ List.replicate (31 - (b.take 31).length) 0)
  enc _ b := b
  dec _ b := b
  sign det c := if c.length < 2 ^ 40 then some (if det then 1 :: c else 2 :: c) else none
  text kf := keyFileCodec.enc (reload kf)
  keyFile b := (keyFileCodec.dec b).map (·.1)

theorem toy_sound : Sound toy where
  pack k d p h := by
    simp only [toy, Option.map_eq_some_iff] at h
    obtain ⟨l, hl, rfl⟩ := h
    refine ⟨?_, ?_⟩
    · intro e
      have := congrArg List.length e
      unfold pad at this
      simp only [List.length_append, List.length_replicate, List.length_nil] at this
      omega
    · intro rest
      unfold pad
      simp only [toy]
      rw [List.append_assoc, filesCodec.law, Option.map_some, ofFiles_toFiles hl]
  sha b := by
    simp only [toy, List.length_cons, List.length_append, List.length_replicate, List.length_take]
    omega
  cipher k := ⟨fun _ h => h, fun _ h => h, fun _ _ => rfl⟩
  cfs _ _ _ _ h := by cases h
  text kf := by
    simp only [toy]
    have := keyFileCodec.law (reload kf) []
    rw [List.append_nil] at this
    rw [this]
    rfl

/-- the device: a signature contains what it signs, one signer, no expiration -/
def toyCrypto : Crypto where
  parse s := match s with
    | 1 :: _ => some (.signed, true)
    | 2 :: _ => some (.signed, false)
    | _ => none
  decrypt _ := none
  storeOk := true
  verifyDetached _ s c := s == 1 :: c
  verifyInline _ s := match s with
    | 2 :: c => some c
    | _ => none
  embedded _ := none
  signingTime _ := none
  signers _ := some [some [65]]
  chainOk _ _ := true

def toyConfig : Bundle.Config where
  keyring := true
  allowedCns := some [[65]]
  useSigningTime := false
  encryptionKey := false
  maxSig := 2 ^ 63
  formats _ := true
  preCheck := false

theorem toy_sign {det : Bool} {c s : Bytes} (h : toy.sign det c = some s) : c.length < 2 ^ 40 ∧ s = (if det then 1 :: c else 2 :: c) := by
  simp only [toy] at h
  split at h
  · rename_i hc
    cases h
    exact ⟨hc, rfl⟩
  · cases h

theorem toy_trusted : Trusts toyCrypto toyConfig toy where
  keyring := rfl
  limit := by decide
  detached c s h := by
    obtain ⟨h1, h2⟩ := toy_sign h
    rw [if_pos rfl] at h2
    subst h2
    refine ⟨by simp, ?_, ⟨rfl, rfl, ⟨none, rfl, ⟨rfl, by simp [toyCrypto]⟩, rfl⟩, ⟨_, rfl, ?_⟩⟩⟩
    · show (1 :: c).length ≤ 2 ^ 63
      rw [List.length_cons]; omega
    · intro allowed ha; cases ha; exact ⟨_, rfl, by simp, by decide⟩
  inline c s h := by
    obtain ⟨h1, h2⟩ := toy_sign h
    rw [if_neg (by decide)] at h2
    subst h2
    refine ⟨by simp, ?_, ⟨rfl, rfl, ⟨none, rfl, ⟨_, rfl, rfl⟩, rfl⟩, ⟨_, rfl, ?_⟩⟩⟩
    · show (2 :: c).length ≤ 2 ^ 63
      rw [List.length_cons]; omega
    · intro allowed ha; cases ha; exact ⟨_, rfl, by simp, by decide⟩

/-- a bundle with one image and a block hash index for it -/
def exFile (format : Str) : KeyFile :=
  [(c!"update", [(c!"compatible", c!"x")]), (c!"bundle", [(c!"format", format)]), (c!"image.rootfs", [(c!"filename", c!"r.img"), (c!"adaptive", c!"block-hash-index")])]

def exDir (format : Str) : Dir := [(c!"manifest.raucm", .file (toy.text (exFile format))), (c!"r.img", .file [1, 2, 3])]

def exRun : Run := ⟨true, false, false, true, true, true, some (List.replicate 32 7), some (List.replicate 32 9), true, true, true⟩

def succeeds (r : Bool × Option Bytes) : Bool := r.1 && r.2.isSome

theorem succeeds_iff {r : Bool × Option Bytes} (h : succeeds r = true) : ∃ f, r = (true, some f) := by
  obtain ⟨a, b⟩ := r
  unfold succeeds at h
  cases b with
  | none => simp at h
  | some f => exact ⟨f, by simp at h; rw [h]⟩

set_option maxRecDepth 100000 in
theorem ex_plain : succeeds (create toy exRun c!"1.14" 5 (exDir c!"plain") none) = true := by decide +kernel

set_option maxRecDepth 100000 in
theorem ex_verity : succeeds (create toy exRun c!"1.14" 5 (exDir c!"verity") none) = true := by decide +kernel

set_option maxRecDepth 100000 in
theorem ex_crypt : succeeds (create toy exRun c!"1.14" 5 (exDir c!"crypt") none) = true := by decide +kernel

theorem ex_link (f : Str) : linkDir 5 true (exDir f) = some (exDir f) := by
  simp [linkDir, linkAll, exDir, entryOk, workName, target, maxLinks, lookup]

def exImage : Image := { slotclass := c!"rootfs", filename := some c!"r.img", typ := some c!"raw", typeFromExt := true, adaptive := some [c!"block-hash-index"] }

def exManifest (format : Format) : Manifest := { compatible := c!"x", format := format, formatExplicit := true, images := [exImage] }

theorem exImage_wf : ImageWf exImage where
  slotclass := by decide
  artifact := by intro a h; cases h
  sha256 := by decide
  digest := ManifestFile.val_none
  size := by decide
  filename := ManifestFile.val_of (by decide) (by decide) (by decide)
  artType := by decide
  derived := fun _ => ⟨by decide, c!"r.img", c!"raw", rfl, by decide, rfl⟩
  typ := ManifestFile.val_of (by decide) (by decide) (by decide)
  known := fun _ _ => ⟨c!"raw", rfl, by decide⟩
  adaptive := by intro l h; cases h; decide
  convert := by intro l h; cases h
  converted := by intro l h; cases h
  convertedNonempty := by decide
  content := by decide

theorem exManifest_wf (f : Format) : ManifestWf (exManifest f) where
  compatible := ⟨by simp [exManifest], ManifestFile.clean_of (by simp [exManifest, ManifestFile.FF]) (by simp [exManifest, ManifestFile.FF])⟩
  version := ManifestFile.val_none
  description := ManifestFile.val_none
  build := ManifestFile.val_none
  plain := fun _ => ⟨rfl, rfl, rfl⟩
  explicit := fun _ => rfl
  key := fun _ => rfl
  verityHash := ManifestFile.val_none
  veritySalt := ManifestFile.val_none
  cryptKey := ManifestFile.val_none
  veritySize := by show 0 < 2 ^ 64; decide
  handler := ⟨ManifestFile.val_none, ManifestFile.val_none, fun h => absurd rfl h⟩
  hook := ManifestFile.val_none
  images := by
    intro i hi
    simp only [exManifest, List.mem_cons, List.not_mem_nil, or_false] at hi
    subst hi
    exact exImage_wf
  targets := by simp [exManifest]
  metas := by intro g hg; cases hg
  metaNames := by simp [exManifest]
  meta' := ⟨rfl, rfl⟩

theorem ex_load {f : Str} {fmt : Format} (h : ManifestFile.parse (reload (exFile f)) = some (exManifest fmt)) :
    (openFile (exDir f) c!"manifest.raucm").bind (loadText toy) = some { exManifest fmt with hash := some (shaHex toy (toy.text (exFile f))) } := by
  have e : openFile (exDir f) c!"manifest.raucm" = some (toy.text (exFile f)) := by
    simp [openFile, exDir, target, maxLinks, lookup, workName]
  rw [e, Option.bind_some]
  unfold loadText ManifestFile.load
  rw [toy_sound.text]
  simp only [h]

theorem target_file {d : Dir} {b : Bytes} : ∀ {k : Nat} {n : Str}, target k d n = .file b → ∃ x, lookup d x = some (.file b) := by
  intro k
  induction k with
  | zero => intro n h; rw [target] at h; cases h
  | succ k ih =>
    intro n h
    rw [target_succ] at h
    split at h
    · cases h
    · split at h
      · cases h
      · rename_i c hc; cases h; exact ⟨n, hc⟩
      · cases h
      · cases h
      · exact ih h

/-- All hypotheses of `C61_create_partial` are met, for each of the formats: the bundle is created, accepted, and its extraction holds the content. -/
theorem ex_holds {f : Str} {fmt : Format} (hs : succeeds (create toy exRun c!"1.14" 5 (exDir f) none) = true)
    (hp : ManifestFile.parse (reload (exFile f)) = some (exManifest fmt)) (hlen : (toy.text (exFile f)).length < 2 ^ 63) :
    ∃ file b w', create toy exRun c!"1.14" 5 (exDir f) none = (true, some file) ∧
      checkBundle toyCrypto toyConfig (loadText toy) {} { enforce := true, check := true } (.file true file) = some b ∧
      extract toy c!"1.14" b = .ok w' ∧ Holds toy (exDir f) { exManifest fmt with hash := some (shaHex toy (toy.text (exFile f))) } w' := by
  obtain ⟨file, hf⟩ := succeeds_iff hs
  have hsz : ∀ n b, openFile (exDir f) n = some b → b.length < 2 ^ 63 := by
    intro n b hb
    unfold openFile at hb
    split at hb
    · rename_i c hc
      cases hb
      obtain ⟨x, hx⟩ := target_file hc
      simp only [exDir, lookup] at hx
      split at hx
      · cases hx; exact hlen
      · split at hx
        · cases hx; decide
        · cases hx
    · cases hb
  have hconv : ∀ i ∈ (exManifest fmt).images, i.convert ≠ some [] := by
    intro i hi
    simp only [exManifest, List.mem_cons, List.not_mem_nil, or_false] at hi
    subst hi
    decide
  obtain ⟨-, b, w', h1, h2, -, -, h3, -⟩ := C61_create_partial toy toy_sound toyCrypto toyConfig toy_trusted exRun (by intro s h; cases h; rfl) (by intro s h; cases h; rfl)
    c!"1.14" 5 (exDir f) none file hf (exDir f) (ex_link f) _ (ex_load hp) (exManifest_wf fmt) hsz hconv rfl { enforce := true, check := true } ⟨rfl, rfl⟩
  exact ⟨file, b, w', hf, h1, h2, h3⟩

example := ex_holds ex_plain (fmt := .plain) (by decide) (by decide +kernel)
example := ex_holds ex_verity (fmt := .verity) (by decide) (by decide +kernel)
example := ex_holds ex_crypt (fmt := .crypt) (by decide) (by decide +kernel)

end Rauc.Create
