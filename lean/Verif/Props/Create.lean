import Verif.Props.CreateLib
import Verif.Props.Workdir

/-!
# C61: creating a bundle
-/

namespace Rauc.Create

open Bundle (Bundle Res Crypto SignatureOk Signs checkBundle fileDisk verityFile)
open ManifestFile (checkInput checkInternal checkExternal prepare reload ManifestWf ImageWf HexStr)

/-! ## Specification -/

/-- Specification: the tools do what they are for. -/
structure Sound (T : Tools) : Prop where
  /-- unsquashfs restores what was packed, and ignores what follows the image -/
  pack : ∀ k d p, T.pack k d = some p → p ≠ [] ∧ ∀ rest, T.unpack (p ++ rest) = some d
  sha : ∀ b, (T.sha b).length = 32
  cipher : ∀ k, Crypt.Cipher (T.enc k) (T.dec k)
  /-- an image of composefs shows the tree, objects are only added to the store -/
  cfs : ∀ e s img st, T.mkcomposefs e s = some (img, st) → T.mountCfs img st = some e ∧ ∀ img' e', T.mountCfs img' s = some e' → T.mountCfs img' st = some e'
  /-- GLib reads what it has written, except for white space around values -/
  text : ∀ kf, T.keyFile (T.text kf) = some (reload kf)

/-- Specification: a device whose keyring accepts the signatures that are made. -/
structure Trusts (K : Crypto) (cfg : Bundle.Config) (T : Tools) : Prop where
  keyring : cfg.keyring = true
  limit : cfg.maxSig < 2 ^ 64
  detached : ∀ c s, T.sign true c = some s → s ≠ [] ∧ s.length ≤ cfg.maxSig ∧ SignatureOk K cfg false s (some c) none
  inline : ∀ c s, T.sign false c = some s → s ≠ [] ∧ s.length ≤ cfg.maxSig ∧ SignatureOk K cfg false s none (some c)

/-- Specification: the name under which the result of a conversion is found -/
def outputName (f method : Str) : Str :=
  if method = c!"tar-extract" then f ++ c!".extracted" else if method = c!"composefs" then f ++ c!".cfs" else f

/-- Specification: the entry for an image in the manifest of the bundle: what the input manifest says, with size and checksum of the file and the names of the converted variants -/
structure Entry (T : Tools) (w : Dir) (i i' : Image) : Prop where
  same : { i' with sha256 := i.sha256, digest := i.digest, size := i.size, converted := i.converted } = i
  file : ∀ f, i.filename = some f → ∃ b, openFile w f = some b ∧ i'.sha256 = true ∧ i'.digest = some (shaHex T b) ∧ i'.size = b.length
  none : i.filename = none → i'.size = -1 ∧ i'.digest = i.digest ∧ i'.sha256 = i.sha256
  plain : i.convert = .none → i'.converted = i.converted
  converted : ∀ f ms, i.filename = some f → i.convert = some ms → i'.converted = some (ms.map (outputName f))

/-- Specification: the manifest of the bundle is the one in the content directory (without the minimum version of RAUC, see C50), with the entries for the images completed. -/
structure Completed (T : Tools) (w : Dir) (m m' : Manifest) : Prop where
  same : { m' with images := m.images, hash := m.hash, verityHash := m.verityHash, veritySalt := m.veritySalt, veritySize := m.veritySize, cryptKey := m.cryptKey } =
    { m with minRaucVersion := none }
  images : List.Forall₂ (Entry T w) m.images m'.images

/-- Specification: the names in the top directory that are written or removed for an image -/
inductive TouchedBy (i : Image) : Str → Prop where
  | index (f : Str) : i.filename = some f → i.adaptive ≠ none → TouchedBy i (f ++ c!".block-hash-index")
  | extracted (f : Str) : i.filename = some f → i.convert ≠ none → TouchedBy i (f ++ c!".extracted")
  | cfs (f : Str) : i.filename = some f → i.convert ≠ none → TouchedBy i (f ++ c!".cfs")
  | store : i.convert ≠ none → TouchedBy i c!".rauc-cfs-store"
  | removed (f : Str) (ms : List Str) : i.filename = some f → i.convert = some ms → c!"keep" ∉ ms → TouchedBy i f

/-- Specification: the names in the top directory that are written or removed -/
def Touched (m : Manifest) (n : Str) : Prop := n = c!"manifest.raucm" ∨ ∃ i ∈ m.images, TouchedBy i n

/-- Specification: the names at which a lookup passes when it follows symbolic links -/
def visited : Nat → Dir → Str → List Str
  | 0, _, _ => []
  | k + 1, d, n =>
    if n = c!"." ∨ n = c!".." ∨ n = workName then []
    else n :: (match lookup d n with
      | some (.link t) => visited k d t
      | _ => [])

/-- Specification: what is found in a bundle that was made from the directory `w` -/
structure Holds (T : Tools) (w : Dir) (m : Manifest) (w' : Dir) : Prop where
  manifest : ∃ t m', lookup w' c!"manifest.raucm" = some (.file t) ∧ loadText T t = some m' ∧ Completed T w m m'
  /-- everything else is as it was -/
  other : ∀ n, ¬ Touched m n → lookup w' n = lookup w n
  files : ∀ n, (∀ x ∈ visited maxLinks w n, ¬ Touched m x) → openFile w' n = openFile w n
  /-- the converted variants are there, unless another image has the same names -/
  outputs : ∀ l1 i l2 f ms a, m.images = l1 ++ i :: l2 → i.filename = some f → i.convert = some ms → a ∈ ms →
    (∀ j ∈ l1 ++ l2, ¬ TouchedBy j (outputName f a)) → (lookup w' (outputName f a)).isSome = true
  /-- they have the content of the archive, if neither it nor they are touched for another image -/
  trees : ∀ l1 i l2 f ms, m.images = l1 ++ i :: l2 → i.filename = some f → i.convert = some ms →
    (∀ x ∈ visited maxLinks w f, (∀ j ∈ l1 ++ l2, ¬ TouchedBy j x) ∧ x ≠ f ++ c!".block-hash-index") →
    ∃ b, openFile w f = some b ∧
      (c!"tar-extract" ∈ ms → (∀ j ∈ l1 ++ l2, ¬ TouchedBy j (f ++ c!".extracted")) → ∃ tree, T.tar b = some tree ∧ lookup w' (f ++ c!".extracted") = some (.dir tree)) ∧
      (c!"composefs" ∈ ms → (∀ j ∈ l1 ++ l2, ¬ TouchedBy j (f ++ c!".cfs")) → ∃ tree img st, T.tar b = some tree ∧
        lookup w' (f ++ c!".cfs") = some (.dir [(c!"image.cfs", .file img)]) ∧ lookup w' c!".rauc-cfs-store" = some (.dir st) ∧ T.mountCfs img st = some tree)
  /-- the input of a conversion is gone if it is not to be kept -/
  removed : ∀ i ∈ m.images, ∀ f ms, i.filename = some f → i.convert = some ms → c!"keep" ∉ ms → f ≠ c!"manifest.raucm" → f ≠ c!".rauc-cfs-store" →
    (∀ j ∈ m.images, ∀ g, j.filename = some g → f ≠ g ++ c!".extracted" ∧ f ≠ g ++ c!".cfs") → lookup w' f = none
  /-- the block hash indices are there, unless one of the names is that of another file -/
  index : ∀ i ∈ m.images, ∀ f ms, i.filename = some f → i.adaptive = some ms → c!"block-hash-index" ∈ ms →
    (∀ j ∈ m.images, ∀ g, j.filename = some g → g ++ c!".block-hash-index" ∉ visited maxLinks w f) →
    (∀ j ∈ m.images, ∀ g, j.filename = some g → j.convert ≠ none → g ≠ f ++ c!".block-hash-index") →
    ∃ b x, openFile w f = some b ∧ T.index b = some x ∧ lookup w' (f ++ c!".block-hash-index") = some (.file x)

/-! ## Directories -/

theorem lookup_erase (d : Dir) (n k : Str) : lookup (erase d n) k = if k = n then none else lookup d k := by
  induction d with
  | nil => simp [erase, lookup]
  | cons e d ih =>
    obtain ⟨m, x⟩ := e
    unfold erase at ih ⊢
    by_cases h : m = n
    · subst h
      rw [List.filter_cons_of_neg (by simp), ih]
      by_cases hk : k = m
      · simp [hk]
      · rw [if_neg hk, if_neg hk, lookup, if_neg (fun h => hk h.symm)]
    · rw [List.filter_cons_of_pos (by simpa using h)]
      simp only [lookup]
      rw [ih]
      by_cases hk : k = n
      · subst hk; rw [if_neg h]; simp
      · rw [if_neg hk, if_neg hk]

theorem lookup_append (a b : Dir) (k : Str) : lookup (a ++ b) k = (lookup a k).or (lookup b k) := by
  induction a with
  | nil => simp [lookup]
  | cons e a ih =>
    obtain ⟨m, x⟩ := e
    simp only [List.cons_append, lookup]
    split
    · simp
    · exact ih

theorem lookup_setEntry (d : Dir) (n k : Str) (x : Node) : lookup (setEntry d n x) k = if k = n then some x else lookup d k := by
  unfold setEntry
  rw [lookup_append, lookup_erase]
  by_cases h : k = n
  · subst h; simp [lookup]
  · rw [if_neg h, if_neg h]
    simp only [lookup]
    rw [if_neg (fun e => h e.symm)]
    simp

theorem target_congr {d d' : Dir} : ∀ {k : Nat} {n : Str}, (∀ x ∈ visited k d n, lookup d' x = lookup d x) → target k d' n = target k d n := by
  intro k
  induction k with
  | zero => intro n _; rfl
  | succ k ih =>
    intro n h
    rw [target_succ, target_succ]
    unfold visited at h
    by_cases hn : n = c!"." ∨ n = c!".." ∨ n = workName
    · rw [if_pos hn, if_pos hn]
    · rw [if_neg hn, if_neg hn]
      rw [if_neg hn] at h
      rw [h n (by simp)]
      cases hl : lookup d n with
      | none => rfl
      | some x =>
        cases x with
        | file b => rfl
        | dir e => rfl
        | special => rfl
        | link t =>
          apply ih
          intro x hx
          apply h
          rw [hl]
          exact List.mem_cons_of_mem _ hx

theorem visited_congr {d d' : Dir} : ∀ {k : Nat} {n : Str}, (∀ x ∈ visited k d n, lookup d' x = lookup d x) → visited k d' n = visited k d n := by
  intro k
  induction k with
  | zero => intro n _; rfl
  | succ k ih =>
    intro n h
    unfold visited at h ⊢
    by_cases hn : n = c!"." ∨ n = c!".." ∨ n = workName
    · rw [if_pos hn, if_pos hn]
    · rw [if_neg hn, if_neg hn]
      rw [if_neg hn] at h
      rw [h n (by simp)]
      cases hl : lookup d n with
      | none => rfl
      | some x =>
        cases x with
        | file b => rfl
        | dir e => rfl
        | special => rfl
        | link t =>
          simp only [List.cons.injEq, true_and]
          apply ih
          intro x hx
          apply h
          rw [hl]
          exact List.mem_cons_of_mem _ hx

/-! ## The steps -/

theorem syncImages_spec {T : Tools} {w : Dir} : ∀ {l l' : List Image}, syncImages T w l = some l' → List.Forall₂ (fun i i' => syncImage T w i = some i') l l' := by
  intro l
  induction l with
  | nil => intro l' h; cases h; exact .nil
  | cons i l ih =>
    intro l' h
    simp only [syncImages] at h
    split at h
    · cases h
    rename_i i' hi
    split at h
    · cases h
    rename_i l'' hl
    cases h
    exact .cons hi (ih hl)

theorem syncImage_same {T : Tools} {w : Dir} {i i' : Image} (h : syncImage T w i = some i') :
    i'.filename = i.filename ∧ i'.adaptive = i.adaptive ∧ i'.convert = i.convert := by
  unfold syncImage at h
  split at h
  · cases h; exact ⟨rfl, rfl, rfl⟩
  · split at h
    · cases h
    · cases h; exact ⟨rfl, rfl, rfl⟩

theorem adaptiveMethods_frame {T : Tools} {f n : Str} (hn : n ≠ indexName f) : ∀ {ms : List Str} {w w' : Dir}, adaptiveMethods T f ms w = some w' → lookup w' n = lookup w n := by
  intro ms
  induction ms with
  | nil => intro w w' h; cases h; rfl
  | cons a ms ih =>
    intro w w' h
    simp only [adaptiveMethods] at h
    split at h
    · split at h
      · cases h
      split at h
      · cases h
      rw [ih h, lookup_setEntry, if_neg hn]
    · split at h
      · exact ih h
      · cases h

theorem adaptive_frame {T : Tools} {n : Str} : ∀ {l : List Image} {w w' : Dir}, adaptive T l w = some w' →
    (∀ i ∈ l, ∀ f, i.filename = some f → i.adaptive ≠ none → n ≠ indexName f) → lookup w' n = lookup w n := by
  intro l
  induction l with
  | nil => intro w w' h _; cases h; rfl
  | cons i l ih =>
    intro w w' h hn
    simp only [adaptive] at h
    have hn' := fun j hj => hn j (List.mem_cons_of_mem _ hj)
    split at h
    · exact ih h hn'
    rename_i ms ha
    split at h
    · cases h
    rename_i f hf
    split at h
    · cases h
    rename_i w1 h1
    rw [ih h hn', adaptiveMethods_frame (hn i (by simp) f hf (by simp [ha])) h1]

theorem composefs_lookup {T : Tools} {w w' : Dir} {f : Str} (h : composefs T w f = some w') :
    (∃ x, lookup w' (cfsName f) = some x) ∧ ∀ n, n ≠ cfsName f → n ≠ storeName → lookup w' n = lookup w n := by
  have key : ∀ img st, setEntry (setEntry w (cfsName f) (.dir [(c!"image.cfs", .file img)])) storeName (.dir st) = w' →
      (∃ x, lookup w' (cfsName f) = some x) ∧ ∀ n, n ≠ cfsName f → n ≠ storeName → lookup w' n = lookup w n := by
    intro img st e
    subst e
    constructor
    · rw [lookup_setEntry, lookup_setEntry]
      split
      · exact ⟨_, rfl⟩
      · rw [if_pos rfl]; exact ⟨_, rfl⟩
    · intro n h1 h2
      rw [lookup_setEntry, lookup_setEntry, if_neg h2, if_neg h1]
  unfold composefs at h
  split at h
  · cases h
  split at h
  · split at h
    · split at h
      · cases h
      · simp only [Option.some.injEq] at h
        exact key _ _ h
    · split at h
      · cases h
      · simp only [Option.some.injEq] at h
        exact key _ _ h
    · cases h
  · cases h

theorem convertMethods_spec {T : Tools} {f : Str} : ∀ {ms : List Str} {w w' : Dir} {o : List Str}, convertMethods T f ms w = some (w', o) →
    o = ms.map (outputName f) ∧ (∀ n, n ≠ cfsName f → n ≠ storeName → lookup w' n = lookup w n) ∧
    ((lookup w (cfsName f)).isSome = true ∨ c!"composefs" ∈ ms → (lookup w' (cfsName f)).isSome = true) ∧
    (∀ a ∈ ms, a = c!"tar-extract" ∨ a = c!"composefs" ∨ a = c!"keep") := by
  intro ms
  induction ms with
  | nil =>
    intro w w' o h
    simp only [convertMethods, Option.some.injEq, Prod.mk.injEq] at h
    obtain ⟨rfl, rfl⟩ := h
    refine ⟨rfl, fun _ _ _ => rfl, ?_, by simp⟩
    rintro (h | h)
    · exact h
    · cases h
  | cons a ms ih =>
    intro w w' o h
    simp only [convertMethods] at h
    split at h
    · rename_i ha
      split at h
      · cases h
      rename_i w1 o1 h1
      cases h
      obtain ⟨h2, h3, h4, h5⟩ := ih h1
      refine ⟨?_, h3, ?_, ?_⟩
      · rw [List.map_cons, ← h2]; simp [outputName, ha, extractedName]
      · rintro (h | h)
        · exact h4 (.inl h)
        · rcases List.mem_cons.1 h with h | h
          · rw [ha] at h; exact absurd h (by decide)
          · exact h4 (.inr h)
      · intro b hb
        rcases List.mem_cons.1 hb with rfl | hb
        · exact .inl ha
        · exact h5 b hb
    · rename_i ha
      split at h
      · rename_i hb
        split at h
        · cases h
        split at h
        · cases h
        rename_i w1 hc
        split at h
        · cases h
        rename_i w2 o1 h1
        cases h
        obtain ⟨h2, h3, h4, h5⟩ := ih h1
        obtain ⟨⟨x, hx⟩, hfr⟩ := composefs_lookup hc
        refine ⟨?_, ?_, ?_, ?_⟩
        · rw [List.map_cons, ← h2]; subst hb; simp [outputName, cfsName]
        · intro n hn1 hn2; rw [h3 n hn1 hn2, hfr n hn1 hn2]
        · intro _; exact h4 (.inl (by rw [hx]; rfl))
        · intro b hb'
          rcases List.mem_cons.1 hb' with rfl | hb'
          · exact .inr (.inl hb)
          · exact h5 b hb'
      · rename_i hb
        split at h
        · rename_i hk
          split at h
          · cases h
          rename_i w1 o1 h1
          cases h
          obtain ⟨h2, h3, h4, h5⟩ := ih h1
          refine ⟨?_, h3, ?_, ?_⟩
          · rw [List.map_cons, ← h2]; simp only [outputName]; rw [if_neg ha, if_neg hb]
          · rintro (h | h)
            · exact h4 (.inl h)
            · rcases List.mem_cons.1 h with h | h
              · exact absurd h.symm hb
              · exact h4 (.inr h)
          · intro b hb'
            rcases List.mem_cons.1 hb' with rfl | hb'
            · exact .inr (.inr hk)
            · exact h5 b hb'
        · cases h

theorem unlink_spec {d d' : Dir} {n : Str} (h : unlink d n = some d') : d' = erase d n := by
  unfold unlink at h
  split at h
  · cases h
  · cases h
  · cases h; rfl

theorem convertImage_spec {T : Tools} {R : Run} {w w' : Dir} {i i' : Image} (h : convertImage T R w i = some (w', i')) :
    i.converted ≠ some [] ∧ ((i.convert = none ∧ w' = w ∧ i' = i) ∨ ∃ f ms, i.convert = some ms ∧ i.filename = some f ∧
      i' = { i with converted := some (ms.map (outputName f)) } ∧
      (∀ n, n ≠ extractedName f → n ≠ cfsName f → n ≠ storeName → (n ≠ f ∨ c!"keep" ∈ ms) → lookup w' n = lookup w n)) := by
  unfold convertImage at h
  split at h
  · cases h
  rename_i hc
  refine ⟨hc, ?_⟩
  split at h
  · rename_i hn
    simp only [Option.some.injEq, Prod.mk.injEq] at h
    exact .inl ⟨hn, h.1.symm, h.2.symm⟩
  rename_i ms hms
  right
  split at h
  · cases h
  rename_i f hf
  simp only [] at h
  split at h
  · cases h
  rename_i w1 h1
  split at h
  · cases h
  rename_i w2 outs h2
  split at h
  · cases h
  split at h
  · cases h
  rename_i w4 h4
  simp only [Option.some.injEq, Prod.mk.injEq] at h
  obtain ⟨rfl, rfl⟩ := h
  obtain ⟨ho, hfr, -, -⟩ := convertMethods_spec h2
  refine ⟨f, ms, hms, hf, by rw [ho], ?_⟩
  intro n n1 n2 n3 n4
  have e1 : lookup w1 n = lookup w n := by
    split at h1
    · unfold tarExtract at h1
      split at h1
      · cases h1
      split at h1
      · cases h1
      split at h1
      · cases h1
      cases h1
      rw [lookup_setEntry, if_neg n1]
    · cases h1; rfl
  have e3 : lookup (if (converts i c!"tar-extract" || converts i c!"composefs") && !converts i c!"tar-extract" then erase w2 (extractedName f) else w2) n = lookup w n := by
    split
    · rw [lookup_erase, if_neg n1, hfr n n2 n3, e1]
    · rw [hfr n n2 n3, e1]
  rw [← e3]
  split at h4
  · cases h4; rfl
  · rename_i hk
    rw [unlink_spec h4, lookup_erase, if_neg]
    intro e
    rcases n4 with n4 | n4
    · exact n4 e
    · apply hk
      unfold converts
      rw [hms]
      simpa using n4

theorem convertImages_spec {T : Tools} {R : Run} : ∀ {l l' : List Image} {w w' : Dir}, convertImages T R w l = some (w', l') →
    List.Forall₂ (fun i i' => i.converted ≠ some [] ∧ ((i.convert = none ∧ i' = i) ∨ ∃ f ms, i.convert = some ms ∧ i.filename = some f ∧
      i' = { i with converted := some (ms.map (outputName f)) })) l l' ∧
    ∀ n, (∀ i ∈ l, i.convert ≠ none → n ≠ storeName ∧ ∀ f, i.filename = some f → n ≠ extractedName f ∧ n ≠ cfsName f ∧
      (n ≠ f ∨ ∀ ms, i.convert = some ms → c!"keep" ∈ ms)) → lookup w' n = lookup w n := by
  intro l
  induction l with
  | nil =>
    intro l' w w' h
    simp only [convertImages, Option.some.injEq, Prod.mk.injEq] at h
    obtain ⟨rfl, rfl⟩ := h
    exact ⟨.nil, fun _ _ => rfl⟩
  | cons i l ih =>
    intro l' w w' h
    simp only [convertImages] at h
    split at h
    · cases h
    rename_i w1 i' h1
    split at h
    · cases h
    rename_i w2 l2 h2
    simp only [Option.some.injEq, Prod.mk.injEq] at h
    obtain ⟨rfl, rfl⟩ := h
    obtain ⟨h3, h4⟩ := ih h2
    obtain ⟨h5, h6⟩ := convertImage_spec h1
    refine ⟨.cons ⟨h5, ?_⟩ h3, ?_⟩
    · rcases h6 with ⟨a, -, b⟩ | ⟨f, ms, a, b, c, -⟩
      · exact .inl ⟨a, b⟩
      · exact .inr ⟨f, ms, a, b, c⟩
    · intro n hn
      rw [h4 n (fun j hj => hn j (List.mem_cons_of_mem _ hj))]
      rcases h6 with ⟨a, b, -⟩ | ⟨f, ms, a, b, c, d⟩
      · rw [b]
      · obtain ⟨n1, n2⟩ := hn i (by simp) (by simp [a])
        obtain ⟨n3, n4, n5⟩ := n2 f b
        exact d n n3 n4 n1 (n5.imp id (fun h => h ms a))

theorem openFile_congr {d d' : Dir} {n : Str} (h : ∀ x ∈ visited maxLinks d n, lookup d' x = lookup d x) : openFile d' n = openFile d n := by
  unfold openFile
  rw [target_congr h]

theorem openFile_lookup {d : Dir} {n : Str} {b : Bytes} (h : openFile d n = some b) : (lookup d n).isSome = true := by
  unfold openFile maxLinks at h
  rw [target_succ] at h
  cases hl : lookup d n with
  | some x => rfl
  | none =>
    rw [hl] at h
    by_cases hn : n = c!"." ∨ n = c!".." ∨ n = workName
    · rw [if_pos hn] at h; cases h
    · rw [if_neg hn] at h; cases h

/-- names that differ in their suffixes -/
theorem suffix_ne {f g a b : Str} (h : a.getLast? ≠ b.getLast?) (ha : a ≠ []) (hb : b ≠ []) : f ++ a ≠ g ++ b := by
  intro e
  have := congrArg List.getLast? e
  rw [List.getLast?_append, List.getLast?_append, List.getLast?_eq_some_getLast ha, List.getLast?_eq_some_getLast hb, Option.some_or, Option.some_or] at this
  rw [List.getLast?_eq_some_getLast ha, List.getLast?_eq_some_getLast hb] at h
  exact h this

theorem longer_ne {f a : Str} (ha : a ≠ []) : f ++ a ≠ f := by
  intro e
  have := congrArg List.length e
  rw [List.length_append] at this
  have : a.length ≠ 0 := fun h => ha (List.length_eq_zero_iff.1 h)
  omega

theorem composefs_store {T : Tools} {w w' : Dir} {f : Str} (h : composefs T w f = some w') : (lookup w' storeName).isSome = true := by
  unfold composefs at h
  split at h
  · cases h
  split at h
  · split at h
    · split at h
      · cases h
      · cases h
        rw [lookup_setEntry, if_pos rfl]; rfl
    · split at h
      · cases h
      · cases h
        rw [lookup_setEntry, if_pos rfl]; rfl
    · cases h
  · cases h

theorem convertMethods_store {T : Tools} {f : Str} : ∀ {ms : List Str} {w w' : Dir} {o : List Str}, convertMethods T f ms w = some (w', o) →
    (lookup w storeName).isSome = true → (lookup w' storeName).isSome = true := by
  intro ms
  induction ms with
  | nil => intro w w' o h hs; cases h; exact hs
  | cons a ms ih =>
    intro w w' o h hs
    simp only [convertMethods] at h
    split at h
    · split at h
      · cases h
      rename_i h1
      cases h
      exact ih h1 hs
    · split at h
      · split at h
        · cases h
        split at h
        · cases h
        rename_i hc
        split at h
        · cases h
        rename_i h1
        cases h
        exact ih h1 (composefs_store hc)
      · split at h
        · split at h
          · cases h
          rename_i h1
          cases h
          exact ih h1 hs
        · cases h

theorem convertImage_outputs {T : Tools} {R : Run} {w w' : Dir} {i i' : Image} (h : convertImage T R w i = some (w', i')) {f : Str} {ms : List Str}
    (hf : i.filename = some f) (hms : i.convert = some ms) {a : Str} (ha : a ∈ ms) (hk : a = c!"keep" → (lookup w f).isSome = true) :
    (lookup w' (outputName f a)).isSome = true := by
  unfold convertImage at h
  split at h
  · cases h
  rw [hms, hf] at h
  simp only [] at h
  split at h
  · cases h
  rename_i w1 h1
  split at h
  · cases h
  rename_i w2 outs h2
  split at h
  · cases h
  split at h
  · cases h
  rename_i w4 h4
  simp only [Option.some.injEq, Prod.mk.injEq] at h
  obtain ⟨rfl, -⟩ := h
  obtain ⟨-, hfr, hcfs, hknown⟩ := convertMethods_spec h2
  have hcx : cfsName f ≠ extractedName f := suffix_ne (by decide) (by decide) (by decide)
  have hcs : storeName ≠ extractedName f := suffix_ne (f := c!".rauc-cfs") (a := c!"-store") (by decide) (by decide) (by decide)
  have hcf : cfsName f ≠ f := longer_ne (by decide)
  have hxf : extractedName f ≠ f := longer_ne (by decide)
  -- what exists before the removals
  have h2i : ∀ n, (lookup w1 n).isSome = true → (lookup w2 n).isSome = true := by
    intro n hn
    by_cases e1 : n = cfsName f
    · rw [e1] at hn ⊢; exact hcfs (.inl hn)
    · by_cases e2 : n = storeName
      · subst e2; exact (convertMethods_store h2 hn)
      · rw [hfr n e1 e2]; exact hn
  have hconv : ∀ a, converts i a = true ↔ a ∈ ms := by
    intro a
    unfold converts
    rw [hms]
    simp
  have h1x : c!"tar-extract" ∈ ms → (lookup w1 (extractedName f)).isSome = true := by
    intro ht
    rw [if_pos (by rw [(hconv _).2 ht, Bool.true_or])] at h1
    unfold tarExtract at h1
    split at h1
    · cases h1
    split at h1
    · cases h1
    split at h1
    · cases h1
    cases h1
    rw [lookup_setEntry, if_pos rfl]; rfl
  have h1f : ∀ n, (lookup w n).isSome = true → (lookup w1 n).isSome = true := by
    intro n hn
    split at h1
    · unfold tarExtract at h1
      split at h1
      · cases h1
      split at h1
      · cases h1
      split at h1
      · cases h1
      cases h1
      rw [lookup_setEntry]
      split
      · rfl
      · exact hn
    · cases h1; exact hn
  -- the last two steps
  have last : ∀ n, (lookup w2 n).isSome = true → (n = extractedName f → c!"tar-extract" ∈ ms) → (n = f → c!"keep" ∈ ms) → (lookup w4 n).isSome = true := by
    intro n hn hx hkk
    have e3 : (lookup (if (converts i c!"tar-extract" || converts i c!"composefs") && !converts i c!"tar-extract" then erase w2 (extractedName f) else w2) n).isSome = true := by
      split
      · rename_i hc
        rw [lookup_erase, if_neg]
        · exact hn
        · intro e
          rw [(hconv _).2 (hx e)] at hc
          simp at hc
      · exact hn
    split at h4
    · cases h4; exact e3
    · rename_i hnk
      rw [unlink_spec h4, lookup_erase, if_neg]
      · exact e3
      · intro e
        exact hnk ((hconv _).2 (hkk e))
  rcases hknown a ha with rfl | rfl | rfl
  · exact last _ (h2i _ (h1x ha)) (fun _ => ha) (fun e => absurd e hxf)
  · exact last _ (hcfs (.inr ha)) (fun e => absurd e hcx) (fun e => absurd e hcf)
  · exact last _ (h2i _ (h1f _ (hk rfl))) (fun e => absurd e.symm hxf) (fun _ => ha)

theorem convertImages_append {T : Tools} {R : Run} : ∀ {l1 l2 l' : List Image} {w w' : Dir}, convertImages T R w (l1 ++ l2) = some (w', l') →
    ∃ w1 a b, convertImages T R w l1 = some (w1, a) ∧ convertImages T R w1 l2 = some (w', b) ∧ l' = a ++ b := by
  intro l1
  induction l1 with
  | nil => intro l2 l' w w' h; exact ⟨w, [], l', rfl, h, rfl⟩
  | cons i l1 ih =>
    intro l2 l' w w' h
    simp only [List.cons_append, convertImages] at h
    split at h
    · cases h
    rename_i w1 i' h1
    split at h
    · cases h
    rename_i w2 l'' h2
    cases h
    obtain ⟨w3, a, b, h3, h4, rfl⟩ := ih h2
    refine ⟨w3, i' :: a, b, ?_, h4, rfl⟩
    simp only [convertImages, h1, h3]

theorem not_touched {l : List Image} {n : Str} (h : ∀ j ∈ l, ¬ TouchedBy j n) : ∀ i ∈ l, i.convert ≠ none → n ≠ storeName ∧ ∀ f, i.filename = some f →
    n ≠ extractedName f ∧ n ≠ cfsName f ∧ (n ≠ f ∨ ∀ ms, i.convert = some ms → c!"keep" ∈ ms) := by
  intro i hi hc
  refine ⟨fun e => h i hi (e ▸ .store hc), fun f hf => ⟨fun e => h i hi (e ▸ .extracted f hf hc), fun e => h i hi (e ▸ .cfs f hf hc), ?_⟩⟩
  by_cases e : n = f
  · right
    intro ms hms
    exact Decidable.not_not.1 (fun hk => h i hi (e ▸ .removed f ms hf hms hk))
  · exact .inl e

theorem convertImages_outputs {T : Tools} {R : Run} {l1 l2 l' : List Image} {i : Image} {w w' : Dir} (h : convertImages T R w (l1 ++ i :: l2) = some (w', l'))
    {f : Str} {ms : List Str} (hf : i.filename = some f) (hms : i.convert = some ms) (hex : (lookup w f).isSome = true) {a : Str} (ha : a ∈ ms)
    (hn : ∀ j ∈ l1 ++ l2, ¬ TouchedBy j (outputName f a)) : (lookup w' (outputName f a)).isSome = true := by
  obtain ⟨w1, x, y, h1, h2, -⟩ := convertImages_append h
  simp only [convertImages] at h2
  split at h2
  · cases h2
  rename_i w2 i' h3
  split at h2
  · cases h2
  rename_i w3 l3 h4
  cases h2
  rw [(convertImages_spec h4).2 _ (not_touched (fun j hj => hn j (List.mem_append_right _ hj)))]
  refine convertImage_outputs h3 hf hms ha ?_
  intro hk
  have e : outputName f a = f := by rw [hk]; rfl
  rw [e] at hn
  rw [(convertImages_spec h1).2 f (not_touched (fun j hj => hn j (List.mem_append_left _ hj)))]
  exact hex

theorem convertImage_gone {T : Tools} {R : Run} {w w' : Dir} {i i' : Image} (h : convertImage T R w i = some (w', i')) {f : Str} {ms : List Str}
    (hf : i.filename = some f) (hms : i.convert = some ms) (hk : c!"keep" ∉ ms) : lookup w' f = none := by
  unfold convertImage at h
  split at h
  · cases h
  rw [hms, hf] at h
  simp only [] at h
  split at h
  · cases h
  split at h
  · cases h
  split at h
  · cases h
  split at h
  · cases h
  rename_i w4 h4
  cases h
  rw [if_neg (by unfold converts; rw [hms]; simpa using hk)] at h4
  rw [unlink_spec h4, lookup_erase, if_pos rfl]

theorem convertImage_removed {T : Tools} {R : Run} {w w' : Dir} {i i' : Image} (h : convertImage T R w i = some (w', i')) {f : Str} (hs : f ≠ storeName)
    (hn : ∀ g, i.filename = some g → f ≠ extractedName g ∧ f ≠ cfsName g)
    (hd : lookup w f = none ∨ (i.filename = some f ∧ ∃ ms, i.convert = some ms ∧ c!"keep" ∉ ms)) : lookup w' f = none := by
  rcases hd with hd | ⟨hf, ms, hms, hk⟩
  · obtain ⟨-, ⟨-, rfl, -⟩ | ⟨g, ms, hms, hg, -, hfr⟩⟩ := convertImage_spec h
    · exact hd
    · by_cases e : f = g ∧ c!"keep" ∉ ms
      · obtain ⟨rfl, hk⟩ := e
        exact convertImage_gone h hg hms hk
      · rw [hfr f (hn g hg).1 (hn g hg).2 hs (by
          by_cases e1 : f = g
          · exact .inr (Decidable.not_not.1 (fun hk => e ⟨e1, hk⟩))
          · exact .inl e1)]
        exact hd
  · exact convertImage_gone h hf hms hk

theorem convertImages_removed {T : Tools} {R : Run} {f : Str} (hs : f ≠ storeName) : ∀ {l l' : List Image} {w w' : Dir}, convertImages T R w l = some (w', l') →
    (∀ i ∈ l, ∀ g, i.filename = some g → f ≠ extractedName g ∧ f ≠ cfsName g) →
    (lookup w f = none ∨ ∃ i ∈ l, i.filename = some f ∧ ∃ ms, i.convert = some ms ∧ c!"keep" ∉ ms) → lookup w' f = none := by
  intro l
  induction l with
  | nil =>
    intro l' w w' h _ hd
    cases h
    rcases hd with hd | ⟨i, hi, -⟩
    · exact hd
    · cases hi
  | cons i l ih =>
    intro l' w w' h hn hd
    simp only [convertImages] at h
    split at h
    · cases h
    rename_i w1 i' h1
    split at h
    · cases h
    rename_i w2 l2 h2
    cases h
    have hn' := fun j hj => hn j (List.mem_cons_of_mem _ hj)
    rcases hd with hd | ⟨j, hj, h3, h4⟩
    · exact ih h2 hn' (.inl (convertImage_removed h1 hs (hn i (by simp)) (.inl hd)))
    · rcases List.mem_cons.1 hj with rfl | hj
      · exact ih h2 hn' (.inl (convertImage_removed h1 hs (hn _ (by simp)) (.inr ⟨h3, h4⟩)))
      · exact ih h2 hn' (.inr ⟨j, hj, h3, h4⟩)

theorem adaptive_mono {T : Tools} {n : Str} : ∀ {l : List Image} {w w' : Dir}, adaptive T l w = some w' → (lookup w n).isSome = true → (lookup w' n).isSome = true := by
  have methods : ∀ {f : Str} {ms : List Str} {w w' : Dir}, adaptiveMethods T f ms w = some w' → (lookup w n).isSome = true → (lookup w' n).isSome = true := by
    intro f ms
    induction ms with
    | nil => intro w w' h hn; cases h; exact hn
    | cons a ms ih =>
      intro w w' h hn
      simp only [adaptiveMethods] at h
      split at h
      · split at h
        · cases h
        split at h
        · cases h
        apply ih h
        rw [lookup_setEntry]
        split
        · rfl
        · exact hn
      · split at h
        · exact ih h hn
        · cases h
  intro l
  induction l with
  | nil => intro w w' h hn; cases h; exact hn
  | cons i l ih =>
    intro w w' h hn
    simp only [adaptive] at h
    split at h
    · exact ih h hn
    split at h
    · cases h
    split at h
    · cases h
    rename_i h1
    exact ih h (methods h1 hn)

/-- the file of an image is not changed by the indices that are written -/
def Agree (w0 w : Dir) (f : Str) : Prop := ∀ x ∈ visited maxLinks w0 f, lookup w x = lookup w0 x

theorem adaptiveMethods_index {T : Tools} {w0 : Dir} {f : Str} {b x : Bytes} (hb : openFile w0 f = some b) (hx : T.index b = some x) {g : Str}
    (hg : indexName g ∉ visited maxLinks w0 f) : ∀ {ms : List Str} {w w' : Dir}, adaptiveMethods T g ms w = some w' → Agree w0 w f →
    Agree w0 w' f ∧ ((lookup w (indexName f) = some (.file x) ∨ (g = f ∧ c!"block-hash-index" ∈ ms)) → lookup w' (indexName f) = some (.file x)) := by
  intro ms
  induction ms with
  | nil =>
    intro w w' h ha
    cases h
    refine ⟨ha, ?_⟩
    rintro (h | ⟨-, h⟩)
    · exact h
    · cases h
  | cons a ms ih =>
    intro w w' h ha
    simp only [adaptiveMethods] at h
    split at h
    · split at h
      · cases h
      rename_i b' hb'
      split at h
      · cases h
      rename_i x' hx'
      have ha' : Agree w0 (setEntry w (indexName g) (.file x')) f := by
        intro y hy
        rw [lookup_setEntry, if_neg (by intro e; exact hg (e ▸ hy))]
        exact ha y hy
      obtain ⟨h1, h2⟩ := ih h ha'
      refine ⟨h1, ?_⟩
      intro hor
      apply h2
      left
      rw [lookup_setEntry]
      by_cases e : g = f
      · subst e
        rw [if_pos rfl]
        rw [openFile_congr ha, hb] at hb'
        cases hb'
        rw [hx] at hx'
        cases hx'
        rfl
      · rw [if_neg (by intro e2; exact e (List.append_cancel_right e2).symm)]
        rcases hor with h3 | ⟨h3, -⟩
        · exact h3
        · exact absurd h3 e
    · rename_i hne
      split at h
      · obtain ⟨h1, h2⟩ := ih h ha
        refine ⟨h1, ?_⟩
        rintro (h3 | ⟨h3, h4⟩)
        · exact h2 (.inl h3)
        · rcases List.mem_cons.1 h4 with h4 | h4
          · exact absurd h4.symm hne
          · exact h2 (.inr ⟨h3, h4⟩)
      · cases h

theorem adaptive_index {T : Tools} {w0 : Dir} {f : Str} {b x : Bytes} (hb : openFile w0 f = some b) (hx : T.index b = some x) :
    ∀ {l : List Image} {w w' : Dir}, (∀ j ∈ l, ∀ g, j.filename = some g → j.adaptive ≠ none → indexName g ∉ visited maxLinks w0 f) → adaptive T l w = some w' → Agree w0 w f →
    Agree w0 w' f ∧ ((lookup w (indexName f) = some (.file x) ∨ (∃ i ∈ l, i.filename = some f ∧ ∃ ms, i.adaptive = some ms ∧ c!"block-hash-index" ∈ ms)) →
      lookup w' (indexName f) = some (.file x)) := by
  intro l
  induction l with
  | nil =>
    intro w w' _ h ha
    cases h
    refine ⟨ha, ?_⟩
    rintro (h | ⟨i, h, -⟩)
    · exact h
    · cases h
  | cons i l ih =>
    intro w w' hv h ha
    simp only [adaptive] at h
    have hv' := fun j hj => hv j (List.mem_cons_of_mem _ hj)
    split at h
    · rename_i hn
      obtain ⟨h1, h2⟩ := ih hv' h ha
      refine ⟨h1, ?_⟩
      rintro (h3 | ⟨j, hj, h4, ms, h5, h6⟩)
      · exact h2 (.inl h3)
      · rcases List.mem_cons.1 hj with rfl | hj
        · rw [hn] at h5; cases h5
        · exact h2 (.inr ⟨j, hj, h4, ms, h5, h6⟩)
    rename_i ms hms
    split at h
    · cases h
    rename_i g hg
    split at h
    · cases h
    rename_i w1 hw1
    obtain ⟨h1, h2⟩ := adaptiveMethods_index hb hx (hv i (by simp) g hg (by simp [hms])) hw1 ha
    obtain ⟨h3, h4⟩ := ih hv' h h1
    refine ⟨h3, ?_⟩
    rintro (h5 | ⟨j, hj, h6, ms', h7, h8⟩)
    · exact h4 (.inl (h2 (.inl h5)))
    · rcases List.mem_cons.1 hj with rfl | hj
      · rw [hms] at h7
        cases h7
        rw [hg] at h6
        cases h6
        exact h4 (.inl (h2 (.inr ⟨rfl, h8⟩)))
      · exact h4 (.inr ⟨j, hj, h6, ms', h7, h8⟩)

/-- an index that was asked for can be computed -/
theorem adaptive_computed {T : Tools} {w0 : Dir} {f : Str} {b : Bytes} (hb : openFile w0 f = some b) :
    ∀ {l : List Image} {w w' : Dir}, (∀ j ∈ l, ∀ g, j.filename = some g → j.adaptive ≠ none → indexName g ∉ visited maxLinks w0 f) → adaptive T l w = some w' → Agree w0 w f →
    (∃ i ∈ l, i.filename = some f ∧ ∃ ms, i.adaptive = some ms ∧ c!"block-hash-index" ∈ ms) → ∃ x, T.index b = some x := by
  intro l w w' hv h ha hi
  cases hx : T.index b with
  | some x => exact ⟨x, rfl⟩
  | none =>
    exfalso
    have methods : ∀ {g : Str}, indexName g ∉ visited maxLinks w0 f → ∀ {ms : List Str} {w w' : Dir}, adaptiveMethods T g ms w = some w' → Agree w0 w f →
        Agree w0 w' f ∧ ¬ (g = f ∧ c!"block-hash-index" ∈ ms) := by
      intro g hg ms
      induction ms with
      | nil => intro w w' h ha; cases h; exact ⟨ha, by simp⟩
      | cons a ms ih =>
        intro w w' h ha
        simp only [adaptiveMethods] at h
        split at h
        · split at h
          · cases h
          rename_i b' hb'
          split at h
          · cases h
          rename_i x' hx'
          have ha' : Agree w0 (setEntry w (indexName g) (.file x')) f := by
            intro y hy
            rw [lookup_setEntry, if_neg (by intro e; exact hg (e ▸ hy))]
            exact ha y hy
          obtain ⟨h1, -⟩ := ih h ha'
          refine ⟨h1, ?_⟩
          rintro ⟨rfl, -⟩
          rw [openFile_congr ha, hb] at hb'
          cases hb'
          rw [hx] at hx'
          cases hx'
        · rename_i hne
          split at h
          · obtain ⟨h1, h2⟩ := ih h ha
            refine ⟨h1, ?_⟩
            rintro ⟨h3, h4⟩
            rcases List.mem_cons.1 h4 with h4 | h4
            · exact hne h4.symm
            · exact h2 ⟨h3, h4⟩
          · cases h
    revert w w' hi
    induction l with
    | nil => rintro w w' - - ⟨i, hi, -⟩; cases hi
    | cons i l ih =>
      intro w w' h ha hi
      simp only [adaptive] at h
      have hv' := fun j hj => hv j (List.mem_cons_of_mem _ hj)
      obtain ⟨j, hj, h6, ms', h7, h8⟩ := hi
      split at h
      · rename_i hn
        rcases List.mem_cons.1 hj with rfl | hj
        · rw [hn] at h7; cases h7
        · exact ih hv' h ha ⟨j, hj, h6, ms', h7, h8⟩
      rename_i ms hms
      split at h
      · cases h
      rename_i g hg
      split at h
      · cases h
      rename_i w1 hw1
      obtain ⟨h1, h2⟩ := methods (hv i (by simp) g hg (by simp [hms])) hw1 ha
      rcases List.mem_cons.1 hj with rfl | hj
      · rw [hms] at h7
        cases h7
        rw [hg] at h6
        cases h6
        exact h2 ⟨rfl, h8⟩
      · exact ih hv' h h1 ⟨j, hj, h6, ms', h7, h8⟩

/-! ## The trees of converted images -/

/-- the object store only grows -/
def Grows (T : Tools) (w w' : Dir) : Prop :=
  ∀ st, lookup w storeName = some (.dir st) → ∃ st', lookup w' storeName = some (.dir st') ∧ ∀ img e, T.mountCfs img st = some e → T.mountCfs img st' = some e

theorem Grows.refl (T : Tools) (w : Dir) : Grows T w w := fun st h => ⟨st, h, fun _ _ h => h⟩

theorem Grows.of_eq {T : Tools} {w w' : Dir} (h : lookup w' storeName = lookup w storeName) : Grows T w w' := fun st hs => ⟨st, by rw [h, hs], fun _ _ h => h⟩

theorem Grows.trans {T : Tools} {a b c : Dir} (h1 : Grows T a b) (h2 : Grows T b c) : Grows T a c := by
  intro st hs
  obtain ⟨s1, e1, f1⟩ := h1 st hs
  obtain ⟨s2, e2, f2⟩ := h2 s1 e1
  exact ⟨s2, e2, fun i e h => f2 i e (f1 i e h)⟩

/-- an image with its objects -/
def Shown (T : Tools) (w : Dir) (f : Str) (e : Dir) : Prop :=
  ∃ img st, lookup w (cfsName f) = some (.dir [(c!"image.cfs", .file img)]) ∧ lookup w storeName = some (.dir st) ∧ T.mountCfs img st = some e

theorem Shown.grows {T : Tools} {w w' : Dir} {f : Str} {e : Dir} (h : Shown T w f e) (hg : Grows T w w') (hc : lookup w' (cfsName f) = lookup w (cfsName f)) : Shown T w' f e := by
  obtain ⟨img, st, h1, h2, h3⟩ := h
  obtain ⟨st', h4, h5⟩ := hg st h2
  exact ⟨img, st', by rw [hc, h1], h4, h5 img e h3⟩

theorem cfs_ne_store (f : Str) : cfsName f ≠ storeName := suffix_ne (g := c!".rauc-cfs") (b := c!"-store") (by decide) (by decide) (by decide)
theorem extracted_ne_store (f : Str) : extractedName f ≠ storeName := suffix_ne (g := c!".rauc-cfs") (b := c!"-store") (by decide) (by decide) (by decide)
theorem cfs_ne_extracted (f : Str) : cfsName f ≠ extractedName f := suffix_ne (by decide) (by decide) (by decide)

theorem composefs_shown {T : Tools} (hT : Sound T) {w w' : Dir} {f : Str} (h : composefs T w f = some w') :
    lookup w (cfsName f) = none ∧ ∃ e, lookup w (extractedName f) = some (.dir e) ∧ Shown T w' f e ∧ Grows T w w' := by
  unfold composefs at h
  split at h
  · cases h
  rename_i hno
  refine ⟨by simpa using hno, ?_⟩
  split at h
  · rename_i e he
    refine ⟨e, he, ?_⟩
    split at h
    · rename_i hs
      split at h
      · cases h
      rename_i img st hm
      cases h
      obtain ⟨h1, h2⟩ := hT.cfs _ _ _ _ hm
      refine ⟨⟨img, st, ?_, ?_, h1⟩, ?_⟩
      · rw [lookup_setEntry, if_neg (cfs_ne_store f), lookup_setEntry, if_pos rfl]
      · rw [lookup_setEntry, if_pos rfl]
      · intro st hst; rw [hs] at hst; cases hst
    · rename_i s hs
      split at h
      · cases h
      rename_i img st hm
      cases h
      obtain ⟨h1, h2⟩ := hT.cfs _ _ _ _ hm
      refine ⟨⟨img, st, ?_, ?_, h1⟩, ?_⟩
      · rw [lookup_setEntry, if_neg (cfs_ne_store f), lookup_setEntry, if_pos rfl]
      · rw [lookup_setEntry, if_pos rfl]
      · intro s' hst
        rw [hs] at hst
        cases hst
        exact ⟨st, by rw [lookup_setEntry, if_pos rfl], h2⟩
    · cases h
  · cases h

theorem convertMethods_shown {T : Tools} (hT : Sound T) {f : Str} : ∀ {ms : List Str} {w w' : Dir} {o : List Str}, convertMethods T f ms w = some (w', o) →
    Grows T w w' ∧ (c!"composefs" ∈ ms → lookup w (cfsName f) = none ∧ ∃ e, lookup w (extractedName f) = some (.dir e) ∧ Shown T w' f e) ∧
      (c!"composefs" ∉ ms → w' = w) := by
  intro ms
  induction ms with
  | nil => intro w w' o h; cases h; exact ⟨.refl T w, by simp, fun _ => rfl⟩
  | cons a ms ih =>
    intro w w' o h
    simp only [convertMethods] at h
    split at h
    · rename_i ha
      split at h
      · cases h
      rename_i h1
      cases h
      obtain ⟨i1, i2, i3⟩ := ih h1
      refine ⟨i1, ?_, ?_⟩
      · intro hc
        rcases List.mem_cons.1 hc with hc | hc
        · rw [ha] at hc; exact absurd hc (by decide)
        · exact i2 hc
      · intro hc; exact i3 (fun h => hc (List.mem_cons_of_mem _ h))
    · split at h
      · rename_i hb
        split at h
        · cases h
        split at h
        · cases h
        rename_i w1 hc
        split at h
        · cases h
        rename_i h1
        cases h
        obtain ⟨i1, i2, i3⟩ := ih h1
        obtain ⟨c0, e, c1, c2, c3⟩ := composefs_shown hT hc
        refine ⟨c3.trans i1, ?_, fun hn => absurd (by rw [hb]; simp) hn⟩
        intro _
        refine ⟨c0, e, c1, ?_⟩
        by_cases hm : c!"composefs" ∈ ms
        · obtain ⟨img, st, h5, -, -⟩ := c2
          rw [(i2 hm).1] at h5
          cases h5
        · rw [i3 hm]; exact c2
      · rename_i hb
        split at h
        · split at h
          · cases h
          rename_i h1
          cases h
          obtain ⟨i1, i2, i3⟩ := ih h1
          refine ⟨i1, ?_, ?_⟩
          · intro hc
            rcases List.mem_cons.1 hc with hc | hc
            · exact absurd hc.symm hb
            · exact i2 hc
          · intro hc; exact i3 (fun h => hc (List.mem_cons_of_mem _ h))
        · cases h

theorem tarExtract_spec {T : Tools} {w w' : Dir} {f : Str} (h : tarExtract T w f = some w') :
    ∃ b e, openFile w f = some b ∧ T.tar b = some e ∧ w' = setEntry w (extractedName f) (.dir e) := by
  unfold tarExtract at h
  split at h
  · cases h
  split at h
  · cases h
  rename_i b hb
  split at h
  · cases h
  rename_i e he
  cases h
  exact ⟨b, e, hb, he, rfl⟩

theorem convertImage_trees {T : Tools} (hT : Sound T) {R : Run} {w w' : Dir} {i i' : Image} (h : convertImage T R w i = some (w', i')) :
    Grows T w w' ∧ ∀ f ms, i.filename = some f → i.convert = some ms → (c!"tar-extract" ∈ ms ∨ c!"composefs" ∈ ms) →
      ∃ b e, openFile w f = some b ∧ T.tar b = some e ∧ (c!"tar-extract" ∈ ms → lookup w' (extractedName f) = some (.dir e)) ∧ (c!"composefs" ∈ ms → Shown T w' f e) := by
  unfold convertImage at h
  split at h
  · cases h
  split at h
  · rename_i hn
    simp only [Option.some.injEq, Prod.mk.injEq] at h
    refine ⟨.of_eq (by rw [h.1]), ?_⟩
    intro f ms _ hms
    rw [hn] at hms
    cases hms
  rename_i ms hms
  split at h
  · cases h
  rename_i f hf
  simp only [] at h
  split at h
  · cases h
  rename_i w1 h1
  split at h
  · cases h
  rename_i w2 outs h2
  split at h
  · cases h
  split at h
  · cases h
  rename_i w4 h4
  simp only [Option.some.injEq, Prod.mk.injEq] at h
  obtain ⟨rfl, -⟩ := h
  have hconv : ∀ a, converts i a = true ↔ a ∈ ms := by
    intro a
    unfold converts
    rw [hms]
    simp
  obtain ⟨-, hfr, -, -⟩ := convertMethods_spec h2
  obtain ⟨g2, s2, -⟩ := convertMethods_shown hT h2
  have hxf : extractedName f ≠ f := longer_ne (by decide)
  have hcf : cfsName f ≠ f := longer_ne (by decide)
  -- the last two steps
  have last : ∀ n, n ≠ f → (n = extractedName f → c!"tar-extract" ∈ ms) → lookup w4 n = lookup w2 n := by
    intro n hn hx
    have e3 : lookup (if (converts i c!"tar-extract" || converts i c!"composefs") && !converts i c!"tar-extract" then erase w2 (extractedName f) else w2) n = lookup w2 n := by
      split
      · rename_i hc
        rw [lookup_erase, if_neg]
        intro e
        rw [(hconv _).2 (hx e)] at hc
        simp at hc
      · rfl
    rw [← e3]
    split at h4
    · cases h4; rfl
    · rw [unlink_spec h4, lookup_erase, if_neg hn]
  have hstore : Grows T w2 w4 := by
    by_cases hn : storeName = f
    · split at h4
      · rename_i hk
        cases h4
        apply Grows.of_eq
        split
        · rw [lookup_erase, if_neg (extracted_ne_store f).symm]
        · rfl
      · -- a directory cannot be unlinked
        intro st hst
        exfalso
        have e3 : lookup (if (converts i c!"tar-extract" || converts i c!"composefs") && !converts i c!"tar-extract" then erase w2 (extractedName f) else w2) f = some (.dir st) := by
          split
          · rw [lookup_erase, if_neg (fun e => hxf e.symm), ← hn, hst]
          · rw [← hn, hst]
        unfold unlink at h4
        rw [e3] at h4
        cases h4
    · exact .of_eq (last _ hn (fun e => absurd e (extracted_ne_store f).symm))
  have g1 : Grows T w w1 := by
    split at h1
    · obtain ⟨b, e, -, -, rfl⟩ := tarExtract_spec h1
      exact .of_eq (by rw [lookup_setEntry, if_neg (extracted_ne_store f).symm])
    · cases h1; exact .refl T _
  refine ⟨(g1.trans g2).trans hstore, ?_⟩
  intro f' ms' hf' hms' hor
  rw [hf] at hf'
  cases hf'
  rw [hms] at hms'
  cases hms'
  rw [if_pos (by rw [Bool.or_eq_true, hconv, hconv]; exact hor)] at h1
  obtain ⟨b, e, h5, h6, rfl⟩ := tarExtract_spec h1
  refine ⟨b, e, h5, h6, ?_, ?_⟩
  · intro ht
    rw [last _ hxf (fun _ => ht), hfr _ (cfs_ne_extracted f).symm (extracted_ne_store f), lookup_setEntry, if_pos rfl]
  · intro hc
    obtain ⟨-, e', h7, h8⟩ := s2 hc
    rw [lookup_setEntry, if_pos rfl] at h7
    cases h7
    exact h8.grows hstore (last _ hcf (fun e => absurd e (cfs_ne_extracted f)))

theorem convertImages_grows {T : Tools} (hT : Sound T) {R : Run} : ∀ {l l' : List Image} {w w' : Dir}, convertImages T R w l = some (w', l') → Grows T w w' := by
  intro l
  induction l with
  | nil => intro l' w w' h; cases h; exact .refl T _
  | cons i l ih =>
    intro l' w w' h
    simp only [convertImages] at h
    split at h
    · cases h
    rename_i w1 i' h1
    split at h
    · cases h
    rename_i w2 l2 h2
    cases h
    exact (convertImage_trees hT h1).1.trans (ih h2)

theorem convertImages_trees {T : Tools} (hT : Sound T) {R : Run} {l1 l2 l' : List Image} {i : Image} {w w' : Dir} (h : convertImages T R w (l1 ++ i :: l2) = some (w', l'))
    {f : Str} {ms : List Str} (hf : i.filename = some f) (hms : i.convert = some ms) {b : Bytes} (hb : openFile w f = some b)
    (hv : ∀ x ∈ visited maxLinks w f, ∀ j ∈ l1, ¬ TouchedBy j x) :
    (c!"tar-extract" ∈ ms → (∀ j ∈ l2, ¬ TouchedBy j (extractedName f)) → ∃ e, T.tar b = some e ∧ lookup w' (extractedName f) = some (.dir e)) ∧
    (c!"composefs" ∈ ms → (∀ j ∈ l2, ¬ TouchedBy j (cfsName f)) → ∃ e, T.tar b = some e ∧ Shown T w' f e) := by
  obtain ⟨w1, x, y, h1, h2, -⟩ := convertImages_append h
  simp only [convertImages] at h2
  split at h2
  · cases h2
  rename_i w2 i' h3
  split at h2
  · cases h2
  rename_i w3 l3 h4
  cases h2
  have hb1 : openFile w1 f = some b := by
    rw [← hb]
    exact openFile_congr (fun y hy => (convertImages_spec h1).2 y (not_touched (fun j hj => hv y hy j hj)))
  obtain ⟨-, h5⟩ := convertImage_trees hT h3
  constructor
  · intro ht hn
    obtain ⟨b', e, h6, h7, h8, -⟩ := h5 f ms hf hms (.inl ht)
    rw [hb1] at h6
    cases h6
    exact ⟨e, h7, by rw [(convertImages_spec h4).2 _ (not_touched hn)]; exact h8 ht⟩
  · intro hc hn
    obtain ⟨b', e, h6, h7, -, h8⟩ := h5 f ms hf hms (.inr hc)
    rw [hb1] at h6
    cases h6
    exact ⟨e, h7, (h8 hc).grows (convertImages_grows hT h4) (by rw [(convertImages_spec h4).2 _ (not_touched hn)])⟩

theorem convertImages_known {T : Tools} {R : Run} : ∀ {l l' : List Image} {w w' : Dir}, convertImages T R w l = some (w', l') → ∀ i ∈ l, ∀ ms, i.convert = some ms →
    ∀ a ∈ ms, a = c!"tar-extract" ∨ a = c!"composefs" ∨ a = c!"keep" := by
  intro l
  induction l with
  | nil => intro l' w w' _ i hi; cases hi
  | cons i l ih =>
    intro l' w w' h j hj ms hms a ha
    simp only [convertImages] at h
    split at h
    · cases h
    rename_i w1 i' h1
    split at h
    · cases h
    rename_i w2 l2 h2
    rcases List.mem_cons.1 hj with rfl | hj
    · unfold convertImage at h1
      rw [hms] at h1
      simp only [] at h1
      split at h1
      · cases h1
      split at h1
      · cases h1
      split at h1
      · cases h1
      split at h1
      · cases h1
      rename_i hcm
      exact (convertMethods_spec hcm).2.2.2 a ha
    · exact ih h2 j hj ms hms a ha

/-- what a successful run went through -/
theorem create_cases {T : Tools} {R : Run} {running : Str} {depth : Nat} {content : Dir} {existing : Option Bytes} {f : Bytes}
    (h : create T R running depth content existing = (true, some f)) :
    existing = none ∧ ∃ w m m1 w1 w2 imgs p m3 p1, linkDir depth true content = some w ∧ (openFile w manifestName).bind (loadText T) = some m ∧
      checkInput running m = true ∧ checkCreate m = true ∧ sync T w m = some m1 ∧ adaptive T m1.images w = some w1 ∧ convertImages T R w1 m1.images = some (w2, imgs) ∧
      T.pack (keepMetadata m1) (setEntry w2 manifestName (.file (T.text (prepare { m1 with images := imgs })))) = some p ∧
      encryptStep T R { m1 with images := imgs } p = some (m3, p1) ∧ signBundle T R running m3 p1 = some f := by
  unfold create at h
  split at h
  · cases h
  refine ⟨rfl, ?_⟩
  split at h
  · cases h
  split at h
  · cases h
  rename_i w hw
  split at h
  · cases h
  rename_i m hm
  split at h
  · cases h
  rename_i hi
  split at h
  · cases h
  rename_i hc
  split at h
  · cases h
  rename_i m1 hm1
  split at h
  · cases h
  split at h
  · cases h
  rename_i w1 hw1
  split at h
  · cases h
  rename_i w2 imgs hw2
  split at h
  · cases h
  split at h
  · cases h
  rename_i p hp
  split at h
  · cases h
  rename_i m3 p1 he
  split at h
  · cases h
  rename_i f' hs
  split at h
  · simp only [Prod.mk.injEq, Option.some.injEq, true_and] at h
    subst h
    exact ⟨w, m, m1, w1, w2, imgs, p, m3, p1, hw, hm, by simpa using hi, by simpa using hc, hm1, hw1, hw2, hp, he, hs⟩
  · cases h

/-! ## The manifest -/

theorem hexStr_encode {b : Bytes} (h : b.length = 32) : HexStr 64 (Utils.hexEncode b) := by
  obtain ⟨-, h2⟩ := Utils.C26_round_trip b
  rw [h] at h2
  obtain ⟨x, hx, hs⟩ := ManifestFile.validHex32_iff.1 (show ManifestFile.validHex32 (some (Utils.hexEncode b)) = true by
    simp only [ManifestFile.validHex32, h2, Option.isSome_some])
  cases hx
  exact hs

theorem hexStr_clean {s : Str} (h : HexStr 64 s) : s ≠ [] ∧ ManifestFile.Clean s := by
  refine ⟨by intro e; rw [e] at h; exact absurd h.1 (by decide), ⟨?_, ?_⟩⟩
  · intro e
    have hm := h.2 _ (List.mem_of_mem_head? e)
    revert hm
    decide
  · intro c hc
    have hm := h.2 _ (List.mem_of_getLast? hc)
    have : ∀ c ∈ c!"0123456789abcdefABCDEF", c ≠ ' ' ∧ c ≠ '\t' ∧ c ≠ ManifestFile.FF := by decide
    exact this c hm

/-- the entries after both steps -/
theorem entry_of {T : Tools} {w : Dir} {i i1 i' : Image} (h1 : syncImage T w i = some i1)
    (h2 : i1.converted ≠ some [] ∧ ((i1.convert = none ∧ i' = i1) ∨ ∃ f ms, i1.convert = some ms ∧ i1.filename = some f ∧
      i' = { i1 with converted := some (ms.map (outputName f)) })) : Entry T w i i' := by
  unfold syncImage at h1
  split at h1
  · rename_i hf
    cases h1
    rcases h2 with ⟨-, ⟨hc, rfl⟩ | ⟨f, ms, hc, hf', rfl⟩⟩
    · refine ⟨rfl, ?_, ?_, ?_, ?_⟩
      · intro f h; rw [hf] at h; cases h
      · intro _; exact ⟨rfl, rfl, rfl⟩
      · intro _; rfl
      · intro f ms h; rw [hf] at h; cases h
    · simp only [] at hf'
      rw [hf] at hf'; cases hf'
  · rename_i f hf
    split at h1
    · cases h1
    rename_i b hb
    cases h1
    rcases h2 with ⟨-, ⟨hc, rfl⟩ | ⟨f', ms, hc, hf', rfl⟩⟩
    · simp only [] at hc
      refine ⟨rfl, ?_, ?_, ?_, ?_⟩
      · intro f1 h; rw [hf] at h; cases h; exact ⟨b, hb, rfl, rfl, rfl⟩
      · intro h; rw [hf] at h; cases h
      · intro _; rfl
      · intro f1 ms _ h; rw [hc] at h; cases h
    · simp only [] at hc hf'
      rw [hf] at hf'; cases hf'
      refine ⟨rfl, ?_, ?_, ?_, ?_⟩
      · intro f1 h; rw [hf] at h; cases h; exact ⟨b, hb, rfl, rfl, rfl⟩
      · intro h; rw [hf] at h; cases h
      · intro h; rw [hc] at h; cases h
      · intro f1 ms1 h3 h4; rw [hf] at h3; rw [hc] at h4; cases h3; cases h4; rfl

theorem forall₂_trans {α β γ : Type} {P : α → β → Prop} {Q : β → γ → Prop} {S : α → γ → Prop} (hS : ∀ a b c, P a b → Q b c → S a c) :
    ∀ {l : List α} {l1 : List β} {l2 : List γ}, List.Forall₂ P l l1 → List.Forall₂ Q l1 l2 → List.Forall₂ S l l2 := by
  intro l
  induction l with
  | nil => intro l1 l2 h1 h2; cases h1; cases h2; exact .nil
  | cons a l ih =>
    intro l1 l2 h1 h2
    cases h1 with
    | cons p ps =>
      cases h2 with
      | cons q qs => exact .cons (hS _ _ _ p q) (ih ps qs)

/-- an entry can be written to a manifest and read again -/
theorem entry_wf {T : Tools} (hT : Sound T) {w : Dir} (hw : ∀ n b, openFile w n = some b → b.length < 2 ^ 63) {i i' : Image} (h : Entry T w i i') (hi : ImageWf i)
    (hc : i.convert ≠ some []) (hc2 : i.filename = none → i.convert = none) : ImageWf i' ∧ ManifestFile.target i' = ManifestFile.target i := by
  obtain ⟨sc, ar, va, sh, di, si, fi, ty, te, ho, ad, co, cd⟩ := i'
  obtain ⟨h1, h2, h3, h4, h5⟩ := h
  have e : i = { i with slotclass := sc, artifact := ar, variant := va, filename := fi, typ := ty, typeFromExt := te, hooks := ho, adaptive := ad, convert := co } := by
    conv => lhs; rw [← h1]
  generalize i.sha256 = a1 at e
  generalize i.digest = a2 at e
  generalize i.size = a3 at e
  generalize i.converted = a4 at e
  subst e
  clear h1
  simp only at h2 h3 h4 h5
  refine ⟨?_, rfl⟩
  have hx : (∃ f b, fi = some f ∧ openFile w f = some b ∧ sh = true ∧ di = some (shaHex T b) ∧ si = b.length) ∨
      (fi = none ∧ si = -1 ∧ di = a2 ∧ sh = a1) := by
    cases hf : fi with
    | none => exact .inr ⟨rfl, h3 hf⟩
    | some f => obtain ⟨b, hb⟩ := h2 f hf; exact .inl ⟨f, b, rfl, hb⟩
  have hconv : ManifestFile.Vals cd ∧ cd ≠ some [] := by
    cases hcv : co with
    | none => rw [h4 hcv]; exact ⟨hi.converted, hi.convertedNonempty⟩
    | some ms =>
      cases hf : fi with
      | none => rw [show co = none from hc2 hf] at hcv; cases hcv
      | some f =>
        rw [h5 f ms hf hcv]
        constructor
        · intro l hl s hs
          cases hl
          obtain ⟨a, -, rfl⟩ := List.mem_map.1 hs
          obtain ⟨f1, f2⟩ := hi.filename f hf
          obtain ⟨c, f', rfl⟩ : ∃ c f', f = c :: f' := by cases f with | nil => exact absurd rfl f1 | cons c f' => exact ⟨c, f', rfl⟩
          unfold outputName
          split
          · exact f2.front
          · split <;> exact f2.front
        · intro e
          simp only [Option.some.injEq, List.map_eq_nil_iff] at e
          rw [e] at hcv
          exact hc hcv
  constructor
  · exact hi.slotclass
  · exact hi.artifact
  · rcases hx with ⟨f, b, h6, h7, rfl, rfl, -⟩ | ⟨h6, -, rfl, rfl⟩
    · rfl
    · exact hi.sha256
  · rcases hx with ⟨f, b, h6, h7, -, rfl, -⟩ | ⟨h6, -, rfl, -⟩
    · intro s hs; cases hs; exact hexStr_clean (hexStr_encode (hT.sha b))
    · exact hi.digest
  · rcases hx with ⟨f, b, h6, h7, -, -, rfl⟩ | ⟨h6, rfl, -⟩
    · have := hw f b h7
      right
      constructor
      · exact Int.natCast_nonneg _
      · show (b.length : Int) < 2 ^ 63
        omega
    · exact .inl rfl
  · exact hi.filename
  · exact hi.artType
  · exact hi.derived
  · exact hi.typ
  · exact hi.known
  · exact hi.adaptive
  · exact hi.convert
  · exact hconv.1
  · exact hconv.2
  · exact hi.content

theorem forall₂_mem {α β : Type} {P : α → β → Prop} : ∀ {l : List α} {l' : List β}, List.Forall₂ P l l' → ∀ b ∈ l', ∃ a ∈ l, P a b := by
  intro l
  induction l with
  | nil => intro l' h b hb; cases h; cases hb
  | cons a l ih =>
    intro l' h b hb
    cases h with
    | cons p ps =>
      rcases List.mem_cons.1 hb with rfl | hb
      · exact ⟨a, by simp, p⟩
      · obtain ⟨a', h1, h2⟩ := ih ps b hb
        exact ⟨a', List.mem_cons_of_mem _ h1, h2⟩

theorem forall₂_mem_left {α β : Type} {P : α → β → Prop} : ∀ {l : List α} {l' : List β}, List.Forall₂ P l l' → ∀ a ∈ l, ∃ b ∈ l', P a b := by
  intro l
  induction l with
  | nil => intro l' h b hb; cases hb
  | cons a l ih =>
    intro l' h b hb
    cases h with
    | cons p ps =>
      rcases List.mem_cons.1 hb with rfl | hb
      · exact ⟨_, by simp, p⟩
      · obtain ⟨a', h1, h2⟩ := ih ps b hb
        exact ⟨a', List.mem_cons_of_mem _ h1, h2⟩

theorem forall₂_split {α β : Type} {P : α → β → Prop} : ∀ {l1 : List α} {a : α} {l2 : List α} {l' : List β}, List.Forall₂ P (l1 ++ a :: l2) l' →
    ∃ k1 b k2, l' = k1 ++ b :: k2 ∧ List.Forall₂ P l1 k1 ∧ P a b ∧ List.Forall₂ P l2 k2 := by
  intro l1
  induction l1 with
  | nil =>
    intro a l2 l' h
    cases h with
    | cons p ps => exact ⟨[], _, _, rfl, .nil, p, ps⟩
  | cons x l1 ih =>
    intro a l2 l' h
    cases h with
    | cons p ps =>
      obtain ⟨k1, b, k2, rfl, h1, h2, h3⟩ := ih ps
      exact ⟨_ :: k1, b, k2, rfl, .cons p h1, h2, h3⟩

theorem TouchedBy.congr {i j : Image} (h : i.filename = j.filename ∧ i.adaptive = j.adaptive ∧ i.convert = j.convert) {n : Str} (ht : TouchedBy i n) : TouchedBy j n := by
  obtain ⟨h1, h2, h3⟩ := h
  cases ht with
  | index f hf ha => exact .index f (h1 ▸ hf) (h2 ▸ ha)
  | extracted f hf ha => exact .extracted f (h1 ▸ hf) (h3 ▸ ha)
  | cfs f hf ha => exact .cfs f (h1 ▸ hf) (h3 ▸ ha)
  | store ha => exact .store (h3 ▸ ha)
  | removed _ ms hf ha hk => exact .removed n ms (h1 ▸ hf) (h3 ▸ ha) hk

theorem entries_of {T : Tools} {R : Run} {w w1 w2 : Dir} {m m1 : Manifest} {imgs : List Image} (h1 : sync T w m = some m1)
    (h2 : convertImages T R w1 m1.images = some (w2, imgs)) :
    m1 = { m with images := m1.images } ∧ List.Forall₂ (fun i i' => syncImage T w i = some i') m.images m1.images ∧ List.Forall₂ (Entry T w) m.images imgs := by
  unfold sync at h1
  split at h1
  · cases h1
  split at h1
  · cases h1
  rename_i l hl
  cases h1
  refine ⟨rfl, syncImages_spec hl, ?_⟩
  refine forall₂_trans ?_ (syncImages_spec hl) (convertImages_spec h2).1
  intro a b c p q
  exact entry_of p q

/-- the manifest with the entries completed can be written and read again -/
theorem completed_wf {T : Tools} (hT : Sound T) {w : Dir} (hw : ∀ n b, openFile w n = some b → b.length < 2 ^ 63) {m : Manifest} {imgs : List Image}
    (hm : ManifestWf { m with hash := none }) (hc : ∀ i ∈ m.images, i.convert ≠ some [] ∧ (i.filename = none → i.convert = none))
    (h : List.Forall₂ (Entry T w) m.images imgs) : ManifestWf { m with images := imgs, hash := none } where
  compatible := hm.compatible
  version := hm.version
  description := hm.description
  build := hm.build
  plain := hm.plain
  explicit := hm.explicit
  key := hm.key
  verityHash := hm.verityHash
  veritySalt := hm.veritySalt
  cryptKey := hm.cryptKey
  veritySize := hm.veritySize
  handler := hm.handler
  hook := hm.hook
  images := by
    intro i' hi'
    obtain ⟨i, hi, he⟩ := forall₂_mem h i' hi'
    exact (entry_wf hT hw he (hm.images i hi) (hc i hi).1 (hc i hi).2).1
  targets := by
    have key : ∀ {l l' : List Image}, List.Forall₂ (Entry T w) l l' → (∀ i ∈ l, i ∈ m.images) → l'.map ManifestFile.target = l.map ManifestFile.target := by
      intro l
      induction l with
      | nil => intro l' h _; cases h; rfl
      | cons a l ih =>
        intro l' h hl
        cases h with
        | cons p ps =>
          have ha := hl a (by simp)
          rw [List.map_cons, List.map_cons, ih ps (fun i hi => hl i (List.mem_cons_of_mem _ hi)), (entry_wf hT hw p (hm.images a ha) (hc a ha).1 (hc a ha).2).2]
    show (imgs.map ManifestFile.target).Nodup
    rw [key h (fun _ h => h)]
    exact hm.targets
  metas := hm.metas
  metaNames := hm.metaNames
  meta' := hm.meta'

theorem load_text {T : Tools} (hT : Sound T) {m : Manifest} (h : ManifestWf { m with hash := none }) :
    loadText T (T.text (prepare m)) = some { m with minRaucVersion := none, hash := some (shaHex T (T.text (prepare m))) } := by
  unfold loadText ManifestFile.load
  rw [hT.text]
  have := ManifestFile.C50_roundtrip_partial _ h
  rw [show prepare { m with hash := none } = prepare m from rfl] at this
  simp only [this]

theorem bundled_id {m m' : Manifest} (hs : ∀ i ∈ m.images, i.filename ≠ none → 0 ≤ i.size)
    (h : ManifestFile.checkBundled m = some m') : m' = m := by
  have key : ∀ {l l' : List Image}, (∀ i ∈ l, i.filename ≠ none → 0 ≤ i.size) → ManifestFile.checkImages l = some l' → l' = l := by
    intro l
    induction l with
    | nil => intro l' _ h; cases h; rfl
    | cons i l ih =>
      intro l' hs h
      simp only [ManifestFile.checkImages] at h
      split at h
      · cases h
      rename_i i' hi
      split at h
      · cases h
      rename_i l'' hl
      cases h
      rw [ih (fun j hj => hs j (List.mem_cons_of_mem _ hj)) hl]
      congr 1
      unfold ManifestFile.checkImage at hi
      split at hi
      · cases hi; rfl
      rename_i f hf
      have h0 := hs i (by simp) (by simp [hf])
      split at hi
      · cases hi
      split at hi
      · cases hi
      split at hi
      · cases hi
      split at hi
      · cases hi
      split at hi
      · simp only [Option.some.injEq] at hi
        rw [← hi, if_neg (by omega)]
      · cases hi
  unfold ManifestFile.checkBundled at h
  rw [Option.map_eq_some_iff] at h
  obtain ⟨l, hl, rfl⟩ := h
  rw [key hs hl]

/-! ## Opening what was created -/

theorem open_created {K : Crypto} {cfg : Bundle.Config} {T : Tools} (hK : Trusts K cfg T) {det : Bool} {c s : Bytes} (hs : T.sign det c = some s) (p : Bytes) :
    Bundle.openLocal cfg.maxSig true (Bundle.appendSignature p s) = some ⟨p.length, s⟩ := by
  have h : s ≠ [] ∧ s.length ≤ cfg.maxSig := by
    cases det
    · exact ⟨(hK.inline c s hs).1, (hK.inline c s hs).2.1⟩
    · exact ⟨(hK.detached c s hs).1, (hK.detached c s hs).2.1⟩
  have := hK.limit
  exact Bundle.C32_append_open cfg.maxSig p s h.1 h.2 (by omega)

theorem check_plain {K : Crypto} {cfg : Bundle.Config} {T : Tools} (hK : Trusts K cfg T) (load : Bytes → Option Manifest) {acc : Bundle.AccessResults} (ha : acc.enforce = true)
    {p s : Bytes} (hs : T.sign true p = some s) (hp : p ≠ []) (hl : p.length ≤ 2 ^ 31 - 1) (hf : cfg.formats .plain = true) :
    checkBundle K cfg load {} acc (.file true (Bundle.appendSignature p s)) =
      some ⟨some (Bundle.appendSignature p s), p.length, s, false, false, true, true, true, none⟩ := by
  have hsig := (hK.detached p s hs).2.2
  obtain ⟨hst, sp, hv, hc⟩ := (Bundle.signatureOk_iff K cfg false s (some p) none).2 hsig
  have hparse := hsig.cms
  have hcont : Bundle.verifiedContent (Bundle.appendSignature p s) p.length = p := by
    unfold Bundle.verifiedContent Bundle.appendSignature
    rw [if_neg (by intro h; exact hp (List.length_eq_zero_iff.1 h)), List.append_assoc, List.take_left]
  have hdec : Bundle.decryptSig K cfg s = some (s, false) := by
    unfold Bundle.decryptSig
    rw [hparse]
  unfold checkBundle
  rw [hK.keyring]
  simp only [Bool.not_true, Bool.and_false, Bool.false_eq_true, if_false, Bundle.openBundle, open_created hK hs p, hparse, hdec, Option.isSome_some, Option.isNone_some]
  unfold Bundle.verifyStep
  simp only [hst, ha, hcont, hv, hc, Bool.not_true, Bool.and_false, Bool.false_eq_true, if_false, if_true]
  rw [if_neg (by omega)]
  simp only [Bundle.finishCheck, hf, if_true]

theorem check_external {K : Crypto} {cfg : Bundle.Config} {T : Tools} (hK : Trusts K cfg T) (load : Bytes → Option Manifest) {acc : Bundle.AccessResults}
    {text s : Bytes} (hs : T.sign false text = some s) (f : Bytes) {m : Manifest} (hm : load text = some m) (hpl : m.format ≠ .plain) (hf : cfg.formats m.format = true) :
    checkBundle K cfg load {} acc (.file true (Bundle.appendSignature f s)) =
      some ⟨some (Bundle.appendSignature f s), f.length, s, false, false, true, false, acc.check, some { m with wasEncrypted := false }⟩ := by
  have hsig := (hK.inline text s hs).2.2
  obtain ⟨hst, sp, hv, hc⟩ := (Bundle.signatureOk_iff K cfg false s none (some text)).2 hsig
  have hparse := hsig.cms
  have hdec : Bundle.decryptSig K cfg s = some (s, false) := by
    unfold Bundle.decryptSig
    rw [hparse]
  unfold checkBundle
  rw [hK.keyring]
  simp only [Bool.not_true, Bool.and_false, Bool.false_eq_true, if_false, Bundle.openBundle, open_created hK hs f, hparse, hdec, Option.isSome_none, Bool.false_and]
  unfold Bundle.verifyStep
  simp only [hst, hv, hc, Bool.not_true, Bool.false_eq_true, if_false, if_true]
  simp only [Bundle.finishCheck, hm, hf, if_true, if_neg hpl, Option.isSome_some, Bool.true_and, Bool.false_or]

/-- what was unpacked from a bundle -/
theorem extract_plain {T : Tools} {running : Str} {b : Bundle} (h1 : b.payloadVerified = true) (h2 : b.manifest = none) {f : Bytes} (h3 : b.stream = some f) {d : Dir}
    (hd : T.unpack f = some d) : extract T running b = .ok d := by
  unfold extract Bundle.checkPayload
  rw [h1, Bool.or_true, if_pos rfl]
  simp only [h3, h2, hd]

theorem external_complete {running : Str} {m m' : Manifest} (hs : ∀ i ∈ m.images, i.filename ≠ none → 0 ≤ i.size) (h : checkExternal running m = some m') :
    m' = m ∧ m.format ≠ .plain ∧ m.veritySize ≠ 0 ∧ ∀ x y, checkExternal running { m with minRaucVersion := none, hash := x, wasEncrypted := y } =
      some { m with minRaucVersion := none, hash := x, wasEncrypted := y } := by
  have hx := ManifestFile.C35_external running m m' h
  obtain ⟨h1, -, h3, -, h5, h6, h7, h8, h9, h10⟩ := hx
  unfold checkExternal at h
  split at h
  · cases h
  split at h
  · cases h
  split at h
  · cases h
  have e := bundled_id hs h
  subst e
  refine ⟨rfl, h5, by omega, ?_⟩
  intro x y
  exact ManifestFile.C35_external_complete running _ h1 h3 (by intro v hv; cases hv) h5 h6 h7 h8 h9 h10

theorem signBundle_cases {T : Tools} {R : Run} {running : Str} {m : Manifest} {p f : Bytes} (h : signBundle T R running m p = some f) :
    (m.format = .plain ∧ p.length ≤ 2 ^ 31 - 1 ∧ ∃ s, T.sign true p = some s ∧ f = Bundle.appendSignature p s) ∨
    ∃ m1 m2 g s, m.format ≠ .plain ∧ createVerity T R m p = some (m1, g) ∧ checkExternal running m1 = some m2 ∧ T.sign false (T.text (prepare m2)) = some s ∧
      f = Bundle.appendSignature g s := by
  unfold signBundle at h
  by_cases hp : m.format = .plain
  · rw [if_pos hp] at h
    simp only [] at h
    left
    unfold generateSignature at h
    rw [if_pos hp] at h
    split at h
    · cases h
    rename_i s hs
    split at hs
    · cases hs
    split at hs
    · cases hs
    rename_i hl
    split at h
    · cases h
      exact ⟨hp, by omega, s, hs, rfl⟩
    · cases h
  · rw [if_neg hp] at h
    split at h
    · cases h
    rename_i m1 g hv
    right
    have hf : m1.format ≠ .plain := by
      unfold createVerity at hv
      split at hv
      · cases hv
      split at hv
      · cases hv
      split at hv
      · cases hv
      cases hv
      exact hp
    unfold generateSignature at h
    rw [if_neg hf] at h
    split at h
    · cases h
    rename_i s hs
    split at hs
    · cases hs
    rename_i m2 hm2
    split at h
    · cases h
      exact ⟨m1, m2, g, s, hp, hv, hm2, hs, rfl⟩
    · cases h

theorem encryptStep_cases {T : Tools} {R : Run} {m m3 : Manifest} {p p1 : Bytes} (h : encryptStep T R m p = some (m3, p1)) :
    (m.format ≠ .crypt ∧ m3 = m ∧ p1 = p) ∨ ∃ k, m.format = .crypt ∧ R.key = some k ∧ m3 = { m with cryptKey := some (Utils.hexEncode k) } ∧
      (Crypt.encrypt (T.enc k) p none none).ok = true ∧ p1 = (Crypt.encrypt (T.enc k) p none none).out := by
  unfold encryptStep at h
  split at h
  · rename_i hf
    simp only [Option.some.injEq, Prod.mk.injEq] at h
    exact .inl ⟨hf, h.1.symm, h.2.symm⟩
  rename_i hf
  split at h
  · cases h
  rename_i k hk
  simp only [] at h
  split at h
  · rename_i hr
    simp only [Option.some.injEq, Prod.mk.injEq] at h
    rw [Bool.and_eq_true] at hr
    exact .inr ⟨k, by simpa using hf, hk, h.1.symm, hr.1, h.2.symm⟩
  · cases h

/-- encryption succeeds only for whole sectors -/
theorem encrypt_ok_length {E : Bytes → Bytes} {p : Bytes} (h : (Crypt.encrypt E p none none).ok = true) : p.length % 4096 = 0 := by
  refine Decidable.not_not.1 (fun hp => ?_)
  rw [(Crypt.C47_rejects E E p hp).1] at h
  cases h

theorem verity_wf {m : Manifest} (h : ManifestWf { m with hash := none }) (hf : m.format ≠ .plain) {a b : Str} (ha : HexStr 64 a) (hb : HexStr 64 b) {n : Nat} (hn : n < 2 ^ 64) :
    ManifestWf { m with veritySalt := some a, verityHash := some b, veritySize := n, hash := none } where
  compatible := h.compatible
  version := h.version
  description := h.description
  build := h.build
  plain := fun e => absurd e hf
  explicit := h.explicit
  key := h.key
  verityHash := fun s hs => by cases hs; exact hexStr_clean hb
  veritySalt := fun s hs => by cases hs; exact hexStr_clean ha
  cryptKey := h.cryptKey
  veritySize := hn
  handler := h.handler
  hook := h.hook
  images := h.images
  targets := h.targets
  metas := h.metas
  metaNames := h.metaNames
  meta' := h.meta'

theorem crypt_wf {m : Manifest} (h : ManifestWf { m with hash := none }) (hf : m.format = .crypt) {a : Str} (ha : HexStr 64 a) :
    ManifestWf { m with cryptKey := some a, hash := none } where
  compatible := h.compatible
  version := h.version
  description := h.description
  build := h.build
  plain := h.plain
  explicit := h.explicit
  key := fun e => absurd hf e
  verityHash := h.verityHash
  veritySalt := h.veritySalt
  cryptKey := fun s hs => by cases hs; exact hexStr_clean ha
  veritySize := h.veritySize
  handler := h.handler
  hook := h.hook
  images := h.images
  targets := h.targets
  metas := h.metas
  metaNames := h.metaNames
  meta' := h.meta'

theorem hexDecode_encode {b : Bytes} (h : b.length = 32) : Utils.hexDecode (Utils.hexEncode b) 32 = some b := by
  have := (Utils.C26_round_trip b).2
  rwa [h] at this

/-- the check of the payload when a bundle with verity data is extracted -/
theorem payload_ok {T : Tools} {running : Str} {b : Bundle} {F p tree root salt : Bytes} {m : Manifest} (h1 : b.stream = some F) (h2 : b.size = p.length + tree.length)
    (h3 : b.exclusiveVerified = true) (h4 : b.manifest = some m) (h5 : checkExternal running m = some m) (h6 : m.verityHash = some (Utils.hexEncode root))
    (h7 : m.veritySalt = some (Utils.hexEncode salt)) (h8 : m.veritySize = tree.length) (hr : root.length = 32) (hs : salt.length = 32)
    (hv : b.verificationDisabled = false) (hp : b.payloadVerified = false) (hm : p.length % 4096 = 0) (ht : tree.length % 4096 = 0)
    (hver : verityFile T.sha fileDisk F (p.length / 4096) root salt = true) :
    Bundle.checkPayload running (verityFile T.sha fileDisk) b = .ok { b with manifest := some m, payloadVerified := true } := by
  have hsub : Bundle.sub64 b.size m.veritySize = p.length := by
    unfold Bundle.sub64
    rw [if_pos (by omega)]; omega
  unfold Bundle.checkPayload
  rw [hv, hp]
  simp only [Bool.or_self, Bool.false_eq_true, if_false, h1, h3, Bool.not_true, h4, h5, h6, h7, Option.bind_some, hexDecode_encode hr, hexDecode_encode hs, hsub, hver, if_true]
  rw [if_neg]
  simp only [Bool.or_eq_true, decide_eq_true_eq]
  omega

/-- Specification: the payload of an accepted bundle stands for itself: the manifest survives being written, the hash tree and the file system image can be read without what follows the payload. -/
structure SelfContained (T : Tools) (f : Bytes) (b : Bundle) : Prop where
  size : b.size ≠ 0
  manifest : ∀ m, b.manifest = some m → ManifestWf { m with hash := none, wasEncrypted := false }
  verity : ∀ m root salt, b.manifest = some m → m.verityHash.bind (Utils.hexDecode · 32) = some root → m.veritySalt.bind (Utils.hexDecode · 32) = some salt →
    m.veritySize ≤ b.size ∧ verityFile T.sha fileDisk (f.take b.size) ((b.size - m.veritySize) / 4096) root salt = true
  unpack : (∀ m, b.manifest = some m → m.format ≠ .crypt) → ∀ r r', T.unpack (f.take b.size ++ r) = T.unpack (f.take b.size ++ r')

/-- the manifest of a bundle that was just signed, as the device reads it -/
def signedManifest (T : Tools) (m : Manifest) (salt root tree : Bytes) : Manifest :=
  { m with veritySalt := some (Utils.hexEncode salt), verityHash := some (Utils.hexEncode root), veritySize := tree.length, minRaucVersion := none, wasEncrypted := false
           hash := some (shaHex T (T.text (prepare { m with veritySalt := some (Utils.hexEncode salt), verityHash := some (Utils.hexEncode root), veritySize := tree.length }))) }

/-- what a device makes of a payload that was just signed -/
theorem signed_tail {T : Tools} (hT : Sound T) {K : Crypto} {cfg : Bundle.Config} (hK : Trusts K cfg T) {R : Run} (hsalt : ∀ s, R.salt = some s → s.length = 32) {running : Str}
    {m : Manifest} {p f : Bytes} (hsign : signBundle T R running m p = some f) (hw : ManifestWf { m with hash := none })
    (hsizes : ∀ i ∈ m.images, i.filename ≠ none → 0 ≤ i.size) (hp : p ≠ []) (hfmt : cfg.formats m.format = true) {acc : Bundle.AccessResults} (ha : acc.enforce = true ∧ acc.check = true) :
    (m.format = .plain ∧ ∃ s, f = Bundle.appendSignature p s ∧ checkBundle K cfg (loadText T) {} acc (.file true f) = some ⟨some f, p.length, s, false, false, true, true, true, none⟩) ∨
    (m.format ≠ .plain ∧ ∃ salt root tree s, f = Bundle.appendSignature (p ++ tree) s ∧ root.length = 32 ∧ salt.length = 32 ∧ 0 < tree.length ∧ p.length % 4096 = 0 ∧ 4096 < p.length ∧
      T.sign false (T.text (prepare (signedManifest T m salt root tree))) = some s ∧
      tree.length % 4096 = 0 ∧ (∀ rest, verityFile T.sha fileDisk (p ++ tree ++ rest) (p.length / 4096) root salt = true) ∧ ManifestWf { signedManifest T m salt root tree with hash := none } ∧
      checkBundle K cfg (loadText T) {} acc (.file true f) = some ⟨some f, (p ++ tree).length, s, false, false, true, false, true, some (signedManifest T m salt root tree)⟩ ∧
      Bundle.checkPayload running (verityFile T.sha fileDisk) ⟨some f, (p ++ tree).length, s, false, false, true, false, true, some (signedManifest T m salt root tree)⟩ =
        .ok ⟨some f, (p ++ tree).length, s, false, false, true, true, true, some (signedManifest T m salt root tree)⟩) := by
  rcases signBundle_cases hsign with ⟨hpl, hlen, s, hs, rfl⟩ | ⟨m4, m5, g, s, hpl, hver, hext, hs, rfl⟩
  · left
    exact ⟨hpl, s, rfl, check_plain hK (loadText T) ha.1 hs hp hlen (by rw [← hpl]; exact hfmt)⟩
  · right
    obtain ⟨salt, root, tree, hsa, hrl, rfl, hp4, hpl4, ht4, htl, rfl, hverify⟩ := createVerity_spec hT.sha hver
    have hsl := hsalt salt hsa
    obtain ⟨rfl, -, hv0, hagain⟩ := external_complete (by intro i hi; exact hsizes i hi) hext
    have hwf4 := verity_wf hw hpl (hexStr_encode hsl) (hexStr_encode hrl) htl
    have hld := load_text hT (m := { m with veritySalt := some (Utils.hexEncode salt), verityHash := some (Utils.hexEncode root), veritySize := tree.length }) hwf4
    have hchk := check_external hK (loadText T) (acc := acc) hs (p ++ tree) hld hpl (by show cfg.formats m.format = true; exact hfmt)
    rw [ha.2] at hchk
    simp only [] at hv0
    have hpay := payload_ok (T := T) (running := running) (b := ⟨some (Bundle.appendSignature (p ++ tree) s), (p ++ tree).length, s, false, false, true, false, true, some
          (signedManifest T m salt root tree)⟩)
        (p := p) (tree := tree) (root := root) (salt := salt) rfl List.length_append rfl rfl (hagain _ _) rfl rfl rfl hrl hsl rfl rfl hp4 ht4 (by
          unfold Bundle.appendSignature
          rw [List.append_assoc (p ++ tree)]
          exact hverify _)
    refine ⟨hpl, salt, root, tree, s, rfl, hrl, hsl, by omega, hp4, hpl4, ?_, ht4, hverify, ?_, hchk, hpay⟩
    · rw [← hs]
      rfl
    · have h2 : m.wasEncrypted = false := hw.meta'.1
      have : ({ signedManifest T m salt root tree with hash := none } : Manifest) = { m with minRaucVersion := none, veritySalt := some (Utils.hexEncode salt), verityHash := some (Utils.hexEncode root), veritySize := tree.length, hash := none } := by
        unfold signedManifest
        rw [← h2]
      rw [this]
      exact { hwf4 with }

/-- **C61** What `create_bundle` reports as created is a bundle that the device accepts and that contains the content: -/
theorem C61_create_partial (T : Tools) (hT : Sound T) (K : Crypto) (cfg : Bundle.Config) (hK : Trusts K cfg T) (R : Run)
    (hsalt : ∀ s, R.salt = some s → s.length = 32) (hkey : ∀ k, R.key = some k → k.length = 32) (running : Str) (depth : Nat) (content : Dir)
    (existing : Option Bytes) (f : Bytes) (h : create T R running depth content existing = (true, some f))
    (w : Dir) (hl : linkDir depth true content = some w) (m : Manifest) (hm : (openFile w c!"manifest.raucm").bind (loadText T) = some m)
    (hwf : ManifestWf { m with hash := none }) (hsz : ∀ n b, openFile w n = some b → b.length < 2 ^ 63) (hconv : ∀ i ∈ m.images, i.convert ≠ some [])
    (hfmt : cfg.formats m.format = true) (acc : Bundle.AccessResults) (ha : acc.enforce = true ∧ acc.check = true) :
    existing = none ∧ ∃ b w', checkBundle K cfg (loadText T) {} acc (.file true f) = some b ∧ extract T running b = .ok w' ∧
      (m.format = .plain → b.manifest = none) ∧ (m.format ≠ .plain → ∃ m', b.manifest = some m' ∧ Completed T w m m' ∧ T.sign false (T.text (prepare m')) = some b.sig) ∧
      Holds T w m w' ∧ SelfContained T f b := by
  obtain ⟨hex, w_, m_, m1, w1, w2, imgs, p, m3, p1, hl', hm', hin, -, hsync, had, hcv, hpack, henc, hsign⟩ := create_cases h
  rw [hl] at hl'
  cases hl'
  rw [show (openFile w manifestName).bind (loadText T) = some m from hm] at hm'
  cases hm'
  refine ⟨hex, ?_⟩
  obtain ⟨e1, hsy, hent⟩ := entries_of hsync hcv
  have hcom : ManifestFile.checkCommon running m = true := by
    unfold checkInput at hin
    simp only [Bool.and_eq_true] at hin
    exact hin.1.1
  have hfn := (ManifestFile.checkCommon_iff.1 hcom).2.2
  have hc2 : ∀ i ∈ m.images, i.convert ≠ some [] ∧ (i.filename = none → i.convert = none) :=
    fun i hi => ⟨hconv i hi, fun hn => ((ManifestFile.filenameOk_iff.1 (hfn i hi)).2.2 hn).2⟩
  have hwf2 := completed_wf hT hsz hwf hc2 hent
  have hwe : m.wasEncrypted = false := hwf.meta'.1
  -- the manifest in the payload
  have em2 : ({ m1 with images := imgs } : Manifest) = { m with images := imgs } := by rw [e1]
  rw [em2] at hpack henc
  have hload := load_text hT (m := { m with images := imgs }) hwf2
  have hinner : ∃ t m', lookup (setEntry w2 manifestName (.file (T.text (prepare { m with images := imgs })))) c!"manifest.raucm" = some (.file t) ∧
      loadText T t = some m' ∧ Completed T w m m' := by
    refine ⟨_, _, ?_, hload, ⟨rfl, hent⟩⟩
    rw [lookup_setEntry]
    exact if_pos rfl
  have hframe : ∀ n, ¬ Touched m n → lookup (setEntry w2 manifestName (.file (T.text (prepare { m with images := imgs })))) n = lookup w n := by
    intro n hn
    rw [lookup_setEntry, if_neg (by intro e; subst e; exact hn (.inl rfl))]
    have back : ∀ i1 ∈ m1.images, ∃ i ∈ m.images, i1.filename = i.filename ∧ i1.adaptive = i.adaptive ∧ i1.convert = i.convert := by
      intro i1 hi1
      obtain ⟨i, hi, he⟩ := forall₂_mem hsy i1 hi1
      exact ⟨i, hi, syncImage_same he⟩
    rw [(convertImages_spec hcv).2 n ?_, adaptive_frame had ?_]
    · intro i1 hi1 f hf ha he
      obtain ⟨i, hi, b1, b2, b3⟩ := back i1 hi1
      subst he
      exact hn (.inr ⟨i, hi, .index f (by rw [← b1, hf]) (by rw [← b2]; exact ha)⟩)
    · intro i1 hi1 hc
      obtain ⟨i, hi, b1, b2, b3⟩ := back i1 hi1
      rw [b3] at hc
      refine ⟨by intro e; subst e; exact hn (.inr ⟨i, hi, .store hc⟩), ?_⟩
      intro f hf
      rw [b1] at hf
      refine ⟨by intro e; subst e; exact hn (.inr ⟨i, hi, .extracted f hf hc⟩), by intro e; subst e; exact hn (.inr ⟨i, hi, .cfs f hf hc⟩), ?_⟩
      by_cases e : n = f
      · right
        intro ms hms
        rw [b3] at hms
        subst e
        exact Decidable.not_not.1 (fun hk => hn (.inr ⟨i, hi, .removed n ms hf hms hk⟩))
      · exact .inl e
  have hholds : Holds T w m (setEntry w2 manifestName (.file (T.text (prepare { m with images := imgs })))) := by
    have forth : ∀ i1 ∈ m1.images, ∃ i ∈ m.images, i1.filename = i.filename ∧ i1.adaptive = i.adaptive ∧ i1.convert = i.convert := by
      intro i1 hi1
      obtain ⟨i, hi, he⟩ := forall₂_mem hsy i1 hi1
      exact ⟨i, hi, syncImage_same he⟩
    refine ⟨hinner, hframe, ?_, ?_, ?_, ?_, ?_⟩
    · intro n hn
      exact openFile_congr (fun x hx => hframe x (hn x hx))
    · intro l1 i l2 f ms a hl hf hms ha hno
      rw [lookup_setEntry]
      split
      · rfl
      rw [hl] at hsy
      obtain ⟨k1, i1, k2, q0, q1, q2, q3⟩ := forall₂_split hsy
      rw [q0] at hcv
      obtain ⟨q4, -, q5⟩ := syncImage_same q2
      have hfile : (lookup w f).isSome = true := by
        unfold syncImage at q2
        rw [hf] at q2
        simp only [] at q2
        split at q2
        · cases q2
        rename_i hb
        exact openFile_lookup hb
      refine convertImages_outputs hcv (by rw [q4, hf]) (by rw [q5, hms]) (adaptive_mono had hfile) ha ?_
      intro j1 hj1 ht
      rcases List.mem_append.1 hj1 with hj1 | hj1
      · obtain ⟨j, hj, he⟩ := forall₂_mem q1 j1 hj1
        exact hno j (List.mem_append_left _ hj) (ht.congr (syncImage_same he))
      · obtain ⟨j, hj, he⟩ := forall₂_mem q3 j1 hj1
        exact hno j (List.mem_append_right _ hj) (ht.congr (syncImage_same he))
    · intro l1 i l2 f ms hl hf hms hv
      have hsy' := hsy
      rw [hl] at hsy
      obtain ⟨k1, i1, k2, q0, q1, q2, q3⟩ := forall₂_split hsy
      have hcv' := hcv
      rw [q0] at hcv'
      obtain ⟨q4, q6, q5⟩ := syncImage_same q2
      obtain ⟨b, hb⟩ : ∃ b, openFile w f = some b := by
        unfold syncImage at q2
        rw [hf] at q2
        simp only [] at q2
        split at q2
        · cases q2
        rename_i hb
        exact ⟨_, hb⟩
      -- the indices do not touch the file
      have hag : Agree w w1 f := by
        intro x hx
        refine adaptive_frame had ?_
        intro j1 hj1 g hg ha he
        rw [q0] at hj1
        rcases List.mem_append.1 hj1 with hj1 | hj1
        · obtain ⟨j, hj, he'⟩ := forall₂_mem q1 j1 hj1
          obtain ⟨a1, a2, a3⟩ := syncImage_same he'
          exact (hv x hx).1 j (List.mem_append_left _ hj) (he ▸ .index g (by rw [← a1, hg]) (by rw [← a2]; exact ha))
        · rcases List.mem_cons.1 hj1 with rfl | hj1
          · rw [q4, hf] at hg
            cases hg
            exact (hv x hx).2 he
          · obtain ⟨j, hj, he'⟩ := forall₂_mem q3 j1 hj1
            obtain ⟨a1, a2, a3⟩ := syncImage_same he'
            exact (hv x hx).1 j (List.mem_append_right _ hj) (he ▸ .index g (by rw [← a1, hg]) (by rw [← a2]; exact ha))
      have hvis : visited maxLinks w1 f = visited maxLinks w f := visited_congr hag
      have hb1 : openFile w1 f = some b := by rw [openFile_congr hag, hb]
      obtain ⟨t1, t2⟩ := convertImages_trees hT hcv' (by rw [q4, hf]) (by rw [q5, hms]) hb1 (by
        intro x hx j1 hj1 ht
        rw [hvis] at hx
        obtain ⟨j, hj, he⟩ := forall₂_mem q1 j1 hj1
        exact (hv x hx).1 j (List.mem_append_left _ hj) (ht.congr (syncImage_same he)))
      have after : ∀ n, (∀ j ∈ l1 ++ l2, ¬ TouchedBy j n) → ∀ j1 ∈ k2, ¬ TouchedBy j1 n := by
        intro n hn j1 hj1 ht
        obtain ⟨j, hj, he⟩ := forall₂_mem q3 j1 hj1
        exact hn j (List.mem_append_right _ hj) (ht.congr (syncImage_same he))
      refine ⟨b, hb, ?_, ?_⟩
      · intro hta hn
        obtain ⟨e, h1, h2⟩ := t1 hta (after _ hn)
        refine ⟨e, h1, ?_⟩
        rw [lookup_setEntry, if_neg (show f ++ c!".extracted" ≠ manifestName from suffix_ne (g := c!"manifest") (b := c!".raucm") (by decide) (by decide) (by decide))]
        exact h2
      · intro hc hn
        obtain ⟨e, h1, img, st, h2, h3, h4⟩ := t2 hc (after _ hn)
        refine ⟨e, img, st, h1, ?_, ?_, h4⟩
        · rw [lookup_setEntry, if_neg (show f ++ c!".cfs" ≠ manifestName from suffix_ne (g := c!"manifest") (b := c!".raucm") (by decide) (by decide) (by decide))]
          exact h2
        · rw [lookup_setEntry, if_neg (by decide)]
          exact h3
    · intro i hi f ms hf hms hk n1 n2 n3
      rw [lookup_setEntry, if_neg (show f ≠ manifestName from n1)]
      obtain ⟨i1, hi1, he⟩ := forall₂_mem_left hsy i hi
      obtain ⟨q4, q6, q5⟩ := syncImage_same he
      refine convertImages_removed n2 hcv ?_ (.inr ⟨i1, hi1, by rw [q4, hf], ms, by rw [q5, hms], hk⟩)
      intro j1 hj1 g hg
      obtain ⟨j, hj, e1, -, -⟩ := forth j1 hj1
      exact n3 j hj g (by rw [← e1, hg])
    · intro i hi f ms hf hms hbi hvis hrm
      obtain ⟨i1, hi1, he⟩ := forall₂_mem_left hsy i hi
      obtain ⟨q4, q6, q5⟩ := syncImage_same he
      obtain ⟨b, hb⟩ : ∃ b, openFile w f = some b := by
        unfold syncImage at he
        rw [hf] at he
        simp only [] at he
        split at he
        · cases he
        rename_i hb
        exact ⟨_, hb⟩
      have hv : ∀ j ∈ m1.images, ∀ g, j.filename = some g → j.adaptive ≠ none → indexName g ∉ visited maxLinks w f := by
        intro j1 hj1 g hg _
        obtain ⟨j, hj, e1, -, -⟩ := forth j1 hj1
        exact hvis j hj g (by rw [← e1, hg])
      have hask : ∃ i ∈ m1.images, i.filename = some f ∧ ∃ ms, i.adaptive = some ms ∧ c!"block-hash-index" ∈ ms := ⟨i1, hi1, by rw [q4, hf], ms, by rw [q6, hms], hbi⟩
      obtain ⟨x, hx⟩ := adaptive_computed hb hv had (fun _ _ => rfl) hask
      refine ⟨b, x, hb, hx, ?_⟩
      have h1 := (adaptive_index hb hx hv had (fun _ _ => rfl)).2 (.inr hask)
      rw [lookup_setEntry, if_neg]
      · rw [(convertImages_spec hcv).2 (f ++ c!".block-hash-index")]
        · exact h1
        · intro j1 hj1 hc
          obtain ⟨j, hj, e1, -, e3⟩ := forth j1 hj1
          refine ⟨?_, ?_⟩
          · exact (suffix_ne (f := f) (g := c!".rauc-cfs") (b := c!"-store") (by decide) (by decide) (by decide))
          · intro g hg
            refine ⟨suffix_ne (by decide) (by decide) (by decide), suffix_ne (by decide) (by decide) (by decide), .inl ?_⟩
            intro e
            exact hrm j hj g (by rw [← e1, hg]) (by rw [← e3]; exact hc) e.symm
      · exact suffix_ne (f := f) (g := c!"manifest") (b := c!".raucm") (by decide) (by decide) (by decide)
  obtain ⟨hpne, hunpack⟩ := hT.pack _ _ _ hpack
  have hsizes : ∀ i ∈ imgs, i.filename ≠ none → 0 ≤ i.size := by
    intro i' hi' hf
    obtain ⟨i, hi, he⟩ := forall₂_mem hent i' hi'
    have : i'.filename = i.filename := by conv => rhs; rw [← he.same]
    rw [this] at hf
    obtain ⟨g, hg⟩ := Option.ne_none_iff_exists'.1 hf
    obtain ⟨b, -, -, -, hb⟩ := he.file g hg
    rw [hb]; exact Int.natCast_nonneg _
  -- the manifest that is signed
  have hm3 : m3.images = imgs ∧ m3.format = m.format ∧ ManifestWf { m3 with hash := none } ∧ Completed T w m { m3 with minRaucVersion := none } := by
    rcases encryptStep_cases henc with ⟨-, rfl, -⟩ | ⟨k, hcr, hk, rfl, -, -⟩
    · exact ⟨rfl, rfl, hwf2, ⟨rfl, hent⟩⟩
    · exact ⟨rfl, rfl, crypt_wf (m := { m with images := imgs }) hwf2 hcr (hexStr_encode (hkey k hk)), ⟨rfl, hent⟩⟩
  obtain ⟨hm3i, hm3f, hm3w, hm3c⟩ := hm3
  have hp1 : p1 ≠ [] := by
    rcases encryptStep_cases henc with ⟨-, -, rfl⟩ | ⟨k, hcr, hk, -, hok, rfl⟩
    · exact hpne
    · have hp0 := encrypt_ok_length hok
      obtain ⟨-, hel, -⟩ := Crypt.C47_roundtrip (T.enc k) (T.dec k) (hT.cipher k) p hp0
      intro e
      rw [e] at hel
      exact hpne (List.length_eq_zero_iff.1 hel.symm)
  rcases signed_tail hT hK hsalt hsign hm3w (by rw [hm3i]; exact hsizes) hp1 (by rw [hm3f]; exact hfmt) ha with ⟨hpl, s, rfl, hchk⟩ |
    ⟨hpl, salt, root, tree, s, rfl, hrl, hsl, ht0, hp4, hpl4, hsg, ht4, hverify, hmwf, hchk, hpay⟩
  · -- plain
    have hpl' : m.format = .plain := by rw [← hm3f]; exact hpl
    rcases encryptStep_cases henc with ⟨-, rfl, rfl⟩ | ⟨k, hcr, -, rfl, -, -⟩
    · refine ⟨_, _, hchk, extract_plain rfl rfl rfl (d := setEntry w2 manifestName (.file (T.text (prepare { m with images := imgs })))) ?_, fun _ => rfl, ?_, hholds, ?_⟩
      · unfold Bundle.appendSignature
        rw [List.append_assoc]
        exact hunpack _
      · intro hne; exact absurd hpl' hne
      · have e : (Bundle.appendSignature p1 s).take p1.length = p1 := by
          unfold Bundle.appendSignature
          rw [List.append_assoc]
          exact List.take_left' rfl
        refine ⟨fun e => hp1 (List.length_eq_zero_iff.1 e), by (intro m hm; cases hm), by (intro m _ _ hm; cases hm), fun _ r r' => ?_⟩
        simp only [e, hunpack]
    · have : m.format = .crypt := hcr
      rw [this] at hpl'; cases hpl'
  · -- verity and crypt
    refine ⟨_, setEntry w2 manifestName (.file (T.text (prepare { m with images := imgs }))), hchk, ?_, ?_, ?_, hholds, ?_⟩
    · generalize setEntry w2 manifestName (.file (T.text (prepare { m with images := imgs }))) = D at hunpack ⊢
      unfold extract
      rw [hpay]
      rcases encryptStep_cases henc with ⟨hnc, rfl, rfl⟩ | ⟨k, hcr, hk, rfl, hok, rfl⟩
      · have hnc' : ¬ m.format = .crypt := hnc
        simp only [signedManifest, hnc', if_false]
        unfold Bundle.appendSignature
        rw [List.append_assoc, List.append_assoc, hunpack]
      · have hcr' : m.format = .crypt := hcr
        simp only [signedManifest, hcr', if_true]
        simp only [Option.bind_some, hexDecode_encode (hkey k hk)]
        have hp0 := encrypt_ok_length hok
        obtain ⟨-, hel, -, hdec⟩ := Crypt.C47_roundtrip (T.enc k) (T.dec k) (hT.cipher k) p hp0
        have hsub : Bundle.sub64 (((Crypt.encrypt (T.enc k) p none none).out ++ tree).length) tree.length = p.length := by
          unfold Bundle.sub64
          rw [List.length_append, if_pos (by omega)]; omega
        rw [hsub]
        unfold Bundle.appendSignature
        rw [List.append_assoc, List.append_assoc, hdec _ (by omega) (.inr (by rw [List.length_append]; omega))]
        simp only [Bool.not_true, Bool.false_eq_true, if_false]
        have := hunpack []
        rw [List.append_nil] at this
        rw [this]
    · intro e; rw [← hm3f] at e; exact absurd e hpl
    · intro _
      refine ⟨_, rfl, ⟨?_, hm3c.images⟩, hsg⟩
      have := hm3c.same
      rw [← this]
      have hwe3 : m3.wasEncrypted = false := hm3w.meta'.1
      simp only [signedManifest, hwe3]
    · have e : (Bundle.appendSignature (p1 ++ tree) s).take (p1 ++ tree).length = p1 ++ tree := by
        unfold Bundle.appendSignature
        rw [List.append_assoc (p1 ++ tree)]
        exact List.take_left' rfl
      refine ⟨by (show (p1 ++ tree).length ≠ 0; rw [List.length_append]; omega), ?_, ?_, ?_⟩
      · intro mm hmm
        cases hmm
        exact hmwf
      · intro mm r sa hmm hr hsa
        cases hmm
        have e1 : r = root := by
          simp only [signedManifest, Option.bind_some, hexDecode_encode hrl, Option.some.injEq] at hr
          exact hr.symm
        have e2 : sa = salt := by
          simp only [signedManifest, Option.bind_some, hexDecode_encode hsl, Option.some.injEq] at hsa
          exact hsa.symm
        subst e1 e2
        refine ⟨by (show tree.length ≤ (p1 ++ tree).length; rw [List.length_append]; omega), ?_⟩
        simp only [e]
        have := hverify []
        rw [List.append_nil] at this
        rwa [show ((p1 ++ tree).length - (signedManifest T m3 sa r tree).veritySize) = p1.length from by (rw [List.length_append]; simp only [signedManifest]; omega)]
      · intro hnc r r'
        simp only [e]
        rcases encryptStep_cases henc with ⟨-, -, rfl⟩ | ⟨k, hcr, hk, rfl, -, -⟩
        · rw [List.append_assoc, List.append_assoc, hunpack, hunpack]
        · have hnc' := hnc _ rfl
          exact absurd hcr hnc'

/-- **C61** A bundle is created only if the input is complete: the hook is there, no image comes from
a subdirectory or already carries a checksum, a size or conversion results, no image has a hook that would never run, each file can be read, and all methods
are known. The file system is made with the metadata of the archives if there is an extracted one. -/
theorem C61_input (T : Tools) (R : Run) (running : Str) (depth : Nat) (content : Dir) (existing : Option Bytes) (f : Bytes)
    (h : create T R running depth content existing = (true, some f)) :
    ∃ w m, linkDir depth true content = some w ∧ (openFile w c!"manifest.raucm").bind (loadText T) = some m ∧
      (∀ k, m.hookName = some k → target maxLinks w k ≠ .missing) ∧
      (∀ i ∈ m.images, (∀ n, i.filename = some n → '/' ∉ n) ∧ i.digest = none ∧ i.size = -1 ∧ (i.converted = none ∨ i.converted = some [])) ∧
      (∀ i ∈ m.images, i.hooks.install = true → i.hooks.preInstall = false ∧ i.hooks.postInstall = false) ∧
      (∀ i ∈ m.images, ∀ n, i.filename = some n → ∃ b, openFile w n = some b) ∧
      (∀ i ∈ m.images, ∀ ms, i.convert = some ms → ∀ a ∈ ms, a = c!"tar-extract" ∨ a = c!"composefs" ∨ a = c!"keep") ∧
      ∃ w' p keep, T.pack keep w' = some p ∧ (keep = true ↔ ∃ i ∈ m.images, ∃ ms, i.convert = some ms ∧ c!"tar-extract" ∈ ms) := by
  obtain ⟨-, w, m, m1, w1, w2, imgs, p, m3, p1, hl, hm, hin, hc, hsync, -, hcv, hpack, -, -⟩ := create_cases h
  obtain ⟨e1, hsy, -⟩ := entries_of hsync hcv
  refine ⟨w, m, hl, hm, ?_, ?_, ?_, ?_, ?_, _, p, _, hpack, ?_⟩
  · intro k hk hmiss
    unfold sync at hsync
    rw [if_pos] at hsync
    · cases hsync
    · unfold hookExists
      rw [hk]
      simp only [hmiss, Bool.not_false]
  · intro i hi
    unfold checkInput at hin
    simp only [Bool.and_eq_true] at hin
    have := List.all_eq_true.1 hin.2 i hi
    simp only [Bool.and_eq_true] at this
    obtain ⟨⟨⟨h1, h2⟩, h3⟩, h4⟩ := this
    refine ⟨fun n hn hmem => by rw [hn] at h1; simp [hmem] at h1, by simpa using h2, by simpa using h3, ?_⟩
    cases hcv' : i.converted with
    | none => exact .inl rfl
    | some l => rw [hcv'] at h4; exact .inr (by simpa using h4)
  · intro i hi hin
    unfold checkCreate at hc
    have := List.all_eq_true.1 hc i hi
    rw [hin] at this
    simpa using this
  · intro i hi n hn
    obtain ⟨i1, hi1, he⟩ := forall₂_mem_left hsy i hi
    unfold syncImage at he
    rw [hn] at he
    simp only [] at he
    split at he
    · cases he
    rename_i b hb
    exact ⟨b, hb⟩
  · intro i hi ms hms a ha
    obtain ⟨i1, hi1, he⟩ := forall₂_mem_left hsy i hi
    obtain ⟨-, -, q5⟩ := syncImage_same he
    exact convertImages_known hcv i1 hi1 ms (by rw [q5, hms]) a ha
  · unfold keepMetadata
    rw [List.any_eq_true]
    constructor
    · rintro ⟨i1, hi1, hk⟩
      obtain ⟨i, hi, he⟩ := forall₂_mem hsy i1 hi1
      obtain ⟨-, -, q5⟩ := syncImage_same he
      unfold converts at hk
      rw [q5] at hk
      cases hms : i.convert with
      | none => rw [hms] at hk; simp at hk
      | some ms => rw [hms] at hk; exact ⟨i, hi, ms, hms, by simpa using hk⟩
    · rintro ⟨i, hi, ms, hms, hk⟩
      obtain ⟨i1, hi1, he⟩ := forall₂_mem_left hsy i hi
      obtain ⟨-, -, q5⟩ := syncImage_same he
      refine ⟨i1, hi1, ?_⟩
      unfold converts
      rw [q5, hms]
      simpa using hk

/-- **C61** An image that shares its file with one that is converted: the bundle is reported as created, its manifest (signed for verity and crypt bundles) still has the entry with the digest, but the file is missing. -/
theorem C61_finding_shared (T : Tools) (w w' : Dir) (m : Manifest) (h : Holds T w m w') (i j : Image) (f : Str) (ms : List Str) (hi : i ∈ m.images) (hj : j ∈ m.images)
    (hif : i.filename = some f) (hic : i.convert = none) (hjf : j.filename = some f) (hjc : j.convert = some ms) (hk : c!"keep" ∉ ms) (h1 : f ≠ c!"manifest.raucm")
    (h2 : f ≠ c!".rauc-cfs-store") (h3 : ∀ j ∈ m.images, ∀ g, j.filename = some g → f ≠ g ++ c!".extracted" ∧ f ≠ g ++ c!".cfs") :
    (∃ t m' i' b, lookup w' c!"manifest.raucm" = some (.file t) ∧ loadText T t = some m' ∧ i' ∈ m'.images ∧ i'.filename = some f ∧ i'.converted = i.converted ∧
      openFile w f = some b ∧ i'.digest = some (shaHex T b)) ∧ lookup w' f = none := by
  refine ⟨?_, h.removed j hj f ms hjf hjc hk h1 h2 h3⟩
  obtain ⟨t, m', h4, h5, h6⟩ := h.manifest
  obtain ⟨i', hi', he⟩ := forall₂_mem_left h6.images i hi
  obtain ⟨b, h7, -, h8, -⟩ := he.file f hif
  have : i'.filename = i.filename := by conv => rhs; rw [← he.same]
  exact ⟨t, m', i', b, h4, h5, hi', by rw [this, hif], he.plain hic, h7, h8⟩

/-- **C61** An image whose file has the name of the block hash index of another one: the file is replaced after its digest was computed, and the bundle cannot be installed (unless the digests agree by chance). -/
theorem C61_finding_index_name (T : Tools) (w w' : Dir) (m : Manifest) (h : Holds T w m w') (i j : Image) (f : Str) (ms : List Str) (hi : i ∈ m.images) (hj : j ∈ m.images)
    (hif : i.filename = some f) (hia : i.adaptive = some ms) (hms : c!"block-hash-index" ∈ ms) (hjf : j.filename = some (f ++ c!".block-hash-index"))
    (hv : ∀ j ∈ m.images, ∀ g, j.filename = some g → g ++ c!".block-hash-index" ∉ visited maxLinks w f)
    (hc : ∀ j ∈ m.images, ∀ g, j.filename = some g → j.convert ≠ none → g ≠ f ++ c!".block-hash-index") :
    ∃ t m' j' b c x, lookup w' c!"manifest.raucm" = some (.file t) ∧ loadText T t = some m' ∧ j' ∈ m'.images ∧ j'.filename = j.filename ∧
      openFile w (f ++ c!".block-hash-index") = some c ∧ j'.digest = some (shaHex T c) ∧
      openFile w f = some b ∧ T.index b = some x ∧ lookup w' (f ++ c!".block-hash-index") = some (.file x) := by
  obtain ⟨t, m', h4, h5, h6⟩ := h.manifest
  obtain ⟨j', hj', he⟩ := forall₂_mem_left h6.images j hj
  obtain ⟨c, h7, -, h8, -⟩ := he.file _ hjf
  obtain ⟨b, x, h9, h10, h11⟩ := h.index i hi f ms hif hia hms hv hc
  have : j'.filename = j.filename := by conv => rhs; rw [← he.same]
  exact ⟨t, m', j', b, c, x, h4, h5, hj', this, h7, h8, h9, h10, h11⟩

/-- **C61** A file that exists is left alone, and a run that fails leaves nothing behind under the name of the bundle. -/
theorem C61_failure (T : Tools) (R : Run) (running : Str) (depth : Nat) (content : Dir) (existing : Option Bytes) :
    (∀ b, existing = some b → create T R running depth content existing = (false, some b)) ∧
    ((create T R running depth content existing).1 = false → (create T R running depth content existing).2 = existing) := by
  constructor
  · intro b hb; subst hb; rfl
  · intro h
    cases existing with
    | some b => rfl
    | none =>
      have : create T R running depth content none = (false, none) ∨ (create T R running depth content none).1 = true := by
        unfold create
        simp only []
        repeat' split
        all_goals first | (left; rfl) | (right; rfl)
      rcases this with e | e
      · rw [e]
      · rw [e] at h; cases h

theorem convertImages_congr {T : Tools} {R R' : Run} (h : R.rmExtracted = R'.rmExtracted) : ∀ (l : List Image) (w : Dir), convertImages T R w l = convertImages T R' w l := by
  intro l
  induction l with
  | nil => intro w; rfl
  | cons i l ih =>
    intro w
    simp only [convertImages]
    have : convertImage T R w i = convertImage T R' w i := by unfold convertImage; rw [h]
    rw [this]
    split
    · rfl
    · rw [ih]

/-- **C61** When everything worked but the work directory cannot be removed, the bundle is deleted, and success is reported. -/
theorem C61_finding_workdir (T : Tools) (R : Run) (running : Str) (depth : Nat) (content : Dir) (f : Bytes)
    (h : create T R running depth content none = (true, some f)) : create T { R with rmWorkdir := false } running depth content none = (true, none) := by
  unfold create at h ⊢
  simp only [] at h ⊢
  split at h
  · cases h
  rename_i h1
  rw [if_neg h1]
  split at h
  · cases h
  rename_i w hw
  split at h
  · cases h
  rename_i m hm
  split at h
  · cases h
  rename_i h2
  rw [if_neg h2]
  split at h
  · cases h
  rename_i h3
  rw [if_neg h3]
  split at h
  · cases h
  rename_i m1 hm1
  split at h
  · cases h
  rename_i h4
  rw [if_neg (show ¬ (needsFakeroot { R with rmWorkdir := false } m1 && !R.fakeroot) = true from h4)]
  split at h
  · cases h
  rename_i w1 hw1
  rw [convertImages_congr (R := { R with rmWorkdir := false }) (R' := R) rfl]
  split at h
  · cases h
  rename_i w2 imgs hw2
  try simp only [hw2]
  split at h
  · cases h
  rename_i h5
  rw [if_neg h5]
  split at h
  · cases h
  rename_i p hp
  try simp only [hp]
  rw [show encryptStep T { R with rmWorkdir := false } { m1 with images := imgs } p = encryptStep T R { m1 with images := imgs } p from rfl]
  split at h
  · cases h
  rename_i m3 p1 he
  try simp only [he]
  rw [show signBundle T { R with rmWorkdir := false } running m3 p1 = signBundle T R running m3 p1 from rfl]
  split at h
  · cases h
  rename_i g hg
  try simp only [hg]
  rfl

/-- **C61** When the fakeroot environment that is needed cannot be set up, success is reported although there is no bundle. -/
theorem C61_finding_fakeroot (T : Tools) (R : Run) (running : Str) (depth : Nat) (content w : Dir) (m m1 : Manifest) (hR : R.workdir = true)
    (hl : linkDir depth true content = some w) (hm : (openFile w c!"manifest.raucm").bind (loadText T) = some m) (hi : checkInput running m = true)
    (hc : checkCreate m = true) (hs : sync T w m = some m1)
    (hneed : ∃ i ∈ m1.images, ∃ ms, i.convert = some ms ∧ (c!"tar-extract" ∈ ms ∨ c!"composefs" ∈ ms)) (hroot : R.pseudo = false ∧ R.root = false) (hf : R.fakeroot = false) :
    create T R running depth content none = (true, none) := by
  unfold create
  simp only [hR, hl, show (openFile w manifestName).bind (loadText T) = some m from hm, hi, hc, hs, Bool.not_true, Bool.false_eq_true, if_false]
  rw [if_pos]
  obtain ⟨i, h1, ms, h2, h3⟩ := hneed
  unfold needsFakeroot
  rw [hroot.1, hroot.2, hf]
  simp only [Bool.not_false, Bool.and_true, List.any_eq_true, Bool.or_eq_true]
  refine ⟨i, h1, ?_⟩
  unfold converts
  rw [h2]
  simpa using h3

/-- **C61** An image with an empty list of conversions: the (empty) list of results is not written to the manifest, and a manifest without it is refused. -/
theorem C61_finding_empty_convert (T : Tools) (R : Run) (w : Dir) (i : Image) (f : Str) (hf : i.filename = some f) (hc : i.convert = some []) (hd : i.converted = none) (x : Node)
    (hx : lookup w f = some x) (hdir : ∀ e, x ≠ .dir e) :
    ∃ w' i', convertImage T R w i = some (w', i') ∧ ManifestFile.imageKvs i' = ManifestFile.imageKvs i ∧ ManifestFile.checkImage i = none := by
  refine ⟨erase w f, { i with converted := some [] }, ?_, ?_, ?_⟩
  · unfold convertImage
    rw [hd, hc, hf]
    simp only [converts, hc, convertMethods, unlink]
    cases x with
    | dir e => exact absurd rfl (hdir e)
    | file b => simp [hx]
    | link t => simp [hx]
    | special => simp [hx]
  · unfold ManifestFile.imageKvs
    simp [hd]
  · unfold ManifestFile.checkImage
    rw [hf, hc, hd]
    simp only [ManifestFile.convertOk]
    split
    · rfl
    split
    · rfl
    split
    · rfl
    split
    · rfl
    rfl

end Rauc.Create
