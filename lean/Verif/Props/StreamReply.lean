import Verif.Props.Stream

/-!
# C73: what is learned from the first response of a server, and what the poller remembers
-/

namespace Rauc.Stream

/-! ## Headers -/

theorem splitColon_some {s a b : Str} (h : splitColon s = some (a, b)) : s = a ++ c!": " ++ b := by
  induction s using splitColon.induct generalizing a b with
  | case1 => simp [splitColon] at h
  | case2 => simp [splitColon] at h
  | case3 x y r hc => 
    rw [splitColon, if_pos hc] at h
    cases h; simp [hc.1, hc.2]
  | case4 x y r hc hn ih =>
    rw [splitColon, if_neg hc, hn] at h
    cases h
  | case5 x y r hc u v hn ih =>
    rw [splitColon, if_neg hc, hn] at h
    cases h
    rw [ih hn]; rfl

theorem split2_some {d : Char} {s a b : Str} : split2 d s = some (a, b) ↔ s = a ++ d :: b ∧ d ∉ a := by
  induction s generalizing a b with
  | nil => simp [split2]
  | cons c r ih =>
    unfold split2
    by_cases h : c = d
    · subst h
      rw [if_pos rfl]
      constructor
      · intro e; cases e; simp
      · rintro ⟨e, hn⟩
        cases a with
        | nil => simp at e; simp [e]
        | cons x a => simp at e; simp [e.1] at hn
    · rw [if_neg h]
      constructor
      · intro e
        obtain ⟨⟨u, v⟩, hq, e⟩ := Option.map_eq_some_iff.1 e
        cases e
        obtain ⟨rfl, hn⟩ := ih.1 hq
        refine ⟨rfl, ?_⟩
        simp [hn, Ne.symm h]
      · rintro ⟨e, hn⟩
        cases a with
        | nil => simp at e; exact absurd e.1 h
        | cons x a =>
          simp at e hn
          obtain ⟨rfl, rfl⟩ := e
          rw [ih.2 ⟨rfl, hn.2⟩]; rfl

/-- Specification: a decimal digit -/
def Digit (c : Char) : Prop := '0' ≤ c ∧ c ≤ '9'

/-- Specification: what C counts as a blank -/
def Blank (c : Char) : Prop := c = ' ' ∨ c = '\t' ∨ c = '\n' ∨ c = '\r' ∨ c = Char.ofNat 11 ∨ c = Char.ofNat 12

theorem digit_of {c : Char} (h : isDigit c = true) : Digit c := by
  simp only [isDigit, Bool.and_eq_true, decide_eq_true_eq] at h
  exact h

theorem blank_of {c : Char} (h : isBlank c = true) : Blank c := by
  simp only [isBlank, isSpace, Bool.or_eq_true, beq_iff_eq] at h
  unfold Blank
  rcases h with ((((h | h) | h) | h) | h) | h <;> simp [h]

/-- Specification: a number as `strtoull` reads it -/
inductive Total : Str → Nat → Prop
  | empty : Total [] 0
  | plain (sp sg ds : Str) (h1 : ∀ c ∈ sp, Blank c) (h2 : sg = [] ∨ sg = ['+']) (h3 : ds ≠ []) (h4 : ∀ c ∈ ds, Digit c)
      (h5 : digitsVal ds < 2 ^ 64) : Total (sp ++ sg ++ ds) (digitsVal ds)
  | negative (sp ds : Str) (h1 : ∀ c ∈ sp, Blank c) (h3 : ds ≠ []) (h4 : ∀ c ∈ ds, Digit c)
      (h5 : digitsVal ds < 2 ^ 64) : Total (sp ++ ['-'] ++ ds) ((2 ^ 64 - digitsVal ds) % 2 ^ 64)

theorem takeWhile_all {p : Char → Bool} {l : Str} : ∀ c ∈ l.takeWhile p, p c = true := by
  induction l with
  | nil => simp
  | cons x l ih =>
    rw [List.takeWhile_cons]
    split
    · rename_i hx
      intro c hc
      rcases List.mem_cons.1 hc with rfl | hc
      · exact hx
      · exact ih c hc
    · simp

theorem dropWhile_nil_iff {p : Char → Bool} {l : Str} (h : l.dropWhile p = []) : l.takeWhile p = l := by
  have := List.takeWhile_append_dropWhile (p := p) (l := l)
  rw [h, List.append_nil] at this
  exact this

theorem number_total {s : Str} {n : Nat} (h : number s = some n) : Total s n := by
  unfold number at h
  dsimp only at h
  have hs := List.takeWhile_append_dropWhile (p := isBlank) (l := s)
  have hsp : ∀ c ∈ s.takeWhile isBlank, Blank c := fun c hc => blank_of (takeWhile_all c hc)
  split at h
  · split at h
    · rename_i h0; cases h; rw [h0]; exact .empty
    · cases h
  · rename_i h1
    split at h
    · cases h
    · rename_i h2
      split at h
      · cases h
      · rename_i h3
        have h2' := dropWhile_nil_iff (Decidable.not_not.1 h2)
        rw [h2'] at h h1 h3
        have hd : ∀ c ∈ (sign (s.dropWhile isBlank)).2, Digit c := by
          intro c hc; rw [← h2'] at hc; exact digit_of (takeWhile_all c hc)
        generalize s.takeWhile isBlank = sp at hs hsp
        generalize s.dropWhile isBlank = t at hs h h1 h3 hd
        subst hs
        unfold sign at h h1 h3 hd
        split at h
        · rename_i r
          cases h
          have := Total.negative sp r hsp h1 hd (Nat.lt_of_not_le h3)
          simpa using this
        · rename_i r
          cases h
          have := Total.plain sp ['+'] r hsp (Or.inr rfl) h1 hd (Nat.lt_of_not_le h3)
          simpa using this
        · cases h
          rename_i g1 g2
          have := Total.plain sp [] t hsp (Or.inl rfl) (by simpa using h1) (by simpa using hd) (by simpa using h3)
          simpa using this

/-- Specification: a header line that says that bytes 0 to 3 of `n` bytes follow -/
def RangeLine (raw : Str) (n : Nat) : Prop :=
  ∃ name unit total, chomp raw = name ++ c!": " ++ unit ++ c!" 0-3/" ++ total ∧ name.map Char.toLower = c!"content-range" ∧ ' ' ∉ unit ∧ total ≠ c!"*" ∧ Total total n

/-- is this the header `content-range`, in whatever case? -/
def isRangeHeader (raw : Str) : Prop := ∃ value name, chomp raw = name ++ c!": " ++ value ∧ name.map Char.toLower = c!"content-range"

theorem lower_eq : lower = Char.toLower := by
  funext c
  unfold lower Char.toLower
  by_cases h : c.val ≥ 'A'.val ∧ c.val ≤ 'Z'.val
  · rw [if_pos h, dif_pos h]
    have h2 : c.val.toNat ≤ 90 := UInt32.le_iff_toNat_le.1 h.2
    refine Char.ext (UInt32.toNat_inj.1 ?_)
    have hv : (c.toNat + 32).isValidChar := Or.inl (by have : c.toNat = c.val.toNat := rfl; omega)
    rw [Char.ofNat, dif_pos hv]
    show c.val.toNat + 32 = _
    simp only [UInt32.toNat_add]
    show _ = (c.val.toNat + 32) % 2 ^ 32
    omega
  · rw [if_neg h, dif_neg h]

theorem splitColon_append {a b : Str} (h : ':' ∉ a) : splitColon (a ++ c!": " ++ b) = some (a, b) := by
  induction a with
  | nil => simp [splitColon]
  | cons x l ih =>
    have h1 : x ≠ ':' := fun e => h (by simp [e])
    have h2 : ':' ∉ l := fun e => h (List.mem_cons_of_mem _ e)
    have ih := ih h2
    obtain ⟨y, t, ht⟩ : ∃ y t, l ++ c!": " ++ b = y :: t := by
      cases l with
      | nil => exact ⟨_, _, rfl⟩
      | cons y t => exact ⟨_, _, rfl⟩
    rw [List.cons_append, List.cons_append, ht, splitColon, if_neg (fun e => h1 e.1), ← ht, ih]

theorem isRangeHeader_iff (raw : Str) :
    isRangeHeader raw ↔ ∃ value name, splitColon (chomp raw) = some (name, value) ∧ name.map lower = c!"content-range" := by
  rw [lower_eq]
  constructor
  · rintro ⟨v, n, h1, h2⟩
    refine ⟨v, n, ?_, h2⟩
    rw [h1]
    refine splitColon_append (fun e => ?_)
    have : Char.toLower ':' ∈ n.map Char.toLower := List.mem_map_of_mem e
    rw [h2] at this
    exact absurd this (by decide)
  · rintro ⟨v, n, h1, h2⟩
    exact ⟨v, n, splitColon_some h1, h2⟩

theorem headerCb_range {date : Str → Option Nat} {x y : Resp} {raw : Str} (h : headerCb date x raw = some y) (hr : isRangeHeader raw) :
    RangeLine raw y.size ∧ y.date = x.date ∧ y.modified = x.modified ∧ y.etag = x.etag := by
  obtain ⟨value, name, hs, hn⟩ := (isRangeHeader_iff _).1 hr
  unfold headerCb at h
  rw [hs] at h
  dsimp only at h
  rw [if_pos hn] at h
  split at h
  · cases h
  · rename_i u v hv
    split at h
    · cases h
    · rename_i range total ht
      split at h
      · cases h
      · rename_i hc
        have hc1 : range = c!"0-3" := Decidable.not_not.1 (fun e => hc (Or.inl e))
        have hc2 : total ≠ c!"*" := fun e => hc (Or.inr e)
        split at h
        · cases h
        · rename_i k hk
          cases h
          obtain ⟨rfl, g1⟩ := split2_some.1 hv
          obtain ⟨rfl, g2⟩ := split2_some.1 ht
          subst hc1
          refine ⟨⟨name, u, total, ?_, lower_eq ▸ hn, g1, hc2, number_total hk⟩, rfl, rfl, rfl⟩
          rw [splitColon_some hs]
          simp

theorem headerCb_other {date : Str → Option Nat} {x y : Resp} {raw : Str} (h : headerCb date x raw = some y) (hr : ¬ isRangeHeader raw) :
    y.size = x.size := by
  unfold headerCb at h
  split at h
  · cases h; rfl
  · rename_i name value hs
    dsimp only at h
    have hn : ¬ name.map lower = c!"content-range" := fun e => hr ((isRangeHeader_iff _).2 ⟨value, name, hs, e⟩)
    rw [if_neg hn] at h
    split at h
    · split at h <;> cases h <;> rfl
    · split at h
      · split at h <;> cases h <;> rfl
      · split at h <;> cases h <;> rfl

/-- **C73.** Every header `content-range` in the response(s) announces the bytes asked for, and the size is the one of the last of them; otherwise the bundle is
not opened. Without such a header the size stays 0. -/
theorem headers_size {date : Str → Option Nat} {hs : List Str} {x y : Resp} (h : headersCb date x hs = some y) :
    (∀ r ∈ hs, isRangeHeader r → ∃ n, RangeLine r n) ∧
    (y.size = x.size ∧ (∀ r ∈ hs, ¬ isRangeHeader r) ∨
      ∃ pre r post, hs = pre ++ r :: post ∧ isRangeHeader r ∧ RangeLine r y.size ∧ ∀ q ∈ post, ¬ isRangeHeader q) := by
  induction hs generalizing x with
  | nil => cases h; exact ⟨by simp, Or.inl ⟨rfl, by simp⟩⟩
  | cons r l ih =>
    unfold headersCb at h
    split at h
    · cases h
    · rename_i z hz
      obtain ⟨k1, k2⟩ := ih h
      by_cases hr : isRangeHeader r
      · have hl := (headerCb_range hz hr).1
        refine ⟨?_, Or.inr ?_⟩
        · intro q hq hqr
          rcases List.mem_cons.1 hq with rfl | hq
          · exact ⟨_, hl⟩
          · exact k1 q hq hqr
        · rcases k2 with ⟨e, hn⟩ | ⟨pre, q, post, rfl, g1, g2, g3⟩
          · exact ⟨[], r, l, rfl, hr, e ▸ hl, hn⟩
          · exact ⟨r :: pre, q, post, rfl, g1, g2, g3⟩
      · have hz' := headerCb_other hz hr
        refine ⟨?_, ?_⟩
        · intro q hq hqr
          rcases List.mem_cons.1 hq with rfl | hq
          · exact absurd hqr hr
          · exact k1 q hq hqr
        · rcases k2 with ⟨e, hn⟩ | ⟨pre, q, post, rfl, g1, g2, g3⟩
          · refine Or.inl ⟨e.trans hz', fun q hq => ?_⟩
            rcases List.mem_cons.1 hq with rfl | hq
            · exact hr
            · exact hn q hq
          · exact Or.inr ⟨r :: pre, q, post, rfl, g1, g2, g3⟩

/-- Specification: the value of a header line if it is an ETag -/
def etagValue (raw : Str) : Option Str :=
  match splitColon (chomp raw) with
  | some (n, v) => if n.map Char.toLower = c!"etag" then some v else none
  | none => none

theorem headerCb_etag {date : Str → Option Nat} {x y : Resp} {raw : Str} (h : headerCb date x raw = some y) : y.etag = (etagValue raw).or x.etag := by
  unfold headerCb at h
  unfold etagValue
  rw [← lower_eq]
  split at h
  · rename_i hs; cases h; rw [hs]; rfl
  · rename_i name value hs
    rw [hs]
    dsimp only at h ⊢
    split at h
    · rename_i hn
      rw [hn, if_neg (by decide)]
      split at h
      · cases h
      · split at h
        · cases h
        · split at h
          · cases h
          · split at h
            · cases h
            · cases h; rfl
    · split at h
      · rename_i hn
        rw [hn, if_neg (by decide)]
        split at h <;> cases h <;> rfl
      · split at h
        · rename_i hn
          rw [hn, if_neg (by decide)]
          split at h <;> cases h <;> rfl
        · split at h
          · rename_i hn; rw [if_pos hn]; cases h; rfl
          · rename_i hn; rw [if_neg hn]; cases h; rfl

theorem headers_etag {date : Str → Option Nat} {hs : List Str} {x y : Resp} (h : headersCb date x hs = some y) :
    y.etag = (hs.filterMap etagValue).getLast?.or x.etag := by
  induction hs generalizing x with
  | nil => cases h; rfl
  | cons r l ih =>
    unfold headersCb at h
    split at h
    · cases h
    · rename_i z hz
      rw [ih h, headerCb_etag hz, List.filterMap_cons]
      cases he : etagValue r with
      | none => rfl
      | some v =>
        cases hl : (l.filterMap etagValue).getLast? with
        | none =>
          rw [List.getLast?_eq_none_iff.1 hl]; rfl
        | some w =>
          rw [List.getLast?_cons, hl]; rfl

/-! ## The reply -/

theorem get_reply (c : Ctx) (x : Resp) (o : Outcome) :
    asS ((configReply c x o).get c!"error") =
      (if o.code ≠ 206 then some (errText o.code) else if o.got ≠ 4 then some c!"incomplete HTTP response" else o.err) ∧
    asU ((configReply c x o).get c!"error-http-code") = (if o.code ≠ 206 then some (o.code % 2 ^ 32) else none) ∧
    asT ((configReply c x o).get c!"size") = (if x.size = 0 then none else some x.size) ∧
    asT ((configReply c x o).get c!"modified-time") = (if x.modified = 0 then none else some x.modified) ∧
    asS ((configReply c x o).get c!"etag") = x.etag ∧
    (o.code = 206 → o.got = 4 → o.err = none → asS ((configReply c x o).get c!"url") = some o.url) := by
  obtain ⟨size, da, mo, et⟩ := x
  obtain ⟨code, got, err, url⟩ := o
  unfold configReply nz
  by_cases h1 : code = 206
  · by_cases h2 : got = 4
    · cases err <;> cases et <;> by_cases h3 : size = 0 <;> by_cases h4 : da = 0 <;> by_cases h5 : mo = 0 <;>
        simp [h1, h2, h3, h4, h5, get_insertO, get_insert, get_nil, asS, asU, asT]
    · cases et <;> by_cases h3 : size = 0 <;> by_cases h4 : da = 0 <;> by_cases h5 : mo = 0 <;>
        simp [h1, h2, h3, h4, h5, get_insertO, get_insert, get_nil, asS, asU, asT]
  · cases et <;> by_cases h3 : size = 0 <;> by_cases h4 : da = 0 <;> by_cases h5 : mo = 0 <;>
      simp [h1, h3, h4, h5, get_insertO, get_insert, get_nil, asS, asU, asT]

theorem nodup_configReply (c : Ctx) (x : Resp) (o : Outcome) : ((configReply c x o).map (·.1)).Nodup := by
  unfold configReply
  refine nodup_insertO (nodup_insertO (nodup_insertO (nodup_insertO (nodup_insert ?_ _ _) _ _) _ _) _ _) _ _
  split
  · exact nodup_insert (nodup_insert nodup_nil _ _) _ _
  · split
    · exact nodup_insert nodup_nil _ _
    · split
      · exact nodup_insert nodup_nil _ _
      · exact nodup_nil

/-- the error class of a status code -/
def errorOf (code : Nat) : NbdError :=
  if code = 204 then .noContent else if code = 304 then .notModified else if code = 401 then .unauthorized else if code = 404 then .notFound else .configuration

theorem configured_reply (c : Ctx) (x : Resp) (o : Outcome) (hc : o.code < 2 ^ 32) {m : List (Str × V)} (hm : m.Perm (configReply c x o)) :
    configured (fromVariant m) =
      if o.code ≠ 206 then .error (errorOf o.code)
      else if o.got = 4 ∧ o.err = none ∧ x.size ≠ 0 then .ok { size := x.size, url := some o.url, modified := x.modified, etag := x.etag }
      else .error .configuration := by
  have hg : (fromVariant m).get = (configReply c x o).get := funext (get_sent (nodup_configReply c x o) hm)
  obtain ⟨e1, e2, e3, e4, e5, e6⟩ := get_reply c x o
  unfold configured
  rw [hg, e1, e2, e3, e4, e5]
  by_cases h1 : o.code = 206
  · by_cases h2 : o.got = 4
    · cases h3 : o.err with
      | some t => simp [h1, h2]
      | none =>
        rw [e6 h1 h2 h3]
        by_cases h4 : x.size = 0
        · simp [h1, h2, h4]
        · by_cases h5 : x.modified = 0
          · simp [h1, h2, h4, h5]
          · simp [h1, h2, h4, h5]
    · simp [h1, h2]
  · simp only [if_pos h1, Option.getD_some, Nat.mod_eq_of_lt hc]
    rfl

/-- **C73.** A bundle is opened exactly if the server answered the request for its first four bytes with 206 and four bytes, no header was refused and one of them told its
size; what is known then is this size, the URL it was finally read from, and the time and ETag of the response. -/
theorem C73_opened (date : Str → Option Nat) (c : Ctx) (hs : List Str) (o : Outcome) (hc : o.code < 2 ^ 32) {m : List (Str × V)}
    (hm : m.Perm (firstReply date c hs o)) (p : Opened) :
    configured (fromVariant m) = .ok p ↔
      o.code = 206 ∧ o.got = 4 ∧ o.err = none ∧ ∃ x, headersCb date {} hs = some x ∧ x.size ≠ 0 ∧
        p = { size := x.size, url := some o.url, modified := x.modified, etag := x.etag } := by
  unfold firstReply at hm
  cases hh : headersCb date {} hs with
  | none =>
    rw [hh] at hm
    rw [configured_reply c {} { o with got := 0 } hc hm]
    dsimp only
    constructor
    · intro h; split at h <;> simp at h
    · rintro ⟨-, -, -, x, h, -⟩; cases h
  | some x =>
    rw [hh] at hm
    rw [configured_reply c x o hc hm]
    constructor
    · intro h
      split at h
      · cases h
      · rename_i h1
        split at h
        · rename_i h2
          cases h
          exact ⟨Decidable.not_not.1 h1, h2.1, h2.2.1, x, rfl, h2.2.2, rfl⟩
        · cases h
    · rintro ⟨h1, h2, h3, y, e, h4, rfl⟩
      cases e
      rw [if_neg (by simp [h1]), if_pos ⟨h2, h3, h4⟩]

/-- **C73.** The size of an opened bundle is the one in the last header `content-range`, which announces the bytes 0 to 3; every other header of this name does so as well, and the
ETag is the one of the last header `etag`. -/
theorem C73_size (date : Str → Option Nat) (c : Ctx) (hs : List Str) (o : Outcome) (hc : o.code < 2 ^ 32) {m : List (Str × V)}
    (hm : m.Perm (firstReply date c hs o)) (p : Opened) (h : configured (fromVariant m) = .ok p) :
    p.size ≠ 0 ∧ (∀ r ∈ hs, isRangeHeader r → ∃ n, RangeLine r n) ∧
    (∃ pre r post, hs = pre ++ r :: post ∧ isRangeHeader r ∧ RangeLine r p.size ∧ ∀ q ∈ post, ¬ isRangeHeader q) ∧
    p.etag = (hs.filterMap etagValue).getLast? := by
  obtain ⟨-, -, -, x, hx, h0, rfl⟩ := (C73_opened date c hs o hc hm p).1 h
  obtain ⟨k1, k2⟩ := headers_size hx
  refine ⟨h0, k1, ?_, ?_⟩
  · rcases k2 with ⟨e, -⟩ | k2
    · exact absurd e h0
    · exact k2
  · have := headers_etag hx
    rw [this]
    cases (hs.filterMap etagValue).getLast? <;> rfl

/-- **C73.** The service distinguishes the answers 204, 304, 401 and 404, whatever else the response contains, and nothing else is taken for one of them. -/
theorem C73_errors (date : Str → Option Nat) (c : Ctx) (hs : List Str) (o : Outcome) (hc : o.code < 2 ^ 32) {m : List (Str × V)}
    (hm : m.Perm (firstReply date c hs o)) :
    (configured (fromVariant m) = .error .noContent ↔ o.code = 204) ∧ (configured (fromVariant m) = .error .notModified ↔ o.code = 304) ∧
    (configured (fromVariant m) = .error .unauthorized ↔ o.code = 401) ∧ (configured (fromVariant m) = .error .notFound ↔ o.code = 404) := by
  obtain ⟨x, o', hco, hm⟩ : ∃ x o', o'.code = o.code ∧ m.Perm (configReply c x o') := by
    unfold firstReply at hm
    split at hm
    · exact ⟨_, o, rfl, hm⟩
    · exact ⟨{}, { o with got := 0 }, rfl, hm⟩
  rw [configured_reply c x o' (hco ▸ hc) hm, hco]
  generalize o.code = k
  by_cases h : k = 206
  · subst h
    rw [if_neg (by simp)]
    split <;> simp
  · rw [if_pos h]
    unfold errorOf
    refine ⟨?_, ?_, ?_, ?_⟩ <;> constructor
    all_goals
      intro e
      first
      | (subst e; rfl)
      | (split at e
         · first | assumption | cases e
         · split at e
           · first | assumption | cases e
           · split at e
             · first | assumption | cases e
             · split at e
               · first | assumption | cases e
               · cases e)

/-- **Finding (C73).** A size with a minus sign is accepted: a `content-range` with the total size -5 opens a bundle of 2^64 - 5 bytes. -/
theorem C73_negative_violated (date : Str → Option Nat) (c : Ctx) (url : Str) :
    configured (firstReply date c [c!"Content-Range: bytes 0-3/-5\r\n"] { code := 206, got := 4, url := url }) =
      .ok { size := 2 ^ 64 - 5, url := some url, modified := 0, etag := none } := by
  have h : headersCb date {} [c!"Content-Range: bytes 0-3/-5\r\n"] = some { size := 2 ^ 64 - 5 } := by
    have h1 : splitColon (chomp c!"Content-Range: bytes 0-3/-5\r\n") = some (c!"Content-Range", c!"bytes 0-3/-5") := by decide
    have h2 : (c!"Content-Range").map lower = c!"content-range" := by decide
    have h3 : split2 ' ' c!"bytes 0-3/-5" = some (c!"bytes", c!"0-3/-5") := by decide
    have h4 : split2 '/' c!"0-3/-5" = some (c!"0-3", c!"-5") := by decide
    have h5 : number c!"-5" = some (2 ^ 64 - 5) := by decide
    unfold headersCb headerCb
    rw [h1]
    dsimp only
    rw [if_pos h2, h3]
    dsimp only
    rw [h4]
    dsimp only
    rw [if_neg (by decide), h5]
    rfl
  unfold firstReply
  rw [h]
  rfl

/-! ## Polling -/

/-- Specification: what a server offers at the polled URL -/
structure Offer (M : Type) where
  manifest : M
  etag : Option Str

/-- Specification: an answer of a server to a request, in which the header `If-None-Match` is `inm`, that is true to what it offers. Errors and unusable bundles are
possible at any time. -/
inductive Honest {M : Type} (o : Option (Offer M)) (inm : Option Str) : Except (Option NbdError) (Option M × Opened) → Prop
  | nothing (h : o = none) : Honest o inm (.error (some .noContent))
  | same {x e} (h : o = some x) (he : x.etag = some e) (hi : inm = some e) : Honest o inm (.error (some .notModified))
  | failed (e : Option NbdError) (h1 : e ≠ some .noContent) (h2 : e ≠ some .notModified) : Honest o inm (.error e)
  | noManifest (p) : Honest o inm (.ok (none, p))
  | bundle {x p} (h : o = some x) (he : p.etag = x.etag) : Honest o inm (.ok (some x.manifest, p))

/-- a history from a state to a state, in which the server is honest and `f` is the manifest for an ETag -/
inductive History {M : Type} (f : Str → M) : Option (Offer M) → Memory M → Option (Offer M) → Memory M → Prop
  | refl (o m) : History f o m o m
  | offer {o m o1 m1} (h : History f o m o1 m1) (o2 : Option (Offer M)) (hf : ∀ x e, o2 = some x → x.etag = some e → x.manifest = f e) : History f o m o2 m1
  | poll {o m o1 m1} (h : History f o m o1 m1) (r) (hr : Honest o1 m1.etag r) : History f o m o1 (remember m1 r).1

/-- **C73.** The header `If-None-Match` of a poll: sent exactly if an ETag is remembered, with this value (given that no information header has this name) -/
theorem C73_conditional {M : Type} (i : Info) (m : Memory M) (hi : ∀ x ∈ infoHeaders i none, ¬ (c!"If-None-Match: ") <+: x) (v : Str) :
    c!"If-None-Match: " ++ v ∈ pollHeaders i m ↔ m.etag = some v := by
  unfold pollHeaders
  rw [List.mem_append, mem_lineO]
  constructor
  · rintro (h | ⟨w, hw, e⟩)
    · exact absurd (List.prefix_append _ _) (hi _ h)
    · have : v = w := by
        rw [List.append_assoc] at e
        exact List.append_cancel_left e
      rw [this]; exact hw
  · intro h
    exact Or.inr ⟨v, h, by simp⟩

theorem memory_inv {M : Type} {f : Str → M} {o' : Option (Offer M)} {m' : Memory M} (h : History f none {} o' m') :
    (∀ x e, o' = some x → x.etag = some e → x.manifest = f e) ∧ (∀ e, m'.etag = some e → m'.manifest = some (f e)) := by
  induction h with
  | refl => exact ⟨by simp, by simp⟩
  | offer h o2 hf ih => exact ⟨hf, ih.2⟩
  | @poll o1 m1 h r hr ih =>
    obtain ⟨k1, k2⟩ := ih
    refine ⟨k1, ?_⟩
    cases hr with
    | nothing h => simp [remember]
    | same h he hi => exact k2
    | failed e h1 h2 =>
      have : (remember m1 (Except.error e : Except (Option NbdError) (Option M × Opened))).1 = m1 := by
        unfold remember
        split
        · rename_i e'; cases e'; exact absurd rfl h1
        · rename_i e'; cases e'; exact absurd rfl h2
        · rfl
        · rfl
        · rename_i e'; cases e'
      rw [this]; exact k2
    | noManifest p => exact k2
    | @bundle x p h he =>
      intro e hee
      have hee : p.etag = some e := hee
      rw [he] at hee
      show some _ = some (f e)
      rw [k1 _ e h hee]

/-- **C73.** Whatever bundles a server has offered and withdrawn, and however often polling failed: after every successful poll the manifest the service knows is the one of the
bundle the server offers now (none if it offers none), although most answers only say that nothing has changed. Given: the server's ETags identify its bundles. -/
theorem C73_poll {M : Type} {f : Str → M} {o : Option (Offer M)} {m : Memory M} (h : History f none {} o m)
    (r : Except (Option NbdError) (Option M × Opened)) (hr : Honest o m.etag r) (hs : (remember m r).2 = true) :
    (remember m r).1.manifest = o.map (·.manifest) := by
  obtain ⟨k1, k2⟩ := memory_inv h
  cases hr with
  | nothing h => rw [h]; rfl
  | same h he hi =>
    rw [h]
    show m.manifest = _
    rw [k2 _ hi, Option.map_some, k1 _ _ h he]
  | failed e h1 h2 =>
    unfold remember at hs
    split at hs
    · rename_i e'; cases e'; exact absurd rfl h1
    · rename_i e'; cases e'; exact absurd rfl h2
    · cases hs
    · cases hs
    · rename_i e'; cases e'
  | noManifest p => cases hs
  | bundle h he => rw [h]; rfl

/-- **C73.** A poll that fails leaves what is known as it is. -/
theorem C73_poll_failed {M : Type} (m : Memory M) (r : Except (Option NbdError) (Option M × Opened)) (h : (remember m r).2 = false) : (remember m r).1 = m := by
  unfold remember at h ⊢
  split at h <;> simp_all

/-! ## Examples -/

example : configured (firstReply (fun _ => some 7) { url := c!"http://a" }
    [c!"HTTP/1.1 206 Partial\r\n", c!"Content-Range: bytes 0-3/4096\r\n", c!"ETag: \"x\"\r\n", c!"Last-Modified: now\r\n"]
    { code := 206, got := 4, url := c!"http://b" }) = .ok { size := 4096, url := some c!"http://b", modified := 7, etag := some c!"\"x\"" } := by
  rfl

/-- a server that starts at another byte -/
example : headersCb (fun _ => none) {} [c!"content-range: bytes 1-4/4096"] = none := by decide

/-- a history: a bundle, polled twice, the second time not modified -/
example : ∃ m : Memory Nat, History (fun _ => 5) none {} (some ⟨5, some c!"a"⟩) m ∧ m.manifest = some 5 :=
  ⟨_, .poll (.poll (.offer (.refl _ _) (some ⟨5, some c!"a"⟩) (by rintro x e ⟨⟩ -; rfl))
      (.ok (some 5, ⟨1, none, 0, some c!"a"⟩)) (.bundle (x := ⟨5, some c!"a"⟩) rfl rfl))
    (.error (some .notModified)) (.same rfl rfl rfl), rfl⟩

end Rauc.Stream
