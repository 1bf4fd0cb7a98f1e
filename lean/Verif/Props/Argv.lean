import Verif.Model.Argv
import Mathlib.Tactic.Tauto

/-!
# C94: programs get exactly the arguments that are meant for them
-/

namespace Rauc.Argv

open Rauc.Utils (shellQuote quoteBody)

/-! ## Specification: words of a text

As in a shell, without expansions: everything else (`$`, `*`, `;`, `|` ...) stands for itself. -/

/-- what separates words -/
def Blank (c : Char) : Prop := c = ' ' ∨ c = '\t' ∨ c = '\n'

/-- characters that stand for themselves outside of quotes -/
def Ordinary (c : Char) : Prop := ¬ Blank c ∧ c ≠ '\'' ∧ c ≠ '"' ∧ c ≠ '\\' ∧ c ≠ '#'

/-- the inside of double quotes and its meaning -/
inductive Double : Str → Str → Prop
  | nil : Double [] []
  | char (c : Char) {s v : Str} : c ≠ '"' → c ≠ '\\' → Double s v → Double (c :: s) (c :: v)
  | escaped (c : Char) {s v : Str} : c = '"' ∨ c = '\\' ∨ c = '`' ∨ c = '$' → Double s v → Double ('\\' :: c :: s) (c :: v)
  | kept (c : Char) {s v : Str} : c ≠ '"' → c ≠ '\\' → c ≠ '`' → c ≠ '$' → c ≠ '\n' → Double s v → Double ('\\' :: c :: s) ('\\' :: c :: v)

/-- a part of a word and its meaning -/
inductive Part : Str → Str → Prop
  | char (c : Char) : Ordinary c → Part [c] [c]
  | hash (c : Char) : Ordinary c → Part [c, '#'] [c, '#']
  | escaped (c : Char) : c ≠ '\n' → Part ['\\', c] [c]
  | single (s : Str) : '\'' ∉ s → Part ('\'' :: s ++ ['\'']) s
  | double {s v : Str} : Double s v → Part ('"' :: s ++ ['"']) v

/-- a word: at least one part -/
inductive Word : Str → Str → Prop
  | one {s v : Str} : Part s v → Word s v
  | more {s v s' v' : Str} : Part s v → Word s' v' → Word (s ++ s') (v ++ v')

/-- a text and its words -/
inductive Words : Str → List Str → Prop
  | nil : Words [] []
  | blank (c : Char) {t : Str} {ws : List Str} : Blank c → Words t ws → Words (c :: t) ws
  | last {s w : Str} : Word s w → Words s [w]
  | word (c : Char) {s w t : Str} {ws : List Str} : Word s w → Blank c → Words t ws → Words (s ++ c :: t) (w :: ws)

/-! ## Splitting a text -/

/-- between two parts of a word -/
structure Between (s : Tok) (t : Option Str) (out : List Str) : Prop where
  q : s.q = .plain
  quoted : s.quoted = false
  tok : s.tok = t
  out : s.out = out

theorem between_char {s : Tok} {t : Option Str} {out : List Str} (h : Between s t out) {c : Char} (hc : Ordinary c) : Between (tokStep s c) (addc t [c]) out := by
  obtain ⟨hb, h1, h2, h3, h4⟩ := hc
  simp only [Blank, not_or] at hb
  obtain ⟨hq, hk, ht, ho⟩ := h
  simp only [tokStep, tokCase, hq, hb.1, hb.2.1, hb.2.2, h1, h2, h3, h4, if_false, or_self]
  exact ⟨rfl, rfl, by rw [ht], ho⟩

theorem sq_run (b : Str) : ∀ (s : Tok) (t : Str) (out : List Str), s.q = .sq → s.tok = some t → s.out = out → '\'' ∉ b →
    (b.foldl tokStep s).q = .sq ∧ (b.foldl tokStep s).tok = some (t ++ b) ∧ (b.foldl tokStep s).out = out := by
  induction b with
  | nil => intro s t out h1 h2 h3 _; simp [h1, h2, h3]
  | cons c b ih =>
    intro s t out h1 h2 h3 hb
    simp only [List.mem_cons, not_or] at hb
    have hc : c ≠ '\'' := fun h => hb.1 h.symm
    have := ih (tokStep s c) (t ++ [c]) out (by simp [tokStep, tokCase, h1, hc]) (by simp [tokStep, tokCase, h1, h2, addc]) (by simp [tokStep, tokCase, h1, h3]) hb.2
    simpa using this

theorem dq_run {b v : Str} (hb : Double b v) : ∀ (s : Tok) (t : Str) (out : List Str), s.q = .dq → s.quoted = false → s.tok = some t → s.out = out →
    (b.foldl tokStep s).q = .dq ∧ (b.foldl tokStep s).quoted = false ∧ (b.foldl tokStep s).tok = some (t ++ b) ∧ (b.foldl tokStep s).out = out := by
  induction hb with
  | nil => intro s t out h1 h2 h3 h4; simp [h1, h2, h3, h4]
  | char c hc hc' _ ih =>
    intro s t out h1 h2 h3 h4
    have := ih (tokStep s c) (t ++ [c]) out (by simp [tokStep, tokCase, h1, hc]) (by simp [tokStep, hc']) (by simp [tokStep, tokCase, h1, h3, addc])
      (by simp [tokStep, tokCase, h1, h4])
    simpa using this
  | escaped c hc _ ih =>
    intro s t out h1 h2 h3 h4
    have := ih (tokStep (tokStep s '\\') c) (t ++ ['\\', c]) out (by simp [tokStep, tokCase, h1, h2]) (by simp [tokStep, h2]) (by simp [tokStep, tokCase, h1, h3, addc])
      (by simp [tokStep, tokCase, h1, h4])
    simpa using this
  | kept c hc _ _ _ _ _ ih =>
    intro s t out h1 h2 h3 h4
    have := ih (tokStep (tokStep s '\\') c) (t ++ ['\\', c]) out (by simp [tokStep, tokCase, h1, h2]) (by simp [tokStep, h2]) (by simp [tokStep, tokCase, h1, h3, addc])
      (by simp [tokStep, tokCase, h1, h4])
    simpa using this

theorem part_run {x v : Str} (hx : Part x v) (s : Tok) (t : Option Str) (out : List Str) (h : Between s t out) : Between (x.foldl tokStep s) (addc t x) out := by
  cases hx with
  | char c hc => exact between_char h hc
  | hash c hc =>
    have h1 := between_char h hc
    have hp : (tokStep s c).prev = some c := rfl
    have hb : c ≠ ' ' ∧ c ≠ '\n' := by
      have := hc.1
      simp only [Blank, not_or] at this
      exact ⟨this.1, this.2.2⟩
    obtain ⟨hq, hk, ht, ho⟩ := h1
    refine ⟨?_, ?_, ?_, ?_⟩ <;> simp [List.foldl_cons, tokStep, tokCase, hq, ht, ho, hp, hb.1, hb.2, addc] at *
    all_goals first | simp_all
  | escaped c hc =>
    obtain ⟨hq, hk, ht, ho⟩ := h
    refine ⟨?_, ?_, ?_, ?_⟩ <;> simp [tokStep, tokCase, hq, hk, ht, ho, hc, addc]
  | single _ hb =>
    obtain ⟨hq, hk, ht, ho⟩ := h
    have := sq_run v (tokStep s '\'') (t.getD [] ++ ['\'']) out (by simp [tokStep, tokCase, hq]) (by simp [tokStep, tokCase, hq, ht, addc]) (by simp [tokStep, tokCase, hq, ho]) hb
    rw [List.cons_append, List.foldl_cons, List.foldl_append]
    generalize List.foldl tokStep (tokStep s '\'') v = S at this
    obtain ⟨h1, h2, h3⟩ := this
    refine ⟨?_, ?_, ?_, ?_⟩ <;> simp [tokStep, tokCase, h1, h2, h3, addc]
  | double hb =>
    rename_i b
    obtain ⟨hq, hk, ht, ho⟩ := h
    have := dq_run hb (tokStep s '"') (t.getD [] ++ ['"']) out (by simp [tokStep, tokCase, hq]) (by simp [tokStep]) (by simp [tokStep, tokCase, hq, ht, addc])
      (by simp [tokStep, tokCase, hq, ho])
    rw [List.cons_append, List.foldl_cons, List.foldl_append]
    generalize List.foldl tokStep (tokStep s '"') b = S at this
    obtain ⟨h1, h2, h3, h4⟩ := this
    refine ⟨?_, ?_, ?_, ?_⟩ <;> simp [tokStep, tokCase, h1, h2, h3, h4, addc]

theorem word_run {x v : Str} (hx : Word x v) : ∀ (s : Tok) (t : Option Str) (out : List Str), Between s t out → Between (x.foldl tokStep s) (addc t x) out := by
  induction hx with
  | one hp => intro s t out h; exact part_run hp s t out h
  | more hp _ ih =>
    intro s t out h
    rw [List.foldl_append]
    have := ih _ _ out (part_run hp s t out h)
    simpa [addc] using this

theorem part_ne {x v : Str} (hx : Part x v) : x ≠ [] := by cases hx <;> simp

theorem word_ne {x v : Str} (hx : Word x v) : x ≠ [] := by
  cases hx with
  | one hp => exact part_ne hp
  | more hp _ => simp [part_ne hp]

theorem dq_unquote {b v : Str} (hb : Double b v) (r : Str) : unquote .dq (b ++ '"' :: r) = (unquote .plain r).map (v ++ ·) := by
  induction hb with
  | nil => simp [unquote]
  | char c h1 h2 _ ih =>
    rw [List.cons_append, unquote, ih]
    · cases unquote .plain r <;> simp
    · intro h; exact h1 h
    · intro h; exact absurd h h2
    · intro _ _ h; exact absurd h h2
  | escaped c hc _ ih =>
    rw [List.cons_append, List.cons_append, unquote, ih, if_pos (by tauto)]
    cases unquote .plain r <;> simp
  | kept c h1 h2 h3 h4 h5 _ ih =>
    rw [List.cons_append, List.cons_append, unquote, ih, if_neg (by simp [h1, h2, h3, h4, h5])]
    cases unquote .plain r <;> simp

theorem sq_unquote (b r : Str) (hb : '\'' ∉ b) : unquote .sq (b ++ '\'' :: r) = (unquote .plain r).map (b ++ ·) := by
  induction b with
  | nil => simp [unquote]
  | cons c b ih =>
    simp only [List.mem_cons, not_or] at hb
    rw [List.cons_append, unquote, ih hb.2]
    · cases unquote .plain r <;> simp
    · intro h; exact hb.1 h.symm

theorem ordinary_unquote {c : Char} (hc : Ordinary c) (r : Str) : unquote .plain (c :: r) = (unquote .plain r).map (c :: ·) := by
  obtain ⟨-, h1, h2, h3, -⟩ := hc
  rw [unquote]
  · intro h; exact absurd h h3
  · intro _ _ h; exact absurd h h3
  · intro h; exact h1 h
  · intro h; exact h2 h

theorem hash_unquote (r : Str) : unquote .plain ('#' :: r) = (unquote .plain r).map ('#' :: ·) := by
  rw [unquote] <;> simp

theorem part_unquote {x v : Str} (hx : Part x v) (r : Str) : unquote .plain (x ++ r) = (unquote .plain r).map (v ++ ·) := by
  cases hx with
  | char c hc => simpa using ordinary_unquote hc r
  | hash c hc =>
    rw [List.cons_append, ordinary_unquote hc, List.cons_append, hash_unquote, List.nil_append]
    cases unquote .plain r <;> simp
  | escaped c hc =>
    rw [List.cons_append, List.cons_append, unquote, if_neg hc, List.nil_append]
    cases unquote .plain r <;> simp
  | single _ hb =>
    rw [List.cons_append, List.cons_append, unquote, List.append_assoc]
    exact sq_unquote v r hb
  | double hb =>
    rw [List.cons_append, List.cons_append, unquote, List.append_assoc]
    exact dq_unquote hb r

theorem word_unquote {x v : Str} (hx : Word x v) : unquote .plain x = some v := by
  induction hx with
  | one hp =>
    have := part_unquote hp []
    simpa [unquote] using this
  | more hp _ ih =>
    rw [part_unquote hp, ih]
    rfl

theorem step_blank {s : Tok} {t : Option Str} {out : List Str} (h : Between s t out) (ht : t ≠ some []) {c : Char} (hc : Blank c) :
    Between (tokStep s c) none (out ++ t.toList) := by
  obtain ⟨hq, hk, h1, ho⟩ := h
  cases t with
  | none =>
    rcases hc with rfl | rfl | rfl
    · refine ⟨?_, ?_, ?_, ?_⟩ <;> simp [tokStep, tokCase, hq, h1, ho]
    · refine ⟨?_, ?_, ?_, ?_⟩ <;> simp [tokStep, tokCase, hq, h1, ho]
    · refine ⟨?_, ?_, ?_, ?_⟩ <;> simp [tokStep, tokCase, delimit, hq, h1, ho]
  | some w =>
    have hw : w ≠ [] := fun h => ht (by rw [h])
    rcases hc with rfl | rfl | rfl
    · refine ⟨?_, ?_, ?_, ?_⟩ <;> simp [tokStep, tokCase, delimit, hq, h1, ho, hw]
    · refine ⟨?_, ?_, ?_, ?_⟩ <;> simp [tokStep, tokCase, delimit, hq, h1, ho, hw]
    · refine ⟨?_, ?_, ?_, ?_⟩ <;> simp [tokStep, tokCase, delimit, hq, h1, ho]

theorem words_run {x : Str} {ws : List Str} (hx : Words x ws) : ∀ (s : Tok) (out : List Str), Between s none out →
    ∃ ts : List Str, Between (delimit (x.foldl tokStep s)) none (out ++ ts) ∧ ts.mapM (unquote .plain) = some ws := by
  induction hx with
  | nil =>
    intro s out h
    refine ⟨[], ?_, rfl⟩
    obtain ⟨hq, hk, h1, ho⟩ := h
    refine ⟨?_, ?_, ?_, ?_⟩ <;> simp [delimit, hq, hk, h1, ho]
  | blank c hc _ ih =>
    intro s out h
    have := step_blank h (by simp) hc
    simp only [Option.toList_none, List.append_nil] at this
    exact ih _ out this
  | last hw =>
    rename_i x w
    intro s out h
    have hb := word_run hw s none out h
    refine ⟨[x], ?_, by simp [word_unquote hw]⟩
    obtain ⟨hq, hk, h1, ho⟩ := hb
    refine ⟨?_, ?_, ?_, ?_⟩ <;> simp [delimit, hq, hk, h1, ho, addc]
  | word c hw hc _ ih =>
    rename_i x w t ws _
    intro s out h
    have hb := word_run hw s none out h
    have hne : addc none x ≠ some [] := by simp [addc, word_ne hw]
    have h2 := step_blank hb hne hc
    obtain ⟨ts, h3, h4⟩ := ih _ _ h2
    refine ⟨x :: ts, ?_, ?_⟩
    · rw [List.foldl_append, List.foldl_cons]
      simpa [addc] using h3
    · simp [word_unquote hw, h4]

theorem mapM_ne {ts ws : List Str} (h : ts.mapM (unquote .plain) = some ws) (hw : ws ≠ []) : ts ≠ [] := by
  rintro rfl
  simp at h
  exact hw h

/-- **C94.** A text with at least one word is split into exactly its words. -/
theorem C94_words (text : Str) (ws : List Str) (h : Words text ws) (hw : ws ≠ []) : parseArgv text = some ws := by
  obtain ⟨ts, h1, h2⟩ := words_run h {} [] ⟨rfl, rfl, rfl, rfl⟩
  obtain ⟨hq, -, -, ho⟩ := h1
  simp only [List.nil_append] at ho
  unfold parseArgv tokenize
  simp only [hq, ho, mapM_ne h2 hw, if_false, Option.bind_some, h2]

/-- the text has no words: nothing can be split -/
theorem C94_no_words (text : Str) (h : Words text []) : parseArgv text = none := by
  obtain ⟨ts, h1, h2⟩ := words_run h {} [] ⟨rfl, rfl, rfl, rfl⟩
  have : ts = [] := by
    cases ts with
    | nil => rfl
    | cons t ts =>
      cases h3 : unquote .plain t with
      | none => simp [h3] at h2
      | some a => cases h4 : ts.mapM (unquote .plain) <;> simp [h3, h4] at h2
  subst this
  obtain ⟨hq, -, -, ho⟩ := h1
  unfold parseArgv tokenize
  simp only [hq, ho]
  rfl

/-! ## Every argument list can be written -/

theorem quoted_word (w : Str) : ∀ a : Str, '\'' ∉ a → Word ('\'' :: a ++ (quoteBody w ++ ['\''])) (a ++ w) := by
  induction w with
  | nil => intro a ha; simpa [quoteBody] using Word.one (Part.single a ha)
  | cons c w ih =>
    intro a ha
    by_cases hc : c = '\''
    · subst hc
      have h2 : Word ('\'' :: [] ++ (quoteBody w ++ ['\''])) ([] ++ w) := ih [] (by simp)
      have := Word.more (Part.single a ha) (Word.more (Part.escaped '\'' (by decide)) h2)
      simpa [quoteBody] using this
    · have := ih (a ++ [c]) (by simp [ha, Ne.symm hc])
      simpa [quoteBody, hc] using this

theorem quoted (w : Str) : Word (shellQuote w) w := by
  have := quoted_word w [] (by simp)
  simpa [shellQuote] using this

theorem quoted_words : ∀ ws : List Str, Words (join ' ' (ws.map shellQuote)) ws
  | [] => .nil
  | [w] => by simpa [join] using Words.last (quoted w)
  | w :: w' :: ws => by
    have := Words.word ' ' (quoted w) (Or.inl rfl) (quoted_words (w' :: ws))
    simpa [join] using this

/-- **C94.** Every list of arguments can be written: each argument quoted as for a shell, separated by blanks. -/
theorem C94_quoted (ws : List Str) (h : ws ≠ []) : parseArgv (join ' ' (ws.map shellQuote)) = some ws := C94_words _ _ (quoted_words ws) h

/-! ## The custom handler and the reboot command -/

/-- **C94.** The custom handler gets the words of the manifest's `args` (if there are any), followed by the words of --handler-args, and nothing else. -/
theorem C94_handler (path : Str) (args extra : Option Str) (ws xs : List Str)
    (h1 : match args with | none => ws = [] | some t => Words t ws ∧ ws ≠ [])
    (h2 : match extra with | none => xs = [] | some t => Words t xs ∧ xs ≠ []) :
    handlerArgv path args extra = some ([path] ++ ws ++ xs) := by
  have e1 : optText args = some ws := by
    cases args with
    | none => simp only at h1; rw [h1]; rfl
    | some t => exact C94_words t ws h1.1 h1.2
  have e2 : optText extra = some xs := by
    cases extra with
    | none => simp only at h2; rw [h2]; rfl
    | some t => exact C94_words t xs h2.1 h2.2
  simp [handlerArgv, e1, e2]

/-- **C94.** The reboot command is run with the words of the configured text. -/
theorem C94_reboot (cmd : Str) (ws : List Str) (h : Words cmd ws) (hw : ws ≠ []) : rebootArgv cmd = some ws := C94_words cmd ws h hw

/-- **C94.** Nothing is run if a text cannot be split. -/
theorem C94_unsplittable (path : Str) (args extra : Option Str) (h : args.map parseArgv = some none ∨ extra.map parseArgv = some none) :
    handlerArgv path args extra = none := by
  unfold handlerArgv
  rcases h with h | h
  · cases args with
    | none => simp at h
    | some t => simp only [Option.map_some, Option.some.injEq] at h; simp [optText, h]
  · cases extra with
    | none => simp at h
    | some t => simp only [Option.map_some, Option.some.injEq] at h; simp [optText, h]

example : handlerArgv c!"/run/rauc/bundle/handler.sh" (some c!"--dummy 'two words' \"a \\\"b\\\" $HOME\"") (some c!"-v; rm *") =
    some [c!"/run/rauc/bundle/handler.sh", c!"--dummy", c!"two words", c!"a \"b\" $HOME", c!"-v;", c!"rm", c!"*"] := by decide +kernel

example : Words c!" a 'b c' " [c!"a", c!"b c"] :=
  .blank ' ' (Or.inl rfl) (.word ' ' (s := c!"a") (.one (.char 'a' (by unfold Ordinary Blank; decide))) (Or.inl rfl)
    (.word ' ' (s := c!"'b c'") (.one (.single c!"b c" (by decide))) (Or.inl rfl) .nil))

/-- **Finding (C94).** An empty (or blank) text is an error: `rauc service --handler-args ""` makes every installation with a custom handler fail. -/
theorem C94_finding_blank (path : Str) (args : Option Str) (text : Str) (h : ∀ c ∈ text, Blank c) : handlerArgv path args (some text) = none := by
  have : Words text [] := by
    induction text with
    | nil => exact .nil
    | cons c t ih => exact .blank c (h c (by simp)) (ih (fun d hd => h d (by simp [hd])))
  exact C94_unsplittable _ _ _ (Or.inr (by simp [C94_no_words text this]))

/-- **Finding (C94).** A word that begins with `#` ends the text, silently. -/
theorem C94_finding_comment : handlerArgv c!"/h" (some c!"--tag #1 --force") none = some [c!"/h", c!"--tag"] := by decide +kernel

/-! ## Specification: how programs read their arguments

getopt_long(3) of the GNU libc: options may stand anywhere, `--` ends them. -/

/-- the options of a program, and whether they take a value -/
structure Options where
  short : List (Char × Bool) := []
  long : List (Str × Bool) := []

/-- the meaning of one argument -/
inductive Arg where
  | operand
  /-- `--` -/
  | stop
  | opts (os : List (Str × Option Str))
  /-- the next argument is the value of `o` -/
  | wants (os : List (Str × Option Str)) (o : Str)
  | bad

/-- `-abc` -/
def cluster (T : Options) : Str → List (Str × Option Str) → Arg
  | [], os => .opts os
  | c :: cs, os =>
    match T.short.lookup c with
    | none => .bad
    | some false => cluster T cs (os ++ [([c], none)])
    | some true => if cs = [] then .wants os [c] else .opts (os ++ [([c], some cs)])

/-- `--name` or `--name=value` -/
def longOpt (T : Options) (a : Str) : Arg :=
  let name := a.takeWhile (· ≠ '=')
  match T.long.lookup name, a.drop name.length with
  | none, _ => .bad
  | some false, [] => .opts [(name, none)]
  | some false, _ => .bad
  | some true, [] => .wants [] name
  | some true, _ :: v => .opts [(name, some v)]

def readArg (T : Options) : Str → Arg
  | ['-', '-'] => .stop
  | '-' :: '-' :: a => longOpt T a
  | ['-'] => .operand
  | '-' :: a => cluster T a []
  | _ => .operand

/-- options and operands; `some o`: the next argument is the value of the option `o` -/
def getopt (T : Options) : Option Str → List Str → Option (List (Str × Option Str) × List Str)
  | none, [] => some ([], [])
  | some _, [] => none
  | some o, a :: r => (getopt T none r).map (fun x => ((o, some a) :: x.1, x.2))
  | none, a :: r =>
    match readArg T a with
    | .operand => (getopt T none r).map (fun x => (x.1, a :: x.2))
    | .stop => some ([], r)
    | .opts os => (getopt T none r).map (fun x => (os ++ x.1, x.2))
    | .wants os o => (getopt T (some o) r).map (fun x => (os ++ x.1, x.2))
    | .bad => none

/-- the options of mke2fs(8) -/
def ext4Options : Options :=
  { short := [('F', false), ('L', true), ('I', true), ('b', true), ('c', false), ('C', true), ('d', true), ('D', false), ('e', true), ('E', true), ('g', true), ('G', true), ('i', true), ('j', false),
      ('J', true), ('l', true), ('m', true), ('M', true), ('n', false), ('N', true), ('o', true), ('O', true), ('q', false), ('r', true), ('S', false), ('t', true), ('T', true), ('U', true),
      ('v', false), ('V', false), ('z', true)] }
/-- the options of mkfs.fat(8) -/
def vfatOptions : Options :=
  { short := [('n', true), ('a', false), ('A', false), ('b', true), ('c', false), ('C', false), ('D', true), ('f', true), ('F', true), ('g', true), ('h', true), ('i', true), ('I', false), ('l', true),
      ('m', true), ('M', true), ('r', true), ('R', true), ('s', true), ('S', true), ('v', false)] }
/-- some options of mkfs.ubifs(8) -/
def ubifsOptions : Options :=
  { short := [('y', false), ('x', true), ('r', true), ('m', true), ('e', true), ('c', true), ('k', true), ('p', true), ('F', false), ('X', true), ('j', true), ('R', true), ('l', true), ('v', false)] }
def resizeOptions : Options := { short := [('d', true), ('f', false), ('F', false), ('M', false), ('p', false), ('P', false), ('S', true), ('z', true)] }
def flashcpOptions : Options := { short := [('h', false), ('v', false), ('p', false), ('A', false)], long := [(c!"erase-all", false), (c!"partition", false), (c!"verbose", false), (c!"help", false)] }
def flashEraseOptions : Options := { short := [('j', false), ('N', false), ('u', false), ('q', false)], long := [(c!"quiet", false), (c!"jffs2", false), (c!"noskipbad", false), (c!"unlock", false)] }
def nandwriteOptions : Options :=
  { short := [('a', false), ('m', false), ('n', false), ('o', false), ('p', false), ('q', false), ('s', true), ('b', true)],
    long := [(c!"pad", false), (c!"quiet", false), (c!"markbad", false), (c!"start", true), (c!"blockalign", true)] }
def tarOptions : Options :=
  { short := [('x', false), ('f', true), ('C', true), ('z', false), ('Z', false), ('j', false), ('J', false)],
    long := [(c!"numeric-owner", false), (c!"lzip", false), (c!"lzma", false), (c!"lzop", false), (c!"zstd", false)] }
def mountOptions : Options := { short := [('t', true), ('o', true), ('a', false), ('f', false), ('i', false), ('n', false), ('r', false), ('w', false), ('v', false), ('L', true), ('U', true)] }
def casyncOptions : Options := { long := [(c!"seed", true), (c!"store", true), (c!"seed-output", true), (c!"cache", true), (c!"rate-limit-bps", true), (c!"what", true)] }

/-- a path from the root -/
def Absolute (p : Str) : Prop := p.head? = some '/'

theorem absolute_cons {p : Str} (h : Absolute p) : ∃ r, p = '/' :: r := by
  cases p with
  | nil => cases h
  | cons c r => cases h; exact ⟨r, rfl⟩

theorem readArg_absolute (T : Options) {p : Str} (h : Absolute p) : readArg T p = .operand := by
  obtain ⟨r, rfl⟩ := absolute_cons h
  rfl

theorem getopt_absolute (T : Options) {p : Str} (h : Absolute p) (r : List Str) : getopt T none (p :: r) = (getopt T none r).map (fun x => (x.1, p :: x.2)) := by
  rw [getopt, readArg_absolute T h]

theorem getopt_opts {T : Options} {a : Str} {os : List (Str × Option Str)} (h : readArg T a = .opts os) (r : List Str) :
    getopt T none (a :: r) = (getopt T none r).map (fun x => (os ++ x.1, x.2)) := by
  rw [getopt, h]

theorem getopt_wants {T : Options} {a o : Str} (h : readArg T a = .wants [] o) (v : Str) (r : List Str) :
    getopt T none (a :: v :: r) = (getopt T none r).map (fun x => ((o, some v) :: x.1, x.2)) := by
  rw [getopt, h]
  simp [getopt, Function.comp_def]

/-- further arguments after complete options -/
theorem getopt_append (T : Options) : ∀ (p : Option Str) (xs ys : List Str) (os : List (Str × Option Str)) (ps : List Str), getopt T p xs = some (os, ps) → c!"--" ∉ xs →
    getopt T p (xs ++ ys) = (getopt T none ys).map (fun x => (os ++ x.1, ps ++ x.2))
  | none, [], ys, os, ps, h, _ => by
    simp only [getopt, Option.some.injEq, Prod.mk.injEq] at h
    obtain ⟨rfl, rfl⟩ := h
    simp
  | some _, [], ys, os, ps, h, _ => by simp [getopt] at h
  | some o, a :: r, ys, os, ps, h, hs => by
    simp only [getopt, Option.map_eq_some_iff, Prod.exists, Prod.mk.injEq] at h
    obtain ⟨os', ps', h1, rfl, rfl⟩ := h
    rw [List.cons_append, getopt, getopt_append T none r ys os' ps' h1 (fun hm => hs (by simp [hm]))]
    simp [Function.comp_def]
  | none, a :: r, ys, os, ps, h, hs => by
    have hs' : c!"--" ∉ r := fun hm => hs (by simp [hm])
    rw [getopt] at h
    rw [List.cons_append, getopt]
    cases hr : readArg T a with
    | operand =>
      simp only [hr, Option.map_eq_some_iff, Prod.exists, Prod.mk.injEq] at h ⊢
      obtain ⟨os', ps', h1, rfl, rfl⟩ := h
      rw [getopt_append T none r ys os' ps' h1 hs']
      simp [Function.comp_def]
    | stop =>
      exfalso
      have : a = c!"--" := by
        unfold readArg at hr
        split at hr
        · rfl
        · simp only [longOpt] at hr
          split at hr <;> cases hr
        · cases hr
        · rename_i b hb1 hb2 hb3
          have : ∀ (b : Str) (os : List (Str × Option Str)), cluster T b os ≠ .stop := by
            intro b
            induction b with
            | nil => intro os; simp [cluster]
            | cons c b ih =>
              intro os
              rw [cluster]
              split
              · simp
              · exact ih _
              · split <;> simp
          exact absurd hr (this b [])
        · cases hr
      exact hs (by simp [this])
    | opts l =>
      simp only [hr, Option.map_eq_some_iff, Prod.exists, Prod.mk.injEq] at h ⊢
      obtain ⟨os', ps', h1, rfl, rfl⟩ := h
      rw [getopt_append T none r ys os' ps' h1 hs']
      simp [Function.comp_def]
    | wants l o =>
      simp only [hr, Option.map_eq_some_iff, Prod.exists, Prod.mk.injEq] at h ⊢
      obtain ⟨os', ps', h1, rfl, rfl⟩ := h
      rw [getopt_append T (some o) r ys os' ps' h1 hs']
      simp [Function.comp_def]
    | bad => simp [hr] at h

/-- the additional options of a slot are complete: only options with their values -/
def Complete (T : Options) (extra : Option (List Str)) (os : List (Str × Option Str)) : Prop := getopt T none (extra.getD []) = some (os, []) ∧ c!"--" ∉ extra.getD []

theorem addv_eq (extra : Option (List Str)) : addv extra = extra.getD [] := by cases extra <;> rfl

theorem complete_device {T : Options} {extra : Option (List Str)} {os : List (Str × Option Str)} (h : Complete T extra os) {d : Str} (hd : Absolute d) :
    getopt T none (addv extra ++ [d]) = some (os, [d]) := by
  rw [addv_eq, getopt_append T none _ [d] os [] h.1 h.2, getopt_absolute T hd]
  simp [getopt]

/-- **C94.** Whatever the slot is called and whatever (complete) options are configured for it: mkfs is run on the slot's device only, forced, with the slot's name as label if it fits. -/
theorem C94_mkfs (name device : Str) (extra : Option (List Str)) (hd : Absolute device) (os : List (Str × Option Str)) :
    (Complete ext4Options extra os → getopt ext4Options none (mkfsExt4 name extra device).tail =
      some ([(c!"F", none)] ++ (if name.length ≤ 16 then [(c!"L", some name)] else []) ++ [(c!"I", some c!"256")] ++ os, [device])) ∧
    (Complete vfatOptions extra os → getopt vfatOptions none (mkfsVfat name extra device).tail = some ([(c!"n", some (Update.vfatLabel name))] ++ os, [device])) ∧
    (Complete ubifsOptions extra os → getopt ubifsOptions none (mkfsUbifs extra device).tail = some ([(c!"y", none)] ++ os, [device])) ∧
    getopt resizeOptions none (resize2fs device).tail = some ([], [device]) := by
  refine ⟨fun h => ?_, fun h => ?_, fun h => ?_, ?_⟩
  · have h1 := complete_device h hd
    have hF : readArg ext4Options c!"-F" = .opts [(c!"F", none)] := rfl
    have hL : readArg ext4Options c!"-L" = .wants [] c!"L" := rfl
    have hI : readArg ext4Options c!"-I256" = .opts [(c!"I", some c!"256")] := rfl
    by_cases hn : name.length ≤ 16
    · simp only [mkfsExt4, hn, if_true, List.cons_append, List.nil_append, List.tail_cons]
      rw [getopt_opts hF, getopt_wants hL, getopt_opts hI, h1]
      rfl
    · simp only [mkfsExt4, hn, if_false, List.cons_append, List.nil_append, List.tail_cons]
      rw [getopt_opts hF, getopt_opts hI, h1]
      rfl
  · have h1 := complete_device h hd
    have hn : readArg vfatOptions c!"-n" = .wants [] c!"n" := rfl
    simp only [mkfsVfat, List.cons_append, List.nil_append, List.tail_cons]
    rw [getopt_wants hn, h1]
    rfl
  · have h1 := complete_device h hd
    have hy : readArg ubifsOptions c!"-y" = .opts [(c!"y", none)] := rfl
    simp only [mkfsUbifs, List.cons_append, List.nil_append, List.tail_cons]
    rw [getopt_opts hy, h1]
    rfl
  · simp only [resize2fs, List.tail_cons]
    rw [getopt_absolute _ hd]
    rfl

/-- **C94.** Flash tools erase and write the slot's device only. -/
theorem C94_flash (image device : Str) (hi : Absolute image) (hd : Absolute device) :
    getopt flashcpOptions none (flashcp image device).tail = some ([(c!"erase-all", none)], [image, device]) ∧
    getopt flashEraseOptions none (flashErase device).tail = some ([(c!"quiet", none)], [device, c!"0", c!"0"]) ∧
    getopt nandwriteOptions none (nandwrite device).tail = some ([(c!"pad", none), (c!"quiet", none)], [device, c!"-"]) := by
  obtain ⟨i, rfl⟩ := absolute_cons hi
  obtain ⟨d, rfl⟩ := absolute_cons hd
  exact ⟨rfl, rfl, rfl⟩

/-- the value of the decompression option for a file name (tar(1)) -/
def Decompress (o : List (Str × Option Str)) : Prop :=
  o = [] ∨ ∃ n : Str, o = [(n, none)] ∧ n ∈ [c!"z", c!"Z", c!"j", c!"J", c!"lzip", c!"lzma", c!"lzop", c!"zstd"]

/-- **C94.** tar reads the archive from its standard input and extracts it into the given directory, whatever the archive is called; the old-style first argument `xf` is `-xf`. -/
theorem C94_tar (dest filename : Str) :
    ∃ o, Decompress o ∧ (tarArgv dest filename).head? = some c!"tar" ∧ (tarArgv dest filename)[1]? = some c!"xf" ∧
      getopt tarOptions none (c!"-xf" :: (tarArgv dest filename).drop 2) = some ([(c!"x", none), (c!"f", some c!"-"), (c!"C", some dest), (c!"numeric-owner", none)] ++ o, []) := by
  have hflag : Update.tarFlag filename = none ∨ ∃ f ∈ [c!"-z", c!"-Z", c!"-j", c!"--lzip", c!"--lzma", c!"--lzop", c!"-J", c!"--zstd"], Update.tarFlag filename = some f := by
    unfold Update.tarFlag
    cases h : Update.tarSuffixes.find? (fun e => e.1.isSuffixOf filename) with
    | none => exact Or.inl rfl
    | some e =>
      have hm := List.mem_of_find?_eq_some h
      obtain ⟨a, b⟩ := e
      cases b with
      | none => exact Or.inl rfl
      | some f =>
        refine Or.inr ⟨f, ?_, rfl⟩
        revert hm
        simp only [Update.tarSuffixes, List.mem_cons, Prod.mk.injEq, List.not_mem_nil, Option.some.injEq, reduceCtorEq, and_false, false_or, or_false]
        rintro (⟨-, rfl⟩ | ⟨-, rfl⟩ | ⟨-, rfl⟩ | ⟨-, rfl⟩ | ⟨-, rfl⟩ | ⟨-, rfl⟩ | ⟨-, rfl⟩ | ⟨-, rfl⟩ | ⟨-, rfl⟩ | ⟨-, rfl⟩ | ⟨-, rfl⟩ | ⟨-, rfl⟩ | ⟨-, rfl⟩ | ⟨-, rfl⟩ | ⟨-, rfl⟩ | ⟨-, rfl⟩ | ⟨-, rfl⟩) <;> decide
  rcases hflag with hf | ⟨f, hm, hf⟩
  · exact ⟨[], Or.inl rfl, by simp [tarArgv, untilNull], by simp [tarArgv, untilNull], by simp only [tarArgv, hf, untilNull]; rfl⟩
  · simp only [List.mem_cons, List.not_mem_nil, or_false] at hm
    rcases hm with rfl | rfl | rfl | rfl | rfl | rfl | rfl | rfl
    · exact ⟨[(c!"z", none)], Or.inr ⟨_, rfl, by decide⟩, rfl, rfl, by simp only [tarArgv, hf, untilNull]; rfl⟩
    · exact ⟨[(c!"Z", none)], Or.inr ⟨_, rfl, by decide⟩, rfl, rfl, by simp only [tarArgv, hf, untilNull]; rfl⟩
    · exact ⟨[(c!"j", none)], Or.inr ⟨_, rfl, by decide⟩, rfl, rfl, by simp only [tarArgv, hf, untilNull]; rfl⟩
    · exact ⟨[(c!"lzip", none)], Or.inr ⟨_, rfl, by decide⟩, rfl, rfl, by simp only [tarArgv, hf, untilNull]; rfl⟩
    · exact ⟨[(c!"lzma", none)], Or.inr ⟨_, rfl, by decide⟩, rfl, rfl, by simp only [tarArgv, hf, untilNull]; rfl⟩
    · exact ⟨[(c!"lzop", none)], Or.inr ⟨_, rfl, by decide⟩, rfl, rfl, by simp only [tarArgv, hf, untilNull]; rfl⟩
    · exact ⟨[(c!"J", none)], Or.inr ⟨_, rfl, by decide⟩, rfl, rfl, by simp only [tarArgv, hf, untilNull]; rfl⟩
    · exact ⟨[(c!"zstd", none)], Or.inr ⟨_, rfl, by decide⟩, rfl, rfl, by simp only [tarArgv, hf, untilNull]; rfl⟩

theorem mountArgv_eq (source point : Str) (type options : Option Str) : mountArgv source point type options =
    [c!"mount"] ++ type.toList.flatMap (fun t => [c!"-t", t]) ++ options.toList.flatMap (fun o => [c!"-o", o]) ++ [if type = some c!"jffs2" then basename source else source, point] := by
  cases type <;> cases options <;> rfl

theorem mount_key (type options : Option Str) (p src : Str) (hsrc : readArg mountOptions src = .operand) :
    getopt mountOptions none (type.toList.flatMap (fun t => [c!"-t", t]) ++ options.toList.flatMap (fun o => [c!"-o", o]) ++ [src, '/' :: p]) =
      some (type.toList.map (fun t => (c!"t", some t)) ++ options.toList.map (fun o => (c!"o", some o)), [src, '/' :: p]) := by
  have h1 : getopt mountOptions none [src, '/' :: p] = some ([], [src, '/' :: p]) := by
    rw [getopt, hsrc]
    rfl
  have t1 : ∀ t r, getopt mountOptions none (c!"-t" :: t :: r) = (getopt mountOptions none r).map (fun x => ((c!"t", some t) :: x.1, x.2)) := fun t r => getopt_wants rfl t r
  have o1 : ∀ t r, getopt mountOptions none (c!"-o" :: t :: r) = (getopt mountOptions none r).map (fun x => ((c!"o", some t) :: x.1, x.2)) := fun t r => getopt_wants rfl t r
  cases type <;> cases options <;> simp [t1, o1, h1]

/-- **C94.** mount(8) gets the type and the options of the slot as values, whatever they are, and the device and the mount point as its only operands (for jffs2 the last component of the device). -/
theorem C94_mount (source point : Str) (type options : Option Str) (hs : Absolute source) (hp : Absolute point) (hj : type = some c!"jffs2" → ∃ d c r, source = d ++ '/' :: c :: r ∧ c ≠ '-' ∧ '/' ∉ c :: r) :
    ∃ src, getopt mountOptions none (mountArgv source point type options).tail =
      some (type.toList.map (fun t => (c!"t", some t)) ++ options.toList.map (fun o => (c!"o", some o)), [src, point]) ∧
      (type ≠ some c!"jffs2" → src = source) ∧ (type = some c!"jffs2" → ∃ d, source = d ++ '/' :: src) ∧
    getopt mountOptions none (umountArgv point).tail = some ([], [point]) := by
  obtain ⟨p, rfl⟩ := absolute_cons hp
  clear hp
  by_cases ht : type = some c!"jffs2"
  · obtain ⟨d, c, r, rfl, hc, hn⟩ := hj ht
    clear hj
    have hb : basename (d ++ '/' :: c :: r) = c :: r := by
      unfold basename
      rw [List.reverse_append, List.reverse_cons, List.append_assoc, List.takeWhile_append_of_pos]
      · simp
      · intro x hx
        have : x ∈ c :: r := List.mem_reverse.1 hx
        simp only [ne_eq, decide_not, Bool.not_eq_eq_eq_not, Bool.not_true, decide_eq_false_iff_not]
        rintro rfl
        exact hn this
    refine ⟨c :: r, ?_, fun h => absurd ht h, fun _ => ⟨d, rfl⟩, rfl⟩
    have hm : (mountArgv (d ++ '/' :: c :: r) ('/' :: p) type options).tail = type.toList.flatMap (fun t => [c!"-t", t]) ++ options.toList.flatMap (fun o => [c!"-o", o]) ++ [c :: r, '/' :: p] := by
      rw [mountArgv_eq, if_pos ht, hb]
      simp
    rw [hm]
    exact mount_key type options p (c :: r) (by unfold readArg; split <;> simp_all)
  · clear hj
    refine ⟨source, ?_, fun _ => rfl, fun h => absurd h ht, rfl⟩
    have hm : (mountArgv source ('/' :: p) type options).tail = type.toList.flatMap (fun t => [c!"-t", t]) ++ options.toList.flatMap (fun o => [c!"-o", o]) ++ [source, '/' :: p] := by
      rw [mountArgv_eq, if_neg ht]
      simp
    rw [hm]
    exact mount_key type options p source (readArg_absolute _ hs)

/-- **C94.** casync and desync extract the given index to the given place, with the given seed and store. -/
theorem C94_casync (desync toFd : Bool) (seed store args : Option Str) (filename dest : Str) (hf : Absolute filename) (hd : Absolute dest) (ws : List Str) (os : List (Str × Option Str))
    (ha : match args with | none => ws = [] | some t => Words t ws ∧ ws ≠ []) (hw : Complete casyncOptions (some ws) os) :
    ∃ a, casyncExtract desync seed store args toFd filename dest = some a ∧ a.take 2 = [if desync then c!"desync" else c!"casync", c!"extract"] ∧
      getopt casyncOptions none (a.drop 2) =
        some ((seed.toList.map (fun s => (c!"seed", some s))) ++ (store.toList.map (fun s => (c!"store", some s))) ++ (if desync then [] else [(c!"seed-output", some c!"no")]) ++ os,
          [filename, if toFd then c!"-" else dest]) := by
  have e1 : optText args = some ws := by
    cases args with
    | none => simp only at ha; rw [ha]; rfl
    | some t => exact C94_words t ws ha.1 ha.2
  unfold casyncExtract
  rw [e1]
  refine ⟨_, rfl, by simp, ?_⟩
  have hend : getopt casyncOptions none (ws ++ [filename, if toFd then c!"-" else dest]) = some (os, [filename, if toFd then c!"-" else dest]) := by
    rw [getopt_append casyncOptions none ws _ os [] hw.1 hw.2, getopt_absolute _ hf]
    cases toFd with
    | true => rw [if_pos rfl]; simp [getopt, readArg]
    | false => rw [if_neg (by simp), getopt_absolute _ hd]; simp [getopt]
  have s1 : ∀ t r, getopt casyncOptions none (c!"--seed" :: t :: r) = (getopt casyncOptions none r).map (fun x => ((c!"seed", some t) :: x.1, x.2)) := by
    exact fun t r => getopt_wants rfl t r
  have s2 : ∀ t r, getopt casyncOptions none (c!"--store" :: t :: r) = (getopt casyncOptions none r).map (fun x => ((c!"store", some t) :: x.1, x.2)) := by
    exact fun t r => getopt_wants rfl t r
  have s3 : ∀ r, getopt casyncOptions none (c!"--seed-output=no" :: r) = (getopt casyncOptions none r).map (fun x => ((c!"seed-output", some c!"no") :: x.1, x.2)) := by
    exact fun r => getopt_opts (os := [(c!"seed-output", some c!"no")]) rfl r
  cases desync <;> cases seed <;> cases store <;> simp [s1, s2, s3, hend]

/-! ## mksquashfs and unsquashfs read their arguments themselves -/

/-- mksquashfs(1): everything before the first argument with a dash are sources and, last, the destination -/
def squashOperands (args : List Str) : List Str := args.takeWhile (fun a => a.head? ≠ some '-')
def squashOptions (args : List Str) : List Str := args.dropWhile (fun a => a.head? ≠ some '-')

/-- **C94.** mksquashfs gets the content directory as its only source and the new bundle as destination, never appends to an existing file, takes over owners and attributes only if asked to,
and the additional options come last. -/
theorem C94_mksquashfs (content bundle : Str) (keep : Bool) (extra : Option Str) (ws : List Str) (hc : Absolute content) (hb : Absolute bundle)
    (ha : match extra with | none => ws = [] | some t => Words t ws ∧ ws ≠ []) (fakeroot : Option Str) :
    ∃ a, mksquashfsArgv fakeroot content bundle keep extra = some (fakerootArgs fakeroot ++ c!"mksquashfs" :: a) ∧ squashOperands a = [content, bundle] ∧
      squashOptions a = [c!"-noappend", c!"-no-progress"] ++ (if keep then [] else [c!"-all-root", c!"-no-xattrs"]) ++ [c!"-quiet"] ++ ws := by
  have e1 : optText extra = some ws := by
    cases extra with
    | none => simp only at ha; rw [ha]; rfl
    | some t => exact C94_words t ws ha.1 ha.2
  obtain ⟨c, rfl⟩ := absolute_cons hc
  obtain ⟨b, rfl⟩ := absolute_cons hb
  unfold mksquashfsArgv
  rw [e1]
  refine ⟨['/' :: c, '/' :: b] ++ ([c!"-noappend", c!"-no-progress"] ++ (if keep then [] else [c!"-all-root", c!"-no-xattrs"]) ++ [c!"-quiet"] ++ ws), ?_, ?_, ?_⟩
  · simp
  · simp [squashOperands]
  · simp [squashOptions]

/-- fakeroot(1) -/
def fakerootOptions : Options := { short := [('s', true), ('i', true), ('u', false), ('l', true), ('b', true)] }

/-- **C94.** fakeroot runs the rest of the command as it is, and keeps its state in the given file. -/
theorem C94_fakeroot (env : Str) (cmd : List Str) :
    ∃ a, fakerootArgs (some env) ++ cmd = c!"fakeroot" :: a ∧ getopt fakerootOptions none a = some ([(c!"s", some env), (c!"i", some env)], cmd) :=
  ⟨[c!"-s", env, c!"-i", env, c!"--"] ++ cmd, rfl, rfl⟩

example : getopt ext4Options none (mkfsExt4 c!"-rootfs.0" (some [c!"-O", c!"^has_journal", c!"-q"]) c!"/dev/sda1").tail =
    some ([(c!"F", none), (c!"L", some c!"-rootfs.0"), (c!"I", some c!"256"), (c!"O", some c!"^has_journal"), (c!"q", none)], [c!"/dev/sda1"]) := by decide +kernel

example : Complete ext4Options (some [c!"-O", c!"^has_journal", c!"-q"]) [(c!"O", some c!"^has_journal"), (c!"q", none)] := by
  unfold Complete
  decide +kernel

/-- **Finding (C94).** If the additional options end with an option that lacks its value, the device becomes this value, and mkfs gets no device. -/
theorem C94_finding_incomplete (name : Str) (device : Str) (hn : name.length ≤ 16) :
    getopt ext4Options none (mkfsExt4 name (some [c!"-O"]) device).tail = some ([(c!"F", none), (c!"L", some name), (c!"I", some c!"256"), (c!"O", some device)], []) := by
  simp only [mkfsExt4, hn, if_true, addv, List.cons_append, List.nil_append, List.tail_cons]
  rfl

end Rauc.Argv
