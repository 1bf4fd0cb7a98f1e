import Verif.Model.CasyncCmd
import Verif.Props.Shell

/-!
# C76: no file name can smuggle commands into the shell that `rauc convert` starts
-/

namespace Rauc.CasyncCmd

open Utils (shellQuote quoteBody Mode)

/-- characters without special meaning within a word of a shell -/
def Plain (c : Char) : Bool := Utils.Safe c || c == '='

inductive Tok where
  | word (s : Str)
  | andIf
deriving DecidableEq, Repr

/-- the word read so far becomes a token -/
def flush : Option Str → List Tok → List Tok
  | none, l => l
  | some w, l => .word w :: l

/-- Specification: how a POSIX shell cuts a command line into words and operators (only `&&` and characters without special meaning outside of quotes; `none` for
anything else, in particular for substitutions, other operators, comments, patterns and unbalanced quotes) -/
def lex : Mode → Option Str → Str → Option (List Tok)
  | .plain, w, [] => some (flush w [])
  | .quoted, _, [] => none
  | .escaped, _, [] => none
  | .quoted, w, c :: r => if c = '\'' then lex .plain (some (w.getD [])) r else lex .quoted (some (w.getD [] ++ [c])) r
  | .escaped, w, c :: r => if c = '\n' then lex .plain w r else lex .plain (some (w.getD [] ++ [c])) r
  | .plain, w, '&' :: '&' :: r => (lex .plain none r).map (fun l => flush w (.andIf :: l))
  | .plain, w, c :: r =>
    if c = ' ' then (lex .plain none r).map (flush w)
    else if c = '\'' then lex .quoted (some (w.getD [])) r
    else if c = '\\' then lex .escaped w r
    else if Plain c then lex .plain (some (w.getD [] ++ [c])) r
    else none

/-- the commands of an and-list -/
def commands : List Tok → List (List Str)
  | [] => [[]]
  | .andIf :: l => [] :: commands l
  | .word w :: l =>
    match commands l with
    | [] => [[w]]
    | c :: r => (w :: c) :: r

/-- Specification: the commands a shell runs for a command line, each with its words; a command is run only if the one before it was successful -/
def shParse (s : Str) : Option (List (List Str)) := (lex .plain none s).map commands

theorem lex_quoted (v r : Str) : ∀ w : Str, lex .quoted (some w) (quoteBody v ++ '\'' :: r) = lex .plain (some (w ++ v)) r := by
  induction v with
  | nil => intro w; simp [quoteBody, lex]
  | cons c v ih =>
    intro w
    by_cases h : c = '\''
    · subst h
      have := ih (w ++ ['\''])
      simp [quoteBody, lex, this]
    · have := ih (w ++ [c])
      simp [quoteBody, lex, h, this]

theorem lex_quote (v r : Str) : lex .plain none (shellQuote v ++ r) = lex .plain (some v) r := by
  have := lex_quoted v r []
  unfold shellQuote
  simp only [List.append_assoc, List.cons_append, List.nil_append]
  rw [lex]
  · simp [this]
  · intro _ h; simp at h

theorem lex_plainChar {c : Char} (h : Plain c = true) (w : Option Str) (r : Str) : lex .plain w (c :: r) = lex .plain (some (w.getD [] ++ [c])) r := by
  have h1 : c ≠ ' ' := by rintro rfl; revert h; decide
  have h2 : c ≠ '\'' := by rintro rfl; revert h; decide
  have h3 : c ≠ '\\' := by rintro rfl; revert h; decide
  have h4 : c ≠ '&' := by rintro rfl; revert h; decide
  rw [lex]
  · simp [h1, h2, h3, h]
  · intro r' e; exact absurd e h4

theorem lex_word (v r : Str) : ∀ w : Str, (∀ c ∈ v, Plain c = true) → lex .plain (some w) (v ++ r) = lex .plain (some (w ++ v)) r := by
  induction v with
  | nil => intro w _; simp
  | cons c v ih =>
    intro w h
    rw [List.cons_append, lex_plainChar (h c (by simp)), ih _ (fun x hx => h x (by simp [hx]))]
    simp

/-- a piece of a command line that reads as a word -/
def Reads (piece v : Str) : Prop := ∀ r, lex .plain none (piece ++ r) = lex .plain (some v) r

theorem reads_quote (v : Str) : Reads (shellQuote v) v := lex_quote v

theorem reads_word {v : Str} (h : v ≠ []) (hp : ∀ c ∈ v, Plain c = true) : Reads v v := by
  intro r
  cases v with
  | nil => exact absurd rfl h
  | cons c v =>
    rw [List.cons_append, lex_plainChar (hp c (by simp)), lex_word v r _ (fun x hx => hp x (by simp [hx]))]
    rfl

/-- pieces and the tokens they read as -/
inductive Pieces : List Str → List Tok → Prop
  | one {p v} (h : Reads p v) : Pieces [p] [.word v]
  | cons {p v l t} (h : Reads p v) (hl : Pieces l t) : Pieces (p :: l) (.word v :: t)
  | andIf {l t} (hl : Pieces l t) : Pieces (c!"&&" :: l) (.andIf :: t)

theorem pieces_ne {l : List Str} {t : List Tok} (h : Pieces l t) : l ≠ [] := by cases h <;> simp

theorem lex_space (w : Option Str) (r : Str) : lex .plain w (' ' :: r) = (lex .plain none r).map (flush w) := by
  rw [lex]
  · simp
  · intro _ h; simp at h

theorem lex_join {l : List Str} {t : List Tok} (h : Pieces l t) : lex .plain none (join ' ' l) = some t := by
  induction h with
  | one h =>
    have := h []
    rw [List.append_nil] at this
    simp only [join]
    rw [this]; rfl
  | @cons p v l t h hl ih =>
    have hj : join ' ' (p :: l) = p ++ ' ' :: join ' ' l := by
      cases l with
      | nil => exact absurd rfl (pieces_ne hl)
      | cons q l => rfl
    rw [hj, h, lex_space, ih]; rfl
  | @andIf l t hl ih =>
    have hj : join ' ' (c!"&&" :: l) = c!"&& " ++ join ' ' l := by
      cases l with
      | nil => exact absurd rfl (pieces_ne hl)
      | cons q l => rfl
    rw [hj]
    show lex .plain none ('&' :: '&' :: ' ' :: join ' ' l) = _
    rw [lex, lex_space, ih]; rfl

theorem pieces_extra : ∀ (l : List (Str × Str)), l ≠ [] → (∀ p ∈ l, Reads p.1 p.2) → Pieces (l.map (·.1)) (l.map (fun p => Tok.word p.2)) := by
  intro l
  induction l with
  | nil => intro h; exact absurd rfl h
  | cons p l ih =>
    intro _ h
    cases l with
    | nil => exact .one (h p (by simp))
    | cons q l => exact .cons (h p (by simp)) (ih (by simp) (fun x hx => h x (by simp [hx])))

theorem commands_words (l : List Str) : commands (l.map Tok.word) = [l] := by
  induction l with
  | nil => rfl
  | cons w l ih => simp [commands, ih]

/-- **C76.** Whatever the names of the image, the index, the temporary directory and the store and the extra arguments are (blanks, quotes, newlines, `$(...)`,
`;`): the shell runs exactly `tar` and, if that was successful, `casync`, with these names as single arguments. -/
theorem C76_arch (content tmp idx : Str) (store : Option Str) (extra : List Str) :
    shParse (archCommand content tmp idx store extra) = some
      [[c!"tar", c!"xf", content, c!"-C", tmp, c!"--numeric-owner"],
       [c!"casync", c!"make", c!"--with=unix", idx, tmp] ++ (match store with | none => [] | some s => [c!"--store", s]) ++ extra] := by
  have rest : Pieces ([c!"casync", c!"make", c!"--with=unix", shellQuote idx, shellQuote tmp] ++ storeArgs shellQuote store ++ extra.map shellQuote)
      (([c!"casync", c!"make", c!"--with=unix", idx, tmp] ++ (match store with | none => [] | some s => [c!"--store", s]) ++ extra).map Tok.word) := by
    have := pieces_extra ([(c!"casync", c!"casync"), (c!"make", c!"make"), (c!"--with=unix", c!"--with=unix"), (shellQuote idx, idx), (shellQuote tmp, tmp)] ++
      (match store with | none => [] | some s => [(c!"--store", c!"--store"), (shellQuote s, s)]) ++ extra.map (fun e => (shellQuote e, e))) (by simp) (by
        intro p hp
        simp only [List.mem_append, List.mem_cons, List.not_mem_nil, or_false, List.mem_map] at hp
        rcases hp with ((rfl | rfl | rfl | rfl | rfl) | hp) | ⟨e, -, rfl⟩
        · exact reads_word (by decide) (by decide)
        · exact reads_word (by decide) (by decide)
        · exact reads_word (by decide) (by decide)
        · exact reads_quote _
        · exact reads_quote _
        · cases store with
          | none => cases hp
          | some s =>
            simp only [List.mem_cons, List.not_mem_nil, or_false] at hp
            rcases hp with rfl | rfl
            · exact reads_word (by decide) (by decide)
            · exact reads_quote _
        · exact reads_quote _)
    cases store with
    | none => simpa [storeArgs, Function.comp_def] using this
    | some s => simpa [storeArgs, Function.comp_def] using this
  have all := Pieces.cons (reads_word (v := c!"tar") (by decide) (by decide)) (.cons (reads_word (v := c!"xf") (by decide) (by decide))
    (.cons (reads_quote content) (.cons (reads_word (v := c!"-C") (by decide) (by decide)) (.cons (reads_quote tmp)
      (.cons (reads_word (v := c!"--numeric-owner") (by decide) (by decide)) (.andIf rest))))))
  unfold shParse archCommand
  rw [show ([c!"tar", c!"xf", shellQuote content, c!"-C", shellQuote tmp, c!"--numeric-owner", c!"&&",
    c!"casync", c!"make", c!"--with=unix", shellQuote idx, shellQuote tmp] ++ storeArgs shellQuote store ++ extra.map shellQuote) =
    c!"tar" :: c!"xf" :: shellQuote content :: c!"-C" :: shellQuote tmp :: c!"--numeric-owner" :: c!"&&" ::
    ([c!"casync", c!"make", c!"--with=unix", shellQuote idx, shellQuote tmp] ++ storeArgs shellQuote store ++ extra.map shellQuote) from rfl]
  rw [lex_join all, Option.map_some]
  simp only [commands, commands_words]

/-- **C76.** The process that is started is a shell with this command line, under fakeroot unless running under pseudo. -/
theorem C76_process (pseudo : Bool) (content tmp idx : Str) (store : Option Str) (extra : List Str) :
    ∃ cmd, archArgv pseudo content tmp idx store extra = (if pseudo then [c!"sh", c!"-c", cmd] else [c!"fakeroot", c!"sh", c!"-c", cmd]) ∧
      shParse cmd = some
        [[c!"tar", c!"xf", content, c!"-C", tmp, c!"--numeric-owner"],
         [c!"casync", c!"make", c!"--with=unix", idx, tmp] ++ (match store with | none => [] | some s => [c!"--store", s]) ++ extra] :=
  ⟨_, by cases pseudo <;> rfl, C76_arch content tmp idx store extra⟩

/-- **C76.** The other conversions start no shell; every name is one argument. -/
theorem C76_blob (desync : Bool) (default content idx : Str) (store : Option Str) (extra : List Str) :
    blobArgv desync default content idx store extra =
      if desync then c!"desync" :: c!"make" :: c!"--store" :: (store.getD default) :: idx :: content :: extra
      else [c!"casync", c!"make", idx, content] ++ (match store with | none => [] | some s => [c!"--store", s]) ++ extra := by
  cases desync <;> cases store <;> rfl

/-- a hostile file name -/
example : shParse (archCommand c!"/w/it's; reboot $(x) && y.tar" c!"/tmp/a" c!"/w/i.caidx" none [c!"a b"]) = some
    [[c!"tar", c!"xf", c!"/w/it's; reboot $(x) && y.tar", c!"-C", c!"/tmp/a", c!"--numeric-owner"],
     [c!"casync", c!"make", c!"--with=unix", c!"/w/i.caidx", c!"/tmp/a", c!"a b"]] := C76_arch _ _ _ _ _

/-- the specification does notice an unquoted name -/
example : shParse c!"tar xf /w/a && b" = some [[c!"tar", c!"xf", c!"/w/a"], [c!"b"]] := by decide
example : shParse c!"tar xf /w/a; b" = none := by decide

end Rauc.CasyncCmd
