import Verif.Lib.KeyFile

/-!
# Version comparison: src/utils.c:940-1125, and the version limit, src/install.c:619-661
-/

namespace Rauc.Semver

/-- `g_ascii_string_to_unsigned (s, 10, 0, G_MAXUINT64)` (GLib): only digits, no sign or white space, and in range -/
def strToUnsigned (s : Str) : Option Nat :=
  if s ≠ [] ∧ (digitsAux 10 0 0 s).2 = s.length ∧ (digitsAux 10 0 0 s).1 ≤ u64max then some (digitsAux 10 0 0 s).1
  else none

/-- cut at the last occurrence of `d` (`g_strrstr`): what comes before and after it -/
def cutLast (d : Char) : Str → Option (Str × Str)
  | [] => none
  | c :: cs =>
    match cutLast d cs with
    | some (a, b) => some (c :: a, b)
    | none => if c = d then some ([], cs) else none

/-- the part before the last `d`, all of it if there is none (the C code writes a NUL at the place found) -/
def beforeLast (d : Char) (s : Str) : Str :=
  match cutLast d s with
  | some (a, _) => a
  | none => s

/-- the pieces of `splitAux`, the pieces after the `n`-th kept together: GLib `g_strsplit` with `max_tokens = n` -/
def limitPieces (d : Char) : Nat → List Str → List Str
  | 0, _ => []
  | _, [] => []
  | 1, l => [join d l]
  | n + 2, x :: l => x :: limitPieces d (n + 1) l

/-- `g_strsplit (s, d, n)` -/
def splitMax (d : Char) (n : Nat) (s : Str) : List Str := limitPieces d n (split d s)

/-- a parsed version: core (major, minor, patch) and pre-release string -/
structure Parsed where
  core : Nat × Nat × Nat
  pre : Option Str
deriving DecidableEq, Repr

/-- the version core, utils.c:998-1030: one to three numbers, missing ones are 0 -/
def parseCore (s : Str) : Option (Nat × Nat × Nat) :=
  match splitMax '.' 3 s with
  | [a] =>
    match strToUnsigned a with
    | some x => some (x, 0, 0)
    | none => none
  | [a, b] =>
    match strToUnsigned a, strToUnsigned b with
    | some x, some y => some (x, y, 0)
    | _, _ => none
  | [a, b, c] =>
    match strToUnsigned a, strToUnsigned b, strToUnsigned c with
    | some x, some y, some z => some (x, y, z)
    | _, _, _ => none
  | _ => none

/-- `r_semver_parse`, utils.c:940-1038 (the build part is cut off and not used by the comparison) -/
def parse (s : Str) : Option Parsed :=
  let s1 := beforeLast '+' s
  match parseCore (beforeLast '-' s1) with
  | some c => some ⟨c, (cutLast '-' s1).map (·.2)⟩
  | none => none

/-- `strcmp (a, b) < 0`. Bytes compare as unsigned numbers; UTF-8 preserves the order of code points. -/
def strLt : Str → Str → Bool
  | _, [] => false
  | [], _ :: _ => true
  | a :: as, b :: bs => if a.toNat < b.toNat then true else if b.toNat < a.toNat then false else strLt as bs

/-- the comparison of the pre-release fields, utils.c:1086-1124 -/
def fieldsLE : List Str → List Str → Bool
  | [], _ => true
  | _ :: _, [] => false
  | a :: as, b :: bs =>
    match strToUnsigned a, strToUnsigned b with
    | some x, some y => if x < y then true else if y < x then false else fieldsLE as bs
    | some _, none => true
    | none, some _ => false
    | none, none => if strLt a b then true else if strLt b a then false else fieldsLE as bs

/-- the comparison of the pre-release strings, utils.c:1075-1124 -/
def preLE : Option Str → Option Str → Bool
  | none, none => true
  | none, some _ => false
  | some _, none => true
  | some a, some b => fieldsLE (split '.' a) (split '.' b)

/-- the comparison of parsed versions, utils.c:1064-1124 -/
def parsedLE (a b : Parsed) : Bool :=
  if a.core.1 < b.core.1 then true else if b.core.1 < a.core.1 then false
  else if a.core.2.1 < b.core.2.1 then true else if b.core.2.1 < a.core.2.1 then false
  else if a.core.2.2 < b.core.2.2 then true else if b.core.2.2 < a.core.2.2 then false
  else preLE a.pre b.pre

/-- `r_semver_less_equal`, utils.c:1040-1125; `none` is an error (the C function then returns FALSE) -/
def lessEqual (a b : Str) : Option Bool :=
  match parse a with
  | none => none
  | some va =>
    match parse b with
    | none => none
    | some vb => some (parsedLE va vb)

/-- `check_version_limits`, install.c:619-661 -/
def checkVersionLimits (minVersion : Option Str) (ignore : Bool) (version : Option Str) : Bool :=
  match minVersion with
  | none => true
  | some m =>
    if ignore then true
    else
      match version with
      | none => false
      | some v =>
        match lessEqual m v with
        | some true => true
        | _ => false

end Rauc.Semver
