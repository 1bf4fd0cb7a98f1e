import Verif.Lib.Str

/-!
# JSON documents, as json-glib writes them

The library is not part of the repository. Modelled: the document (`JsonNode`), the escaping of strings (`json_strescape`) and the layout of
`json_generator_to_data`, for `pretty` and not. Numbers are integers (rauc writes no others).
-/

namespace Rauc

/-- `JsonNode`; the members of an object in the order in which they were added -/
inductive Json where
  | null
  | bool (b : Bool)
  | num (n : Int)
  | str (s : Str)
  | arr (l : List Json)
  | obj (l : List (Str × Json))

namespace Json

/-- a NULL string gives a null node: `json_object_set_string_member`, `json_array_add_string_element` (json-glib) -/
def ostr : Option Str → Json
  | none => .null
  | some s => .str s

/-- `json_object_set_member` (json-glib): a member of the same name is replaced in place -/
def setMember (l : List (Str × Json)) (k : Str) (v : Json) : List (Str × Json) :=
  if l.any (fun p => p.1 == k) then l.map (fun p => if p.1 == k then (k, v) else p) else l ++ [(k, v)]

/-- `%" G_GINT64_FORMAT` -/
def intStr : Int → Str
  | .ofNat n => toDec n
  | .negSucc n => '-' :: toDec (n + 1)

def hexDigit (n : Nat) : Char := if n < 10 then Char.ofNat (48 + n) else Char.ofNat (87 + n)

/-- `json_strescape` (json-glib), one character. (It does not escape the character 0x1f.) -/
def escChar (c : Char) : Str :=
  if c = '\\' ∨ c = '"' then ['\\', c]
  else if c = Char.ofNat 8 then c!"\\b"
  else if c = Char.ofNat 12 then c!"\\f"
  else if c = '\n' then c!"\\n"
  else if c = '\r' then c!"\\r"
  else if c = '\t' then c!"\\t"
  else if c.toNat < 31 ∨ c.toNat = 127 then c!"\\u00" ++ [hexDigit (c.toNat / 16), hexDigit (c.toNat % 16)]
  else [c]

def quote (s : Str) : Str := '"' :: (s.flatMap escChar ++ ['"'])

/-- the white space the generator puts between the tokens, at a nesting level -/
structure Layout where
  /-- after an opening bracket or a comma (at the inner level), before a closing bracket (at the outer one) -/
  nl : Nat → Str
  /-- in an empty array or object -/
  empty : Nat → Str
  /-- before and after the colon -/
  colon : Str × Str

/-- `pretty` is FALSE -/
def compact : Layout := ⟨fun _ => [], fun _ => [], [], []⟩

/-- `pretty` is TRUE, with the default indentation of two blanks -/
def pretty : Layout := ⟨fun n => '\n' :: List.replicate (2 * n) ' ', fun _ => [], [' '], [' ']⟩

mutual
/-- `json_generator_to_data` (json-glib) -/
def gen (L : Layout) (n : Nat) : Json → Str
  | .null => c!"null"
  | .bool true => c!"true"
  | .bool false => c!"false"
  | .num i => intStr i
  | .str s => quote s
  | .arr [] => '[' :: (L.empty n ++ [']'])
  | .arr (x :: l) => '[' :: (L.nl (n + 1) ++ gen L (n + 1) x ++ genElems L n l ++ L.nl n ++ [']'])
  | .obj [] => '{' :: (L.empty n ++ ['}'])
  | .obj ((k, v) :: l) => '{' :: (L.nl (n + 1) ++ quote k ++ L.colon.1 ++ ':' :: (L.colon.2 ++ gen L (n + 1) v) ++ genMembers L n l ++ L.nl n ++ ['}'])
/-- the further elements of an array -/
def genElems (L : Layout) (n : Nat) : List Json → Str
  | [] => []
  | x :: l => ',' :: (L.nl (n + 1) ++ gen L (n + 1) x) ++ genElems L n l
/-- the further members of an object -/
def genMembers (L : Layout) (n : Nat) : List (Str × Json) → Str
  | [] => []
  | (k, v) :: l => ',' :: (L.nl (n + 1) ++ quote k ++ L.colon.1 ++ ':' :: (L.colon.2 ++ gen L (n + 1) v)) ++ genMembers L n l
end

end Json
end Rauc
