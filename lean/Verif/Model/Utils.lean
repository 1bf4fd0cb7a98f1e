import Verif.Lib.Str
import Verif.Lib.Disk

/-!
# src/utils.c (hex, environment, exact I/O, symbolic links) and src/shell.c
-/

namespace Rauc.Utils

/-! ## Hexadecimal: utils.c:547-583 -/

/-- `g_ascii_xdigit_value` (negative results are `none`) -/
def xdigit (c : Char) : Option Nat :=
  match digitVal c with
  | some v => if v < 16 then some v else none
  | none => none

/-- the loop of `r_hex_decode`, utils.c:556-564 -/
def decodeLoop : Str → Option Bytes
  | u :: l :: r =>
    match xdigit u, xdigit l with
    | some a, some b =>
      match decodeLoop r with
      | some bs => some (UInt8.ofNat (a * 16 + b) :: bs)
      | none => none
    | _, _ => none
  | _ => some []

/-- `r_hex_decode`, utils.c:547-567 -/
def hexDecode (hex : Str) (len : Nat) : Option Bytes :=
  if hex.length ≠ len * 2 then none else decodeLoop hex

/-- `r_hex_encode`, utils.c:569-583 -/
def hexEncode (raw : Bytes) : Str :=
  raw.flatMap (fun b => [digitChar (b.toNat / 16), digitChar (b.toNat % 16)])

/-! ## Exact input and output: utils.c:585-716 -/

/-- outcome of one system call -/
inductive Ret where
  /-- interrupted: `TEMP_FAILURE_RETRY` repeats the call -/
  | eintr
  /-- any other error -/
  | fail
  /-- the kernel transfers this many bytes (or as many as it can) -/
  | got (n : Nat)
deriving DecidableEq, Repr

/-- result of a helper: still running when the schedule is exhausted (which is where a crash may happen) -/
inductive Res (α : Type) where
  | running
  | error
  | ok (a : α)
deriving DecidableEq, Repr

/-- `r_pread_exact`, utils.c:643-673 (and `r_read_exact`, :585-615, which differs only in using the file position). `acc` holds the bytes
read so far, `pos = acc.length`. -/
def preadLoop (file : Bytes) (off size : Nat) : Bytes → List Ret → Res Bytes
  | acc, [] => if acc.length < size then .running else .ok acc
  | acc, r :: rs =>
    if acc.length < size then
      match r with
      | .eintr => preadLoop file off size acc rs
      | .fail => .error
      | .got n =>
        -- the kernel returns at most the requested and at most the available bytes
        match (file.drop (off + acc.length)).take (min n (size - acc.length)) with
        | [] => .error
        | b :: bs => preadLoop file off size (acc ++ b :: bs) rs
    else .ok acc

def preadExact (file : Bytes) (off size : Nat) (sched : List Ret) : Res Bytes := preadLoop file off size [] sched

/-- `r_pwrite_exact`, utils.c:675-699 (and `r_write_exact`, :617-641): the disk after the call and the number of bytes written -/
def pwriteLoop (data : Bytes) (off : Nat) : Disk → Nat → List Ret → Disk × Res Unit
  | d, pos, [] => (d, if pos < data.length then .running else .ok ())
  | d, pos, r :: rs =>
    if pos < data.length then
      match r with
      | .eintr => pwriteLoop data off d pos rs
      | .fail => (d, .error)
      | .got n =>
        pwriteLoop data off (d.write (off + pos) ((data.drop pos).take (min n (data.length - pos))))
          (pos + min n (data.length - pos)) rs
    else (d, .ok ())

def pwriteExact (d : Disk) (data : Bytes) (off : Nat) (sched : List Ret) : Disk × Res Unit := pwriteLoop data off d 0 sched

/-- `r_pwrite_lazy`, utils.c:701-716, on a device of `size` bytes; the last component says whether a write was started -/
def pwriteLazy (d : Disk) (size : Nat) (data : Bytes) (off : Nat) (sr sw : List Ret) : Disk × Res Unit × Bool :=
  match preadExact (d.read 0 size) off data.length sr with
  | .running => (d, .running, false)
  | .error => (d, .error, false)
  | .ok old =>
    if old = data then (d, .ok (), false)
    else ((pwriteExact d data off sw).1, (pwriteExact d data off sw).2, true)

/-! ## Environment: utils.c:760-786, shell.c -/

def isUpper (c : Char) : Bool := 'A' ≤ c ∧ c ≤ 'Z'
def isLower (c : Char) : Bool := 'a' ≤ c ∧ c ≤ 'z'
def isDigit (c : Char) : Bool := '0' ≤ c ∧ c ≤ '9'

/-- `g_ascii_toupper` -/
def toUpper (c : Char) : Char := if isLower c then Char.ofNat (c.toNat - 32) else c

/-- loop body of `r_prepare_env_key`, utils.c:768-782 -/
def envChar (c : Char) : Option Char :=
  let u := toUpper c
  if isUpper u || isLower u || isDigit u then some u
  else if u = '_' then some u
  else if u = '-' then some '_'
  else none

/-- `r_prepare_env_key`, utils.c:760-786 -/
def envKey : Str → Option Str
  | [] => some []
  | c :: cs =>
    match envChar c with
    | none => none
    | some u =>
      match envKey cs with
      | none => none
      | some r => some (u :: r)

/-- the inner loop of `r_shell_from_manifest_meta`, shell.c:22-34 -/
def metaVars (grp : Str) : List (Str × Str) → List Str
  | [] => []
  | (k, v) :: r =>
    match envKey k with
    | none => metaVars grp r
    | some ek => (c!"RAUC_META_" ++ grp ++ '_' :: ek ++ '=' :: v) :: metaVars grp r

/-- `r_shell_from_manifest_meta`, shell.c:5-36 -/
def shellFromMeta : List (Str × List (Str × Str)) → List Str
  | [] => []
  | (g, kvs) :: r =>
    match envKey g with
    | none => shellFromMeta r
    | some eg => metaVars eg kvs ++ shellFromMeta r

/-- first `=` -/
def splitEq : Str → Option (Str × Str)
  | [] => none
  | c :: cs => if c = '=' then some ([], cs) else (splitEq cs).map (fun p => (c :: p.1, p.2))

/-- GLib's `g_shell_quote` -/
def quoteBody : Str → Str
  | [] => []
  | c :: cs => if c = '\'' then '\'' :: '\\' :: '\'' :: '\'' :: quoteBody cs else c :: quoteBody cs

def shellQuote (s : Str) : Str := '\'' :: quoteBody s ++ ['\'']

/-- `r_ptr_array_env_to_shell`, utils.c:81-108; `none` is the `g_error` abort -/
def envToShell : List Str → Option Str
  | [] => some []
  | e :: r =>
    match splitEq e with
    | none => none
    | some (k, v) =>
      match r with
      | [] => some (k ++ '=' :: shellQuote v)
      | _ =>
        match envToShell r with
        | none => none
        | some t => some (k ++ '=' :: shellQuote v ++ '\n' :: t)

/-! ## Symbolic links: utils.c:788-826 -/

/-- what a directory entry is; files have contents, which play no role for links but for the artifact repositories -/
inductive Node where
  | link (target : Str)
  | file (content : Bytes)
  | dir
deriving DecidableEq, Repr

abbrev Dir := Str → Option Node

def Dir.set (d : Dir) (n : Str) (x : Option Node) : Dir := fun m => if m = n then x else d m

def tmpName (name : Str) : Str := name ++ c!".tmp-link"

/-- outcomes of the system calls beyond what the directory determines -/
structure LinkEnv where
  readOk : Bool := true
  symlinkOk : Bool := true
  renameOk : Bool := true
  unlinkOk : Bool := true

/-- `r_update_symlink`: the directory states passed through (last one is the final state) and the result -/
def updateSymlink (E : LinkEnv) (d : Dir) (target name : Str) : List Dir × Bool :=
  if !E.readOk then ([d], false)
  else
    match d name with
    | some (.file _) => ([d], false)
    | some .dir => ([d], false)
    | some (.link t) => if t = target then ([d], true) else replaceLink E d target name
    | none => replaceLink E d target name
where
  /-- utils.c:803-823 -/
  replaceLink (E : LinkEnv) (d : Dir) (target name : Str) : List Dir × Bool :=
    if !E.symlinkOk || (d (tmpName name)).isSome then ([d], false)
    else
      let d1 := d.set (tmpName name) (some (.link target))
      if E.renameOk then ([d, d1, (d1.set name (some (.link target))).set (tmpName name) none], true)
      else if E.unlinkOk then ([d, d1, d1.set (tmpName name) none], false)
      else ([d, d1], false)

end Rauc.Utils
