import Verif.Model.Update
import Verif.Model.Utils

/-!
# The argument lists of the programs RAUC runs

Options written as text are split by GLib's `g_shell_parse_argv` (glib/gshell.c, modelled here because texts of the configuration and of the manifest go through it); the argument vectors are
built in src/update_handler.c:470-552, 1035-1335, src/bundle.c:110-203, src/mount.c:64-256, src/install.c:811-846, 959-994 and src/polling.c:323-352.
-/

namespace Rauc.Argv

/-! ## `g_shell_parse_argv` -/

/-- `current_quote` of `tokenize_command_line`; a comment is `hash0` directly after its `#` -/
inductive Quote where
  | plain
  | bs
  | sq
  | dq
  | hash0
  | hash1
deriving DecidableEq, Repr

/-- the variables of the loop of `tokenize_command_line`; `prev` is `*(p-1)`, `quoted` the number of backslashes before `p`, modulo 2 -/
structure Tok where
  q : Quote := .plain
  quoted : Bool := false
  prev : Option Char := none
  tok : Option Str := none
  out : List Str := []
deriving DecidableEq, Repr

/-- `ensure_token` and `g_string_append_c` -/
def addc (t : Option Str) (s : Str) : Option Str := some (t.getD [] ++ s)

/-- `delimit_token` -/
def delimit (s : Tok) : Tok :=
  match s.tok with
  | none => s
  | some t => { s with tok := none, out := s.out ++ [t] }

/-- the loop body of `tokenize_command_line` without its end -/
def tokCase (s : Tok) (c : Char) : Tok :=
  match s.q with
  | .bs => if c = '\n' then { s with q := .plain } else { s with q := .plain, tok := addc s.tok ['\\', c] }
  | .hash0 | .hash1 => if c = '\n' then { s with q := .plain } else { s with q := .hash1 }
  | .sq => { s with q := if c = '\'' then .plain else .sq, tok := addc s.tok [c] }
  | .dq => { s with q := if c = '"' ∧ s.quoted = false then .plain else .dq, tok := addc s.tok [c] }
  | .plain =>
    if c = '\n' then delimit s
    else if c = ' ' ∨ c = '\t' then (if s.tok.getD [] ≠ [] then delimit s else s)
    else if c = '\'' then { s with q := .sq, tok := addc s.tok [c] }
    else if c = '"' then { s with q := .dq, tok := addc s.tok [c] }
    else if c = '\\' then { s with q := .bs }
    else if c = '#' then
      if s.prev = none ∨ s.prev = some ' ' ∨ s.prev = some '\n' then { s with q := .hash0 } else { s with tok := addc s.tok [c] }
    else { s with tok := addc s.tok [c] }

/-- the loop body of `tokenize_command_line` -/
def tokStep (s : Tok) (c : Char) : Tok :=
  { tokCase s c with quoted := if c = '\\' then !s.quoted else false, prev := some c }

/-- `tokenize_command_line` -/
def tokenize (text : Str) : Option (List Str) :=
  let s := delimit (text.foldl tokStep {})
  match s.q with
  | .plain | .hash1 => if s.out = [] then none else some s.out
  | _ => none

inductive UMode where
  | plain
  | sq
  | dq

/-- `g_shell_unquote` with `unquote_string_inplace` -/
def unquote : UMode → Str → Option Str
  | .plain, [] => some []
  | .plain, ['\\'] => some []
  | .plain, '\\' :: c :: r => if c = '\n' then unquote .plain r else (unquote .plain r).map (c :: ·)
  | .plain, '\'' :: r => unquote .sq r
  | .plain, '"' :: r => unquote .dq r
  | .plain, c :: r => (unquote .plain r).map (c :: ·)
  | .sq, [] => none
  | .sq, '\'' :: r => unquote .plain r
  | .sq, c :: r => (unquote .sq r).map (c :: ·)
  | .dq, [] => none
  | .dq, '"' :: r => unquote .plain r
  | .dq, ['\\'] => none
  | .dq, '\\' :: c :: r =>
    if c = '"' ∨ c = '\\' ∨ c = '`' ∨ c = '$' ∨ c = '\n' then (unquote .dq r).map (c :: ·) else (unquote .dq r).map (fun x => '\\' :: c :: x)
  | .dq, c :: r => (unquote .dq r).map (c :: ·)

/-- `g_shell_parse_argv` -/
def parseArgv (text : Str) : Option (List Str) := (tokenize text).bind (fun ts => ts.mapM (unquote .plain))

/-! ## Programs -/

/-- `r_ptr_array_addv` of an optional vector, utils.h:99-107 -/
def addv : Option (List Str) → List Str
  | none => []
  | some l => l

/-- a text that is split, or nothing; `none`: the text cannot be split -/
def optText : Option Str → Option (List Str)
  | none => some []
  | some t => parseArgv t

/-- `launch_and_wait_custom_handler`, install.c:959-994, and the vector of `launch_and_wait_handler`, install.c:831-836; `path`: the handler in the bundle, `extra`: --handler-args -/
def handlerArgv (path : Str) (args extra : Option Str) : Option (List Str) :=
  (optText args).bind (fun a => (optText extra).map (fun e => path :: (a ++ e)))

/-- `polling_reboot`, polling.c:323-352 -/
def rebootArgv (cmd : Str) : Option (List Str) := parseArgv cmd

/-- `ubifs_format_slot`, update_handler.c:1036-1060 -/
def mkfsUbifs (extra : Option (List Str)) (device : Str) : List Str := [c!"mkfs.ubifs", c!"-y"] ++ addv extra ++ [device]

/-- `ext4_resize_slot`, update_handler.c:1062-1083 -/
def resize2fs (device : Str) : List Str := [c!"resize2fs", device]

/-- `ext4_format_slot`, update_handler.c:1085-1113 -/
def mkfsExt4 (name : Str) (extra : Option (List Str)) (device : Str) : List Str :=
  [c!"mkfs.ext4", c!"-F"] ++ (if name.length ≤ 16 then [c!"-L", name] else []) ++ [c!"-I256"] ++ addv extra ++ [device]

/-- `vfat_format_slot`, update_handler.c:1157-1183 -/
def mkfsVfat (name : Str) (extra : Option (List Str)) (device : Str) : List Str :=
  [c!"mkfs.vfat", c!"-n", Update.vfatLabel name] ++ addv extra ++ [device]

/-- `nor_write_slot`, update_handler.c:1185-1209 -/
def flashcp (image device : Str) : List Str := [c!"flashcp", c!"--erase-all", image, device]

/-- `flash_format_slot`, update_handler.c:1211-1236 -/
def flashErase (device : Str) : List Str := [c!"flash_erase", c!"--quiet", device, c!"0", c!"0"]

/-- `nand_write_slot`, update_handler.c:1238-1280 -/
def nandwrite (device : Str) : List Str := [c!"nandwrite", c!"--pad", c!"--quiet", device, c!"-"]

/-- a vector ends at its first NULL -/
def untilNull : List (Option Str) → List Str
  | [] => []
  | none :: _ => []
  | some a :: r => a :: untilNull r

/-- `untar_image`, update_handler.c:1319-1333 -/
def tarArgv (dest filename : Str) : List Str :=
  untilNull [some c!"tar", some c!"xf", some c!"-", some c!"-C", some dest, some c!"--numeric-owner", Update.tarFlag filename]

/-- `casync_extract`, update_handler.c:471-509; `toFd`: the image goes to a file descriptor -/
def casyncExtract (desync : Bool) (seed store installArgs : Option Str) (toFd : Bool) (filename dest : Str) : Option (List Str) :=
  (optText installArgs).map (fun x =>
    [if desync then c!"desync" else c!"casync", c!"extract"] ++ (match seed with | some s => [c!"--seed", s] | none => []) ++
    (match store with | some s => [c!"--store", s] | none => []) ++ (if desync then [] else [c!"--seed-output=no"]) ++ x ++ [filename, if toFd then c!"-" else dest])

/-- `g_path_get_basename` for a path with a last component -/
def basename (p : Str) : Str := (p.reverse.takeWhile (· ≠ '/')).reverse

/-- `r_mount_full`, mount.c:64-104 -/
def mountArgv (source mountpoint : Str) (type options : Option Str) : List Str :=
  [c!"mount"] ++ (match type with | some t => [c!"-t", t] | none => []) ++ (match options with | some o => [c!"-o", o] | none => []) ++
  [if type = some c!"jffs2" then basename source else source, mountpoint]

/-- `r_umount`, mount.c:235-256 -/
def umountArgv (path : Str) : List Str := [c!"umount", path]

/-- `r_fakeroot_add_args`, utils.c:882-897 -/
def fakerootArgs : Option Str → List Str
  | none => []
  | some e => [c!"fakeroot", c!"-s", e, c!"-i", e, c!"--"]

/-- `mksquashfs`, bundle.c:110-166 -/
def mksquashfsArgv (fakeroot : Option Str) (content bundle : Str) (keepMetadata : Bool) (extra : Option Str) : Option (List Str) :=
  (optText extra).map (fun x =>
    fakerootArgs fakeroot ++ [c!"mksquashfs", content, bundle, c!"-noappend", c!"-no-progress"] ++ (if keepMetadata then [] else [c!"-all-root", c!"-no-xattrs"]) ++ [c!"-quiet"] ++ x)

/-- `unsquashfs`, bundle.c:169-203; `fd`: the path of the descriptor in /proc -/
def unsquashfsArgv (fd content : Str) (extract : Option Str) : List Str :=
  [c!"unsquashfs", c!"-dest", content, fd] ++ (match extract with | some f => [f] | none => [])

end Rauc.Argv
