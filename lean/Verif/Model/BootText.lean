import Verif.Model.Boot
import Verif.Model.BootName
import Verif.Model.Config

/-!
# Boot loader tools: command lines and output

`Model/Boot` reads and writes the boot loader environment through its variables. Here are the command lines RAUC
builds and the parsers for the tools' output, src/bootloaders/{uboot,grub,barebox,efi}.c, and as trusted specification (not RAUC code) the
tools themselves: what they print for an environment and what a command line changes.
Each boot loader becomes a second `Backend`, whose transactions are argument vectors.
-/

namespace Rauc.BootText
open Rauc.Boot

/-- how the run of a tool ended: not started, communication failed or killed; or exit code and standard output -/
inductive Run
  | failed
  | exited (code : Nat) (out : Str)
deriving DecidableEq, Repr

/-- `strchr (s, '=')`: the texts before and after the first `=` -/
def splitEq : Str → Option (Str × Str)
  | [] => none
  | c :: cs =>
    if c = '=' then some ([], cs)
    else match splitEq cs with
      | none => none
      | some (k, v) => some (c :: k, v)

/-- a tool run which fails when `ok` is false -/
def runIf (ok : Bool) (r : Run) : Run := if ok then r else .failed

/-! ## U-Boot -/

/-- evaluation of `fw_printenv KEY`, uboot.c:24-80 -/
def ubootEnvGet (key : Str) : Run → Option Str
  | .failed => none
  | .exited code out =>
    if code ≠ 0 then none
    else if (key ++ c!"=").isPrefixOf out then some (chomp (out.drop (key ++ c!"=").length))
    else none

/-- `fw_printenv KEY`, uboot.c:24-25 -/
def ubootGetArgv (key : Str) : List Str := [c!"fw_printenv", key]

/-- `fw_setenv KEY VALUE`, uboot.c:92-93 -/
def ubootSetArgv (w : Str × Str) : List Str := [c!"fw_setenv", w.1, w.2]

/-- Trusted: `fw_printenv NAME` prints `NAME=VALUE` and a line feed, or fails for an unknown variable -/
def fwPrintenv (env : KvEnv) : List Str → Run
  | [_, k] => match env k with
    | some v => .exited 0 (k ++ c!"=" ++ v ++ c!"\n")
    | none => .exited 1 []
  | _ => .exited 1 []

/-- Trusted: `fw_setenv NAME VALUE` sets or, for an empty value, deletes the variable; refuses a `=` in the name -/
def fwSetenv (env : KvEnv) : List Str → KvEnv
  | [_, k, v] => if '=' ∈ k then env else ubootApp env (k, v)
  | _ => env

/-- the variables as `uboot_env_get` sees them -/
def ubootRead (rd : Str → Bool) (env : KvEnv) : KvEnv :=
  fun k => ubootEnvGet k (runIf (rd k) (fwPrintenv env (ubootGetArgv k)))

/-- src/bootloaders/uboot.c with its tools. The functions above `uboot_env_get`/`uboot_env_set` are those of `Model/Boot`; reading with
`kvGet allRd` removes trailing white space once more, which changes nothing. -/
abbrev ubootT (cfg : Cfg) : Backend where
  Env := KvEnv
  Txn := List Str
  app := fwSetenv
  getState := fun rd env s => ubootGetState (fun _ => true) (ubootRead rd env) s
  getPrimary := fun rd slots env => ubootGetPrimary (fun _ => true) slots (ubootRead rd env)
  setState := fun rd _ env s g =>
    (ubootSetState cfg (fun _ => true) (ubootRead rd env) s g).map (List.map ubootSetArgv)
  setPrimary := fun rd slots env s =>
    (ubootSetPrimary cfg (fun _ => true) slots (ubootRead rd env) s).map (List.map ubootSetArgv)

/-! ## GRUB -/

/-- the loop of `grub_env_get`, grub.c:66-82, over the lines of the output -/
def grubFind (key : Str) : List Str → Option Str
  | [] => none
  | l :: ls =>
    if (key ++ c!"=").isPrefixOf l then some (chomp (l.drop (key ++ c!"=").length))
    else grubFind key ls

/-- `grub_env_get`, grub.c:31-92 -/
def grubEnvGet (key : Str) : Run → Option Str
  | .failed => none
  | .exited code out => if code ≠ 0 then none else grubFind key (split '\n' out)

/-- `KEY=VALUE` as passed to `grub-editenv`, grub.c:197-203 and :300-306 -/
def grubPair (w : Str × Str) : Str := w.1 ++ c!"=" ++ w.2

/-- `grub-editenv FILE set K=V ...`, grub.c:94-113 -/
def grubSetArgv (path : Str) (ws : List (Str × Str)) : List Str :=
  [c!"grub-editenv", path, c!"set"] ++ ws.map grubPair

/-- Trusted: the environment block, a list of variables -/
abbrev GrubVars := List (Str × Str)

def grubLookup (vars : GrubVars) : KvEnv := fun k => (vars.find? (fun w => w.1 == k)).map Prod.snd

/-- Trusted: `set` replaces the value of a variable in place or appends the variable -/
def grubPut : GrubVars → Str × Str → GrubVars
  | [], w => [w]
  | x :: xs, w => if x.1 = w.1 then w :: xs else x :: grubPut xs w

/-- Trusted: `grub-editenv list` prints `NAME=VALUE` lines -/
def grubList (vars : GrubVars) : Run := .exited 0 ((vars.map (fun w => grubPair w ++ c!"\n")).flatten)

/-- Trusted: `grub-editenv FILE set` splits every argument at its first `=` and replaces the file as a whole; arguments without `=`
are an error -/
def grubTool (vars : GrubVars) : List Str → GrubVars
  | _ :: _ :: _ :: as =>
    match as.mapM splitEq with
    | some ws => ws.foldl grubPut vars
    | none => vars
  | _ => vars

def grubRead (rd : Str → Bool) (vars : GrubVars) : KvEnv :=
  fun k => grubEnvGet k (runIf (rd k) (grubList vars))

/-- src/bootloaders/grub.c with its tool -/
abbrev grubT (path : Str) : Backend where
  Env := GrubVars
  Txn := List Str
  app := grubTool
  getState := fun rd env s => grubGetState (fun _ => true) (grubRead rd env) s
  getPrimary := fun rd slots env => grubGetPrimary (fun _ => true) slots (grubRead rd env)
  setState := fun _ _ _ s g => (grubSetState s g).map (List.map (grubSetArgv path))
  setPrimary := fun _ slots _ s => (grubSetPrimary slots s).map (List.map (grubSetArgv path))

/-! ## barebox -/

/-- `g_ascii_strtoull` of one line, barebox.c:112-131: no digits is an error, so is an overflow. Simplification:
18446744073709551615 is always refused (the code looks at a possibly stale `errno`). -/
def bbNumber (line : Str) : Option Nat :=
  if strtoull 10 line = 0 ∧ Config.strtoullRest line = line then none
  else if strtoull 10 line = u64max then none
  else some (strtoull 10 line)

/-- evaluation of the output, barebox.c:94-137 -/
def bbEnvGet : Run → Option (Nat × Nat)
  | .failed => none
  | .exited code out =>
    if code ≠ 0 then none
    else match split '\n' out with
      | l1 :: l2 :: _ =>
        (match bbNumber l1 with
         | none => none
         | some p => match bbNumber l2 with
           | none => none
           | some a => some (p % 2 ^ 32, a % 2 ^ 32))
      | _ => none

/-- configured options of the tool: `system_bb_statename`, `system_bb_dtbpath` -/
structure BbOpts where
  statename : Option Str := none
  dtbpath : Option Str := none

def bbPrio (bn : Str) : Str := c!"bootstate." ++ bn ++ c!".priority"
def bbAtt (bn : Str) : Str := c!"bootstate." ++ bn ++ c!".remaining_attempts"

def optArgs (flag : Str) : Option Str → List Str
  | some v => [flag, v]
  | none => []

/-- barebox.c:42-55 -/
def bbGetArgv (o : BbOpts) (bn : Str) : List Str :=
  [c!"barebox-state"] ++ optArgs (c!"-n") o.statename ++ [c!"-g", bbPrio bn, c!"-g", bbAtt bn] ++ optArgs (c!"-i") o.dtbpath

/-- `VARIABLE=%i`, barebox.c:203-208, :314-315, :323-324 -/
def bbPair (w : BbSet) : Str :=
  (match w.var with | .prio => bbPrio w.bn | .attempts => bbAtt w.bn) ++ c!"=" ++ toDec w.val

/-- barebox.c:152-165 -/
def bbSetArgv (o : BbOpts) (ws : List BbSet) : List Str :=
  [c!"barebox-state"] ++ optArgs (c!"-n") o.statename ++ (ws.map (fun w => [c!"-s", bbPair w])).flatten ++
    optArgs (c!"-i") o.dtbpath

/-- Trusted: the state variables declared in the device tree (uint32) -/
abbrev BbVars := Str → Option Nat

/-- Trusted: `barebox-state` options: variables to print, assignments -/
def bbOptions : List Str → Option (List Str × List (Str × Nat))
  | [] => some ([], [])
  | [_] => none
  | o :: v :: r =>
    match bbOptions r with
    | none => none
    | some (g, s) =>
      if o = c!"-g" then some (v :: g, s)
      else if o = c!"-s" then
        (match splitEq v with
         | none => none
         | some (k, x) => if strtoull 10 x < 2 ^ 32 then some (g, (k, strtoull 10 x) :: s) else none)
      else if o = c!"-n" ∨ o = c!"-i" then some (g, s)
      else none

/-- Trusted: prints the values in the order of the `-g` options, one per line -/
def bbPrint (vars : BbVars) : List Str → Option Str
  | [] => some []
  | k :: ks => match vars k, bbPrint vars ks with
    | some n, some r => some (toDec n ++ c!"\n" ++ r)
    | _, _ => none

/-- Trusted: `barebox-state -g VAR ...` -/
def bbToolGet (vars : BbVars) (argv : List Str) : Run :=
  match bbOptions (argv.drop 1) with
  | some (g, _) => (match bbPrint vars g with
    | some out => .exited 0 out
    | none => .exited 1 [])
  | none => .exited 1 []

def bbPut (vars : BbVars) (w : Str × Nat) : BbVars := fun k => if k = w.1 then some w.2 else vars k

/-- Trusted: `barebox-state -s VAR=VALUE ...` stores all the values, or none if a variable does not exist or a value is not accepted -/
def bbTool (vars : BbVars) (argv : List Str) : BbVars :=
  match bbOptions (argv.drop 1) with
  | some (_, s) => if s.all (fun w => (vars w.1).isSome) then s.foldl bbPut vars else vars
  | none => vars

/-- the slot states as `barebox_state_get` sees them -/
def bbRead (o : BbOpts) (rd : Str → Bool) (vars : BbVars) : BbEnv :=
  fun bn => bbEnvGet (runIf (rd bn) (bbToolGet vars (bbGetArgv o bn)))

/-- src/bootloaders/barebox.c with its tool. (`bbGet allRd` truncates to 32 bit once more, which changes nothing.) -/
abbrev bareboxT (cfg : Cfg) (o : BbOpts) : Backend where
  Env := BbVars
  Txn := List Str
  app := bbTool
  getState := fun rd env s => bbGetState (fun _ => true) (bbRead o rd env) s
  getPrimary := fun rd slots env => bbGetPrimary (fun _ => true) slots (bbRead o rd env)
  setState := fun _ _ _ s g => (bbSetState cfg s g).map (List.map (bbSetArgv o))
  setPrimary := fun rd slots env s =>
    (bbSetPrimary cfg (fun _ => true) slots (bbRead o rd env) s).map (List.map (bbSetArgv o))

/-! ## EFI -/

/-- where `^` and `$` match (G_REGEX_MULTILINE) and `.` does not. Simplification: only the ASCII line ends. -/
def isNl (c : Char) : Bool := c == '\n' || c == '\r' || c == Char.ofNat 11 || c == Char.ofNat 12

def linesAux : Str → Str → List Str
  | acc, [] => [acc]
  | acc, c :: cs => if isNl c then acc :: linesAux [] cs else linesAux (acc ++ [c]) cs

def isHex (c : Char) : Bool := match digitVal c with
  | some v => decide (v < 16)
  | none => false

/-- `^Boot([0-9a-fA-F]{4})[\* ] (.+)$` for one line, and the cut at the first tab, efi.c:243-270 -/
def entryLine : Str → Option EfiEntry
  | 'B' :: 'o' :: 'o' :: 't' :: a :: b :: c :: d :: s :: ' ' :: n =>
    if isHex a && isHex b && isHex c && isHex d && (s == '*' || s == ' ') && !n.isEmpty then
      some ⟨[a, b, c, d], n.takeWhile (fun x => !(x == '\t'))⟩
    else none
  | _ => none

def fieldLine (pfx l : Str) : Option Str := if pfx.isPrefixOf l then some (l.drop pfx.length) else none

/-- `^NAME: ([0-9a-fA-F]{4})$`, efi.c:276 and :320 -/
def hex4Line (pfx l : Str) : Option Str :=
  match fieldLine pfx l with
  | some [a, b, c, d] => if isHex a && isHex b && isHex c && isHex d then some [a, b, c, d] else none
  | _ => none

/-- `^BootOrder: (\S+)$`, efi.c:290 -/
def orderLine (l : Str) : Option Str :=
  match fieldLine (c!"BootOrder: ") l with
  | some v => if !v.isEmpty && v.all (fun c => !BootName.isSp c) then some v else none
  | none => none

/-- what `efi_bootorder_get` returns -/
structure EfiTables where
  order : List EfiEntry
  all : List EfiEntry
  next : Option EfiEntry
  current : Option EfiEntry
deriving DecidableEq, Repr

/-- `efi_bootorder_get`, efi.c:190-332, evaluation of the lines -/
def efiParse (ls : List Str) : Option EfiTables :=
  if (ls.filterMap entryLine).isEmpty then none
  else match ls.findSome? orderLine with
    | none => none
    | some o => some
        { order := (split ',' o).filterMap (efiByNum (ls.filterMap entryLine))
          all := ls.filterMap entryLine
          next := (ls.findSome? (hex4Line (c!"BootNext: "))).bind (efiByNum (ls.filterMap entryLine))
          current := (ls.findSome? (hex4Line (c!"BootCurrent: "))).bind (efiByNum (ls.filterMap entryLine)) }

/-- `efi_bootorder_get`, efi.c:190-332 -/
def efiTables : Run → Option EfiTables
  | .failed => none
  | .exited code out => if code ≠ 0 then none else efiParse (linesAux [] out)

/-- Trusted: an EFI boot variable; `path` is the device path printed after a tab -/
structure EfiVar where
  num : Str
  name : Str
  active : Bool := true
  path : Option Str := none
deriving DecidableEq, Repr

/-- Trusted: the variables `efibootmgr` shows; `extra` are the further lines (`Timeout: ...`) -/
structure EfiVars where
  entries : List EfiVar
  order : List Str
  next : Option Str := none
  current : Option Str := none
  extra : List Str := []
deriving DecidableEq, Repr

def EfiVar.line (e : EfiVar) : Str :=
  c!"Boot" ++ e.num ++ (if e.active then ['*'] else [' ']) ++ [' '] ++ e.name ++
    (match e.path with | some p => '\t' :: p | none => [])

def EfiVars.lines (v : EfiVars) : List Str :=
  v.next.toList.map (c!"BootNext: " ++ ·) ++ v.current.toList.map (c!"BootCurrent: " ++ ·) ++ v.extra ++
    (if v.order.isEmpty then [] else [c!"BootOrder: " ++ join ',' v.order]) ++ v.entries.map EfiVar.line

/-- Trusted: `efibootmgr` without options -/
def efibootmgr (v : EfiVars) : Run := .exited 0 ((v.lines.map (· ++ c!"\n")).flatten)

/-- the abstract environment -/
def EfiVars.abs (v : EfiVars) : EfiEnv := ⟨v.entries.map (fun e => ⟨e.num, e.name⟩), v.order, v.next⟩

/-- Trusted: `efibootmgr` with the options RAUC passes. `fresh` is the number chosen for a new entry, `pathOf` its device path. -/
def efiTool (fresh : EfiEnv → Str) (pathOf : List Str → Option Str) (v : EfiVars) (argv : List Str) : EfiVars :=
  match argv with
  | [_, o, x] =>
    if o = c!"--bootorder" then { v with order := split ',' x }
    else if o = c!"--bootnext" then { v with next := some x }
    else v
  | [_, o, _, _, _, _, _, label, _, _, _, _] =>
    if o = c!"--create-only" then
      { v with entries := v.entries ++ [{ num := fresh v.abs, name := label, path := pathOf argv }] }
    else v
  | _ => v

/-- `efi_bootorder_set`, efi.c:98-103 -/
def efiOrderArgv (nums : List Str) : List Str := [c!"efibootmgr", c!"--bootorder", join ',' nums]
/-- `efi_set_bootnext`, efi.c:132-137 -/
def efiNextArgv (num : Str) : List Str := [c!"efibootmgr", c!"--bootnext", num]
/-- `efi_bootentry_create`, efi.c:60-70: device and content of the sysfs file are `dev` -/
def efiCreateArgv (bn loader cmdline : Str) (dev : Str × Str) : List Str :=
  [c!"efibootmgr", c!"--create-only", c!"--disk", dev.1, c!"--part", chomp dev.2, c!"--label", bn,
   c!"--loader", loader, c!"--unicode", cmdline]

/-- what surrounds the EFI backend: the number chosen for a new entry, its device path, and for the variables and a slot device the resolved
device and the content of its sysfs `partition` file, efi.c:35-52; `none` is an error there, or the tool cannot create an entry (all
numbers are taken, no space) -/
structure EfiWorld where
  fresh : EfiEnv → Str
  pathOf : List Str → Option Str := fun _ => none
  dev : EfiEnv → Str → Option (Str × Str)

/-- `efi_bootorder_get` -/
def efiQuery (rd : Str → Bool) (v : EfiVars) : Option EfiTables := efiTables (runIf (rd Boot.efiTool) (efibootmgr v))

/-- `efi_bootorder_prepare`, efi.c:345-399 -/
def efiPrepareT (w : EfiWorld) (rd : Str → Bool) (v : EfiVars) (s : Slot) (bn : Str) : Option (List (List Str) × EfiTables) :=
  match efiQuery rd v with
  | none => none
  | some t =>
    match efiByName t.all bn with
    | some _ => some ([], t)
    | none =>
      match s.efiLoader, s.efiCmdline with
      | some l, some c =>
        (match w.dev v.abs s.device with
         | none => none
         | some d =>
           match efiQuery rd (efiTool w.fresh w.pathOf v (efiCreateArgv bn l c d)) with
           | none => none
           | some t => some ([efiCreateArgv bn l c d], t))
      | _, _ => none

/-- `efi_modify_persistent_bootorder`, efi.c:437-493 -/
def efiModifyT (w : EfiWorld) (rd : Str → Bool) (v : EfiVars) (s : Slot) (prepend : Bool) : Option (List (List Str)) :=
  match s.bootname with
  | none => none
  | some bn =>
    match efiPrepareT w rd v s bn with
    | none => none
    | some (ts, t) =>
      let removed := t.order.eraseP (fun e => e.name == bn)
      let l := if prepend then
          (match efiByName t.all bn with | some e => e :: removed | none => removed)
        else removed
      some (ts ++ [efiOrderArgv (l.map EfiEntry.num)])

/-- `efi_set_temp_primary`, efi.c:401-433 -/
def efiTempT (w : EfiWorld) (rd : Str → Bool) (v : EfiVars) (s : Slot) : Option (List (List Str)) :=
  match s.bootname with
  | none => none
  | some bn =>
    match efiPrepareT w rd v s bn with
    | none => none
    | some (ts, t) =>
      match efiByName t.all bn with
      | none => none
      | some e => some (ts ++ [efiNextArgv e.num])

/-- `r_efi_get_state`, efi.c:587-615 -/
def efiGetStateT (rd : Str → Bool) (v : EfiVars) (s : Slot) : Option Bool :=
  match s.bootname with
  | none => none
  | some bn =>
    match efiQuery rd v with
    | none => none
    | some t => some (t.order.any (fun e => e.name == bn))

/-- `r_efi_get_primary`, efi.c:510-559 -/
def efiGetPrimaryT (rd : Str → Bool) (slots : List Slot) (v : EfiVars) : Option Slot :=
  match efiQuery rd v with
  | none => none
  | some t => efiScan slots (match t.next with | some e => e :: t.order | none => t.order)

/-- src/bootloaders/efi.c with its tool -/
abbrev efiT (cfg : Cfg) (w : EfiWorld) : Backend where
  Env := EfiVars
  Txn := List Str
  app := efiTool w.fresh w.pathOf
  getState := efiGetStateT
  getPrimary := efiGetPrimaryT
  setState := fun rd _ env s g => efiModifyT w rd env s g
  setPrimary := fun rd _ env s =>
    if cfg.efiUseBootnext then efiTempT w rd env s else efiModifyT w rd env s true

/-- name of the current boot entry for `r_efi_get_current_bootname`, efi.c:617-643 (see `BootName.Backends.efiCurrent`) -/
def efiCurrentName (rd : Str → Bool) (v : EfiVars) : Option Str :=
  match efiQuery rd v with
  | none => none
  | some t => t.current.map EfiEntry.name

end Rauc.BootText
