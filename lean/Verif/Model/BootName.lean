import Verif.Model.Slot
import Verif.Model.Boot
import Verif.Model.Select

/-!
# Which slot is running? src/context.c:79-185, src/bootchooser.c:47-73, src/bootloaders/{barebox,custom,efi}.c

The result, `context->bootslot`, is the input of `determine_slot_states` (Model/Select.lean `slotStates`).
-/

namespace Rauc.BootName

/-- `\s` of PCRE (isSpace and the vertical tab); `\S` is its complement -/
def isSp (c : Char) : Bool := isSpace c || c == Char.ofNat 11

/-- `(p1|p2|...)(\S+)` at the beginning of a string: the captured text. Patterns are literal texts. -/
def matchAt (pats : List Str) (s : Str) : Option Str :=
  pats.findSome? (fun p =>
    if p.isPrefixOf s then
      match (s.drop p.length).takeWhile (fun c => !isSp c) with
      | [] => none
      | v => some v
    else none)

/-- `r_regex_match_simple`, utils.c:1145-1156, for the patterns `p1(\S+)` resp. `(?:p1|p2)(\S+)` the callers use:
leftmost match, first capture. Simplification: a text which is not valid UTF-8 (no match in the code) is not considered. -/
def capture (pats : List Str) : Str → Option Str
  | [] => none
  | c :: cs =>
    match matchAt pats (c :: cs) with
    | some v => some v
    | none => capture pats cs

/-- `strstr (s, p) != NULL` -/
def hasInfix (p : Str) : Str → Bool
  | [] => p.isPrefixOf []
  | c :: cs => p.isPrefixOf (c :: cs) || hasInfix p cs

def external : Str := c!"_external_"

/-- `get_cmdline_bootname_explicit`, context.c:79-101 -/
def explicitName (cmdline : Option Str) : Option Str :=
  match cmdline with
  | none => none
  | some l =>
    if hasInfix (c!"rauc.external") l then some external
    else if hasInfix (c!"root=/dev/nfs") l then some external
    else capture [c!"rauc.slot="] l

/-- `g_build_filename (dir, x, NULL)` for a directory ending in `/`. (Only slashes: simplification, see GLib.) -/
def underDir (dir x : Str) : Str := dir ++ x.dropWhile (· == '/')

/-- one of the three prefix translations of context.c:119-150 -/
def translate (pfx dir : Str) (b : Str) : Str :=
  if pfx.isPrefixOf b then underDir dir (b.drop pfx.length) else b

def byPartlabel : Str → Str := translate (c!"PARTLABEL=") (c!"/dev/disk/by-partlabel/")
def byPartuuid : Str → Str := translate (c!"PARTUUID=") (c!"/dev/disk/by-partuuid/")
def byUuid : Str → Str := translate (c!"UUID=") (c!"/dev/disk/by-uuid/")

/-- `get_cmdline_bootname_root`, context.c:103-164 -/
def rootName (realpath : Str → Option Str) (cmdline : Option Str) : Option Str :=
  match cmdline with
  | none => none
  | some l =>
    match (match capture [c!"root="] l with
           | some b => some b
           | none => capture [c!"systemd.verity_root_data="] l) with
    | none => none
    | some b =>
      let b := byUuid (byPartuuid (byPartlabel b))
      some ((realpath b).getD b)

/-- what the boot loader backends know about the running system -/
structure Backends where
  /-- `system_bootloader` -/
  loader : Str
  /-- custom backend called with `get-current`: exit status 0, first output line (custom.c:114-168) -/
  customOk : Bool := true
  customLine : Option Str := none
  /-- EFI: the tables are readable, name of the current boot entry (efi.c:617-643); `none`: the crash of the
  findings list (no `BootCurrent`) is not modelled -/
  efiCurrent : Option Str := none

/-- `r_boot_get_current_bootname`, bootchooser.c:47-73 (an error is the same as no name for the caller) -/
def backendName (b : Backends) (slots : List Slot) (cmdline : Option Str) : Option Str :=
  if b.loader = c!"custom" then
    (if b.customOk then (match b.customLine with | some [] => none | r => r) else none)
  else if b.loader = c!"efi" then
    (match b.efiCurrent with
     | none => none
     | some n => (slots.find? (fun s => s.bootname == some n)).bind Slot.bootname)
  else if b.loader = c!"barebox" then
    (match cmdline with
     | none => none
     | some l => capture [c!"bootstate.active=", c!"bootchooser.active="] l)
  else none

/-- `get_bootname`, context.c:166-185 -/
def bootName (realpath : Str → Option Str) (b : Backends) (slots : List Slot) (cmdline : Option Str) : Option Str :=
  match explicitName cmdline with
  | some n => some n
  | none =>
    match backendName b slots cmdline with
    | some n => some n
    | none => rootName realpath cmdline

/-- the slot states of the running system: `get_bootname` followed by `determine_slot_states` -/
def runningStates (realpath : Str → Option Str) (b : Backends) (slots : List Slot) (cmdline : Option Str) :
    Option (Slot → Select.State) :=
  Select.slotStates realpath (bootName realpath b slots cmdline) slots

end Rauc.BootName
