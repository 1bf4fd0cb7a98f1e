import Verif.Model.Manifest
import Verif.Model.Slot
import Verif.Model.Status

/-!
# System configuration: src/config_file.c (bundle formats, slots), src/utils.c (option readers), src/slot.c (types)
-/

namespace Rauc.Config

/-! ## Bundle formats: config_file.c:58-132 -/

/-- the format mask (bits 0 to 2 of a guint) -/
structure Mask where
  plain : Bool
  verity : Bool
  crypt : Bool
deriving DecidableEq, Repr

def Mask.has (m : Mask) : Format → Bool
  | .plain => m.plain
  | .verity => m.verity
  | .crypt => m.crypt

def Mask.put (m : Mask) (f : Format) (b : Bool) : Mask :=
  match f with
  | .plain => { m with plain := b }
  | .verity => { m with verity := b }
  | .crypt => { m with crypt := b }

def Mask.zero : Mask := ⟨false, false, false⟩

/-- the format names, config_file.c:88-99 -/
def formatOf (t : Str) : Option Format :=
  if t = c!"plain" then some .plain
  else if t = c!"verity" then some .verity
  else if t = c!"crypt" then some .crypt
  else none

/-- sign and name of a token, config_file.c:77-86 -/
inductive Sign where
  | fixed | plus | minus
deriving DecidableEq, Repr

def tokenSign : Str → Sign × Str
  | '-' :: t => (.minus, t)
  | '+' :: t => (.plus, t)
  | t => (.fixed, t)

/-- loop state -/
structure FmtSt where
  mask : Mask
  set : Bool := false
  modify : Bool := false
deriving DecidableEq, Repr

/-- loop body, config_file.c:72-111 -/
def fmtStep (st : FmtSt) (tok : Str) : Option FmtSt :=
  if tok = [] then some st
  else
    match formatOf (tokenSign tok).2 with
    | none => none
    | some f =>
      match (tokenSign tok).1 with
      | .minus => some { st with modify := true, mask := st.mask.put f false }
      | .plus => some { st with modify := true, mask := st.mask.put f true }
      | .fixed => some { st with set := true, mask := (if st.set then st.mask else Mask.zero).put f true }

def fmtLoop : FmtSt → List Str → Option FmtSt
  | st, [] => some st
  | st, t :: ts =>
    match fmtStep st t with
    | none => none
    | some st' => fmtLoop st' ts

/-- `parse_bundle_formats`, config_file.c:58-132: success and the mask afterwards (`*mask` is only written on success) -/
def parseBundleFormats (mask : Mask) (config : Str) : Bool × Mask :=
  match fmtLoop ⟨mask, false, false⟩ (split ' ' config) with
  | none => (false, mask)
  | some st =>
    if st.set && st.modify then (false, mask)
    else if st.mask = Mask.zero then (false, mask)
    else (true, st.mask)

/-! ## Sizes: utils.c:445-483 -/

def skipSign : Str → Str
  | '-' :: r => r
  | '+' :: r => r
  | r => r

/-- what `g_ascii_strtoull (s, &end, 10)` leaves at `end`: without digits, all of the string -/
def strtoullRest (s : Str) : Str :=
  let body := skipSign (chug s)
  let n := (digitsAux 10 0 0 body).2
  if n = 0 then s else body.drop n

/-- `*scale | 0x20` and the switch, utils.c:464-480: for each letter exactly its lower and upper case character match -/
def scaleShift (rest : Str) : Nat :=
  match rest with
  | c :: _ =>
    if c = 'k' ∨ c = 'K' then 10
    else if c = 'm' ∨ c = 'M' then 20
    else if c = 'g' ∨ c = 'G' then 30
    else if c = 't' ∨ c = 'T' then 40
    else 0
  | [] => 0

/-- `key_file_consume_binary_suffixed_string` on the value of the key; `none` is an error (empty value). The shift is that of
a guint64. -/
def binarySuffixed (s : Str) : Option Nat :=
  if s = [] then none
  else some (strtoull 10 s * 2 ^ scaleShift (strtoullRest s) % 2 ^ 64)

/-! ## Slots: config_file.c:933-1133 -/

/-- `supported_slot_types`, slot.c:153-166, with their mountable flag -/
def slotTypes : List (Str × Bool) :=
  [(c!"raw", false), (c!"ext4", true), (c!"ubifs", true), (c!"ubivol", false), (c!"nand", false), (c!"nor", false),
   (c!"boot-emmc", false), (c!"boot-mbr-switch", false), (c!"boot-gpt-switch", false), (c!"vfat", true),
   (c!"boot-raw-fallback", false)]

/-- `r_slot_is_valid_type`, slot.c:168-177 -/
def validType (t : Str) : Bool := slotTypes.any (fun p => p.1 == t)

/-- `g_key_file_get_boolean` of a present value: trailing white space is ignored -/
def kfBool (s : Str) : Option Bool :=
  if chomp s = c!"true" ∨ chomp s = c!"1" then some true
  else if chomp s = c!"false" ∨ chomp s = c!"0" then some false
  else none

/-- an optional boolean: `none` is an error -/
def boolKey (kf : KeyFile) (g k : Str) (dflt : Bool) : Option Bool :=
  match kf.get g k with
  | none => some dflt
  | some v => kfBool v

/-- install-same and its deprecated spellings, config_file.c:1047-1075 -/
def installSameKey (kf : KeyFile) (g : Str) : Option Bool :=
  match kf.get g (c!"install-same") with
  | some v => kfBool v
  | none =>
    match kf.get g (c!"force-install-same") with
    | some v => kfBool v
    | none =>
      match kf.get g (c!"ignore-checksum") with
      | some v => kfBool v
      | none => some true

/-- a mandatory size -/
def sizeKey (kf : KeyFile) (g k : Str) : Option Nat := (kf.get g k).bind binarySuffixed

/-- an optional size, config_file.c:1103-1111: only a missing key gives 0, an empty value is an error -/
def optSizeKey (kf : KeyFile) (g k : Str) : Option Nat :=
  match kf.get g k with
  | none => some 0
  | some v => binarySuffixed v

def hasRegion (t : Str) : Bool := t = c!"boot-mbr-switch" ∨ t = c!"boot-gpt-switch" ∨ t = c!"boot-raw-fallback"

/-- the keys that are read (and removed) for a slot -/
def knownKeys (typ : Str) (efi : Bool) : List Str :=
  [c!"description", c!"device", c!"type", c!"extra-mkfs-opts", c!"bootname", c!"parent", c!"allow-mounted", c!"readonly",
   c!"install-same", c!"force-install-same", c!"ignore-checksum", c!"extra-mount-opts", c!"resize"] ++
  (if hasRegion typ then [c!"region-start", c!"region-size"] else []) ++
  (if typ = c!"boot-emmc" then [c!"size-limit"] else []) ++
  (if efi then [c!"efi-loader", c!"efi-cmdline"] else [])

/-- device restrictions, config_file.c:985-996 -/
def deviceOk (typ dev : Str) : Bool :=
  !(typ == c!"jffs2" && !(c!"/dev/").isPrefixOf dev) &&
  !(typ == c!"boot-emmc" && ((c!"boot0").isSuffixOf dev || (c!"boot1").isSuffixOf dev))

/-- what parsing depends on outside the key file: making a path absolute, parsing shell words, the boot loader is EFI -/
structure Env where
  resolve : Str → Str := id
  shellOk : Str → Bool := fun _ => true
  efi : Bool := false

/-- extra-mkfs-opts must parse as shell words, config_file.c:998-1007 -/
def mkfsOk (E : Env) : Option Str → Bool
  | none => true
  | some v => E.shellOk v

/-- one slot section, config_file.c:944-1128. `parent` holds the configured parent name. -/
def parseSlot (E : Env) (kf : KeyFile) (g : Str) : Option Slot :=
  match split '.' g with
  | [_, cls, idx] =>
    match consumeString kf g (c!"device") with
    | none => none
    | some dev =>
      let typ := (consumeString kf g (c!"type")).getD (c!"raw")
      let bootname := consumeString kf g (c!"bootname")
      if !validType typ then none
      else if !deviceOk typ (E.resolve dev) then none
      else if !mkfsOk E (consumeString kf g (c!"extra-mkfs-opts")) then none
      else if (bootname.getD []).any isSpace then none
      else
        match boolKey kf g (c!"allow-mounted") false, boolKey kf g (c!"readonly") false, installSameKey kf g,
          boolKey kf g (c!"resize") false with
        | some _, some ro, some same, some _ =>
          match (if hasRegion typ then sizeKey kf g (c!"region-start") else some 0),
            (if hasRegion typ then sizeKey kf g (c!"region-size") else some 0),
            (if typ = c!"boot-emmc" then optSizeKey kf g (c!"size-limit") else some 0) with
          | some rs, some rz, some lim =>
            if ((kf.group g).getD []).all (fun p => (knownKeys typ E.efi).contains p.1) then
              some
                { name := cls ++ '.' :: idx
                  sclass := cls
                  device := E.resolve dev
                  typ := typ
                  bootname := bootname
                  parent := consumeString kf g (c!"parent")
                  readonly := ro
                  installSame := same
                  efiLoader := if E.efi then consumeString kf g (c!"efi-loader") else none
                  efiCmdline := if E.efi then consumeString kf g (c!"efi-cmdline") else none
                  regionStart := rs
                  regionSize := rz
                  sizeLimit := lim }
            else none
          | _, _, _ => none
        | _, _, _, _ => none
  | _ => none

def isSlotGroup (g : Str) : Bool := (split '.' g).head? == some (c!"slot")

def parseAll (E : Env) (kf : KeyFile) : List Str → Option (List Slot)
  | [] => some []
  | g :: gs =>
    match parseSlot E kf g with
    | none => none
    | some s =>
      match parseAll E kf gs with
      | none => none
      | some l => some (s :: l)

/-- `parse_slots`, config_file.c:933-1133 -/
def parseSlots (E : Env) (kf : KeyFile) : Option (List Slot) := parseAll E kf (kf.groups.filter isSlotGroup)

/-! ## Parents: config_file.c:20-56, 1208-1244 -/

/-- parent links by slot name -/
abbrev Links := Str → Option Str

def setLink (par : Links) (n r : Str) : Links := fun x => if x = n then some r else par x

/-- the inner loop of `fix_grandparent_links`, config_file.c:39-47; at most `fuel` further steps are allowed -/
def climb (par : Links) : Nat → Str → Option Str
  | 0, p => match par p with | none => some p | some _ => none
  | n + 1, p => match par p with | none => some p | some q => climb par n q

/-- `fix_grandparent_links`, config_file.c:20-56, over the slots in iteration order -/
def fixLinks (par : Links) : List Str → Option Links
  | [] => some par
  | n :: ns =>
    match par n with
    | none => fixLinks par ns
    | some p =>
      match climb par 100 p with
      | none => none
      | some r => fixLinks (setLink par n r) ns

/-- the configured links -/
def links (slots : List Slot) : Links := fun n => (slots.find? (fun s => s.name == n)).bind (·.parent)

/-- the first loop of `resolve_slot_parents`, config_file.c:1216-1236 -/
def parentOk (slots : List Slot) (s : Slot) : Bool :=
  match s.parent with
  | none => true
  | some p => slots.any (fun t => t.name == p) && s.bootname.isNone

/-- `resolve_slot_parents`, config_file.c:1208-1244 -/
def resolveParents (slots : List Slot) : Option (List Slot) :=
  if slots.all (parentOk slots) then
    match fixLinks (links slots) (slots.map (·.name)) with
    | none => none
    | some par => some (slots.map (fun s => { s with parent := par s.name }))
  else none

/-- `check_duplicate_bootnames`, config_file.c:1246-1270 -/
def noDuplicateBootnames : List Str → List Slot → Bool
  | _, [] => true
  | seen, s :: ss =>
    match s.bootname with
    | none => noDuplicateBootnames seen ss
    | some b => !seen.contains b && noDuplicateBootnames (b :: seen) ss

/-- `check_unique_slotclasses`, config_file.c:1272-1289 -/
def uniqueClasses (repos : List Str) (slots : List Slot) : Bool := slots.all (fun s => !repos.contains s.sclass)

/-- the slot part of `load_config`, config_file.c:1450-1496 -/
def loadSlots (E : Env) (kf : KeyFile) (repos : List Str) : Option (List Slot) :=
  match parseSlots E kf with
  | none => none
  | some l =>
    match resolveParents l with
    | none => none
    | some slots => if noDuplicateBootnames [] slots && uniqueClasses repos slots then some slots else none

end Rauc.Config
