import Verif.Model.Slot
import Verif.Lib.KeyFile

/-!
# Slot status and status files: src/status_file.c
-/

namespace Rauc

/-- a UTC `GDateTime` by its calendar fields -/
structure DateTime where
  year : Nat
  month : Nat
  day : Nat
  hour : Nat
  minute : Nat
  second : Nat
  usec : Nat := 0
deriving DecidableEq, Repr

def daysInMonth (y m : Nat) : Nat :=
  if m = 2 then (if y % 4 = 0 ∧ (y % 100 ≠ 0 ∨ y % 400 = 0) then 29 else 28)
  else if m = 4 ∨ m = 6 ∨ m = 9 ∨ m = 11 then 30 else 31

/-- a date that exists (GDateTime holds years 1 to 9999 only) -/
def DateTime.ok (d : DateTime) : Bool :=
  decide (1 ≤ d.year ∧ d.year ≤ 9999 ∧ 1 ≤ d.month ∧ d.month ≤ 12 ∧ 1 ≤ d.day ∧ d.day ≤ daysInMonth d.year d.month ∧
    d.hour < 24 ∧ d.minute < 60 ∧ d.second < 60)

def dec2 (n : Nat) : Str := [digitChar (n / 10), digitChar (n % 10)]

/-- `g_date_time_format(dt, "%Y-%m-%dT%H:%M:%SZ")`, include/slot.h:35 -/
def DateTime.fmt (d : DateTime) : Str :=
  toDec d.year ++ '-' :: dec2 d.month ++ '-' :: dec2 d.day ++ 'T' :: dec2 d.hour ++ ':' :: dec2 d.minute ++
    ':' :: dec2 d.second ++ ['Z']

def dig (c : Char) : Option Nat :=
  match digitVal c with | some v => if v < 10 then some v else none | none => none

def num2 (a b : Char) : Option Nat :=
  match dig a, dig b with | some x, some y => some (10 * x + y) | _, _ => none

/-- `g_date_time_new_from_iso8601(text, NULL)` on texts of the form `YYYY-MM-DDThh:mm:ssZ`;
`other` is its behaviour on all other texts (other ISO 8601 notations). -/
def parseIso (other : Str → Option DateTime) (s : Str) : Option DateTime :=
  match s with
  | [y1, y2, y3, y4, '-', m1, m2, '-', d1, d2, 'T', h1, h2, ':', n1, n2, ':', s1, s2, 'Z'] =>
    match num2 y1 y2, num2 y3 y4, num2 m1 m2, num2 d1 d2, num2 h1 h2, num2 n1 n2, num2 s1 s2 with
    | some ya, some yb, some m, some d, some h, some n, some sec =>
      let t : DateTime := ⟨100 * ya + yb, m, d, h, n, sec, 0⟩
      if t.ok then some t else none
    | _, _, _, _, _, _, _ => none
  | _ => other s

/-- `RaucSlotStatus`, include/slot.h:20-33, with `RaucChecksum` (include/checksum.h:14-19) flattened -/
structure SlotStatus where
  bundleCompatible : Option Str := none
  bundleVersion : Option Str := none
  bundleDescription : Option Str := none
  bundleBuild : Option Str := none
  bundleHash : Option Str := none
  status : Option Str := none
  digest : Option Str := none
  /-- `checksum.type == G_CHECKSUM_SHA256` -/
  sha256 : Bool := false
  /-- `checksum.size`, a goffset (signed 64 bit) -/
  size : Int := 0
  installedTxn : Option Str := none
  installedTimestamp : Option DateTime := none
  installedCount : Nat := 0
  activatedTimestamp : Option DateTime := none
  activatedCount : Nat := 0
deriving DecidableEq, Repr

/-- conversion goffset → guint64 -/
def toU64 (i : Int) : Nat := (i % 2 ^ 64).toNat
/-- conversion guint64 → goffset -/
def toI64 (n : Nat) : Int := if n < 2 ^ 63 then n else (n : Int) - 2 ^ 64

/-- `key_file_consume_string`, src/utils.c:385-409: an empty value counts as missing -/
def consumeString (kf : KeyFile) (g k : Str) : Option Str :=
  match kf.get g k with
  | some [] => none
  | r => r

/-- reading a counter, status_file.c:43-56 and :65-78: errors and values above G_MAXUINT32 give zero -/
def readCount (kf : KeyFile) (g k : Str) : Nat :=
  match (kf.get g k).bind kfUint64 with
  | none => 0
  | some c => if c > 2 ^ 32 - 1 then 0 else c

/-- `status_file_get_slot_status`, status_file.c:10-79 -/
def getSlotStatus (iso : Str → Option DateTime) (kf : KeyFile) (g : Str) : SlotStatus :=
  let digest := consumeString kf g (c!"sha256")
  { bundleCompatible := consumeString kf g (c!"bundle.compatible")
    bundleVersion := consumeString kf g (c!"bundle.version")
    bundleDescription := consumeString kf g (c!"bundle.description")
    bundleBuild := consumeString kf g (c!"bundle.build")
    bundleHash := consumeString kf g (c!"bundle.hash")
    status := consumeString kf g (c!"status")
    digest := digest
    sha256 := digest.isSome
    size := if digest.isSome then toI64 (((kf.get g (c!"size")).bind kfUint64).getD 0) else 0
    installedTimestamp := (consumeString kf g (c!"installed.timestamp")).bind (parseIso iso)
    installedCount := readCount kf g (c!"installed.count")
    activatedTimestamp := (consumeString kf g (c!"activated.timestamp")).bind (parseIso iso)
    activatedCount := readCount kf g (c!"activated.count") }

/-- `status_file_set_slot_status`, status_file.c:89-135 -/
def setSlotStatus (kf : KeyFile) (g : Str) (s : SlotStatus) : KeyFile :=
  let ck := s.digest.isSome && s.sha256
  ((((((((((((((kf.setOpt g (c!"bundle.compatible") s.bundleCompatible
  ).setOpt g (c!"bundle.version") s.bundleVersion
  ).setOpt g (c!"bundle.description") s.bundleDescription
  ).setOpt g (c!"bundle.build") s.bundleBuild
  ).setOpt g (c!"bundle.hash") s.bundleHash
  ).setOpt g (c!"status") s.status
  ).setOpt g (c!"sha256") (if ck then s.digest else none)
  ).setOpt g (c!"size") (if ck then some (toDec (toU64 s.size)) else none)
  ).setOpt g (c!"installed.transaction") s.installedTxn
  ).setOpt g (c!"installed.timestamp") (s.installedTimestamp.map DateTime.fmt)
  ).setOpt g (c!"installed.count") (if s.installedCount > 0 then some (toDec s.installedCount) else none)
  ).setOpt g (c!"activated.timestamp") (s.activatedTimestamp.map DateTime.fmt)
  ).setOpt g (c!"activated.count") (if s.activatedCount > 0 then some (toDec s.activatedCount) else none)))

/-- the shared status file as found when loading it -/
inductive FileSt
  | missing
  | broken
  | ok (kf : KeyFile)
deriving DecidableEq, Repr

def slotGroup (name : Str) : Str := c!"slot." ++ name

/-- `key_file_init_from_shared_status_file`, status_file.c:325-364 (a broken file is moved away and an
empty one used): removes all groups with the prefix -/
def initShared (f : FileSt) (pfx : Str) : KeyFile :=
  match f with
  | .ok kf => kf.filter (fun p => !(pfx.isPrefixOf p.1))
  | _ => []

/-- loop body of `save_slot_status_globally`, status_file.c:388-396: slots without loaded status are skipped -/
def saveStep (stat : Str → Option SlotStatus) (kf : KeyFile) (s : Slot) : KeyFile :=
  match stat s.name with
  | none => kf
  | some st => setSlotStatus kf (slotGroup s.name) st

/-- `save_slot_status_globally`, status_file.c:368-404. `stat` are the loaded statuses in memory.
Writing the file is atomic (g_file_set_contents); `saveOk = false` leaves the file as it was. -/
def saveGlobally (f : FileSt) (slots : List Slot) (stat : Str → Option SlotStatus) (saveOk : Bool) : FileSt :=
  if saveOk then .ok (slots.foldl (saveStep stat) (initShared f (c!"slot."))) else f

/-- `r_slot_status_load_globally`, status_file.c:218-261, for a slot not loaded before -/
def loadGlobally (iso : Str → Option DateTime) (f : FileSt) (name : Str) : SlotStatus :=
  match f with
  | .ok kf => if kf.hasGroup (slotGroup name) then getSlotStatus iso kf (slotGroup name) else {}
  | _ => {}

/-- `r_system_status_save`, status_file.c:440-467 (shared file) -/
def saveSystem (f : FileSt) (bootId : Str) (saveOk : Bool) : FileSt :=
  if saveOk then .ok ((initShared f (c!"system")).set (c!"system") (c!"boot-id") bootId) else f

/-- `r_system_status_load`, status_file.c:419-438: the boot id -/
def loadSystem (f : FileSt) : Option (Option Str) :=
  match f with
  | .ok kf => some (kf.get (c!"system") (c!"boot-id"))
  | _ => none

/-- `r_slot_status_write` + `r_slot_status_read` of a per-slot file, status_file.c:137-173 -/
def writeLocal (s : SlotStatus) : KeyFile := setSlotStatus [] (c!"slot") s
def readLocal (iso : Str → Option DateTime) (kf : KeyFile) : SlotStatus := getSlotStatus iso kf (c!"slot")

end Rauc
