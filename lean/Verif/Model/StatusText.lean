import Verif.Model.JsonView
import Verif.Model.InfoText

/-!
# The readable output of `rauc status`: `r_status_formatter_readable`, src/main.c

How `g_format_size_full` writes a size is a parameter (it depends on the locale), as in Model/InfoText.
-/

namespace Rauc.StatusText

open Rauc.StatusView (RSlot Print RepoView ArtifactView Instance stateStr bootStr rootClasses ofClass children)
open Rauc.InfoText (pstr ln bold norm green)

/-- `KRED`, `KBLU`, main.c:920, :923 -/
def red : Str := c!"\x1B[31m"
def blue : Str := c!"\x1B[34m"

/-- main.c:1462-1465: the dot of a slot with a boot name -/
def dot (utf8 prim : Bool) : Str :=
  if utf8 then [if prim then Char.ofNat 0x23FA else Char.ofNat 0x25CB]
  else if prim then bold ++ c!"x" ++ norm else c!"o"

/-- main.c:1460-1478: the first line of a slot; `slot == status->primary` is a comparison of names here (names are unique in the table). `ST_BOOTED`
contains `ST_ACTIVE`, slot.h:8-11. -/
def slotTitle (utf8 : Bool) (primary : Option Str) (s : RSlot) : Str :=
  (if s.bootname.isSome then dot utf8 (decide (primary = some s.name)) else c!" ") ++
  (if s.parent.isSome then c!"   " else c!" ") ++
  (if s.state = some .active ∨ s.state = some .booted then green else []) ++ (if s.state = some .booted then green else []) ++
  bold ++ c!"[" ++ s.name ++ c!"]" ++ norm ++ c!" (" ++ pstr s.device ++ c!", " ++ pstr s.typ ++ c!", " ++
  (if s.state = some .booted then bold else []) ++ pstr (stateStr s.state) ++ norm ++ c!")"

/-- main.c:1488-1519: the recorded data of a slot -/
def detailLines (fmt : Int → Str) (st : SlotStatus) : List Str :=
  [c!"      slot status:", c!"          bundle:", c!"              compatible=" ++ pstr st.bundleCompatible] ++
  (st.bundleVersion.map (c!"              version=" ++ ·)).toList ++
  (st.bundleDescription.map (c!"              description=" ++ ·)).toList ++
  (st.bundleBuild.map (c!"              build=" ++ ·)).toList ++
  (st.bundleHash.map (c!"              hash=" ++ ·)).toList ++
  (if st.digest.isSome ∧ st.sha256 then
    [c!"          checksum:", c!"              sha256=" ++ pstr st.digest, c!"              size=" ++ fmt st.size] else []) ++
  [c!"          installed:"] ++
  (st.installedTimestamp.map (fun t => c!"              timestamp=" ++ t.fmt)).toList ++
  (st.installedTimestamp.map (fun _ => c!"              count=" ++ toDec st.installedCount)).toList ++
  (st.installedTxn.map (c!"              transaction=" ++ ·)).toList ++
  (if st.activatedTimestamp.isSome then [c!"          activated:"] else []) ++
  (st.activatedTimestamp.map (fun t => c!"              timestamp=" ++ t.fmt)).toList ++
  (st.activatedTimestamp.map (fun _ => c!"              count=" ++ toDec st.activatedCount)).toList ++
  (st.status.map (c!"          status=" ++ ·)).toList

/-- main.c:1479-1519: the lines of a slot after the first -/
def slotRest (fmt : Int → Str) (detailed : Bool) (s : RSlot) : List Str :=
  (s.bootname.map (fun b => c!"      bootname: " ++ blue ++ b ++ norm)).toList ++
  (s.description.map (c!"      description: " ++ ·)).toList ++
  (s.mountPoint.map (c!"      mounted: " ++ ·)).toList ++
  (s.bootname.map (fun _ => c!"      boot status: " ++ (if s.bootState = some true then green else red) ++ bootStr s.bootState ++ norm)).toList ++
  (if detailed then s.status.toList.flatMap (detailLines fmt) else [])

/-- `r_string_append_slot`, main.c:1454-1521 -/
def slotLines (fmt : Int → Str) (utf8 detailed : Bool) (primary : Option Str) (s : RSlot) : List Str :=
  slotTitle utf8 primary s :: slotRest fmt detailed s

/-- main.c:1563-1588: an instance -/
def instLines (hasParent : Bool) (x : Instance) : List Str :=
  [c!"      checksum: " ++ x.checksum,
   if hasParent then (if x.refs.isEmpty then c!"        references: (none)" else c!"        references: '" ++ join ' ' x.refs ++ c!"'")
   else (if x.refs.isEmpty then c!"        inactive" else c!"        active")]

/-- main.c:1553-1589: an artifact -/
def artLines (hasParent : Bool) (a : ArtifactView) : List Str :=
  (c!"    " ++ bold ++ c!"[" ++ a.name ++ c!"]" ++ norm) :: a.instances.flatMap (instLines hasParent)

/-- main.c:1538-1589: the lines of a repository after the first -/
def repoRest (r : RepoView) : List Str :=
  (r.typ.map (c!"  type: " ++ ·)).toList ++ (r.parentClass.map (c!"  parent class: " ++ ·)).toList ++
  [if r.artifacts.isEmpty then c!"  artifacts: (none)" else c!"  artifacts:"] ++
  r.artifacts.flatMap (artLines r.parentClass.isSome)

/-- `r_string_append_repo`, main.c:1523-1592. The line of the name ends with the path: without a path there would be no line break; the service
always sends one (artifacts.c:673, a repository without a path is refused by the configuration parser). -/
def repoText (r : RepoView) : Str :=
  bold ++ c!"[" ++ r.name ++ c!"]" ++ norm ++ c!" " ++ (r.path.toList.flatMap (fun p => ln (c!"(" ++ p ++ c!")"))) ++ (repoRest r).flatMap ln

/-- `r_slot_get_booted`, slot.c:79-94 -/
def bootedName (slots : List RSlot) : Option Str := (slots.find? (fun s => decide (s.state = some .booted))).map (·.name)

/-- main.c:1604-1616: the part before the slots -/
def headLines (p : Print) : List Str :=
  [c!"=== System Info ===",
   c!"Compatible:     " ++ pstr p.compatible, c!"Variant:        " ++ pstr p.variant, c!"System Version: " ++ pstr p.version,
   c!"Booted from:    " ++ pstr (bootedName p.slots) ++ c!" (" ++ pstr p.bootslot ++ c!")", [],
   c!"=== Bootloader ===",
   (if p.primary.isNone then c!"Activated: none"
    else c!"Activated: " ++ pstr p.primary ++ c!" (" ++ pstr ((p.slots.find? (fun s => decide (p.primary = some s.name))).bind (·.bootname)) ++ c!")"), [],
   c!"=== Slot States ==="]

/-- main.c:1620-1640: the slots; an empty line follows each slot with its children -/
def slotsLines (fmt : Int → Str) (utf8 detailed : Bool) (p : Print) : List Str :=
  (rootClasses p.slots).flatMap (fun k => (ofClass p.slots k).flatMap (fun s =>
    (s :: children p.slots s).flatMap (slotLines fmt utf8 detailed p.primary) ++ [[]]))

/-- main.c:1642-1652: the repositories -/
def reposText (p : Print) : Str :=
  if p.repos.isEmpty then [] else ln c!"=== Artifact Repo States ===" ++ p.repos.flatMap (fun r => repoText r ++ ln [])

/-- `r_status_formatter_readable`, main.c:1594-1655; `none` is the abort on a slot whose state is unknown (slot.c:127) -/
def statusReadable (fmt : Int → Str) (utf8 detailed : Bool) (p : Print) : Option Str :=
  if p.slots.any (fun s => decide (s.state = none)) then none
  else some ((headLines p ++ slotsLines fmt utf8 detailed p).flatMap ln ++ reposText p)

/-- `rauc status` with a service, main.c:2200-2275 -/
def raucStatusReadable (iso : Str → Option DateTime) (ord : List RSlot → List RSlot) (fmt : Int → Str) (utf8 detailed : Bool) (S : StatusView.Server) : Option Str :=
  (StatusView.retrieveStatus iso ord detailed S).bind (statusReadable fmt utf8 detailed)

end Rauc.StatusText
