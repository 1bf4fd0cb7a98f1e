import Verif.Model.Json
import Verif.Model.StatusView

/-!
# The JSON output of `rauc info` and `rauc status`, src/main.c:1168-1318, :1805-1948, and the order of slots in the readable output, :1594-1654
-/

namespace Rauc.StatusView

open Json (ostr)

/-- `strv_to_json_array`, main.c:1172-1182, and `ptrarray_to_json_array`, main.c:1186-1195 -/
def strArr (l : List Str) : Json := .arr (l.map .str)

/-- main.c:1229-1271: one image -/
def imageJson (i : Image) : Json :=
  .obj [(i.slotclass, .obj ([(c!"artifact", ostr i.artifact), (c!"variant", ostr i.variant), (c!"filename", ostr i.filename), (c!"type", ostr i.typ),
    (c!"checksum", ostr i.digest), (c!"size", .num i.size), (c!"hooks", strArr (hookWords i.hooks)), (c!"adaptive", strArr (i.adaptive.getD []))] ++
    opt c!"convert" (i.convert.map strArr) ++ opt c!"converted" (i.converted.map strArr)))]

/-- `info_formatter_json_base`, main.c:1199-1292: the document -/
def infoJson (m : Manifest) : Json :=
  .obj [(c!"compatible", .str m.compatible), (c!"version", ostr m.version), (c!"description", ostr m.description), (c!"build", ostr m.build),
    (c!"format", .str (formatStr m.format)), (c!"hooks", strArr (if m.installCheck then [c!"install-check"] else [])), (c!"hash", ostr m.hash),
    (c!"images", .arr (m.images.map imageJson))]

/-- the layouts of `json` and `json-pretty` -/
def layout (pretty : Bool) : Json.Layout := if pretty then Json.pretty else Json.compact

/-- `rauc info --output-format=json` and `=json-pretty`, main.c:1295-1302 -/
def infoText (pretty : Bool) (m : Manifest) : Str := Json.gen (layout pretty) 0 (infoJson m)

/-- `json_gvariant_serialize` (json-glib) for `s`, `t`, `as`: 64 bit numbers become signed -/
def ivalJson : IVal → Json
  | .str v => .str v
  | .num n => .num (toI64 n)
  | .strv l => strArr l

def groupJson (l : List (Str × IVal)) : Json := .obj (l.map (fun e => (e.1, ivalJson e.2)))

/-- `json_gvariant_serialize` (json-glib) for `s`, `a{sv}`, `aa{sv}`, `a{sa{ss}}` -/
def rvalJson : RVal → Json
  | .str v => .str v
  | .grp l => groupJson l
  | .arr l => .arr (l.map groupJson)
  | .metas l => .obj (l.map (fun e => (e.1, .obj (e.2.map (fun x => (x.1, .str x.2))))))

/-- the document of `json-2` -/
def info2Json (m : Manifest) : Json := .obj ((manifestDict m).map (fun e => (e.1, rvalJson e.2)))

/-- `info_formatter_json_2`, main.c:1305-1318 -/
def info2Text (m : Manifest) : Str := Json.gen Json.pretty 0 (info2Json m)

/-- main.c:1872-1925: the recorded data of a slot -/
def statusJson (st : SlotStatus) : Json :=
  .obj ([(c!"bundle", .obj ([(c!"compatible", ostr st.bundleCompatible)] ++ opt c!"version" (st.bundleVersion.map .str) ++
      opt c!"description" (st.bundleDescription.map .str) ++ opt c!"build" (st.bundleBuild.map .str) ++ opt c!"hash" (st.bundleHash.map .str)))] ++
    opt c!"checksum" (if st.sha256 then st.digest.map (fun g => .obj [(c!"sha256", .str g), (c!"size", .num st.size)]) else none) ++
    opt c!"installed" (st.installedTimestamp.map (fun t => .obj [(c!"timestamp", .str t.fmt), (c!"count", .num st.installedCount)])) ++
    opt c!"activated" (st.activatedTimestamp.map (fun t => .obj [(c!"timestamp", .str t.fmt), (c!"count", .num st.activatedCount)])) ++
    opt c!"status" (st.status.map .str))

/-- main.c:1843-1929: one slot (the state is known) -/
def slotJson (detailed : Bool) (s : RSlot) : Json :=
  .obj [(s.name, .obj ([(c!"class", ostr s.sclass), (c!"device", ostr s.device), (c!"type", ostr s.typ), (c!"bootname", ostr s.bootname),
    (c!"state", ostr (stateStr s.state)), (c!"parent", ostr s.parent), (c!"mountpoint", ostr s.mountPoint),
    (c!"boot_status", ostr (s.bootname.map (fun _ => bootStr s.bootState)))] ++
    opt c!"slot_status" (if detailed then s.status.map statusJson else none)))]

/-- `json_gvariant_serialize` of the reply of GetArtifactStatus, see `RepoView` -/
def repoJson (r : RepoView) : Json :=
  .obj ([(c!"name", .str r.name)] ++ opt c!"description" (r.description.map .str) ++ opt c!"path" (r.path.map .str) ++ opt c!"type" (r.typ.map .str) ++
    opt c!"parent-class" (r.parentClass.map .str) ++
    [(c!"artifacts", .arr (r.artifacts.map (fun a => .obj [(c!"name", .str a.name),
      (c!"instances", .arr (a.instances.map (fun x => .obj [(c!"checksum", .str x.checksum), (c!"references", strArr x.refs)])))])))])

/-- the document of `r_status_formatter_json`, main.c:1805-1948 -/
def printJson (detailed : Bool) (p : Print) : Json :=
  .obj [(c!"compatible", ostr p.compatible), (c!"variant", ostr p.variant), (c!"system_version", ostr p.version), (c!"booted", ostr p.bootslot),
    (c!"boot_primary", ostr p.primary), (c!"slots", .arr (p.slots.map (slotJson detailed))), (c!"artifact-repositories", .arr (p.repos.map repoJson))]

/-- `r_status_formatter_json`, main.c:1805-1948; `none` is the abort on a slot whose state is unknown (slot.c:127) -/
def statusText (pretty detailed : Bool) (p : Print) : Option Str :=
  if p.slots.any (fun s => decide (s.state = none)) then none else some (Json.gen (layout pretty) 0 (printJson detailed p))

/-- `rauc status --output-format=json` and `=json-pretty` with a service, main.c:2200-2275 -/
def raucStatusJson (iso : Str → Option DateTime) (ord : List RSlot → List RSlot) (pretty detailed : Bool) (S : Server) : Option Str :=
  match retrieveStatus iso ord detailed S with
  | none => none
  | some p => statusText pretty detailed p

/-! ## Readable output -/

/-- `g_ptr_array_remove_fast` (GLib): the first such element is replaced by the last element of the array -/
def removeFast (k : Option Str) : List (Option Str) → List (Option Str)
  | [] => []
  | x :: l => if x = k then (match l.getLast? with | none => [] | some z => z :: l.dropLast) else x :: removeFast k l

/-- slot.c:361-363: `g_ptr_array_remove_fast` followed by `g_ptr_array_add` -/
def readd (l : List (Option Str)) (k : Option Str) : List (Option Str) := removeFast k l ++ [k]

/-- `r_slot_get_root_classes`, slot.c:343-369 -/
def rootClasses (slots : List RSlot) : List (Option Str) :=
  (slots.filter (fun s => s.parent.isNone)).foldl (fun l s => readd l s.sclass) []

/-- `r_slot_get_all_of_class`, slot.c:389-407 -/
def ofClass (slots : List RSlot) (k : Option Str) : List RSlot := slots.filter (fun s => decide (s.sclass = k))

/-- `r_slot_get_all_children`, slot.c:409-431, with `r_slot_get_parent_root`: parents have no parents (config_file.c:20-56) -/
def children (slots : List RSlot) (p : RSlot) : List RSlot := slots.filter (fun s => decide (s.name ≠ p.name) && decide (s.parent = some p.name))

/-- the slots in the order in which `r_status_formatter_readable` prints them, main.c:1620-1640 -/
def readableSlots (slots : List RSlot) : List RSlot :=
  (rootClasses slots).flatMap (fun k => (ofClass slots k).flatMap (fun s => s :: children slots s))

end Rauc.StatusView
