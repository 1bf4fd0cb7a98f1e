import Verif.Model.Select
import Verif.Model.Utils
import Verif.Model.Manifest

/-!
# What the user is shown: GetSlotStatus (src/service.c), `rauc status` and `rauc info` (src/main.c)
-/

namespace Rauc.StatusView

/-! ## The service -/

/-- `RaucSlot` at runtime, include/slot.h:37-82, as far as it is shown. A NULL string is `none`, `ST_UNKNOWN` (of the slot state and of the
boot state) is `none`; the parent is given by its name (a pointer to an element of the same table in the code). -/
structure RSlot where
  name : Str
  sclass : Option Str := none
  device : Option Str := none
  typ : Option Str := none
  bootname : Option Str := none
  state : Option Select.State := none
  description : Option Str := none
  parent : Option Str := none
  mountPoint : Option Str := none
  extMountPoint : Option Str := none
  /-- `some true` is `ST_BOOT_GOOD` -/
  bootState : Option Bool := none
  status : Option SlotStatus := none
deriving DecidableEq, Repr

/-- a value in a D-Bus dictionary: `s`, `t` (64 bit), `u` (32 bit) -/
inductive DVal where
  | s (v : Str)
  | t (n : Nat)
  | u (n : Nat)
deriving DecidableEq, Repr

/-- a D-Bus dictionary `a{sv}` -/
abbrev Dict := List (Str × DVal)

/-- `g_variant_dict_insert` (GLib): replaces -/
def Dict.insert (d : Dict) (k : Str) (v : DVal) : Dict := (k, v) :: d.filter (fun p => decide (p.1 ≠ k))

/-- an insertion guarded by a NULL check -/
def Dict.insertS (d : Dict) (k : Str) (v : Option Str) : Dict :=
  match v with | none => d | some x => d.insert k (.s x)

/-- the value of a key -/
def Dict.get (d : Dict) (k : Str) : Option DVal := (d.find? (fun p => decide (p.1 = k))).map (·.2)

/-- `g_variant_dict_lookup(d, k, "s", ...)`: nothing if missing or of another type -/
def Dict.getS (d : Dict) (k : Str) : Option Str := match d.get k with | some (.s v) => some v | _ => none
/-- the same for `"t"` -/
def Dict.getT (d : Dict) (k : Str) : Option Nat := match d.get k with | some (.t v) => some v | _ => none
/-- the same for `"u"` -/
def Dict.getU (d : Dict) (k : Str) : Option Nat := match d.get k with | some (.u v) => some v | _ => none

/-- `r_slot_slotstate_to_str`, slot.c:115-132; `none` is the abort of `g_error` -/
def stateStr : Option Select.State → Option Str
  | some .active => some c!"active"
  | some .inactive => some c!"inactive"
  | some .booted => some c!"booted"
  | none => none

/-- `r_slot_str_to_slotstate`, slot.c:134-145 -/
def strState (s : Option Str) : Option Select.State :=
  if s = some c!"active" then some .active
  else if s = some c!"inactive" then some .inactive
  else if s = some c!"booted" then some .booted
  else none

/-- `r_slot_bootstate_to_str`, slot.c:97-113 -/
def bootStr : Option Bool → Str
  | none => c!"unknown"
  | some true => c!"good"
  | some false => c!"bad"

/-- `convert_slot_status_to_dict`, service.c:301-372; `st` is the status after `r_slot_status_load` -/
def toDict (s : RSlot) (st : SlotStatus) : Dict :=
  let d : Dict := []
  let d := d.insertS c!"class" s.sclass
  let d := d.insertS c!"device" s.device
  let d := d.insertS c!"type" s.typ
  let d := d.insertS c!"bootname" s.bootname
  let d := d.insertS c!"state" (stateStr s.state)
  let d := d.insertS c!"description" s.description
  let d := d.insertS c!"parent" s.parent
  let d := d.insertS c!"mountpoint" (match s.mountPoint with | some m => some m | none => s.extMountPoint)
  let d := d.insertS c!"boot-status" (match s.bootname with | some _ => some (bootStr s.bootState) | none => none)
  let d := d.insertS c!"bundle.compatible" st.bundleCompatible
  let d := d.insertS c!"bundle.version" st.bundleVersion
  let d := d.insertS c!"bundle.description" st.bundleDescription
  let d := d.insertS c!"bundle.build" st.bundleBuild
  let d := d.insertS c!"bundle.hash" st.bundleHash
  let d := d.insertS c!"status" st.status
  let d := match st.digest, st.sha256 with
    | some g, true => (d.insert c!"sha256" (.s g)).insert c!"size" (.t (toU64 st.size))
    | _, _ => d
  let d := d.insertS c!"installed.transaction" st.installedTxn
  let d := match st.installedTimestamp with
    | some t => (d.insert c!"installed.timestamp" (.s t.fmt)).insert c!"installed.count" (.u st.installedCount)
    | none => d
  match st.activatedTimestamp with
    | some t => (d.insert c!"activated.timestamp" (.s t.fmt)).insert c!"activated.count" (.u st.activatedCount)
    | none => d

/-- `create_slotstatus_array`, service.c:377-421: the reply of GetSlotStatus. `load` is `r_slot_status_load`: the status in memory, read
on first use. `slots` are the slots after `update_external_mount_points` and `determine_boot_states`, in the order of the hash table. -/
def slotStatusArray (load : RSlot → SlotStatus) (slots : List RSlot) : List (Str × Dict) := slots.map (fun s => (s.name, toDict s (load s)))

/-- the loop body of `determine_boot_states`, install.c:243-276; `get` is `r_boot_get_state`, `none` its failure -/
def bootStates (get : RSlot → Option Bool) (s : RSlot) : RSlot :=
  match s.bootname with
  | none => s
  | some _ => { s with bootState := get s }

/-! ## The client -/

/-- `r_variant_get_slot_state`, main.c:1950-1978 -/
def statusOfDict (iso : Str → Option DateTime) (d : Dict) : SlotStatus :=
  { bundleCompatible := d.getS c!"bundle.compatible"
    bundleVersion := d.getS c!"bundle.version"
    bundleDescription := d.getS c!"bundle.description"
    bundleBuild := d.getS c!"bundle.build"
    bundleHash := d.getS c!"bundle.hash"
    status := d.getS c!"status"
    digest := d.getS c!"sha256"
    sha256 := (d.getS c!"sha256").isSome
    size := match d.getT c!"size" with | some n => toI64 n | none => 0
    installedTxn := d.getS c!"installed.transaction"
    installedTimestamp := (d.getS c!"installed.timestamp").bind (parseIso iso)
    installedCount := (d.getU c!"installed.count").getD 0
    activatedTimestamp := (d.getS c!"activated.timestamp").bind (parseIso iso)
    activatedCount := (d.getU c!"activated.count").getD 0 }

/-- the body of the first loop of `retrieve_slot_states_via_dbus`, main.c:2030-2083, for a slot not seen before -/
def slotOfDict (iso : Str → Option DateTime) (detailed : Bool) (name : Str) (d : Dict) : RSlot :=
  { name := name
    sclass := d.getS c!"class"
    device := d.getS c!"device"
    typ := d.getS c!"type"
    bootname := d.getS c!"bootname"
    state := strState (d.getS c!"state")
    description := d.getS c!"description"
    parent := d.getS c!"parent"
    mountPoint := d.getS c!"mountpoint"
    bootState :=
      if d.getS c!"boot-status" = some c!"good" then some true
      else if d.getS c!"boot-status" = some c!"bad" then some false
      else none
    status := if detailed then some (statusOfDict iso d) else none }

/-- main.c:2038-2042: a name that exists already is skipped -/
def addSlot (iso : Str → Option DateTime) (detailed : Bool) (acc : List RSlot) (p : Str × Dict) : List RSlot :=
  if acc.any (fun s => decide (s.name = p.1)) then acc else acc ++ [slotOfDict iso detailed p.1 p.2]

/-- `retrieve_slot_states_via_dbus`, main.c:1988-2105; `none` is the failed assertion on a missing parent (:2094). -/
def retrieveSlots (iso : Str → Option DateTime) (detailed : Bool) (reply : List (Str × Dict)) : Option (List RSlot) :=
  let l := reply.foldl (addSlot iso detailed) []
  if l.all (fun s => match s.parent with | none => true | some p => l.any (fun q => decide (q.name = p))) then some l else none

/-- an instance of an artifact in the reply of GetArtifactStatus -/
structure Instance where
  checksum : Str
  refs : List Str
deriving DecidableEq, Repr

structure ArtifactView where
  name : Str
  instances : List Instance
deriving DecidableEq, Repr

/-- a repository in the reply of GetArtifactStatus: `r_artifacts_to_dict`, artifacts.c:655-710 (the nested dictionaries as a structure; the
entries present are exactly the fields that are not `none`) -/
structure RepoView where
  name : Str
  description : Option Str := none
  path : Option Str := none
  typ : Option Str := none
  parentClass : Option Str := none
  artifacts : List ArtifactView := []
deriving DecidableEq, Repr

/-- `RaucStatusPrint`, main.c:1425-1434 -/
structure Print where
  compatible : Option Str
  variant : Option Str
  version : Option Str
  bootslot : Option Str
  primary : Option Str
  slots : List RSlot
  repos : List RepoView := []
deriving DecidableEq, Repr

/-- what the service knows; `primary` is the answer of GetPrimary, `none` if it fails -/
structure Server where
  compatible : Option Str
  variant : Option Str
  version : Option Str
  bootslot : Option Str
  primary : Option Str
  slots : List RSlot
  load : RSlot → SlotStatus
  repos : List RepoView := []

/-- a string property on D-Bus: NULL becomes the empty string (GLib) -/
def prop (s : Option Str) : Option Str := some (s.getD [])

/-- `retrieve_status_via_dbus`, main.c:2114-2180 (no call except GetPrimary fails); `ord` is the order in which the
client's hash table is iterated -/
def retrieveStatus (iso : Str → Option DateTime) (ord : List RSlot → List RSlot) (detailed : Bool) (S : Server) : Option Print :=
  match retrieveSlots iso detailed (slotStatusArray S.load S.slots) with
  | none => none
  | some l =>
    some { compatible := prop S.compatible, variant := prop S.variant, version := prop S.version, bootslot := prop S.bootslot
           primary := match S.primary with
             | none => none
             | some p => (l.find? (fun s => decide (s.name = p))).map (·.name)
           slots := ord l, repos := S.repos }

/-! ## Shell output -/

/-- a NULL argument of `%s` (glibc) -/
def pstr (s : Option Str) : Str := s.getD c!"(null)"

/-- `s ?: ""` -/
def estr (s : Option Str) : Str := s.getD []

/-- `%" G_GOFFSET_FORMAT` -/
def decInt : Int → Str
  | .ofNat n => toDec n
  | .negSucc n => '-' :: toDec (n + 1)

/-- a variable: name, numbers appended to the name, value -/
structure Var where
  base : Str
  idx : List Nat := []
  value : Str
deriving DecidableEq, Repr

/-- `"%s_%d..."` -/
def Var.name (v : Var) : Str := v.base ++ v.idx.flatMap (fun i => '_' :: toDec i)

/-- `"NAME=value"` -/
def Var.entry (v : Var) : Str := v.name ++ '=' :: v.value

/-- `"1 2 ... n"` -/
def numbers (n : Nat) : Str := join ' ' ((List.range n).map (fun i => toDec (i + 1)))

/-- `formatter_shell_append_idx_str`, main.c:929-950; a missing index is not in the list -/
def countVar (base : Str) (idx : List Nat) (cnt : Nat) : Var := ⟨base, idx, numbers cnt⟩

/-- loop bodies run with a counter, main.c:1687-1690 and similar -/
def countFrom {α : Type} (f : Nat → α → List Var) : Nat → List α → List Var
  | _, [] => []
  | n, x :: r => f n x ++ countFrom f (n + 1) r

/-- main.c:1702-1730: the detailed part for slot number `i` -/
def detailVars (i : Nat) (st : SlotStatus) : List Var :=
  [⟨c!"RAUC_SLOT_STATUS_BUNDLE_COMPATIBLE", [i], estr st.bundleCompatible⟩,
   ⟨c!"RAUC_SLOT_STATUS_BUNDLE_VERSION", [i], estr st.bundleVersion⟩,
   ⟨c!"RAUC_SLOT_STATUS_BUNDLE_DESCRIPTION", [i], estr st.bundleDescription⟩,
   ⟨c!"RAUC_SLOT_STATUS_BUNDLE_BUILD", [i], estr st.bundleBuild⟩,
   ⟨c!"RAUC_SLOT_STATUS_BUNDLE_HASH", [i], estr st.bundleHash⟩,
   ⟨c!"RAUC_SLOT_STATUS_CHECKSUM_SHA256", [i], estr st.digest⟩,
   ⟨c!"RAUC_SLOT_STATUS_CHECKSUM_SIZE", [i], decInt st.size⟩,
   ⟨c!"RAUC_SLOT_STATUS_INSTALLED_TIMESTAMP", [i], estr (st.installedTimestamp.map DateTime.fmt)⟩,
   ⟨c!"RAUC_SLOT_STATUS_INSTALLED_COUNT", [i], toDec st.installedCount⟩,
   ⟨c!"RAUC_SLOT_STATUS_ACTIVATED_TIMESTAMP", [i], estr (st.activatedTimestamp.map DateTime.fmt)⟩,
   ⟨c!"RAUC_SLOT_STATUS_ACTIVATED_COUNT", [i], toDec st.activatedCount⟩,
   ⟨c!"RAUC_SLOT_STATUS_STATUS", [i], estr st.status⟩]

/-- main.c:1697-1700 -/
def bootField (s : RSlot) : Str :=
  match s.bootname with
  | some _ => bootStr s.bootState
  | none => []

/-- main.c:1687-1731: slot number `i`; the state is known (`slotsOk`) -/
def slotVars (detailed : Bool) (i : Nat) (s : RSlot) : List Var :=
  [⟨c!"RAUC_SLOT_STATE", [i], pstr (stateStr s.state)⟩,
   ⟨c!"RAUC_SLOT_CLASS", [i], pstr s.sclass⟩,
   ⟨c!"RAUC_SLOT_DEVICE", [i], pstr s.device⟩,
   ⟨c!"RAUC_SLOT_TYPE", [i], pstr s.typ⟩,
   ⟨c!"RAUC_SLOT_BOOTNAME", [i], estr s.bootname⟩,
   ⟨c!"RAUC_SLOT_PARENT", [i], estr s.parent⟩,
   ⟨c!"RAUC_SLOT_MOUNTPOINT", [i], estr s.mountPoint⟩,
   ⟨c!"RAUC_SLOT_BOOT_STATUS", [i], bootField s⟩] ++
  (match detailed, s.status with
   | true, some st => detailVars i st
   | _, _ => [])

/-- main.c:1769-1788: instance number `k` of artifact `j` of repository `i` -/
def instanceVars (hasParent : Bool) (i j k : Nat) (x : Instance) : List Var :=
  [⟨c!"RAUC_REPO_ARTIFACT_INSTANCE_CHECKSUM", [i, j, k], x.checksum⟩,
   if hasParent then ⟨c!"RAUC_REPO_ARTIFACT_INSTANCE_REFERENCES", [i, j, k], join ' ' x.refs⟩
   else ⟨c!"RAUC_REPO_ARTIFACT_INSTANCE_ACTIVE", [i, j, k], match x.refs with | [] => c!"0" | _ :: _ => c!"1"⟩]

/-- main.c:1756-1791: artifact number `j` of repository `i` -/
def artifactVars (hasParent : Bool) (i j : Nat) (a : ArtifactView) : List Var :=
  [⟨c!"RAUC_REPO_ARTIFACT_NAME", [i, j], a.name⟩] ++ countFrom (instanceVars hasParent i j) 1 a.instances ++
  [countVar c!"RAUC_REPO_ARTIFACT_INSTANCES" [i, j] a.instances.length]

/-- a variable that is only printed if the entry exists -/
def optVar (base : Str) (i : Nat) : Option Str → List Var
  | none => []
  | some v => [⟨base, [i], v⟩]

/-- main.c:1736-1794: repository number `i` -/
def repoVars (i : Nat) (r : RepoView) : List Var :=
  [⟨c!"RAUC_REPO_NAME", [i], r.name⟩] ++ optVar c!"RAUC_REPO_PATH" i r.path ++ optVar c!"RAUC_REPO_TYPE" i r.typ ++
  optVar c!"RAUC_REPO_PARENT_CLASS" i r.parentClass ++
  countFrom (artifactVars r.parentClass.isSome i) 1 r.artifacts ++ [countVar c!"RAUC_REPO_ARTIFACTS" [i] r.artifacts.length]

/-- the variables of `r_status_formatter_shell`, main.c:1656-1803 -/
def statusVars (detailed : Bool) (p : Print) : List Var :=
  [⟨c!"RAUC_SYSTEM_COMPATIBLE", [], pstr p.compatible⟩,
   ⟨c!"RAUC_SYSTEM_VARIANT", [], pstr p.variant⟩,
   ⟨c!"RAUC_SYSTEM_VERSION", [], pstr p.version⟩,
   ⟨c!"RAUC_SYSTEM_BOOTED_BOOTNAME", [], pstr p.bootslot⟩,
   ⟨c!"RAUC_BOOT_PRIMARY", [], pstr p.primary⟩,
   ⟨c!"RAUC_SYSTEM_SLOTS", [], join ' ' (p.slots.map (·.name))⟩,
   ⟨c!"RAUC_SLOTS", [], numbers p.slots.length⟩] ++
  countFrom (slotVars detailed) 1 p.slots ++ countFrom repoVars 1 p.repos ++ [countVar c!"RAUC_REPOS" [] p.repos.length]

/-- `r_status_formatter_shell`, main.c:1656-1803; `none` is an abort: a slot whose state is unknown (slot.c:127), or an entry without `=` -/
def statusShell (detailed : Bool) (p : Print) : Option Str :=
  if p.slots.any (fun s => decide (s.state = none)) then none
  else Utils.envToShell ((statusVars detailed p).map Var.entry)

/-- `rauc status --output-format=shell`, main.c:2200-2275 with a service -/
def raucStatus (iso : Str → Option DateTime) (ord : List RSlot → List RSlot) (detailed : Bool) (S : Server) : Option Str :=
  match retrieveStatus iso ord detailed S with
  | none => none
  | some p => statusShell detailed p

/-! ## `rauc info --output-format=shell` -/

/-- `r_manifest_bundle_format_to_str`, include/manifest.h:255-268 -/
def formatStr : Format → Str
  | .plain => c!"plain"
  | .verity => c!"verity"
  | .crypt => c!"crypt"

/-- main.c:992-1004: the hooks of an image -/
def hookWords (h : SlotHooks) : List Str :=
  (if h.preInstall then [c!"pre-install"] else []) ++ (if h.install then [c!"install"] else []) ++
  (if h.postInstall then [c!"post-install"] else [])

/-- main.c:984-1032: image number `i` -/
def imageVars (i : Nat) (m : Image) : List Var :=
  [⟨c!"RAUC_IMAGE_NAME", [i], estr m.filename⟩,
   ⟨c!"RAUC_IMAGE_CLASS", [i], m.slotclass⟩,
   ⟨c!"RAUC_IMAGE_ARTIFACT", [i], estr m.artifact⟩,
   ⟨c!"RAUC_IMAGE_VARIANT", [i], estr m.variant⟩,
   ⟨c!"RAUC_IMAGE_DIGEST", [i], estr m.digest⟩,
   ⟨c!"RAUC_IMAGE_SIZE", [i], decInt m.size⟩,
   ⟨c!"RAUC_IMAGE_HOOKS", [i], join ' ' (hookWords m.hooks)⟩] ++
  optVar c!"RAUC_IMAGE_ADAPTIVE" i (m.adaptive.map (join ' ')) ++ optVar c!"RAUC_IMAGE_CONVERT" i (m.convert.map (join ' ')) ++
  optVar c!"RAUC_IMAGE_CONVERTED" i (m.converted.map (join ' '))

/-- main.c:959-965: variables before the meta data -/
def manifestVars (m : Manifest) : List Var :=
  [⟨c!"RAUC_MF_COMPATIBLE", [], m.compatible⟩,
   ⟨c!"RAUC_MF_VERSION", [], estr m.version⟩,
   ⟨c!"RAUC_MF_DESCRIPTION", [], estr m.description⟩,
   ⟨c!"RAUC_MF_BUILD", [], estr m.build⟩,
   ⟨c!"RAUC_MF_HASH", [], estr m.hash⟩,
   ⟨c!"RAUC_MF_FORMAT", [], formatStr m.format⟩,
   ⟨c!"RAUC_MF_IMAGES", [], toDec m.images.length⟩,
   ⟨c!"RAUC_MF_HOOKS", [], if m.installCheck then c!"install-check" else []⟩]

/-- `info_formatter_shell`, main.c:952-1035 -/
def infoShell (m : Manifest) : Option Str :=
  Utils.envToShell ((manifestVars m).map Var.entry ++ Utils.shellFromMeta m.metas ++ (countFrom imageVars 0 m.images).map Var.entry)

/-! ## InspectBundle and `rauc info --output-format=json-2` -/

/-- a value in a group of the dictionary: `s`, `t`, `as` -/
inductive IVal where
  | str (v : Str)
  | num (n : Nat)
  | strv (l : List Str)
deriving DecidableEq, Repr

/-- a value of the dictionary: `s`, `a{sv}`, `aa{sv}`, `a{sa{ss}}` -/
inductive RVal where
  | str (v : Str)
  | grp (l : List (Str × IVal))
  | arr (l : List (List (Str × IVal)))
  | metas (l : List (Str × List (Str × Str)))
deriving DecidableEq, Repr

/-- an entry that is only present if there is a value -/
def opt {α : Type} (k : Str) : Option α → List (Str × α)
  | none => []
  | some v => [(k, v)]

/-- an image, manifest.c:1201-1236 -/
def imageDict (i : Image) : List (Str × IVal) :=
  [(c!"slot-class", .str i.slotclass)] ++ opt c!"artifact" (i.artifact.map .str) ++ opt c!"variant" (i.variant.map .str) ++
  opt c!"filename" (i.filename.map .str) ++ opt c!"type" (i.typ.map .str) ++ opt c!"checksum" (i.digest.map .str) ++
  opt c!"size" (if i.size = 0 then none else some (.num (toU64 i.size))) ++ [(c!"hooks", .strv (hookWords i.hooks))] ++
  opt c!"adaptive" (i.adaptive.map .strv) ++ opt c!"convert" (i.convert.map .strv) ++ opt c!"converted" (i.converted.map .strv)

/-- `r_manifest_to_dict`, manifest.c:1136-1267: the reply of InspectBundle and the document of `rauc info --output-format=json-2`.
Dictionaries are lists of entries with distinct keys in the order of insertion. -/
def manifestDict (m : Manifest) : List (Str × RVal) :=
  opt c!"manifest-hash" (m.hash.map .str) ++
  [(c!"update", .grp ([(c!"compatible", .str m.compatible)] ++ opt c!"version" (m.version.map .str) ++
      opt c!"description" (m.description.map .str) ++ opt c!"build" (m.build.map .str))),
   (c!"bundle", .grp ([(c!"format", .str (formatStr m.format))] ++ opt c!"verity-hash" (m.verityHash.map .str) ++
      opt c!"verity-salt" (m.veritySalt.map .str) ++ opt c!"verity-size" (if m.veritySize = 0 then none else some (.num m.veritySize))))] ++
  opt c!"hooks" (m.hookName.map (fun f => .grp [(c!"filename", .str f), (c!"hooks", .strv (if m.installCheck then [c!"install-check"] else []))])) ++
  opt c!"handler" (m.handlerName.map (fun f => .grp ([(c!"filename", .str f)] ++ opt c!"args" (m.handlerArgs.map .str)))) ++
  [(c!"images", .arr (m.images.map imageDict)), (c!"meta", .metas m.metas)]

end Rauc.StatusView
