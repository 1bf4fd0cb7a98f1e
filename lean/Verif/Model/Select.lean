import Verif.Model.Slot
import Verif.Model.Status
import Verif.Model.Handlers

/-!
# Slot states, target selection and install plans: src/install.c:148-566, src/slot.c

The slot table is a list in the (arbitrary) iteration order of the hash table.
-/

namespace Rauc.Select

/-- `SlotState` after `determine_slot_states` (include/slot.h:7-12) -/
inductive State where
  | inactive | active | booted
deriving DecidableEq, Repr

/-- does the slot match the boot slot given by the kernel command line? install.c:172-195;
`realpath` is `r_realpath`, `none` when it fails -/
def isBooted (realpath : Str → Option Str) (bootslot : Str) (s : Slot) : Bool :=
  s.bootname == some bootslot || s.name == bootslot || (realpath s.device).getD s.device == bootslot

/-- the search for the booted slot, install.c:170-195 -/
def findBooted (realpath : Str → Option Str) (bootslot : Str) (slots : List Slot) : Option Slot :=
  slots.find? (isBooted realpath bootslot)

/-- state of a slot, given the booted one, install.c:223-236 -/
def stateOf (booted : Slot) (s : Slot) : State :=
  if s = booted then .booted
  else if s.parent = some booted.name then .active
  else .inactive

/-- `determine_slot_states`, install.c:148-241; `none` is an error -/
def slotStates (realpath : Str → Option Str) (bootslot : Option Str) (slots : List Slot) : Option (Slot → State) :=
  match bootslot with
  | none => none
  | some bs =>
    match findBooted realpath bs slots with
    | some b => some (stateOf b)
    | none => if bs = c!"_external_" then some (fun _ => .inactive) else none

/-- sort key of a UTC time: `g_date_time_compare` on dates whose fields are in range -/
def _root_.Rauc.DateTime.key (d : DateTime) : Nat :=
  (((((d.year * 13 + d.month) * 32 + d.day) * 24 + d.hour) * 60 + d.minute) * 60 + d.second) * 1000000 + d.usec

/-- `select_inactive_slot_class_member`, install.c:311-377; the first argument after `cls` is `selectslot` -/
def selectMember (perSlot : Bool) (state : Slot → State) (status : Slot → SlotStatus) (cls : Str) :
    Option Slot → List Slot → Option Slot
  | sel, [] => sel
  | sel, s :: rest =>
    if state s ≠ .inactive then selectMember perSlot state status cls sel rest
    else if s.sclass ≠ cls then selectMember perSlot state status cls sel rest
    else if perSlot then some s
    else if (status s).status = some (c!"failed") then some s
    else
      match (status s).installedTimestamp with
      | none => some s
      | some ts =>
        match sel with
        | none => selectMember perSlot state status cls (some s) rest
        | some c =>
          match (status c).installedTimestamp with
          | none => selectMember perSlot state status cls (some c) rest
          | some tc =>
            if ts.key < tc.key then selectMember perSlot state status cls (some s) rest
            else selectMember perSlot state status cls (some c) rest

/-- `g_ptr_array_remove_fast` (GLib): the last element takes the place of the removed one -/
def removeFast (k : Str) : List Str → List Str
  | [] => []
  | x :: xs =>
    if x = k then
      match xs.getLast? with
      | none => []
      | some z => z :: xs.dropLast
    else x :: removeFast k xs

/-- remove and append, as in `r_slot_get_root_classes` and `get_all_manifest_slot_classes` -/
def addClass (acc : List Str) (k : Str) : List Str := removeFast k acc ++ [k]

/-- `r_slot_get_root_classes`, slot.c:343-369 -/
def rootClasses (slots : List Slot) : List Str :=
  ((slots.filter (fun s => s.parent.isNone)).map (·.sclass)).foldl addClass []

/-- the `parent` pointer -/
def parentOf (slots : List Slot) (s : Slot) : Option Slot :=
  match s.parent with
  | none => none
  | some n => slots.find? (fun p => p.name == n)

/-- `r_slot_get_parent_root`, slot.c:189-200, with fuel -/
def rootOf (slots : List Slot) : Nat → Slot → Slot
  | 0, s => s
  | n + 1, s =>
    match parentOf slots s with
    | none => s
    | some p => rootOf slots n p

/-- the slots selected for the root classes, install.c:404-414 -/
def selectedRoots (perSlot : Bool) (state : Slot → State) (status : Slot → SlotStatus) (slots : List Slot) : List Slot :=
  (rootClasses slots).filterMap (fun c => selectMember perSlot state status c none slots)

/-- `determine_target_install_group`, install.c:392-436: slot class to target slot. Inserting into
the hash table replaces, so the last slot of the class in the table wins. -/
def targetGroup (perSlot : Bool) (state : Slot → State) (status : Slot → SlotStatus) (slots : List Slot) (cls : Str) :
    Option Slot :=
  (slots.filter (fun s =>
    s.sclass == cls && (selectedRoots perSlot state status slots).contains (rootOf slots slots.length s))).getLast?

/-! ## Plans -/

/-- `get_all_manifest_slot_classes`, install.c:278-298 -/
def manifestClasses (images : List Image) : List Str :=
  ((images.filter (fun i => i.artifact.isNone)).map (·.slotclass)).foldl addClass []

/-- the search for the image of a class, install.c:466-486; the accumulator is `matching_img` -/
def matchImage (variant : Option Str) (cls : Str) : Option Image → List Image → Option Image
  | m, [] => m
  | m, i :: is =>
    if i.slotclass ≠ cls then matchImage variant cls m is
    else
      match i.variant with
      | none => matchImage variant cls (some (m.getD i)) is
      | some v => if variant = some v then some i else matchImage variant cls m is

/-- where an image goes: `RImageInstallPlan`, include/install.h -/
inductive Target where
  | slot (s : Slot) (h : Handlers.Handler)
  | repo (name : Str)
deriving DecidableEq, Repr

structure Plan where
  image : Image
  target : Target
deriving DecidableEq, Repr

/-- the body of the first loop, install.c:462-520 -/
def planClass (variant : Option Str) (group : Str → Option Slot) (images : List Image) (cls : Str) : Option Plan :=
  match matchImage variant cls none images with
  | none => none
  | some img =>
    match group img.slotclass with
    | none => none
    | some t =>
      if t.readonly then none
      else
        match Handlers.getUpdateHandler img t.typ with
        | none => none
        | some h => some ⟨img, .slot t h⟩

def planClasses (variant : Option Str) (group : Str → Option Slot) (images : List Image) : List Str → Option (List Plan)
  | [] => some []
  | c :: cs =>
    match planClass variant group images c with
    | none => none
    | some p =>
      match planClasses variant group images cs with
      | none => none
      | some ps => some (p :: ps)

/-- the artifact loop, install.c:533-552; `repos` are the configured repositories -/
def planArtifacts (repos : List Str) : List Image → Option (List Plan)
  | [] => some []
  | i :: is =>
    if i.artifact.isNone then planArtifacts repos is
    else if i.slotclass ∈ repos then
      match planArtifacts repos is with
      | none => none
      | some ps => some (⟨i, .repo i.slotclass⟩ :: ps)
    else none

/-- `r_install_make_plans`, install.c:450-566. `artifactsOk` is the outcome of `r_artifacts_init` and
`r_artifacts_prune`. -/
def makePlans (variant : Option Str) (group : Str → Option Slot) (repos : List Str) (artifactsOk : Bool)
    (images : List Image) : Option (List Plan) :=
  match planClasses variant group images (manifestClasses images) with
  | none => none
  | some ps =>
    if !artifactsOk then none
    else
      match planArtifacts repos images with
      | none => none
      | some as => if (ps ++ as).isEmpty then none else some (ps ++ as)

end Rauc.Select
