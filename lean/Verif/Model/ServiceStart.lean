import Verif.Model.Select
import Verif.Model.Utils
import Verif.Model.Status

/-!
# Start of the service: links in /run/rauc and boot events, src/main.c:2338-2508
-/

namespace Rauc.ServiceStart

open Utils (Node Dir updateSymlink LinkEnv)
open Select (State slotStates findBooted)

/-! ## Links -/

/-- a loop of `r_update_symlink`, main.c:2400-2416 and :2428-2444: names and targets in the order of the hash table. A failure is only a warning.
The states of the directory passed through, and the final one; `E` are the outcomes of the system calls for each link. -/
def linkAll (E : Nat → LinkEnv) : Nat → List (Str × Str) → Dir → List Dir × Dir
  | _, [], d => ([d], d)
  | i, (n, t) :: l, d =>
    let u := updateSymlink (E i) d t n
    let r := linkAll E (i + 1) l (u.1.getLast?.getD d)
    (u.1 ++ r.1, r.2)

/-- names and targets of the links for the active slots, main.c:2401-2411: `ST_BOOTED` includes `ST_ACTIVE` (slot.h:8-12) -/
def slotLinks (state : Slot → State) (slots : List Slot) : List (Str × Str) :=
  (slots.filter (fun s => state s == .active || state s == .booted)).map (fun s => (s.sclass, s.device))

/-- an artifact repository: name and path; configurations with parent classes are not accepted (config_file.c:1188-1192) -/
structure Repo where
  name : Str
  path : Str
deriving DecidableEq, Repr

/-- main.c:2429-2434 -/
def repoLinks (repos : List Repo) : List (Str × Str) := repos.map (fun r => (r.name, r.path))

/-- `/run/rauc/slots/active` and `/run/rauc/artifacts` -/
structure RunDir where
  active : Dir
  artifacts : Dir

structure LinkRun where
  /-- outcome of `g_mkdir_with_parents`, main.c:2397 and :2422 -/
  mkdirActive : Bool := true
  mkdirArtifacts : Bool := true
  active : Nat → LinkEnv := fun _ => {}
  artifacts : Nat → LinkEnv := fun _ => {}

/-- `create_run_links`, main.c:2386-2445: the states passed through and the final one -/
def createRunLinks (E : LinkRun) (state : Slot → State) (slots : List Slot) (repos : List Repo) (d : RunDir) : List RunDir × RunDir :=
  if !E.mkdirActive then ([d], d)
  else
    let a := linkAll E.active 0 (slotLinks state slots) d.active
    let d1 := { d with active := a.2 }
    if !E.mkdirArtifacts then (a.1.map (fun x => { d with active := x }), d1)
    else
      let b := linkAll E.artifacts 0 (repoLinks repos) d1.artifacts
      (a.1.map (fun x => { d with active := x }) ++ b.1.map (fun x => { d1 with artifacts := x }), { d1 with artifacts := b.2 })

/-! ## Boot events -/

inductive Event where
  /-- "Booted into ..." with slot, boot name, boot ID, hash of the bundle -/
  | booted (slot bootname bootId hash : Str)
  /-- "Booted from external source" -/
  | external (bootId : Str)
  | restarted
  | started
deriving DecidableEq, Repr

/-- `r_event_log_booted`, main.c:2338-2366 -/
def bootedEvent (b : Slot) (bootId : Str) (st : SlotStatus) : Event := .booted b.name (b.bootname.getD []) bootId (st.bundleHash.getD c!"unknown")

/-- what the service finds when it starts -/
structure Start where
  realpath : Str → Option Str
  bootslot : Option Str
  slots : List Slot
  repos : List Repo
  /-- `r_artifacts_init` -/
  artifactsOk : Bool := true
  /-- /proc/sys/kernel/random/boot_id -/
  bootId : Option Str
  /-- a central status file is configured -/
  central : Bool := true
  /-- the status file can be written -/
  saveOk : Bool := true
  links : LinkRun := {}

/-- main.c:2468-2497, after the checks; `none`: `g_return_if_fail` in `r_slot_status_load`, which is fatal (main.c:3095-3097) -/
def bootDetect (iso : Str → Option DateTime) (s : Start) (f : FileSt) : Option (List Event × FileSt) :=
  if !s.central then some ([.started], f)
  else
    match s.bootId with
    | none => some ([], f)
    | some id =>
      if (loadSystem f).getD none = some id then some ([.restarted], f)
      else if s.bootslot = some c!"_external_" then some ([.external id], saveSystem f id s.saveOk)
      else
        match s.bootslot.bind (fun b => findBooted s.realpath b s.slots) with
        | none => none
        | some b => some ([bootedEvent b id (loadGlobally iso f b.name)], saveSystem f id s.saveOk)

inductive Outcome where
  /-- exit status 1 before the service is available -/
  | failed
  /-- the service runs; links and status file are as given -/
  | running (events : List Event) (run : RunDir) (states : List RunDir) (file : FileSt)
  | crash

/-- `service_start`, main.c:2448-2508, up to `r_service_run` -/
def serviceStart (iso : Str → Option DateTime) (s : Start) (f : FileSt) (d : RunDir) : Outcome :=
  match slotStates s.realpath s.bootslot s.slots with
  | none => .failed
  | some state =>
    if !s.artifactsOk then .failed
    else
      let l := createRunLinks s.links state s.slots s.repos d
      match bootDetect iso s f with
      | none => .crash
      | some (ev, f') => .running ev l.2 l.1 f'

end Rauc.ServiceStart
