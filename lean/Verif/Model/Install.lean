import Verif.Model.Manifest
import Verif.Model.Select
import Verif.Model.Mark
import Verif.Model.Semver

/-!
# The installation: src/install.c:603-661, 1000-1265, 1444-1676, and mounting: src/bundle.c:3059-3210

A run produces a list of events (the externally visible steps, each with its outcome). The functions below take the
events so far and return them extended. Every outcome the code does not decide itself comes from an oracle, a function of
the events so far: quantifying over the oracle covers all outcomes in all orders. A crash is a prefix of the events of a
run.
-/

namespace Rauc.Install

open Rauc.Select (Plan Target)

inductive Ev where
  /-- `r_mark_bad` -/
  | markBad (s : Slot) (ok : Bool)
  /-- `r_boot_set_primary` -/
  | setPrimary (s : Slot) (ok : Bool)
  /-- the in-memory status of a slot is changed -/
  | setMem (name : Str) (st : SlotStatus)
  /-- `r_slot_status_save` -/
  | save (name : Str) (ok : Bool)
  /-- the slot handler is started for an image -/
  | writeStart (s : Slot) (img : Image) (keeps : Bool)
  /-- the slot handler returns -/
  | writeEnd (s : Slot) (img : Image) (ok : Bool)
  /-- `handle_artifact_install_plan` -/
  | artifactStart (repo : Str) (img : Image)
  | artifactEnd (repo : Str) (img : Image) (ok : Bool)
  /-- `r_artifacts_prune` -/
  | prune (ok : Bool)
  /-- `update_external_mount_points` -/
  | extMounts (ok : Bool)
  /-- `check_bundle` -/
  | check (ok : Bool)
  /-- the bundle is mounted / unmounted -/
  | mount (ok : Bool)
  | umount (ok : Bool)
  | preHandler (ok : Bool)
  /-- the install-check hook -/
  | installCheck (ok : Bool)
  /-- the custom handler (it may write to any slot) -/
  | customStart
  | customEnd (ok : Bool)
  | postHandler (ok : Bool)
deriving DecidableEq, Repr

/-- the persistent state and the state of the process that matter -/
structure St where
  /-- slot status by slot name: in the status file(s) -/
  disk : Str → SlotStatus
  /-- and in memory -/
  mem : Str → SlotStatus
  /-- what a slot holds: `some d` is a completely written image with digest `d`; `none` unknown or incomplete -/
  content : Str → Option (Option Str)
  /-- the bundle is mounted -/
  mounted : Bool

structure Cfg where
  /-- `statusfile=per-slot` -/
  perSlot : Bool := false
  /-- `r_slot_is_mountable`, slot.c:178-187, by slot name -/
  mountable : Str → Bool := fun _ => false
  /-- `activate-installed` -/
  activateInstalled : Bool := true
  compatible : Str := []
  minBundleVersion : Option Str := none
  preHandler : Bool := false
  postHandler : Bool := false
  variant : Option Str := none
  repos : List Str := []
  allowMounted : Str → Bool := fun _ => false

/-- `RaucInstallArgs`, include/install.h -/
structure Args where
  ignoreCompatible : Bool := false
  ignoreVersionLimit : Bool := false
  requireManifestHash : Option Str := none
  transaction : Str := []

def upd {β : Type} (f : Str → β) (k : Str) (v : β) : Str → β := fun x => if x = k then v else f x

/-- the effect of an event. Saving: status_file.c:272-306 (one slot's file on the slot itself) and :368-404 (all slots at
once, atomically). With per-slot files, the file is on the slot that is overwritten, so it may be gone (`keeps = false`)
from the start of a write on. -/
def apply (c : Cfg) (st : St) : Ev → St
  | .setMem n s => { st with mem := upd st.mem n s }
  | .save n true =>
    if c.perSlot then (if c.mountable n then { st with disk := upd st.disk n (st.mem n) } else st)
    else { st with disk := st.mem }
  | .writeStart s _ keeps =>
    { st with
      content := upd st.content s.name none
      disk := if c.perSlot && !keeps then upd st.disk s.name {} else st.disk }
  | .writeEnd s img true => { st with content := upd st.content s.name (some img.digest) }
  | .mount true => { st with mounted := true }
  | .umount true => { st with mounted := false }
  | _ => st

def replay (c : Cfg) (st : St) (evs : List Ev) : St := evs.foldl (apply c) st

/-- a restart of the process: statuses are read from disk -/
def restart (st : St) : St := { st with mem := st.disk, mounted := false }

/-- everything a run depends on besides its arguments -/
structure World where
  cfg : Cfg
  /-- the state at the beginning of the run -/
  st0 : St
  /-- outcome of the next step -/
  ok : List Ev → Bool
  /-- the per-slot status file survives the beginning of the write -/
  keeps : List Ev → Bool
  now : List Ev → DateTime
  /-- mount_point still set after loading the status, install.c:1133 -/
  stuck : List Ev → Str → Bool
  fileExists : Str → Bool
  deviceExists : Str → Bool
  repoExists : Str → Bool
  /-- the slot is mounted (by RAUC or externally) when the pre-install checks run -/
  slotMounted : Str → Bool
  /-- `r_artifacts_init` and the first prune succeed -/
  artifactsOk : Bool
  /-- `determine_target_install_group` -/
  group : Str → Option Slot

def World.cur (w : World) (h : List Ev) : St := replay w.cfg w.st0 h

inductive Outcome where
  | ok | failed
  /-- the process aborts (g_error, g_assert_not_reached) -/
  | abort
deriving DecidableEq, Repr

/-- `update_slot_status`, install.c:1097-1113, with `r_slot_clear_status`, slot.c:34-50 (the counters and the checksum type
survive it) -/
def updateStatus (old : SlotStatus) (status : Str) (m : Manifest) (img : Image) (txn : Str) (now : DateTime) : SlotStatus :=
  { bundleCompatible := some m.compatible
    bundleVersion := m.version
    bundleDescription := m.description
    bundleBuild := m.build
    bundleHash := m.hash
    status := some status
    digest := img.digest
    sha256 := img.sha256
    size := img.size
    installedTxn := some txn
    installedTimestamp := some now
    installedCount := (old.installedCount + 1) % 2 ^ 32
    activatedTimestamp := none
    activatedCount := old.activatedCount }

/-- the skip condition, install.c:1141 (`g_strcmp0` of two NULL pointers is 0) -/
def skips (s : Slot) (img : Image) (st : SlotStatus) : Bool :=
  !s.installSame && st.status == some (c!"ok") && img.digest == st.digest

/-- `handle_slot_install_plan`, install.c:1115-1230 (messages and progress left out; moving the data directory,
:1173-1176, never makes it fail) -/
def slotPlan (w : World) (m : Manifest) (txn : Str) (img : Image) (s : Slot) (h : List Ev) : List Ev × Bool :=
  let old := (w.cur h).mem s.name
  if w.stuck h s.name then (h, false)
  else if skips s img old then
    let h1 := h ++ [.setMem s.name (updateStatus old (c!"ok") m img txn (w.now h))]
    (h1 ++ [.save s.name (w.ok h1)], w.ok h1)
  else
    let pend : SlotStatus := { old with status := some (c!"pending"), digest := none, size := 0 }
    let hp := h ++ [.setMem s.name pend]
    if !w.cfg.perSlot && !w.ok hp then (hp ++ [.save s.name false], false)
    else
      let h1 := if w.cfg.perSlot then h else hp ++ [.save s.name true]
      let cur := if w.cfg.perSlot then old else pend
      let h2 := h1 ++ [.writeStart s img (w.keeps h1)]
      let h3 := h2 ++ [.writeEnd s img (w.ok h2)]
      let h4 := h3 ++ [.setMem s.name (updateStatus cur (if w.ok h2 then c!"ok" else c!"failed") m img txn (w.now h3))]
      (h4 ++ [.save s.name (w.ok h4)], w.ok h2 && w.ok h4)

/-- the loop over the plans, install.c:1484-1500 -/
def plansLoop (w : World) (m : Manifest) (txn : Str) : List Plan → List Ev → List Ev × Bool
  | [], h => (h, true)
  | p :: ps, h =>
    match p.target with
    | .slot s _ =>
      let r := slotPlan w m txn p.image s h
      if r.2 then plansLoop w m txn ps r.1 else r
    | .repo n =>
      let h1 := h ++ [.artifactStart n p.image]
      if w.ok h1 then plansLoop w m txn ps (h1 ++ [.artifactEnd n p.image true])
      else (h1 ++ [.artifactEnd n p.image false], false)

/-- is the target of the plan a boot slot? install.c:1247-1252 -/
def bootTarget (p : Plan) : Option Slot :=
  match p.target with
  | .slot s _ => if s.parent.isNone && s.bootname.isSome then some s else none
  | .repo _ => none

/-- `get_boot_mark_slot`, install.c:1237-1265: the outer `none` is `g_error` (more than one boot slot) -/
def bootMarkSlot (plans : List Plan) : Option (Option Slot) :=
  match plans.filterMap bootTarget with
  | [] => some none
  | [s] => some (some s)
  | _ => none

/-- `pre_install_check_slot_mount_status`, install.c:995-1015 -/
def mountStatusOk (w : World) (s : Slot) (img : Image) : Bool :=
  !w.slotMounted s.name || (w.cfg.allowMounted s.name && img.hooks.install)

/-- one iteration of `pre_install_checks`, install.c:1017-1095. File names are given as in the manifest; making them
absolute is part of `fileExists`. -/
def preCheck (w : World) (p : Plan) : Outcome :=
  let files : Outcome :=
    match p.image.filename with
    | none => if p.image.hooks.install then .ok else .abort
    | some f =>
      if !w.fileExists f && (p.image.converted.getD []).isEmpty then .failed
      else if (p.image.converted.getD []).all w.fileExists then .ok else .failed
  match files with
  | .ok =>
    match p.target with
    | .slot s _ => if w.deviceExists s.device && mountStatusOk w s p.image then .ok else .failed
    | .repo n => if w.repoExists n then .ok else .failed
  | o => o

def preChecks (w : World) : List Plan → Outcome
  | [] => .ok
  | p :: ps =>
    match preCheck w p with
    | .ok => preChecks w ps
    | o => o

/-- mark.c:151-154 -/
def activatedStatus (old : SlotStatus) (now : DateTime) : SlotStatus :=
  { old with activatedTimestamp := some now, activatedCount := (old.activatedCount + 1) % 2 ^ 32 }

/-- `r_mark_active`, mark.c:133-164 -/
def markActive (w : World) (s : Slot) (h : List Ev) : List Ev × Bool :=
  if w.ok h then
    let h1 := h ++ [.setPrimary s true]
    let h2 := h1 ++ [.setMem s.name (activatedStatus ((w.cur h1).mem s.name) (w.now h1))]
    (h2 ++ [.save s.name (w.ok h2)], true)
  else (h ++ [.setPrimary s false], false)

def ofBool (b : Bool) : Outcome := if b then .ok else .failed

/-- after the boot slot was marked, install.c:1481-1522 -/
def updateSlots (w : World) (m : Manifest) (txn : Str) (plans : List Plan) (boot : Option Slot) (h : List Ev) :
    List Ev × Outcome :=
  let r := plansLoop w m txn plans h
  if r.2 then
    let h1 := r.1 ++ [.prune (w.ok r.1)]
    if w.ok r.1 then
      match boot with
      | none => (h1, .ok)
      | some s =>
        if w.cfg.activateInstalled then ((markActive w s h1).1, ofBool (markActive w s h1).2)
        else (h1, .ok)
    else (h1, .failed)
  else (r.1, .failed)

/-- `launch_and_wait_default_handler`, install.c:1444-1525 -/
def defaultHandler (w : World) (m : Manifest) (txn : Str) (h : List Ev) : List Ev × Outcome :=
  match Select.makePlans w.cfg.variant w.group w.cfg.repos w.artifactsOk m.images with
  | none => (h, .failed)
  | some plans =>
    match bootMarkSlot plans with
    | none => (h, .abort)
    | some boot =>
      match preChecks w plans with
      | .ok =>
        match boot with
        | none => updateSlots w m txn plans none h
        | some s =>
          if w.ok h then updateSlots w m txn plans (some s) (h ++ [.markBad s true])
          else (h ++ [.markBad s false], .failed)
      | o => (h, o)

/-! ## The whole installation -/

/-- what `check_bundle` returns: the manifest is missing for plain bundles -/
structure Checked where
  manifest : Option Manifest
  wasEncrypted : Bool

/-- `verify_compatible`, install.c:603-617 -/
def verifyCompatible (c : Cfg) (a : Args) (m : Manifest) : Bool :=
  a.ignoreCompatible || c.compatible == m.compatible

/-- the checks after `check_bundle`, install.c:1567-1588 -/
def acceptable (a : Args) (b : Checked) : Bool :=
  (match a.requireManifestHash with
    | none => true
    | some r =>
      match b.manifest with
      | none => false
      | some m => m.hash == some r) &&
  (match b.manifest with
    | none => true
    | some m => !(m.format == .crypt && !b.wasEncrypted))

/-- `mount_bundle`, bundle.c:3059-3180; `inner` is the manifest inside a plain bundle, `none` if it cannot be loaded or is
not acceptable. Result: the manifest to use. -/
def mountBundle (w : World) (b : Checked) (inner : Option Manifest) (h : List Ev) : List Ev × Option Manifest :=
  match b.manifest with
  | some m => if w.ok h then (h ++ [.mount true], some m) else (h ++ [.mount false], none)
  | none =>
    if w.ok h then
      let h1 := h ++ [.mount true]
      match inner with
      | some m => (h1, some m)
      | none => (h1 ++ [.umount (w.ok h1)], none)
    else (h ++ [.mount false], none)

/-- an optional handler, install.c:1611-1618 and :1654-1661 -/
def handler (w : World) (enabled : Bool) (mk : Bool → Ev) (h : List Ev) : List Ev × Bool :=
  if enabled then (h ++ [mk (w.ok h)], w.ok h) else (h, true)

/-- the compatibility decision, install.c:1620-1645 -/
def compatStep (w : World) (a : Args) (m : Manifest) (h : List Ev) : List Ev × Bool :=
  if m.installCheck then (h ++ [.installCheck (w.ok h)], w.ok h)
  else (h, verifyCompatible w.cfg a m)

/-- the custom or the default handler, install.c:1653-1659 -/
def mainStep (w : World) (a : Args) (m : Manifest) (h : List Ev) : List Ev × Outcome :=
  if m.handlerName.isSome then
    let h1 := h ++ [.customStart]
    (h1 ++ [.customEnd (w.ok h1)], ofBool (w.ok h1))
  else defaultHandler w m a.transaction h

/-- install.c:1600-1666, from mounting to the label `umount`; the target group is never NULL -/
def mounted (w : World) (a : Args) (m : Manifest) (h : List Ev) : List Ev × Outcome :=
  let r1 := handler w w.cfg.preHandler .preHandler h
  if !r1.2 then (r1.1, .failed)
  else
    let r2 := compatStep w a m r1.1
    if !r2.2 then (r2.1, .failed)
    else if !Semver.checkVersionLimits w.cfg.minBundleVersion a.ignoreVersionLimit m.version then (r2.1, .failed)
    else
      let r3 := mainStep w a m r2.1
      match r3.2 with
      | .ok =>
        let r4 := handler w w.cfg.postHandler .postHandler r3.1
        (r4.1, ofBool r4.2)
      | o => (r3.1, o)

/-- `do_install_bundle`, install.c:1527-1676. `checked` is the result of `check_bundle` when it succeeds. -/
def install (w : World) (a : Args) (checked : Checked) (inner : Option Manifest) : List Ev × Outcome :=
  if !w.ok [] then ([.extMounts false], .failed)
  else
    let h1 : List Ev := [.extMounts true]
    if !w.ok h1 then (h1 ++ [.check false], .failed)
    else
      let h2 := h1 ++ [.check true]
      if !acceptable a checked then (h2, .failed)
      else
        let r := mountBundle w checked inner h2
        match r.2 with
        | none => (r.1, .failed)
        | some m =>
          let r1 := mounted w a m r.1
          match r1.2 with
          | .abort => r1
          | o => (r1.1 ++ [.umount (w.ok r1.1)], o)

end Rauc.Install
