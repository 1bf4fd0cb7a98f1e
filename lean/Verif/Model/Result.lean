import Verif.Model.Install

/-!
# The result of an installation, as the caller of the installer sees it

`status_result`, `updated_slots` and `updated_artifacts` of `RaucInstallArgs`; the poller decides with them whether to reboot.
-/

namespace Rauc.Install

open Rauc.Select (Plan)

/-- `args->status_result` after the installation, install.c:1703 and :1716-1718; after an abort there is none. -/
def statusResult : Outcome → Option Nat
  | .ok => some 0
  | .failed => some 1
  | .abort => none

/-- `args->updated_slots` and `args->updated_artifacts` after the loop over the plans, install.c:1481-1499. They are set after each plan that was carried out. The steps are the ones of `plansLoop`. -/
def loopFlags (w : World) (m : Manifest) (txn : Str) : List Plan → List Ev → Bool × Bool → Bool × Bool
  | [], _, f => f
  | p :: ps, h, f =>
    match p.target with
    | .slot s _ =>
      let r := slotPlan w m txn p.image s h
      if r.2 then loopFlags w m txn ps r.1 (true, f.2) else f
    | .repo n =>
      let h1 := h ++ [.artifactStart n p.image]
      if w.ok h1 then loopFlags w m txn ps (h1 ++ [.artifactEnd n p.image true]) (f.1, true) else f

/-- The flags after `launch_and_wait_default_handler`, install.c:1417-1499: FALSE (`g_new0`, install.c:1728) if it does not get to the loop. -/
def defaultFlags (w : World) (m : Manifest) (txn : Str) (h : List Ev) : Bool × Bool :=
  match Select.makePlans w.cfg.variant w.group w.cfg.repos w.artifactsOk m.images with
  | none => (false, false)
  | some plans =>
    match bootMarkSlot plans with
    | none => (false, false)
    | some boot =>
      match preChecks w plans with
      | .ok =>
        match boot with
        | none => loopFlags w m txn plans h (false, false)
        | some s => if w.ok h then loopFlags w m txn plans (h ++ [.markBad s true]) (false, false) else (false, false)
      | _ => (false, false)

/-- The flags after the installation, install.c:1527-1676: only the default handler sets them. The steps are the ones of `install`. -/
def installFlags (w : World) (a : Args) (checked : Checked) (inner : Option Manifest) : Bool × Bool :=
  if !w.ok [] then (false, false)
  else
    let h1 : List Ev := [.extMounts true]
    if !w.ok h1 then (false, false)
    else
      let h2 := h1 ++ [.check true]
      if !acceptable a checked then (false, false)
      else
        let r := mountBundle w checked inner h2
        match r.2 with
        | none => (false, false)
        | some m =>
          let r1 := handler w w.cfg.preHandler .preHandler r.1
          if !r1.2 then (false, false)
          else
            let r2 := compatStep w a m r1.1
            if !r2.2 then (false, false)
            else if !Semver.checkVersionLimits w.cfg.minBundleVersion a.ignoreVersionLimit m.version then (false, false)
            else if m.handlerName.isSome then (false, false)
            else defaultFlags w m a.transaction r2.1

end Rauc.Install
