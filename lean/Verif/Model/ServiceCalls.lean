import Verif.Model.Daemon
import Verif.Model.Stream
import Verif.Model.Mark
import Verif.Model.Manifest

/-!
# The methods of the D-Bus interface `de.pengutronix.rauc.Installer`: src/service.c

`Model/Daemon` has when an installation is started; here the methods are modelled with their arguments, what they call and what they answer. What is called (checking a bundle, reading the status of
the slots) is an oracle, as it is modelled elsewhere.
-/

namespace Rauc.ServiceCalls

open Daemon (Cfg St)
open Stream (Args Access V)

/-- a method call, src/de.pengutronix.rauc.Installer.xml -/
inductive Call where
  | install (source : Str)
  | installBundle (source : Str) (args : List (Str × V))
  | info (bundle : Str)
  | inspectBundle (bundle : Str) (args : List (Str × V))
  | mark (state ident : Str)
  | getSlotStatus | getArtifactStatus | getPrimary
deriving DecidableEq

/-- an answer -/
inductive Reply where
  | error (msg : Str)
  | done
  | info (compatible version : Str)
  | manifest (m : Manifest)
  | marked (slots msg : Str)
  | slots (v : Nat)
  | artifacts (v : Nat)
  | primary (name : Str)
deriving DecidableEq

/-- what a call makes the service do -/
inductive Effect where
  | reply (r : Reply)
  | start (source : Str) (a : Args)
  | check (bundle : Str) (a : Access)
  | bootloader (r : Mark.Call)
  | readSlots | readArtifacts | readPrimary
deriving DecidableEq

/-- the surroundings during a call; the two states are numbers, standing for their contents -/
structure World where
  check : Str → Access → Except Str Manifest
  slots : List Slot
  booted : Option Slot
  plf : Bool
  bootOk : Nat → Bool
  markMsg : Str
  slotStatus : Except Str Nat
  artifactStatus : Nat
  primary : Except Str Str

/-- the state of the service, with the property `Progress` -/
structure SSt where
  d : St := {}
  progress : Option (Int × Str × Int) := none
deriving DecidableEq

def busyMsg : Str := c!"already processing a different method"

/-- the first key that is left in the dictionary, for the message; the table has no defined order, so it is a parameter elsewhere: here the text is not claimed -/
def unsupported : Str := c!"Unsupported key"

/-- `r_on_handle_install_bundle`, service.c:83-157 -/
def onInstallBundle (s : SSt) (source : Str) (args : List (Str × V)) : SSt × List Effect :=
  if s.d.busy then ({ s with d := { s.d with installing := false } }, [.reply (.error c!"Already processing a different method")])
  else
    match Stream.installRequest args with
    | none => ({ s with d := { s.d with installing := false } }, [.reply (.error unsupported)])
    | some a => ({ s with d := (Daemon.installRun { s.d with installing := true } ⟨.service, a.requireHash⟩ none).1 }, [.start source a, .reply .done])

/-- `r_on_handle_inspect_bundle`, service.c:168-247; `legacy` is a missing dictionary -/
def onInspectBundle (w : World) (s : SSt) (bundle : Str) (args : List (Str × V)) (legacy : Bool) : SSt × List Effect :=
  if s.d.busy then (s, [.reply (.error busyMsg)])
  else
    match Stream.inspectRequest args with
    | none => (s, [.reply (.error unsupported)])
    | some a =>
      match w.check bundle a with
      | .error m => (s, [.check bundle a, .reply (.error m)])
      | .ok m => (s, [.check bundle a, .reply (if legacy then .info m.compatible (m.version.getD []) else .manifest m)])

/-- join with spaces, mark.c:266-274 -/
def names : List Slot → Str
  | [] => []
  | [s] => s.name
  | s :: l => s.name ++ ' ' :: names l

/-- `r_on_handle_mark`, service.c:257-299, with the end of `mark_run`, mark.c:264-281 -/
def onMark (w : World) (s : SSt) (state ident : Str) : SSt × List Effect :=
  if s.d.busy then (s, [.reply (.error busyMsg)])
  else
    let r := Mark.markRun w.bootOk w.slots w.booted w.plf state ident
    match r.2 with
    | none => (s, r.1.map .bootloader ++ [.reply (.error w.markMsg)])
    | some l =>
      let s' := if ident = c!"booted" then
          (if state = c!"good" then { s with d := { s.d with good := true } } else if state = c!"bad" then { s with d := { s.d with good := false } } else s)
        else s
      (s', r.1.map .bootloader ++ [.reply (.marked (names l) (c!"marked slot(s) " ++ names l ++ c!" as " ++ state))])

/-- the handlers connected in `r_on_bus_acquired`, service.c:566-597; `Install` and `Info` are service.c:159-166, :249-255 -/
def handle (w : World) (s : SSt) : Call → SSt × List Effect
  | .install src => onInstallBundle s src []
  | .installBundle src args => onInstallBundle s src args
  | .info b => onInspectBundle w s b [] true
  | .inspectBundle b args => onInspectBundle w s b args false
  | .mark state ident => onMark w s state ident
  -- service.c:425-452
  | .getSlotStatus =>
    if s.d.busy then (s, [.reply (.error busyMsg)])
    else match w.slotStatus with
      | .error m => (s, [.readSlots, .reply (.error m)])
      | .ok v => (s, [.readSlots, .reply (.slots v)])
  -- service.c:454-479; `r_artifacts_to_dict` never returns NULL
  | .getArtifactStatus => if s.d.busy then (s, [.reply (.error busyMsg)]) else (s, [.readArtifacts, .reply (.artifacts w.artifactStatus)])
  -- service.c:481-508
  | .getPrimary =>
    if s.d.busy then (s, [.reply (.error busyMsg)])
    else match w.primary with
      | .error m => (s, [.readPrimary, .reply (.error (c!"Failed getting primary slot: " ++ m ++ ['\n']))])
      | .ok n => (s, [.readPrimary, .reply (.primary n)])

/-- `send_progress_callback`, service.c:545-560 -/
def sendProgress (s : SSt) (p : Int × Str × Int) : SSt := if !s.d.installing then s else { s with progress := some p }

inductive Ev where
  | call (c : Call) (w : World)
  /-- a step of the running installation is reported, in its thread -/
  | report (p : Int × Str × Int)
  /-- automatic installation, end of an installation, poller -/
  | auto (present : Bool)
  | finished (status : Nat) (slots artifacts : Bool) (now : Int)
  | pollRequest (now : Int)
  | tick (e : Daemon.TickEnv)

/-- one callback -/
def step (cfg : Cfg) (s : SSt) : Ev → SSt × List Effect
  | .call c w => if s.d.dead then (s, []) else handle w s c
  | .report p => if s.d.dead || s.d.thread.isNone then (s, []) else (sendProgress s p, [])
  | .auto pr => ({ s with d := (Daemon.step cfg s.d (.auto pr)).1 }, [])
  | .finished st sl ar now => ({ s with d := (Daemon.step cfg s.d (.done st sl ar now)).1 }, [])
  | .pollRequest now => ({ s with d := (Daemon.step cfg s.d (.pollRequest now)).1 }, [])
  | .tick e => ({ s with d := (Daemon.step cfg s.d (.tick e)).1 }, [])

def run (cfg : Cfg) : SSt → List Ev → SSt
  | s, [] => s
  | s, e :: l => run cfg (step cfg s e).1 l

end Rauc.ServiceCalls
