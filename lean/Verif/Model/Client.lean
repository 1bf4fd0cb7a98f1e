import Verif.Model.Daemon

/-!
# `rauc install` as a client of the service: src/main.c:88-397, together with the service (`Model/Daemon`)

The bus delivers to the client, in order, the signals the service sends after the client has subscribed. They wait in the client's main context and are run by its main
loop; one iteration of the loop may run several of them (GLib runs every source that is ready), and the loop ends after an iteration in which it was asked to.
-/

namespace Rauc.Client

open Daemon (Cfg Ev Act)

/-- something the main loop of the client has to handle -/
inductive Item where
  /-- the signal `Completed` -/
  | completed (result : Nat)
  /-- a change of the properties `Operation`, `Progress` or `LastError` -/
  | changed
  /-- the properties became invalid: the service left the bus -/
  | gone
  | sigint
deriving DecidableEq, Repr

inductive Phase where
  | start
  /-- the proxy exists and the signals are connected, main.c:329-345 -/
  | listening
  /-- the service has accepted the call; main.c:375 -/
  | looping
  | exited (code : Nat)
deriving DecidableEq, Repr

/-- what became of the installation this client asked for (for the statements only; the client does not know it) -/
inductive Own where
  | none
  | running
  | finished (result : Nat)
  /-- the service died -/
  | lost
deriving DecidableEq, Repr

/-- things a statement can refer to; the code has no such variables -/
structure Ghost where
  own : Own := .none
  /-- results of all installations that ended since the client subscribed -/
  seen : List Nat := []
  /-- an installation of somebody else ended between the subscription and the call -/
  stale : Bool := false
  /-- an installation of somebody else ended after the one of this client, before the client ended -/
  later : Bool := false
  /-- Ctrl+C was pressed or the service died -/
  disturbed : Bool := false
deriving DecidableEq, Repr

structure Sys where
  d : Daemon.St := {}
  phase : Phase := .start
  queue : List Item := []
  /-- `args->status_result`, initially 2 (main.c:281) -/
  status : Nat := 2
  g : Ghost := {}
deriving DecidableEq, Repr

inductive CEv where
  /-- anything else that happens in the service: calls of other clients, automatic installation, polling, the end of an installation -/
  | svc (e : Ev)
  /-- the client creates its proxy and connects the signals; does it work? -/
  | subscribe (ok : Bool)
  /-- the client calls InstallBundle and waits for the reply -/
  | call (require : Option Str)
  /-- the service sends a change of one of its properties -/
  | notify
  /-- Ctrl+C -/
  | sigint
  /-- the service dies; the bus starts it again when it is needed -/
  | die
  /-- an iteration of the main loop of the client runs the first `n + 1` things that are waiting -/
  | iterate (n : Nat)
deriving DecidableEq, Repr

/-- the results in the `Completed` signals of a callback of the service, service.c:52, polling.c:283 -/
def results : List Act → List Nat
  | [] => []
  | .completed r :: l => r :: results l
  | _ :: l => results l

/-- one callback of the client: the new `status_result`, and is the loop asked to end (`install_cleanup`)?
`on_installer_changed`, main.c:113-154; `on_installer_completed`, :156-168 (the results are not negative); `on_sigint`, :221-231 -/
def handle (status : Nat) : Item → Nat × Bool
  | .completed r => (r, true)
  | .changed => (status, false)
  | .gone => (2, true)
  | .sigint => (3, true)

/-- one iteration of the main loop -/
def batch : Nat → List Item → Nat × Bool
  | status, [] => (status, false)
  | status, i :: l =>
    let h := handle status i
    let r := batch h.1 l
    (r.1, h.2 || r.2)

/-- is the client connected to the signals? -/
def Phase.hears : Phase → Bool
  | .listening => true
  | .looping => true
  | _ => false

/-- the service has done something: signals are delivered, and noted for the statements -/
def deliver (s : Sys) (d : Daemon.St) (rs : List Nat) : Sys :=
  if s.phase.hears then
    { s with
      d := d, queue := s.queue ++ rs.map .completed
      g := { s.g with
        seen := s.g.seen ++ rs
        own := match s.g.own, rs with | .running, r :: _ => .finished r | o, _ => o
        stale := s.g.stale || (decide (s.phase = .listening) && !rs.isEmpty)
        later := s.g.later || (match s.g.own with | .finished _ => !rs.isEmpty | .lost => !rs.isEmpty | _ => false) } }
  else
    { s with
      d := d
      g := { s.g with own := match s.g.own, rs with | .running, r :: _ => .finished r | o, _ => o } }

/-- `install_start`, main.c:241-397 (with the service enabled), one event -/
def step (cfg : Cfg) (s : Sys) : CEv → Sys
  | .svc e =>
    let r := Daemon.step cfg s.d e
    deliver s r.1 (results r.2)
  | .subscribe ok =>
    match s.phase with
    | .start => if ok then { s with phase := .listening } else { s with phase := .exited s.status }
    | _ => s
  | .call require =>
    match s.phase with
    | .listening =>
      let r := Daemon.step cfg s.d (.install true require)
      if Act.accept ∈ r.2 then { s with d := r.1, phase := .looping, g := { s.g with own := .running } }
      else { s with d := r.1, phase := .exited s.status }
    | _ => s
  | .notify => if s.phase.hears then { s with queue := s.queue ++ [.changed] } else s
  | .sigint => if s.phase.hears then { s with queue := s.queue ++ [.sigint], g := { s.g with disturbed := true } } else s
  | .die =>
    let own := match s.g.own with | .running => .lost | o => o
    if s.phase.hears then { s with d := {}, queue := s.queue ++ [.gone], g := { s.g with disturbed := true, own := own } }
    else { s with d := {}, g := { s.g with own := own } }
  | .iterate n =>
    match s.phase with
    | .looping =>
      let r := batch s.status (s.queue.take (n + 1))
      if r.2 then { s with phase := .exited r.1, status := r.1, queue := s.queue.drop (n + 1) }
      else { s with status := r.1, queue := s.queue.drop (n + 1) }
    | _ => s

def run (cfg : Cfg) : Sys → List CEv → Sys
  | s, [] => s
  | s, e :: l => run cfg (step cfg s e) l

end Rauc.Client
