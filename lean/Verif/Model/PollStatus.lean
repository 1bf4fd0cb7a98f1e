import Verif.Model.Daemon

/-!
# What the poller tells about itself: src/polling.c, the properties `Status` and `NextPoll` of the D-Bus interface `de.pengutronix.rauc.Poller`

`Model/Daemon` has the decisions of the poller; here the rest of `RPollingContext` is added.
-/

namespace Rauc.PollStatus

open Daemon (Cfg Man Act St)

/-- a bundle the server offers: the manifest and what is known from the response (polling.c:140-147) -/
structure Answer where
  m : Man
  size : Nat
  url : Option Str
  modified : Nat
  etag : Option Str
deriving DecidableEq, Repr

/-- the result of `polling_fetch`, polling.c:96-148 -/
inductive Fetch where
  | noContent | notModified
  | error (msg : Str)
  | bundle (a : Answer)
deriving DecidableEq, Repr

def Fetch.plain : Fetch → Daemon.Fetch
  | .noContent => .noContent
  | .notModified => .notModified
  | .error _ => .error
  | .bundle a => .bundle a.m

/-- the surroundings of one run of the timer callback -/
structure Env where
  now : Int
  /-- the time after the poll -/
  success : Int
  /-- the time when the next poll is scheduled -/
  later : Int
  inhibited : Bool
  rebootOk : Bool
  fetch : Fetch
  /-- the message of an error of the comparison of versions -/
  semver : Str
deriving DecidableEq, Repr

def Env.tick (e : Env) : Daemon.TickEnv := { now := e.now, later := e.later, inhibited := e.inhibited, fetch := e.fetch.plain, rebootOk := e.rebootOk }

/-- values in `Status` -/
inductive Leaf where
  | t (n : Int)
  | s (x : Str)
  | b (x : Bool)
deriving DecidableEq, Repr

inductive PV where
  | leaf (l : Leaf)
  /-- `r_manifest_to_dict`, see `Model/StatusView` -/
  | manifest (m : Man)
  | dict (l : List (Str × Leaf))
deriving DecidableEq, Repr

/-- `RPollingContext`, polling.c:17-38, with the properties as they were set last -/
structure PSt where
  d : St := {}
  lastAttempt : Int := 0
  lastSuccess : Int := 0
  lastError : Option Str := none
  summary : Option Str := none
  size : Nat := 0
  url : Option Str := none
  modified : Nat := 0
  etag : Option Str := none
  status : List (Str × PV) := []
  nextPoll : Int := 0
deriving DecidableEq, Repr

/-- `if (x) g_variant_builder_add(...)` -/
def optS (k : Str) : Option Str → List (Str × Leaf)
  | some x => [(k, .s x)]
  | none => []

def pv (l : List (Str × Leaf)) : List (Str × PV) := l.map (fun p => (p.1, .leaf p.2))

/-- `polling_update_status`, polling.c:406-447 -/
def statusOf (p : PSt) : List (Str × PV) :=
  pv [(c!"attempt-count", .t p.d.attempts), (c!"recent-error-count", .t p.d.errors), (c!"last-attempt-time", .t p.lastAttempt), (c!"last-success-time", .t p.lastSuccess)]
    ++ pv (optS c!"last-error-message" p.lastError)
    ++ pv [(c!"update-available", .b p.d.available)]
    ++ pv (optS c!"summary" p.summary)
    ++ pv (optS c!"attempted-hash" p.d.attempted)
    ++ (match p.d.manifest with
        | some m => [(c!"manifest", .manifest m),
            (c!"bundle", .dict ((if p.size = 0 then [] else [(c!"size", Leaf.t p.size)]) ++ optS c!"effective-url" p.url
              ++ (if p.modified = 0 then [] else [(c!"modified-time", Leaf.t p.modified)]) ++ optS c!"etag" p.etag))]
        | none => [])

/-- what `polling_fetch` keeps of the response: polling.c:117-120 with :48-55, :122-125, :140-147 -/
def keep (p : PSt) : Fetch → PSt
  | .noContent => { p with url := none, etag := none }
  | .notModified => p
  | .error _ => p
  | .bundle a => { p with size := a.size, url := a.url, modified := a.modified, etag := a.etag }

/-- the header `If-None-Match` of the request, polling.c:106-108 -/
def ifNoneMatch (p : PSt) : Option Str := p.etag

/-- the message of the error of `polling_step`, polling.c:364-398; `available` says how far it came -/
def stepMessage (e : Env) (available : Bool) : Str :=
  match e.fetch with
  | .error m => m
  | _ => if available then c!"installation criteria check failed: " ++ e.semver else c!"candidate criteria check failed: " ++ e.semver

/-- `polling_reschedule`, polling.c:57-95 -/
def reschedule (p : PSt) (normal : Bool) (ms now : Int) : PSt × List Act :=
  let r := Daemon.reschedule p.d normal ms now
  ({ p with d := r.1, nextPoll := r.1.next }, r.2)

/-- `polling_update_status` sets the property -/
def publish (p : PSt) : PSt := { p with status := statusOf p }

/-- `polling_context_dispatch`, polling.c:461-541 -/
def dispatch (cfg : Cfg) (p : PSt) (e : Env) : PSt × List Act :=
  if !p.d.active then (p, [])
  else if e.now < p.d.next then (p, [])
  else if p.d.running then (p, [])
  else if p.d.busy then reschedule p false Daemon.delayShort e.later
  else if !p.d.good then reschedule p false Daemon.delayShort e.later
  else if e.inhibited then reschedule p false Daemon.delayShort e.later
  else if p.d.mustReboot then
    if e.rebootOk then ({ p with d := { p.d with active := false }, nextPoll := 0 }, [.reboot])
    else let r := reschedule p false Daemon.delayShort e.later
         (r.1, .reboot :: r.2)
  else
    let r := Daemon.pollStep cfg { p.d with attempts := p.d.attempts + 1 } e.fetch.plain
    let p := { keep p e.fetch with lastAttempt := e.now, summary := none }
    match r.2.2 with
    | .abort => ({ p with d := r.1 }, .poll :: r.2.1)
    | .error =>
      let p := publish { p with d := { r.1 with errors := r.1.errors + 1 }, lastError := some (stepMessage e r.1.available) }
      let q := reschedule p true (Daemon.delayNormal cfg p.d.errors) e.later
      (q.1, .poll :: r.2.1 ++ q.2)
    | .ok =>
      let p := publish { p with
        d := { r.1 with errors := 0 }
        lastError := none
        lastSuccess := e.success
        summary := if r.1.manifest.isNone then some c!"no update bundle available" else none }
      if p.d.running then (p, .poll :: r.2.1)
      else
        let q := reschedule p true (Daemon.delayNormal cfg 0) e.later
        (q.1, .poll :: r.2.1 ++ q.2)

/-- `r_polling_setup`, polling.c:576-621, with polling configured: `now` is the time and `delay` the random initial delay in milliseconds -/
def setup (now delay : Int) : PSt :=
  let p := publish {}
  { p with d := { p.d with next := now + delay * 1000 }, nextPoll := now + delay * 1000 }

/-- callbacks: the timer of the poller, and everything else -/
inductive PEv where
  | tick (e : Env)
  | svc (e : Daemon.Ev)
deriving DecidableEq, Repr

/-- does the callback set the time of the next poll? `on_handle_poll`, polling.c:450-459, and `polling_install_cleanup`, :266-297 -/
def reschedules (s : St) : Daemon.Ev → Bool
  | .pollRequest _ => s.active
  | .done _ _ _ _ => match s.thread with | some ⟨.poller, _⟩ => true | _ => false
  | _ => false

/-- one callback -/
def step (cfg : Cfg) (p : PSt) : PEv → PSt × List Act
  | .tick e => if p.d.dead then (p, []) else dispatch cfg p e
  | .svc (.tick _) => (p, [])
  | .svc e =>
    let r := Daemon.step cfg p.d e
    ({ p with d := r.1, nextPoll := if !p.d.dead && reschedules p.d e then r.1.next else p.nextPoll }, r.2)

def run (cfg : Cfg) : PSt → List PEv → PSt
  | p, [] => p
  | p, e :: l => run cfg (step cfg p e).1 l

end Rauc.PollStatus
