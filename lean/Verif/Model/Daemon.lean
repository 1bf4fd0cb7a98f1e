import Verif.Model.Semver

/-!
# The service and the poller: src/service.c, src/polling.c, src/install.c (start and end of an installation)

All of it runs in the main loop of one thread, one callback at a time; only the installation itself runs in a thread of its own. So the model is a state machine whose
events are the callbacks.
-/

namespace Rauc.Daemon

/-! ## Configuration -/

/-- conversion to a 32 bit signed integer. In the code the overflow is undefined behaviour; wrapping is what common compilers generate. -/
def wrap32 (x : Int) : Int := (x + 2147483648) % 4294967296 - 2147483648

/-- conversion to a 64 bit signed integer -/
def wrap64 (x : Int) : Int := (x + 9223372036854775808) % 18446744073709551616 - 9223372036854775808

/-- config_file.c:808-839: the intervals in milliseconds from the ones in seconds (`gint`); a missing key is `none`. The result `none` is a rejected configuration. -/
def intervals (interval max : Option Int) : Option (Int × Int) :=
  let i := interval.getD 86400
  if i < 60 then none
  else
    let m := max.getD (wrap32 (i * 4))
    if m ≤ i then none else some (wrap32 (i * 1000), wrap32 (m * 1000))

structure Cfg where
  intervalMs : Int
  maxMs : Int
  candidate : List Str
  install : Option (List Str)
  reboot : Option (List Str)
  system : Str

/-- polling.c:71-72 (`mock.polling_speedup` is for tests only) -/
def delayNormal (cfg : Cfg) (errors : Nat) : Int := min (wrap64 (cfg.intervalMs * (errors + 1))) cfg.maxMs

/-- polling.c:76 -/
def delayShort : Int := 30 * 1000

/-! ## State -/

/-- what the poller needs of a manifest -/
structure Man where
  version : Option Str
  hash : Str
deriving DecidableEq, Repr

inductive Owner where
  | service | poller
deriving DecidableEq, Repr

/-- an installation: who started it, and the manifest hash it is bound to -/
structure Job where
  owner : Owner
  require : Option Str
deriving DecidableEq, Repr

structure St where
  /-- `context->busy` -/
  busy : Bool := false
  /-- is the property `Operation` "installing" (otherwise it is "idle") -/
  installing : Bool := false
  /-- the installation thread -/
  thread : Option Job := none
  /-- `r_service_booted_slot_is_good` -/
  good : Bool := false
  /-- the process was aborted by an assertion -/
  dead : Bool := false
  /-- the poller, `RPollingContext`; `active` says that its source is still there -/
  active : Bool := true
  next : Int := 0
  running : Bool := false
  attempts : Nat := 0
  errors : Nat := 0
  attempted : Option Str := none
  manifest : Option Man := none
  available : Bool := false
  mustReboot : Bool := false
deriving DecidableEq, Repr

/-- observable actions -/
inductive Act where
  | start (j : Job) (m : Option Man)
  | refuse
  | accept
  | completed (status : Nat)
  | poll
  | schedule (normal : Bool) (ms : Int)
  | reboot
deriving DecidableEq, Repr

/-- the result of downloading and checking the bundle, polling.c:111-139 -/
inductive Fetch where
  | noContent | notModified | error
  | bundle (m : Man)
deriving DecidableEq, Repr

structure TickEnv where
  now : Int
  /-- the time when the next poll is scheduled -/
  later : Int
  inhibited : Bool
  fetch : Fetch
  rebootOk : Bool
deriving DecidableEq, Repr

inductive MarkState where
  | good | bad | active
deriving DecidableEq, Repr

inductive Ev where
  /-- `InstallBundle` or `Install`; are all keys of the arguments known? -/
  | install (keysOk : Bool) (require : Option Str)
  /-- the bus name was acquired, with automatic installation configured; is the file there? -/
  | auto (present : Bool)
  /-- `Info`, `InspectBundle`, `GetSlotStatus`, `GetArtifactStatus`, `GetPrimary` -/
  | query
  | mark (booted : Bool) (state : MarkState) (ok : Bool)
  /-- the thread has finished and `install_done` is run -/
  | done (status : Nat) (slots artifacts : Bool) (now : Int)
  /-- the D-Bus method `Poll` -/
  | pollRequest (now : Int)
  | tick (e : TickEnv)
deriving DecidableEq, Repr

/-! ## Poller -/

/-- polling.c:152-190. `none` is an error. -/
def checkCandidate (cfg : Cfg) (v : Str) : Option Bool :=
  if c!"higher-semver" ∈ cfg.candidate then
    match Semver.lessEqual v cfg.system with
    | none => none
    | some false => some true
    | some true => some (decide (c!"different-version" ∈ cfg.candidate ∧ cfg.system ≠ v))
  else some (decide (c!"different-version" ∈ cfg.candidate ∧ cfg.system ≠ v))

/-- polling.c:192-237 -/
def checkInstall (cfg : Cfg) (v : Str) : Option Bool :=
  match cfg.install with
  | none => some false
  | some crit =>
    let rest := decide ((c!"different-version" ∈ crit ∧ cfg.system ≠ v) ∨ c!"always" ∈ crit)
    if c!"higher-semver" ∈ crit then
      match Semver.lessEqual v cfg.system with
      | none => none
      | some false => some true
      | some true => some rest
    else some rest

/-- polling.c:239-269 -/
def checkReboot (cfg : Cfg) (status : Nat) (slots artifacts : Bool) : Bool :=
  match cfg.reboot with
  | none => false
  | some crit =>
    if status ≠ 0 then decide (c!"failed-update" ∈ crit)
    else (decide (c!"updated-slots" ∈ crit) && slots) || (decide (c!"updated-artifacts" ∈ crit) && artifacts)

/-- `install_run`, install.c:1749-1759, for the given job. The assertion in `r_context_set_busy` aborts if there is an installation already (context.c:578). -/
def installRun (s : St) (j : Job) (m : Option Man) : St × List Act :=
  if s.busy then ({ s with dead := true }, []) else ({ s with busy := true, thread := some j }, [.start j m])

inductive StepRes where
  | ok | error | abort
deriving DecidableEq, Repr

/-- polling.c:102-150: the manifest afterwards, or an error -/
def fetched (s : St) : Fetch → Option (Option Man)
  | .noContent => some none
  | .notModified => some s.manifest
  | .error => none
  | .bundle m => some (some m)

/-- `polling_step`, polling.c:354-405, with `polling_trigger_install`, :305-322 -/
def pollStep (cfg : Cfg) (s0 : St) (f : Fetch) : St × List Act × StepRes :=
  let s := { s0 with available := false }
  match fetched s f with
  | none => (s, [], .error)
  | some none => ({ s with manifest := none }, [], .ok)
  | some (some m) =>
    let s := { s with manifest := some m }
    match m.version with
    | none => ({ s with dead := true }, [], .abort)
    | some v =>
      match checkCandidate cfg v with
      | none => (s, [], .error)
      | some false => (s, [], .ok)
      | some true =>
        let s := { s with available := true }
        match checkInstall cfg v with
        | none => (s, [], .error)
        | some false => (s, [], .ok)
        | some true =>
          if some m.hash = s.attempted then (s, [], .ok)
          else
            let r := installRun { s with attempted := some m.hash, installing := true } ⟨.poller, some m.hash⟩ (some m)
            ({ r.1 with running := true }, r.2, .ok)

/-- `polling_reschedule`, polling.c:57-100 -/
def reschedule (s : St) (normal : Bool) (ms now : Int) : St × List Act := ({ s with next := now + ms * 1000 }, [.schedule normal ms])

/-- `polling_context_dispatch`, polling.c:463-547 -/
def tick (cfg : Cfg) (s : St) (e : TickEnv) : St × List Act :=
  if !s.active then (s, [])
  else if e.now < s.next then (s, [])
  else if s.running then (s, [])
  else if s.busy then reschedule s false delayShort e.later
  else if !s.good then reschedule s false delayShort e.later
  else if e.inhibited then reschedule s false delayShort e.later
  else if s.mustReboot then
    if e.rebootOk then ({ s with active := false }, [.reboot])
    else let r := reschedule s false delayShort e.later
         (r.1, .reboot :: r.2)
  else
    let r := pollStep cfg { s with attempts := s.attempts + 1 } e.fetch
    match r.2.2 with
    | .abort => (r.1, .poll :: r.2.1)
    | .error =>
      let s' := { r.1 with errors := r.1.errors + 1 }
      let q := reschedule s' true (delayNormal cfg s'.errors) e.later
      (q.1, .poll :: r.2.1 ++ q.2)
    | .ok =>
      let s' := { r.1 with errors := 0 }
      if s'.running then (s', .poll :: r.2.1)
      else
        let q := reschedule s' true (delayNormal cfg 0) e.later
        (q.1, .poll :: r.2.1 ++ q.2)

/-! ## Service -/

/-- one callback -/
def step (cfg : Cfg) (s : St) (ev : Ev) : St × List Act :=
  if s.dead then (s, [])
  else
    match ev with
    -- `r_on_handle_install_bundle`, service.c:83-157
    | .install keysOk require =>
      if s.busy || !keysOk then ({ s with installing := false }, [.refuse])
      else
        let r := installRun { s with installing := true } ⟨.service, require⟩ none
        (r.1, r.2 ++ [.accept])
    -- `auto_install`, service.c:509-537: when busy, the arguments are freed although their status is still negative, which is asserted not to happen (install.c:1742)
    | .auto present =>
      if !present then (s, [])
      else if s.busy then ({ s with dead := true }, [])
      else installRun s ⟨.service, none⟩ none
    | .query => (s, [if s.busy then .refuse else .accept])
    -- `r_on_handle_mark`, service.c:258-299
    | .mark booted state ok =>
      if s.busy || !ok then (s, [.refuse])
      else
        let s' := if booted then (match state with | .good => { s with good := true } | .bad => { s with good := false } | .active => s) else s
        (s', [.accept])
    -- `install_done`, install.c:1687-1697, with `service_install_cleanup`, service.c:42-61, or `polling_install_cleanup`, polling.c:271-303
    | .done status slots artifacts now =>
      match s.thread with
      | none => (s, [])
      | some ⟨.service, _⟩ => ({ s with thread := none, installing := false, busy := false }, [.completed status])
      | some ⟨.poller, _⟩ =>
        let s' := { s with running := false, installing := false, mustReboot := s.mustReboot || checkReboot cfg status slots artifacts }
        let q := reschedule s' false delayShort now
        ({ q.1 with thread := none, busy := false }, .completed status :: q.2)
    -- `on_handle_poll`, polling.c:450-461
    | .pollRequest now =>
      if !s.active then (s, [])
      else
        let q := reschedule s false delayShort now
        (q.1, q.2 ++ [.accept])
    | .tick e => tick cfg s e

/-- a history: every callback with the state it found and what it did -/
def trace (cfg : Cfg) : St → List Ev → List (St × Ev × List Act)
  | _, [] => []
  | s, e :: l => (s, e, (step cfg s e).2) :: trace cfg (step cfg s e).1 l

def final (cfg : Cfg) : St → List Ev → St
  | s, [] => s
  | s, e :: l => final cfg (step cfg s e).1 l

end Rauc.Daemon
