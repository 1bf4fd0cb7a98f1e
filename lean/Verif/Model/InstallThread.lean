import Verif.Lib.Str

/-!
# The installation thread and the main loop: src/install.c:42-63, :1685-1776, src/service.c:28-61, :539-560, src/polling.c:266-297, src/main.c:90-111, :350-397

The installation runs in a thread of its own. It hands status messages and its end to the main loop with `g_main_context_invoke`: if another thread owns the main
context, the callback becomes a source of the main loop; otherwise the calling thread acquires the context and runs the callback itself (GLib, gmain.c). Sources of one
priority (all of these have the default priority) are run in the order in which they were attached.

In the service the main loop runs already when an installation is started. In the build without the service, `rauc install` first starts the thread and then runs its
main loop (main.c:363-366).

A change of a property of the D-Bus object is announced by a source that the generated code (gdbus-codegen) attaches to the main context when the first
property changes after the last announcement; `g_dbus_interface_skeleton_flush` announces immediately.
-/

namespace Rauc.InstallThread

inductive Mode where
  /-- `InstallBundle` or automatic installation -/
  | service
  /-- started by the poller; there is no `notify` function (polling.c:307-318) -/
  | poller
  /-- `rauc install` in a build without the service -/
  | alone
deriving DecidableEq, Repr

/-- sources of the main context -/
inductive Src where
  | notify
  /-- `install_done` -/
  | done
  /-- announcement of changed properties -/
  | emit
deriving DecidableEq, Repr

/-- what `do_install_bundle` does that is visible here -/
inductive Body where
  /-- `install_args_update` -/
  | msg (m : Str)
  /-- a progress step: `send_progress_callback`, service.c:546-560, announces changed properties immediately -/
  | progress
deriving DecidableEq, Repr

/-- atomic steps of the thread -/
inductive Op where
  /-- the queue is changed with the mutex held, install.c:59-61 -/
  | push (m : Str)
  | invoke (s : Src)
  /-- install.c:1716-1718 -/
  | finish (result : Nat)
  /-- `set_last_error`, service.c:539-543 -/
  | lastError (m : Str)
  | flush
deriving DecidableEq, Repr

/-- `install_args_update`, install.c:42-63 -/
def update (mode : Mode) (m : Str) : List Op :=
  match mode with
  | .poller => []
  | _ => [.push m, .invoke .notify]

def bodyOps (mode : Mode) : Body → List Op
  | .msg m => update mode m
  | .progress => [.flush]

/-- `install_thread`, install.c:1695-1724; `error` is the message of the error of `do_install_bundle`, `none` its success -/
def program (mode : Mode) (body : List Body) (error : Option Str) : List Op :=
  [.lastError []] ++ update mode c!"started" ++ body.flatMap (bodyOps mode)
    ++ (match error with | some e => update mode e ++ [.lastError e] | none => [])
    ++ [.finish (if error.isSome then 1 else 0)] ++ update mode c!"finished" ++ [.invoke .done]

/-- where the main thread is: before `g_main_loop_run`, waiting in it for the ownership of the context, in the loop, after it, or at the end of `install_start` -/
inductive Main where
  | before | waiting | looping | returned | exited
deriving DecidableEq, Repr

/-- what others see -/
inductive Act where
  /-- the signal `Completed` -/
  | completed (result : Option Nat)
  /-- the change of the property `LastError` is announced -/
  | lastError (m : Str)
  /-- the process ends with this status -/
  | exit (status : Option Nat)
deriving DecidableEq, Repr

structure St where
  /-- the rest of the thread -/
  prog : List Op
  /-- the callback the thread itself is about to run, as the owner of the context -/
  direct : Option Src := none
  /-- `status_messages` -/
  queue : List Str := []
  /-- `status_result`; `none` is the negative initial value in the service (install.c:1733) -/
  status : Option Nat
  /-- attached sources -/
  sources : List Src := []
  main : Main
  /-- `is_running` of the main loop -/
  running : Bool
  /-- messages logged or printed -/
  out : List Str := []
  acts : List Act := []
  /-- the property `LastError` and the value that was announced last -/
  error : Str
  announced : Str
  busy : Bool := true
  freed : Bool := false
  /-- the arguments were used after they had been freed, or an assertion has failed -/
  bad : Bool := false
deriving DecidableEq, Repr

/-- the state when the thread starts; `err` is the `LastError` of the previous installation, `ann` what was announced of it, and `pending` says whether
an announcement of changed properties is waiting. In the other build `status_result` is initialized with 2 (main.c:281). -/
def init (mode : Mode) (body : List Body) (error : Option Str) (err ann : Str) (pending : Bool) : St :=
  { prog := program mode body error
    status := match mode with | .alone => some 2 | _ => none
    sources := if pending then [.emit] else []
    main := match mode with | .alone => .before | _ => .looping
    running := match mode with | .alone => false | _ => true
    error := err
    announced := ann }

/-- does the main thread own the context? -/
def Main.owns : Main → Bool
  | .looping => true
  | _ => false

/-- announcement of the changed properties (generated code): the source is gone; `LastError` is announced if it changed -/
def announce (s : St) : St :=
  { s with
    sources := s.sources.filter (· ≠ .emit)
    acts := if s.error = s.announced then s.acts else s.acts ++ [.lastError s.error]
    announced := s.error }

/-- a property has changed (generated code): there is one source for all of them -/
def changed (s : St) : St := { s with sources := if .emit ∈ s.sources then s.sources else s.sources ++ [.emit] }

/-- `install_args_free`, install.c:1738-1747: a negative result or waiting messages fail an assertion -/
def free (s : St) : St := { s with freed := true, bad := s.bad || s.freed || s.status.isNone || !s.queue.isEmpty }

/-- `service_install_notify`, service.c:28-40; `install_notify`, main.c:90-104 -/
def runNotify (s : St) : St := { s with out := s.out ++ s.queue, queue := [], bad := s.bad || s.freed }

/-- `install_done`, install.c:1685-1694, with `service_install_cleanup`, service.c:42-61, `polling_install_cleanup`, polling.c:266-297, or `install_cleanup`, main.c:106-111.
`Operation` changes as well; the last line is the assertion in `r_context_set_busy` (context.c:578). -/
def runDone (mode : Mode) (s : St) : St :=
  let s := { s with bad := s.bad || s.freed }
  let s :=
    match mode with
    | .alone => { s with running := false }
    | _ => free (announce (changed { s with acts := s.acts ++ [Act.completed s.status] }))
  { s with busy := false, bad := s.bad || !s.busy }

def runSrc (mode : Mode) (s : St) : Src → St
  | .notify => runNotify s
  | .done => runDone mode s
  | .emit => announce s

/-- the thread takes the next operation of its program -/
def takeOp (mode : Mode) (s : St) : St :=
  match s.prog with
  | [] => s
  | .push m :: p => { s with prog := p, queue := s.queue ++ [m], bad := s.bad || s.freed }
  | .finish r :: p => { s with prog := p, status := some r, bad := s.bad || s.freed }
  | .lastError m :: p =>
    -- without the service there is no D-Bus object
    if mode = .alone ∨ m = s.error then { s with prog := p } else changed { s with prog := p, error := m }
  | .flush :: p => if .emit ∈ s.sources then announce { s with prog := p } else { s with prog := p }
  | .invoke src :: p =>
    if s.main.owns then { s with prog := p, sources := s.sources ++ [src] }
    else { s with prog := p, direct := some src }

/-- one step of the thread -/
def threadStep (mode : Mode) (s : St) : St :=
  match s.direct with
  | some src => { runSrc mode s src with direct := none }
  | none => takeOp mode s

/-- one step of the main thread: it enters its loop (`g_main_loop_run`, gmain.c), runs the next source, or ends -/
def mainStep (mode : Mode) (s : St) : St :=
  match s.main with
  | .before => if s.direct.isSome then { s with main := .waiting, running := true } else { s with main := .looping, running := true }
  | .waiting => if s.direct.isSome then s else if s.running then { s with main := .looping, running := true } else { s with main := .returned }
  | .looping =>
    match s.sources with
    | src :: l => runSrc mode { s with sources := l } src
    | [] => s
  -- main.c:368-395
  | .returned => free { s with main := .exited, acts := s.acts ++ [Act.exit s.status], bad := s.bad || s.freed }
  | .exited => s

/-- the loop was asked to end and ends -/
def leave (s : St) : St :=
  match s.main with
  | .looping => if s.running then s else { s with main := .returned }
  | _ => s

inductive Choice where
  | thread
  | main
  /-- the iteration of the main loop ends -/
  | leave
  /-- another callback of the service changes another property, for example `Operation` when a call is refused -/
  | other
deriving DecidableEq, Repr

def step (mode : Mode) (s : St) : Choice → St
  | .thread => threadStep mode s
  | .main => mainStep mode s
  | .leave => leave s
  | .other => match mode with | .alone => s | _ => changed s

def run (mode : Mode) : St → List Choice → St
  | s, [] => s
  | s, c :: l => run mode (step mode s c) l

end Rauc.InstallThread
