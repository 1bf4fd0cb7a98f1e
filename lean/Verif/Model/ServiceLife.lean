import Verif.Model.Daemon

/-!
# The life of the service process: `r_service_run` and its callbacks, src/service.c; `service_start`, `main`, src/main.c

GLib's main loop is modelled by its iterations: an iteration runs a batch of callbacks whose sources were ready; `g_main_loop_quit` ends the loop after the batch it is called in. What runs beside the main
thread is the installation thread (`install_thread`, install.c:1695-1723), represented by the moments at which it uses data it shares with the main thread.

Simplified: dropping the interface (`g_clear_pointer` on `r_installer`) and freeing the context are single steps. The data structures that are behind a callback are those of `Model/Daemon`.
-/

namespace Rauc.ServiceLife

/-- the callbacks of the main loop -/
inductive Cb where
  /-- the connection to the bus is there: could the interfaces be exported? -/
  | busAcquired (exportOk pollerOk : Bool)
  /-- the name is owned now; is the file for automatic installation there? -/
  | nameAcquired (present : Bool)
  /-- no connection, connection closed, or somebody else has the name -/
  | nameLost
  | sigterm
  /-- method calls, the poller's timer, the end of an installation -/
  | other (e : Daemon.Ev)
deriving DecidableEq, Repr

/-- where the main thread is -/
inductive Phase where
  | loop
  /-- `g_main_loop_run` has returned -/
  | left
  /-- the bus name is given up, `r_installer` is NULL -/
  | dropped
  /-- `r_context_clean` has run -/
  | cleaned
  | exited (status : Nat)
  /-- ended by an assertion, `g_error` or a critical message (all of them fatal, main.c:3095-3097) -/
  | aborted
  /-- ended by a signal whose default action is in effect, or by loss of power -/
  | killed
deriving DecidableEq, Repr

structure Cfg where
  poll : Daemon.Cfg
  /-- is `[autoinstall] path` set? -/
  auto : Bool
  /-- is `[polling] source` set, and is the version of the system known? -/
  url : Bool := false
  version : Bool := true

structure St where
  phase : Phase := .loop
  /-- `service_return`, service.c:667 -/
  ret : Bool := true
  /-- `g_main_loop_quit` was called -/
  quit : Bool := false
  /-- is the source for SIGTERM still there? -/
  handler : Bool := true
  /-- was the bus name asked for? -/
  asked : Bool := false
  exported : Bool := false
  d : Daemon.St := {}
  /-- what was done -/
  acts : List Daemon.Act := []
  /-- data was used after it was freed -/
  bad : Bool := false
deriving DecidableEq, Repr

/-- `service_start`, main.c:2448-2508 (`slots`, `artifacts`: are `determine_slot_states` and `r_artifacts_init` successful?), `r_service_run`, service.c:664-716 up to `g_main_loop_run`, and `r_polling_setup`,
polling.c:580-622 -/
def start (c : Cfg) (slots artifacts : Bool) (d : Daemon.St) : St :=
  if !slots then { phase := .exited 1, d := d }
  else if !artifacts then { phase := .exited 1, d := d }
  else if c.url && !c.version then { phase := .exited 1, ret := false, d := d }
  else { asked := true, d := d }

/-- a callback of `Model/Daemon` is run; it may abort the process -/
def daemon (c : Cfg) (s : St) (e : Daemon.Ev) : St :=
  let r := Daemon.step c.poll s.d e
  { s with d := r.1, acts := s.acts ++ r.2, phase := if r.1.dead then .aborted else s.phase }

/-- is it a method call on the bus? -/
def isCall : Daemon.Ev → Bool
  | .install .. => true
  | .query => true
  | .mark .. => true
  | .pollRequest .. => true
  | _ => false

/-- one callback -/
def cb (c : Cfg) (s : St) : Cb → St
  -- `r_on_bus_acquired`, service.c:564-620, and `r_polling_on_bus_acquired`, polling.c:556-578; failing to export is a `g_error`
  | .busAcquired e p =>
    if !e then { s with phase := .aborted }
    else if c.url && !p then { s with exported := true, phase := .aborted }
    else { s with exported := true }
  -- `r_on_name_acquired`, service.c:622-630, and `auto_install`, service.c:512-537
  | .nameAcquired present => if c.auto then daemon c s (.auto present) else s
  -- `r_on_name_lost`, service.c:632-654
  | .nameLost => { s with ret := false, quit := true }
  -- `r_on_signal`, service.c:656-663: the source is removed, and with it the handler of the signal (another SIGTERM is `Choice.kill`)
  | .sigterm => if s.handler then { s with quit := true, handler := false } else s
  -- calls reach the service only after the interface was exported
  | .other e =>
    match e with
    | .auto _ => s
    | e => if isCall e && !s.exported then s else daemon c s e

/-- the callbacks of one iteration; nothing is run any more if one of them ended the process -/
def cbs (c : Cfg) : St → List Cb → St
  | s, [] => s
  | s, x :: l => if s.phase = .loop then cbs c (cb c s x) l else s

/-- one iteration of the main loop -/
def iterate (c : Cfg) (s : St) (l : List Cb) : St :=
  let s' := cbs c s l
  if s'.phase = .loop ∧ s'.quit then { s' with phase := .left } else s'

/-- what the installation thread uses -/
inductive Use where
  /-- `send_progress_callback`, service.c:546-562: the Operation property of the interface is asked for first -/
  | progress
  /-- `set_last_error`, service.c:540-544, which looks whether the interface is there -/
  | lastError
  /-- `r_context()`, context.c:884-902 -/
  | context
  /-- slots, configuration, status: pointers got from the context earlier -/
  | data
deriving DecidableEq, Repr

/-- the installation thread uses shared data -/
def use (s : St) (u : Use) : St :=
  match s.phase with
  | .dropped =>
    match u with
    | .progress => { s with phase := .aborted }
    | _ => s
  | .cleaned =>
    match u with
    | .progress => { s with phase := .aborted }
    | .context => { s with phase := .aborted }
    | .data => { s with bad := true }
    | .lastError => s
  | _ => s

/-- the main thread after the loop: the rest of `r_service_run`, service.c:696-716, the end of `service_start`, main.c:2498-2507, and `main`, main.c:3126-3130 with `r_context_clean`, context.c:911-955 -/
def mainStep (s : St) : St :=
  match s.phase with
  | .left => { s with phase := .dropped, asked := false, exported := false }
  | .dropped => { s with phase := .cleaned }
  | .cleaned => { s with phase := .exited (if s.ret then 0 else 1) }
  | _ => s

inductive Choice where
  | iteration (l : List Cb)
  | main
  | thread (u : Use)
  /-- SIGKILL, loss of power, a second SIGTERM -/
  | kill
deriving DecidableEq, Repr

def alive (s : St) : Bool :=
  match s.phase with
  | .loop => true
  | .left => true
  | .dropped => true
  | .cleaned => true
  | _ => false

def step (c : Cfg) (s : St) : Choice → St
  | .iteration l => if s.phase = .loop then iterate c s l else s
  | .main => mainStep s
  | .thread u => if s.d.thread.isSome then use s u else s
  | .kill => if alive s then { s with phase := .killed } else s

def run (c : Cfg) : St → List Choice → St
  | s, [] => s
  | s, x :: l => run c (step c s x) l

end Rauc.ServiceLife
