/-!
# Log files of events: src/event_log.c

Modelled: the rotation and writing of the file of one logger, over any number of starts of the service, with any failing system call and with the process killed (or power lost; the file system is assumed to keep the order)
at any point. Not modelled: the formatting of the records (a record is any string of bytes), the filter by event type, and several loggers with the same file name.
-/

namespace Rauc.EventLog

abbrev Bytes := List UInt8

structure Cfg where
  /-- `maxsize`; 0 means that there is no rotation -/
  maxSize : Nat
  /-- `maxfiles`, config_file.c:251-268: between 1 and 1000, by default 10 -/
  maxFiles : Nat
deriving DecidableEq, Repr

/-- the log file and the ones with the suffixes `.0`, `.1`, ... -/
structure FS where
  cur : Option Bytes
  old : Nat → Option Bytes

/-- an event: the record, and which calls fail. `rename n` is about the rename to the suffix `.n` in the loop, `final` the rename of the log file itself. `write k` means that only `k` bytes are written. -/
structure Log where
  record : Bytes
  rename : Nat → Bool
  final : Bool
  reopen : Bool
  write : Option Nat

/-- the result of some file operations: all states of the file system they lead through, the last one, and success -/
structure Run where
  states : List FS
  fs : FS
  ok : Bool

def setOld (fs : FS) (n : Nat) (b : Option Bytes) : FS := { fs with old := fun k => if k = n then b else fs.old k }

/-- event_log.c:266-281: one rename of the loop, from `.n-1` to `.n`. A missing file is skipped. -/
def renameOld (l : Log) (fs : FS) (n : Nat) : Run :=
  match fs.old (n - 1) with
  | none => ⟨[fs], fs, true⟩
  | some b =>
    if l.rename n then ⟨[fs], fs, false⟩
    else
      let fs' := setOld (setOld fs n (some b)) (n - 1) none
      ⟨[fs, fs'], fs', true⟩

/-- event_log.c:266-281: the loop, downwards from `n` -/
def rotateLoop (l : Log) : Nat → FS → Run
  | 0, fs => ⟨[fs], fs, true⟩
  | n + 1, fs =>
    let r := renameOld l fs (n + 1)
    if r.ok then
      let q := rotateLoop l n r.fs
      ⟨r.states ++ q.states, q.fs, q.ok⟩
    else r

/-- `rotate_logfiles`, event_log.c:242-301, when the size is exceeded: the loop, the rename of the log file to `.1`, and the new empty log file -/
def rotate (cfg : Cfg) (l : Log) (fs : FS) : Run :=
  let r := rotateLoop l (cfg.maxFiles - 1) fs
  if !r.ok then r
  else
    match r.fs.cur with
    | none => ⟨r.states, r.fs, false⟩
    | some b =>
      if l.final then ⟨r.states, r.fs, false⟩
      else
        let fs' := { setOld r.fs 1 (some b) with cur := none }
        if l.reopen then ⟨r.states ++ [fs'], fs', false⟩
        else
          let fs'' := { fs' with cur := some [] }
          ⟨r.states ++ [fs', fs''], fs'', true⟩

/-- a logger that is set up: `filesize`, or broken -/
inductive Logger where
  | down
  | broken
  | up (size : Nat)
deriving DecidableEq, Repr

structure St where
  fs : FS
  logger : Logger

/-- appending to the log file that is open. If somebody else removed it, the data is gone; that does not happen here. -/
def append (fs : FS) (b : Bytes) : FS := { fs with cur := some (fs.cur.getD [] ++ b) }

/-- the states of the file system while `b` is appended -/
def appendStates (fs : FS) (b : Bytes) : List FS := (List.range (b.length + 1)).map fun k => append fs (b.take k)

/-- event_log.c:350-357: writing the record -/
def write (l : Log) (fs : FS) : Run :=
  match l.write with
  | none => ⟨appendStates fs l.record, append fs l.record, true⟩
  | some k => ⟨appendStates fs (l.record.take k), append fs (l.record.take k), false⟩

/-- `event_log_writer_file`, event_log.c:303-358: the states of the file system, the last one, and the logger afterwards -/
def log (cfg : Cfg) (l : Log) (fs : FS) (size : Nat) : List FS × FS × Logger :=
  if cfg.maxSize = 0 ∨ size + l.record.length ≤ cfg.maxSize then
    let w := write l fs
    (w.states, w.fs, if w.ok then .up (size + l.record.length) else .broken)
  else
    let r := rotate cfg l fs
    if r.ok then
      let w := write l r.fs
      (r.states ++ w.states, w.fs, if w.ok then .up l.record.length else .broken)
    else (r.states, r.fs, .broken)

inductive Ev where
  /-- the service starts: `r_event_log_setup_logger`; may opening the file fail? -/
  | setup (fails : Bool)
  | log (l : Log)
  /-- the process is killed in the `k`th state that the event leads through -/
  | killed (l : Log) (k : Nat)
  | stop

/-- `r_event_log_setup_logger`, event_log.c:408-438, at the start of the service. It is assumed that the position of a file opened for appending is its end (`g_seekable_tell`). -/
def setup (fs : FS) (fails : Bool) : St :=
  if fails then ⟨fs, .broken⟩
  else
    let fs' := { fs with cur := some (fs.cur.getD []) }
    ⟨fs', .up (fs.cur.getD []).length⟩

def step (cfg : Cfg) (s : St) : Ev → St
  | .setup fails => setup s.fs fails
  | .stop => { s with logger := .down }
  | .log l =>
    match s.logger with
    | .up size => let r := log cfg l s.fs size; ⟨r.2.1, r.2.2⟩
    | _ => s
  | .killed l k =>
    match s.logger with
    | .up size => ⟨((log cfg l s.fs size).1[k]?).getD s.fs, .down⟩
    | _ => { s with logger := .down }

def run (cfg : Cfg) : St → List Ev → St
  | s, [] => s
  | s, e :: l => run cfg (step cfg s e) l

end Rauc.EventLog
