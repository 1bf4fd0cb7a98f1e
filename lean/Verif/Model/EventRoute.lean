import Verif.Model.ConfigFile
import Verif.Model.EventLog
import Verif.Model.Json
import Verif.Model.ServiceStart

/-!
# Events, their routing to the loggers and the formats of records: src/event_log.c:20-222, :303-406

Modelled: the fields of every event rauc emits (install.c:1189, :1273-1326, :1415; mark.c:93-130; main.c:2337-2385, :2474, :2496), the log writer, the filter by
event type and the four formats; rotation and files are `Model/EventLog`. Not modelled: the default log writer of GLib (journal, standard output), and two threads
that write to the same logger at the same time (the code has no lock; GLib does not take one around the writer function).
-/

namespace Rauc.Events

open ConfigFile (Logger LogFormat)

abbrev Field := Str × Str

inductive Mark where
  | active | good | bad
deriving DecidableEq, Repr

/-- an occurrence that is logged as an event -/
inductive Occ where
  /-- `log_event_installation_started`, install.c:1273-1281 -/
  | installStarted (txn : Str)
  /-- `log_event_installation_done`, install.c:1288-1326; the error with "is it `R_INSTALL_ERROR_REJECTED` or `R_INSTALL_ERROR_COMPAT_MISMATCH`";
  hash, description and version of the manifest, `none` if there is no manifest -/
  | installDone (txn : Str) (error : Option (Bool × Str)) (hash description version : Option Str)
  /-- mark.c:93-130; the hash is the one in the status of the slot -/
  | marked (m : Mark) (slot : Str) (bootname hash : Option Str)
  /-- main.c:2337-2385, :2474, :2496 -/
  | service (e : ServiceStart.Event)
  /-- install.c:1189 -/
  | updatingSlot (slot : Str)
  /-- install.c:1415 -/
  | updatingArtifact (artifact repo : Str)
deriving DecidableEq, Repr

/-- `R_EVENT_LOG_DOMAIN`, event_log.h -/
def domain : Str := c!"rauc-event"

inductive Level where
  | error | critical | warning | message | info | debug | custom
deriving DecidableEq, Repr

/-- `r_event_log_level_to_priority`, event_log.c:27-44 (one flag is set) -/
def priority : Level → Str
  | .error => c!"3"
  | .critical => c!"4"
  | .warning => c!"4"
  | .message => c!"5"
  | .info => c!"6"
  | .debug => c!"7"
  | .custom => c!"5"

/-- `g_log_structured` (GLib) with the level `G_LOG_LEVEL_MESSAGE`: message, priority and domain come first -/
def structured (kvs : List Field) (message : Str) : List Field := [(c!"MESSAGE", message), (c!"PRIORITY", c!"5"), (c!"GLIB_DOMAIN", domain)] ++ kvs

/-- `r_event_log_message`, event_log.c:46-60 -/
def plain (typ message : Str) : List Field := structured [(c!"RAUC_EVENT_TYPE", typ)] message

/-- the fields of an event, in order; see `Occ` for the functions. `%.8s` is taken to count characters; it counts bytes. -/
def fieldsOf : Occ → List Field
  | .installStarted t => structured [(c!"RAUC_EVENT_TYPE", c!"install"), (c!"MESSAGE_ID", c!"b05410e8a93345389cd061aab1e9516d"), (c!"TRANSACTION_ID", t)]
      (c!"Installation " ++ t.take 8 ++ c!" started")
  | .installDone t err h d v =>
    [(c!"MESSAGE", match err with
        | some (true, m) => c!"Installation " ++ t.take 8 ++ c!" rejected: " ++ m
        | some (false, m) => c!"Installation " ++ t.take 8 ++ c!" failed: " ++ m
        | none => c!"Installation " ++ t.take 8 ++ c!" succeeded"),
     (c!"MESSAGE_ID", match err with
        | some (true, _) => c!"60bea7e4fea549ccad68af457308b13a"
        | some (false, _) => c!"c48141f7fd49443aafff862b4809168f"
        | none => c!"0163db5468ac4237b090d28490c301ed"),
     (c!"PRIORITY", priority .message), (c!"GLIB_DOMAIN", domain), (c!"RAUC_EVENT_TYPE", c!"install"),
     (c!"BUNDLE_HASH", h.getD []), (c!"BUNDLE_DESCRIPTION", d.getD []), (c!"BUNDLE_VERSION", v.getD []), (c!"TRANSACTION_ID", t)]
  | .marked .active s b h => structured [(c!"RAUC_EVENT_TYPE", c!"mark"), (c!"MESSAGE_ID", c!"8b5e7435e1054d86858278e7544fe6da"), (c!"SLOT_NAME", s),
      (c!"SLOT_BOOTNAME", b.getD []), (c!"BUNDLE_HASH", h.getD [])] (c!"Marked slot " ++ s ++ c!" as active")
  | .marked .good s b _ => structured [(c!"RAUC_EVENT_TYPE", c!"mark"), (c!"MESSAGE_ID", c!"3304e15a7a9a447885eb208ba7ae3a05"), (c!"SLOT_NAME", s),
      (c!"SLOT_BOOTNAME", b.getD [])] (c!"Marked slot " ++ s ++ c!" as good")
  | .marked .bad s b _ => structured [(c!"RAUC_EVENT_TYPE", c!"mark"), (c!"MESSAGE_ID", c!"ccb0e584a47043d7a5316994bce77ae5"), (c!"SLOT_NAME", s),
      (c!"SLOT_BOOTNAME", b.getD [])] (c!"Marked slot " ++ s ++ c!" as bad")
  | .service (.booted s b i h) =>
    [(c!"MESSAGE", c!"Booted into " ++ s ++ c!" (" ++ b ++ c!")"), (c!"MESSAGE_ID", c!"e60e0addd3454cb8b796eae0d497af96"), (c!"PRIORITY", priority .message),
     (c!"GLIB_DOMAIN", domain), (c!"RAUC_EVENT_TYPE", c!"boot"), (c!"SLOT_NAME", s), (c!"SLOT_BOOTNAME", b), (c!"BOOT_ID", i), (c!"BUNDLE_HASH", h)]
  | .service (.external i) =>
    [(c!"MESSAGE", c!"Booted from external source"), (c!"MESSAGE_ID", c!"dd237efdad1945d9b1e471bc2b994532"), (c!"PRIORITY", priority .message),
     (c!"GLIB_DOMAIN", domain), (c!"RAUC_EVENT_TYPE", c!"boot"), (c!"BOOT_ID", i)]
  | .service .restarted => plain c!"service" c!"Service restarted"
  | .service .started => plain c!"service" c!"Service started"
  | .updatingSlot s => plain c!"writeslot" (c!"Updating slot " ++ s)
  | .updatingArtifact a r => plain c!"writeslot" (c!"Updating artifact '" ++ a ++ c!"' in repo '" ++ r ++ c!"'")

/-! ## Formats -/

/-- the loops of event_log.c:368-373, :381-386, :171-181 -/
def firstVal (k : Str) (fields : List Field) : Option Str := (fields.find? (fun f => decide (f.1 = k))).map (·.2)

/-- the document of `event_log_format_fields_json`, event_log.c:104-129 -/
def jsonRecord (ts : Str) (fields : List Field) : Json := .obj (fields.foldl (fun l f => Json.setMember l f.1 (.str f.2)) [(c!"TS", .str ts)])

/-- the names of fields in the readable format, event_log.c:193-212 -/
def label (k : Str) : Option Str :=
  if k = c!"TRANSACTION_ID" then some c!"transaction ID"
  else if k = c!"BOOT_ID" then some c!"boot ID"
  else if k = c!"BUNDLE_HASH" then some c!"bundle hash"
  else if k = c!"BUNDLE_VERSION" then some c!"bundle version"
  else if k = c!"SLOT_NAME" then some c!"slot"
  else if k = c!"SLOT_BOOTNAME" then some c!"bootname"
  else none

/-- event_log.c:214-216 -/
def detail (f : Field) : Str :=
  match label f.1 with
  | none => []
  | some l => '\n' :: (List.replicate 22 ' ' ++ l ++ c!": " ++ f.2)

/-- `event_log_format_fields_readable`, event_log.c:154-221 -/
def readable (verbose : Bool) (ts : Str) (fields : List Field) : Str :=
  ts ++ c!": " ++ (firstVal c!"MESSAGE" fields).getD [] ++ (if verbose then fields.flatMap detail else [])

/-- event_log.c:315-340: the text that is written, with the newline at the end -/
def record (fmt : LogFormat) (ts : Str) (fields : List Field) : Str :=
  (match fmt with
    | .readable => readable true ts fields
    | .short => readable false ts fields
    | .json => Json.gen Json.compact 0 (jsonRecord ts fields)
    | .jsonPretty => Json.gen Json.pretty 0 (jsonRecord ts fields)) ++ ['\n']

/-! ## Routing -/

/-- a logger of the configuration with its file -/
structure Sink where
  cfg : Logger
  st : EventLog.St

/-- event_log.c:395-399 -/
def selects (events : List Str) (typ : Option Str) : Bool :=
  decide (events.head? = some c!"all") || (match typ with | none => false | some t => events.contains t)

/-- what happens to the system calls of one logger during one event, see `EventLog.Log` -/
structure Faults where
  rename : Nat → Bool := fun _ => false
  final : Bool := false
  reopen : Bool := false
  write : Option Nat := none

def bytes (s : Str) : List UInt8 := s.flatMap String.utf8EncodeChar

def rotation (l : Logger) : EventLog.Cfg := ⟨l.maxSize, l.maxFiles.toNat⟩

/-- `event_log_writer_file`, event_log.c:303-358 -/
def writeTo (k : Sink) (ts : Str) (fields : List Field) (f : Faults) : Sink :=
  { k with st := EventLog.step (rotation k.cfg) k.st (.log ⟨bytes (record k.cfg.format ts fields), f.rename, f.final, f.reopen, f.write⟩) }

/-- `r_event_log_writer`, event_log.c:360-406, without the call of the default log writer. The loop over the loggers; `faults` is by position. A broken logger is
left alone by `EventLog.step`. -/
def logWriter (ts : Str) (fields : List Field) (faults : Nat → Faults) (sinks : List Sink) : List Sink :=
  match firstVal c!"GLIB_DOMAIN" fields with
  | none => sinks
  | some d =>
    if d = domain then
      sinks.mapIdx (fun i k => if selects k.cfg.events (firstVal c!"RAUC_EVENT_TYPE" fields) then writeTo k ts fields (faults i) else k)
    else sinks

/-- a log message of the program: an event, or any other message (of another domain) -/
inductive Entry where
  | event (ts : Str) (o : Occ) (faults : Nat → Faults)
  | other (ts : Str) (fields : List Field) (faults : Nat → Faults)

def step (sinks : List Sink) : Entry → List Sink
  | .event ts o f => logWriter ts (fieldsOf o) f sinks
  | .other ts fields f => logWriter ts fields f sinks

def runAll (sinks : List Sink) (h : List Entry) : List Sink := h.foldl step sinks

end Rauc.Events
