import Verif.Lib.Str

/-!
# The data directory of a slot: src/slot.c:204-341, its users in src/status_file.c, src/install.c:1116-1230, src/hash_index.c:330-434 and src/update_handler.c:729-1035

One slot with a configured data directory. The directory contains one subdirectory `hash-<digest>` per known image, each of which may contain a block hash index; everything else in it
does not belong to RAUC. An operation is modelled by the list of the states it passes through (each of them a possible crash point), its last state and its result.
-/

namespace Rauc.DataDir

/-- an entry of the data directory -/
inductive Entry where
  /-- a directory, possibly with the file `block-hash-index`, a list of chunk hashes -/
  | sub (index : Option (List Nat))
  /-- anything else -/
  | other (data : Nat)
deriving DecidableEq, Repr

abbrev Dir := Str → Option Entry

def Dir.set (d : Dir) (n : Str) (x : Option Entry) : Dir := fun m => if m = n then x else d m

/-- the fields of `RaucSlotStatus` which matter here -/
structure Status where
  status : Option Str
  digest : Option Str
deriving DecidableEq, Repr

/-- a slot without any status information: `g_new0(RaucSlotStatus, 1)`, status_file.c:252-260 -/
def Status.empty : Status := ⟨none, none⟩

structure St where
  dir : Dir
  /-- the status in memory, `slot->status` -/
  mem : Option Status
  /-- the status of the slot in the status file -/
  disk : Status

/-- outcome of `rm_tree` on one entry -/
inductive Rm where
  | done
  /-- it failed before removing anything -/
  | kept
  /-- it failed after removing the index -/
  | emptied
deriving DecidableEq, Repr

/-- what the operations depend on besides the state -/
structure Env where
  /-- the names read from the data directory, for each content -/
  ls : Dir → List Str
  rm : Str → Rm
  /-- whether `rename` (slot.c:278) fails with an error other than ENOENT -/
  renameFails : Bool
  /-- whether the directory for the current digest can be created, slot.c:230 -/
  mkdirOk : Bool
  /-- whether writing the index works, hash_index.c:433 -/
  writeOk : Bool
  /-- results of saving the status file -/
  saveOk : Status → Bool

/-- an operation which ends in `final`, passing through `states` -/
structure Run (α : Type) where
  states : List St
  final : St
  val : α

def Run.pure {α : Type} (s : St) (a : α) : Run α := ⟨[s], s, a⟩

def Run.bind {α β : Type} (r : Run α) (k : St → α → Run β) : Run β :=
  ⟨r.states ++ (k r.final r.val).states, (k r.final r.val).final, (k r.final r.val).val⟩

def pre : Str := c!"hash-"

/-- the name of the subdirectory for a digest -/
def sub (digest : Str) : Str := pre ++ digest

def unknown : Str := c!"unknown"

/-! ## slot.c -/

/-- `rm_tree` on one entry, utils.c:219-234: the content is removed before the directory -/
def rmTree (E : Env) (n : Str) (s : St) : Run Bool :=
  match s.dir n with
  | none => .pure s true
  | some (.other _) =>
    match E.rm n with
    | .done => ⟨[s, { s with dir := s.dir.set n none }], { s with dir := s.dir.set n none }, true⟩
    | _ => .pure s false
  | some (.sub _) =>
    let e : St := { s with dir := s.dir.set n (some (.sub none)) }
    match E.rm n with
    | .done => ⟨[s, e, { s with dir := s.dir.set n none }], { s with dir := s.dir.set n none }, true⟩
    | .kept => .pure s false
    | .emptied => ⟨[s, e], e, false⟩

/-- the subdirectory for a checksum, slot.c:217-228 -/
def nameFor (checksum : Option Str) (st : Option Status) : Str :=
  sub ((checksum.orElse (fun _ => st.bind (·.digest))).getD unknown)

/-- `r_slot_get_checksum_data_directory`, slot.c:204-243: creates the directory -/
def getDir (E : Env) (checksum : Option Str) (s : St) : Run (Option Str) :=
  let n := nameFor checksum s.mem
  match s.dir n with
  | some (.sub _) => .pure s (some n)
  | some (.other _) => .pure s none
  | none =>
    if E.mkdirOk then ⟨[s, { s with dir := s.dir.set n (some (.sub none)) }], { s with dir := s.dir.set n (some (.sub none)) }, some n⟩
    else .pure s none

/-- `rename`, slot.c:278-287. Renaming onto something which exists fails or replaces it; it is only called when the target does not exist. -/
def rename (E : Env) (a b : Str) (s : St) : Run Bool :=
  match s.dir a with
  | none => .pure s true
  | some x =>
    if E.renameFails then .pure s false
    else ⟨[s, { s with dir := (s.dir.set a none).set b (some x) }], { s with dir := (s.dir.set a none).set b (some x) }, true⟩

/-- `r_slot_move_checksum_data_directory`, slot.c:245-289 -/
def moveDir (E : Env) (old new : Option Str) (s : St) : Run Bool :=
  match old with
  | none => .pure s true
  | some o =>
    let b := sub (new.getD unknown)
    (rmTree E b s).bind fun s ok => if ok then rename E (sub o) b s else .pure s false

/-- the name which is kept, slot.c:310-317: `%s` with a NULL pointer gives `(null)` -/
def expected : Option Status → Str
  | none => sub unknown
  | some st => sub (st.digest.getD c!"(null)")

/-- the loop, slot.c:322-340 -/
def cleanLoop (E : Env) (keep : Str) : List Str → St → Run Unit
  | [], s => .pure s ()
  | n :: l, s =>
    if pre.isPrefixOf n = false then cleanLoop E keep l s
    else if n = keep then cleanLoop E keep l s
    else (rmTree E n s).bind fun s _ => cleanLoop E keep l s

def isPending : Option Status → Bool
  | some st => decide (st.status = some c!"pending")
  | none => false

/-- `r_slot_clean_data_directory`, slot.c:291-341 -/
def clean (E : Env) (s : St) : Run Unit :=
  if isPending s.mem then .pure s ()
  else cleanLoop E (expected s.mem) (E.ls s.dir) s

/-! ## status_file.c -/

/-- `r_slot_status_load`, status_file.c:264-275.
Simplification: a status file which cannot be read is one without this slot. -/
def load (E : Env) (s : St) : Run Unit :=
  clean E (match s.mem with | none => { s with mem := some s.disk } | some _ => s)

/-- `r_slot_status_save`, status_file.c:405-417: the directory is cleaned first; the file is replaced atomically.
Simplification: of the other slots' status nothing is modelled; a status which is to be stored on a slot without a file system (which is silently not stored, :297) is one whose
saving fails. -/
def save (E : Env) (s : St) : Run Bool :=
  (clean E s).bind fun s _ =>
    match s.mem with
    | none => .pure s false
    | some st => if E.saveOk st then ⟨[s, { s with disk := st }], { s with disk := st }, true⟩ else .pure s false

/-! ## Installing -/

/-- one installation to the slot -/
structure Attempt where
  /-- the digest of the image; it is missing only for images without a file -/
  digest : Option Str
  /-- `install-same` of the slot -/
  installSame : Bool
  /-- whether the adaptive method is used, update_handler.c:1006 -/
  adaptive : Bool
  /-- whether all chunks were written, update_handler.c:850-921 -/
  copied : Bool
  /-- the hash index of the image -/
  index : List Nat
  /-- the result of the slot handler -/
  ok : Bool
  /-- the status which is found on the slot once it was written, if the status is stored on the slot itself -/
  onSlot : Status

/-- `r_hash_index_export_slot`, hash_index.c:415-434; `g_file_set_contents` replaces the file atomically -/
def exportSlot (E : Env) (a : Attempt) (s : St) : Run Unit :=
  (getDir E a.digest s).bind fun s r =>
    match r with
    | none => .pure s ()
    | some n =>
      if E.writeOk then ⟨[s, { s with dir := s.dir.set n (some (.sub (some a.index))) }], { s with dir := s.dir.set n (some (.sub (some a.index))) }, ()⟩
      else .pure s ()

/-- what the slot handler does to the data directory: update_handler.c:753-757 (opening the index of the target, which creates the directory), :924-929 (exporting) -/
def handler (E : Env) (a : Attempt) (s : St) : Run Bool :=
  if a.adaptive then
    (getDir E none s).bind fun s r =>
      match r with
      | none => .pure s a.ok
      | some _ => if a.copied then (exportSlot E a s).bind fun s _ => .pure s a.ok else .pure s a.ok
  else .pure s a.ok

/-- `update_slot_status`, install.c:1096-1114 -/
def finished (status : Str) (a : Attempt) : Status := ⟨some status, a.digest⟩

/-- install.c:1141 -/
def skips (a : Attempt) (st : Status) : Bool :=
  !a.installSame && decide (st.status = some c!"ok") && decide (a.digest = st.digest)

/-- writing to the slot destroys a status stored on it -/
def overwrite (perSlot : Bool) (a : Attempt) (s : St) : St := if perSlot then { s with disk := a.onSlot } else s

/-- the end of `handle_slot_install_plan`, install.c:1203-1230 -/
def writeSlot (E : Env) (perSlot : Bool) (a : Attempt) (s : St) : Run Bool :=
  (handler E a (overwrite perSlot a s)).bind fun s ok =>
    if ok then save E { s with mem := some (finished c!"ok" a) }
    else (save E { s with mem := some (finished c!"failed" a) }).bind fun s _ => .pure s false

/-- `handle_slot_install_plan`, install.c:1116-1230. `perSlot` means that the status is stored on the slot itself. -/
def attempt (E : Env) (perSlot : Bool) (a : Attempt) (s : St) : Run Bool :=
  (load E s).bind fun s _ =>
    let st := s.mem.getD Status.empty
    if skips a st then save E { s with mem := some (finished c!"ok" a) }
    else if perSlot then writeSlot E perSlot a s
    else
      (moveDir E st.digest none { s with mem := some ⟨some c!"pending", none⟩ }).bind fun s _ =>
        (save E s).bind fun s ok => if ok then writeSlot E perSlot a s else .pure s false

/-! ## Histories -/

/-- what may happen to the slot's data directory -/
inductive Op where
  /-- the status is read, for example by `rauc status` -/
  | load
  /-- an installation to the slot -/
  | attempt (a : Attempt)
  /-- another slot is installed with this slot as the source of chunks, update_handler.c:774-782 -/
  | seed

/-- the run of one operation -/
def Op.run (E : Env) (perSlot : Bool) : Op → St → Run Bool
  | .load, s => (DataDir.load E s).bind fun s _ => .pure s true
  | .attempt a, s => DataDir.attempt E perSlot a s
  | .seed, s => (getDir E none s).bind fun s _ => .pure s true

/-- one step of a history, with its own environment: the operation, and after how many states it is interrupted by a crash, if at all -/
structure Step where
  env : Env
  op : Op
  crash : Option Nat

/-- after a crash the process starts again without the status in memory -/
def restart (s : St) : St := { s with mem := none }

def Step.run (perSlot : Bool) (x : Step) (s : St) : St :=
  match x.crash with
  | none => (x.op.run x.env perSlot s).final
  | some k => restart (((x.op.run x.env perSlot s).states)[k]?.getD s)

/-- a history -/
def history (perSlot : Bool) (l : List Step) (s : St) : St := l.foldl (fun s x => x.run perSlot s) s

end Rauc.DataDir
