import Verif.Lib.KeyFile
import Verif.Model.Utils
import Verif.Model.Slot
import Verif.Model.Image

/-!
# What handlers and hooks are told: src/install.c:568-601, 662-792, 811-870, 878-956, src/update_handler.c:1389-1487, src/context.c:200-339

An environment is a list of variables; `g_environ_setenv` replaces the first one with that name or appends.
-/

namespace Rauc.HandlerEnv

open Utils

abbrev Env := List (Str × Str)

/-- `g_getenv` as the started program sees it -/
def Env.get (e : Env) (k : Str) : Option Str := KeyFile.gget e k

/-- `g_environ_setenv (envp, k, v, overwrite)` and `g_subprocess_launcher_setenv` -/
def Env.setenv (e : Env) (k v : Str) (overwrite : Bool) : Env :=
  if overwrite || (e.get k).isNone then KeyFile.gset e k v else e

/-! ## The system-info handler -/

/-- one line of `launch_and_wait_variables_handler`, context.c:231-247: only lines starting with `RAUC_`, with at least one `=` -/
def infoLine (vars : Env) (line : Str) : Env :=
  if c!"RAUC_" <+: line then
    match splitEq line with
    | none => vars
    | some (k, v) => KeyFile.gset vars k v
  else vars

/-- `launch_and_wait_variables_handler`, context.c:200-258: `none` if the handler failed -/
def infoVars (lines : List Str) (ok : Bool) : Option Env :=
  if ok then some (lines.foldl infoLine []) else none

/-- where the variant comes from before the handler, context.c:388-404: `source` is the configured name, or what was read from the device
tree or the file (`none`: nothing configured, or reading failed) -/
structure Info where
  serial : Option Str
  variant : Option Str
  version : Option Str
  vars : Env

/-- `get_system_info_from_handler`, context.c:306-339, and the white space removal, context.c:418-419. The serial and version of the context are unset
before. `none`: the handler is missing or failed, the service does not start. -/
def systemInfo (source : Option Str) (handler : Option (List Str × Bool)) : Option Info :=
  match handler with
  | none => some ⟨none, source.map (fun s => chomp (chug s)), none, []⟩
  | some (lines, ok) =>
    match infoVars lines ok with
    | none => none
    | some vars =>
      some ⟨vars.get c!"RAUC_SYSTEM_SERIAL", ((vars.get c!"RAUC_SYSTEM_VARIANT").orElse (fun _ => source)).map (fun s => chomp (chug s)),
        vars.get c!"RAUC_SYSTEM_VERSION", vars⟩

/-! ## Handlers -/

/-- the context consulted -/
structure Ctx where
  configpath : Str
  compatible : Option Str
  variant : Option Str
  version : Option Str
  bootslot : Str
  mountPrefix : Str
  /-- variables from the system-info handler, in the order of the hash table -/
  info : Env

/-- `add_system_environment`, install.c:662-684 -/
def addSystem (c : Ctx) (e : Env) : Env :=
  let e := e.setenv c!"RAUC_SYSTEM_CONFIG" c.configpath true
  let e := e.setenv c!"RAUC_SYSTEM_COMPATIBLE" (c.compatible.getD []) true
  let e := e.setenv c!"RAUC_SYSTEM_VARIANT" (c.variant.getD []) true
  let e := e.setenv c!"RAUC_SYSTEM_VERSION" (c.version.getD []) true
  let e := e.setenv c!"RAUC_CURRENT_BOOTNAME" c.bootslot true
  let e := e.setenv c!"RAUC_MOUNT_PREFIX" c.mountPrefix true
  c.info.foldl (fun e kv => e.setenv kv.1 kv.2 false) e

/-- `printf "RAUC_..._%i"` -/
def numbered (base : Str) (n : Nat) : Str := base ++ toDec n

/-- the loop over the images of the manifest, install.c:742-758: the first image of the slot's class -/
def imageVars (e : Env) (n : Nat) (s : Slot) : List Image → Env
  | [] => e
  | i :: r =>
    if s.sclass = i.slotclass then
      let e := e.setenv (numbered c!"RAUC_IMAGE_NAME_" n) (i.filename.getD []) true
      let e := e.setenv (numbered c!"RAUC_IMAGE_DIGEST_" n) (i.digest.getD []) true
      e.setenv (numbered c!"RAUC_IMAGE_CLASS_" n) i.slotclass true
    else imageVars e n s r

/-- `g_string_append` with a separating blank, install.c:731-733, 760-762 -/
def appendNum (s : Str) (n : Nat) : Str := if s = [] then toDec n else s ++ ' ' :: toDec n

structure Acc where
  env : Env
  cnt : Nat
  slots : Str
  targets : Str

/-- the loop over the target group, install.c:735-763 -/
def targetLoop (images : List Image) (s : Slot) : Acc → List Slot → Acc
  | a, [] => a
  | a, t :: r =>
    if s = t then targetLoop images s { a with env := imageVars a.env a.cnt s images, targets := appendNum a.targets a.cnt } r
    else targetLoop images s a r

/-- one slot, install.c:724-788 -/
def slotStep (images : List Image) (group : List Slot) (a : Acc) (s : Slot) : Acc :=
  let n := a.cnt + 1
  let a := { a with cnt := n, slots := appendNum a.slots n }
  let a := targetLoop images s a group
  let e := a.env
  let e := e.setenv (numbered c!"RAUC_SLOT_NAME_" n) s.name true
  let e := e.setenv (numbered c!"RAUC_SLOT_CLASS_" n) s.sclass true
  let e := e.setenv (numbered c!"RAUC_SLOT_TYPE_" n) s.typ true
  let e := e.setenv (numbered c!"RAUC_SLOT_DEVICE_" n) s.device true
  let e := e.setenv (numbered c!"RAUC_SLOT_BOOTNAME_" n) (s.bootname.getD []) true
  let e := e.setenv (numbered c!"RAUC_SLOT_PARENT_" n) (s.parent.getD []) true
  { a with env := e }

/-- `r_environ_setenv_ptr_array`, utils.c:109-129; `none` is the `g_error` abort for an element without `=` -/
def setenvArray (overwrite : Bool) : Env → List Str → Option Env
  | e, [] => some e
  | e, x :: r =>
    match splitEq x with
    | none => none
    | some (k, v) => setenvArray overwrite (e.setenv k v overwrite) r

/-- `prepare_environment`, install.c:701-792. `base` is the environment of the service, `slots` the slot table and `group` the slots of the
target group, each in the order of its hash table, `mmeta` the meta groups of the manifest. -/
def prepare (base : Env) (c : Ctx) (source transaction : Str) (slots group : List Slot) (images : List Image)
    (mmeta : List (Str × List (Str × Str))) : Option Env :=
  let e := addSystem c base
  let e := e.setenv c!"RAUC_BUNDLE_MOUNT_POINT" source true
  let e := e.setenv c!"RAUC_UPDATE_SOURCE" source true
  let e := e.setenv c!"RAUC_TRANSACTION_ID" transaction true
  let a := slots.foldl (slotStep images group) ⟨e, 0, [], []⟩
  let e := a.env.setenv c!"RAUC_SLOTS" a.slots true
  let e := e.setenv c!"RAUC_TARGET_SLOTS" a.targets true
  setenvArray false e (shellFromMeta mmeta)

/-! ## Hooks -/

/-- environment of the bundle hook, `run_bundle_hook`, install.c:896-910 -/
def bundleHookEnv (base : Env) (c : Ctx) (mfCompatible : Str) (mfVersion mfBuild : Option Str) (mmeta : List (Str × List (Str × Str))) :
    Option Env :=
  let e := base.setenv c!"RAUC_SYSTEM_COMPATIBLE" (c.compatible.getD []) true
  let e := e.setenv c!"RAUC_SYSTEM_VARIANT" (c.variant.getD []) true
  let e := e.setenv c!"RAUC_SYSTEM_VERSION" (c.version.getD []) true
  let e := e.setenv c!"RAUC_MF_COMPATIBLE" mfCompatible true
  let e := e.setenv c!"RAUC_MF_VERSION" (mfVersion.getD []) true
  let e := e.setenv c!"RAUC_MF_BUILD" (mfBuild.getD []) true
  let e := e.setenv c!"RAUC_MOUNT_PREFIX" c.mountPrefix true
  setenvArray true e (shellFromMeta mmeta)

/-- the mounted bundle: the public key hashes of the verified chain, and the mount point -/
structure Mounted where
  hashes : List Str
  mountPoint : Str

/-- runtime state of the slot a hook is run for -/
structure SlotRun where
  state : Str
  mountPoint : Option Str
  extMountPoint : Option Str

/-- environment of a slot hook, `run_slot_hook_extra_env`, update_handler.c:1408-1462. `parent` is the parent slot, `extra` the additional
variables of the boot partition handlers. -/
def slotHookEnv (base : Env) (c : Ctx) (s : Slot) (r : SlotRun) (parent : Option Slot) (image : Option (Image × Str)) (bundle : Option Mounted)
    (extra : Env) : Env :=
  let e := base.setenv c!"RAUC_SYSTEM_COMPATIBLE" (c.compatible.getD []) true
  let e := e.setenv c!"RAUC_SYSTEM_VARIANT" (c.variant.getD []) true
  let e := e.setenv c!"RAUC_SYSTEM_VERSION" (c.version.getD []) true
  let e := e.setenv c!"RAUC_SLOT_NAME" s.name true
  let e := e.setenv c!"RAUC_SLOT_STATE" r.state true
  let e := e.setenv c!"RAUC_SLOT_CLASS" s.sclass true
  let e := e.setenv c!"RAUC_SLOT_TYPE" s.typ true
  let e := e.setenv c!"RAUC_SLOT_DEVICE" s.device true
  let e := match parent with
    | some p => e.setenv c!"RAUC_SLOT_BOOTNAME" (p.bootname.getD []) true
    | none => e.setenv c!"RAUC_SLOT_BOOTNAME" (s.bootname.getD []) true
  let e := e.setenv c!"RAUC_SLOT_PARENT" ((parent.map (·.name)).getD []) true
  let e := match r.mountPoint, r.extMountPoint with
    | some m, _ => e.setenv c!"RAUC_SLOT_MOUNT_POINT" m true
    | none, some m => e.setenv c!"RAUC_SLOT_MOUNT_POINT" m true
    | none, none => e
  let e := match image with
    | none => e
    | some (i, size) =>
      let e := e.setenv c!"RAUC_IMAGE_NAME" (i.filename.getD []) true
      let e := e.setenv c!"RAUC_IMAGE_SIZE" size true
      let e := e.setenv c!"RAUC_IMAGE_DIGEST" (i.digest.getD []) true
      e.setenv c!"RAUC_IMAGE_CLASS" i.slotclass true
  let e := e.setenv c!"RAUC_MOUNT_PREFIX" c.mountPrefix true
  let e := match bundle with
    | none => e
    | some b =>
      let e := e.setenv c!"RAUC_BUNDLE_SPKI_HASHES" (join ' ' b.hashes) true
      e.setenv c!"RAUC_BUNDLE_MOUNT_POINT" b.mountPoint true
  extra.foldl (fun e kv => e.setenv kv.1 kv.2 true) e

/-! ## Messages -/

/-- `g_strsplit (s, d, n)` for `n ≥ 1`, not the empty string -/
def splitMax (d : Char) : Nat → Str → List Str
  | 0, s => [s]
  | 1, s => [s]
  | n + 2, s =>
    match s.span (fun c => c != d) with
    | (a, []) => [a]
    | (a, _ :: r) => a :: splitMax d (n + 1) r

inductive Message where
  /-- printed to the log only -/
  | log (line : Str)
  /-- sent as installation message -/
  | show (msg : Str)
deriving DecidableEq, Repr

/-- `parse_handler_output`, install.c:568-601 (`fields < 2` cannot happen for a line starting with `<< `) -/
def parseOutput (line : Str) : Message :=
  if c!"<< " <+: line then
    match splitMax ' ' 5 line with
    | _ :: kind :: rest =>
      if kind = c!"handler" ∧ rest ≠ [] then .show (c!"Handler status: " ++ rest.headD [])
      else if kind = c!"image" ∧ 2 ≤ rest.length then
        .show (c!"Image '" ++ rest.headD [] ++ c!"' status: " ++ (rest.drop 1).headD [])
      else if kind = c!"bootloader" ∧ rest ≠ [] then .show (c!"Bootloader status: " ++ rest.headD [])
      else if kind = c!"error" then .show (c!"Error: " ++ join ' ' rest)
      else if kind = c!"debug" then .show (c!"Debug: " ++ join ' ' rest)
      else .show (c!"Unknown handler output: " ++ line)
    | _ => .log line
  else .log line

/-- `launch_and_wait_handler`, install.c:811-870: the messages in order; the result is the exit status alone -/
def runHandler (started : Bool) (lines : List Str) (exitOk : Bool) : List Message × Bool :=
  if started then (lines.map parseOutput, exitOk) else ([], false)

/-- how a bundle hook's end is reported, install.c:918-953: the last line written to stderr is the reason for a rejection, i.e. an exit code
of at least 10 (`none`: killed by a signal or not started) -/
inductive HookResult where
  | passed
  | rejected (reason : Str)
  | failed
deriving DecidableEq, Repr

def bundleHookResult (started : Bool) (stderr : List Str) (exit : Option Nat) : HookResult :=
  if !started then .failed
  else
    match exit with
    | some 0 => .passed
    | some n =>
      if 10 ≤ n then
        match stderr.getLast? with
        | some l => .rejected l
        | none => .failed
      else .failed
    | none => .failed

end Rauc.HandlerEnv
