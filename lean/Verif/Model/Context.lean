import Verif.Model.ConfigFile
import Verif.Model.HandlerEnv

/-!
# Which configuration and which trust anchors are in effect: src/context.c:443-562, src/main.c:2778-3075, src/signature.c:48-99 and :495-660
-/

namespace Rauc.Context

open ConfigFile (Cfg Keyring Env loadConfig defaultConfig)

/-- `RContextConfigMode`, context.h:19-23 -/
inductive Mode where
  | none | auto | required
deriving DecidableEq, Repr

/-- the commands of main.c:2836-2899 -/
inductive Cmd where
  | help | install | bundle | resign | convert | encrypt | replaceSig | extractSig | extract | info | status | writeSlot | service | mount
deriving DecidableEq, Repr

/-- the last but one column of the table, main.c:2836-2899 -/
def tableMode : Cmd → Mode
  | .help | .bundle | .resign | .convert | .encrypt | .replaceSig | .extractSig => .none
  | .extract | .info => .auto
  | .install | .status | .writeSlot | .service | .mount => .required

/-- main.c:3009-3015; `svc` is ENABLE_SERVICE -/
def cmdMode (svc : Bool) (c : Cmd) : Mode :=
  if svc && (c == .install || c == .status) then .none else tableMode c

/-- the options of the command line that matter here, main.c:2809-2824 and the option groups; `confopts` are the values of `-C`
(G_OPTION_FLAG_OPTIONAL_ARG: the value may be missing) -/
structure Opts where
  conf : Option Str := none
  confopts : List (Option Str) := []
  key : Option Str := none
  keyring : Option Str := none
  signingKeyring : Option Str := none
  mount : Option Str := none

/-- `g_strsplit (s, d, 2)` must have two parts, main.c:2786-2796 -/
def cut (d : Char) (s : Str) : Option (Str × Str) :=
  if s = [] then none
  else
    match HandlerEnv.splitMax d 2 s with
    | [a, b] => some (a, b)
    | _ => none

/-- `collect_config_values`, main.c:2779-2802 -/
def collect : Option Str → Option (Str × Str × Str)
  | none => none
  | some value =>
    match cut '=' value with
    | none => none
    | some (left, v) =>
      match cut ':' left with
      | none => none
      | some (s, k) => some (s, k, v)

/-- the fields of `RaucContext` that matter here, context.h:31-66 -/
structure Ctx where
  mode : Mode
  configpath : Option Str
  overrides : List (Str × Str × Str)
  keypath : Option Str
  encryptionKey : Option Str
  keyringpath : Option Str
  keyringdirectory : Option Str
  signingKeyring : Option Str
  mountprefix : Option Str

/-- the option callbacks in order (main.c:2800 appends), then main.c:3006-3048 (the context is not busy when the program starts) -/
def cmdline (svc : Bool) (cmd : Cmd) (o : Opts) : Option Ctx :=
  match ConfigFile.mapAll collect o.confopts with
  | none => none
  | some ovs =>
    let enc := cmd == .info || cmd == .extract || cmd == .extractSig
    some {
      mode := cmdMode svc cmd, configpath := o.conf, overrides := ovs,
      keypath := if enc then none else o.key, encryptionKey := if enc then o.key else none,
      keyringpath := o.keyring, keyringdirectory := none, signingKeyring := o.signingKeyring, mountprefix := o.mount }

/-- what is found under a path: nothing (`g_stat` fails), something `g_file_get_contents` cannot read, an empty file, a file that is
(`some`) or is not a key file. The state does not change between `g_stat` and the read. -/
inductive FileState where
  | missing | unreadable | empty | data (kf : Option KeyFile)

/-- context.c:457-462 -/
def searchPaths : List Str := [c!"/etc/rauc/system.conf", c!"/run/rauc/system.conf", c!"/usr/lib/rauc/system.conf"]

/-- `g_stat` -/
def exists' : FileState → Bool
  | .missing => false
  | _ => true

/-- the loop of context.c:484-490: the first path that exists, else the last one -/
def search (fs : Str → FileState) : Str → List Str → Str
  | last, [] => last
  | _, p :: l => if exists' (fs p) then p else search fs p l

/-- result of `load_config` as seen by `r_context_configure`: the configuration, an error of the file domain or "empty file", another error -/
inductive Loaded where
  | ok (c : Cfg) | nofile | error

/-- any error is an error, context.c:494-496 -/
def Loaded.required : Loaded → Option Cfg
  | .ok c => some c
  | _ => none

/-- `load_config`, config_file.c:1450-1495 -/
def load (E : Option Str → Env) (fs : Str → FileState) (ovs : List (Str × Str × Str)) (p : Str) : Loaded :=
  match fs p with
  | .missing | .unreadable | .empty => .nofile
  | .data none => .error
  | .data (some kf) =>
    match loadConfig (E (some p)) ovs kf with
    | some c => .ok c
    | none => .error

/-- `r_replace_strdup` of an option that is given -/
def replace {α : Type} (old : α) : Option α → α
  | none => old
  | some v => v

/-- context.c:518-532 -/
def applyOverrides (x : Ctx) (c : Cfg) : Cfg :=
  { c with
    system := { c.system with mountPrefix := replace c.system.mountPrefix x.mountprefix }
    keyring := { c.keyring with
      path := replace c.keyring.path (x.keyringpath.map some), directory := replace c.keyring.directory (x.keyringdirectory.map some) }
    encryption := { c.encryption with key := replace c.encryption.key (x.encryptionKey.map some) } }

/-- the mode in effect, context.c:476-481 -/
def effMode (x : Ctx) : Mode := if x.configpath.isSome then .required else x.mode

/-- the file to use, context.c:479-491; the empty path stands for NULL -/
def effPath (fs : Str → FileState) (x : Ctx) : Str :=
  match x.configpath with
  | some p => p
  | none => if x.mode = .none then [] else search fs [] searchPaths

/-- the configuration before the overrides, context.c:492-516 -/
def baseConfig (E : Option Str → Env) (fs : Str → FileState) (x : Ctx) : Option Cfg :=
  match effMode x with
  | .required => (load E fs x.overrides (effPath fs x)).required
  | .auto =>
    match load E fs x.overrides (effPath fs x) with
    | .ok c => some c
    | .error => none
    | .nofile => defaultConfig (E none) x.overrides
  | .none => defaultConfig (E none) x.overrides

/-- `r_context_configure`, context.c:464-562. `target` is `r_context_configure_target`, which only runs if a configuration is required. -/
def configure (E : Option Str → Env) (fs : Str → FileState) (target : Cfg → Bool) (x : Ctx) : Option Cfg :=
  match baseConfig E fs x with
  | none => none
  | some base =>
    if effMode x = .required ∧ target (applyOverrides x base) = false then none
    else some (applyOverrides x base)

/-- from the command line to the configuration that the command runs with, main.c:2974-3075; `none`: the command does not run -/
def start (E : Option Str → Env) (fs : Str → FileState) (target : Cfg → Bool) (svc : Bool) (cmd : Cmd) (o : Opts) : Option Cfg :=
  match cmdline svc cmd o with
  | none => none
  | some x => configure E fs target x

/-! ## The store of trusted certificates -/

/-- an X509 store as set up: what it was loaded from, and its parameters -/
structure Store where
  file : Option Str
  directory : Option Str
  crlCheckAll : Bool
  partialChain : Bool
  purpose : Option Str
deriving DecidableEq, Repr

/-- OpenSSL: `X509_STORE_load_locations`, and the purposes known by short name -/
structure Ssl where
  loads : Option Str → Option Str → Bool
  knows : Str → Bool

/-- an argument of `setup_x509_store`, signature.c:501-504: NULL keeps the configuration, the empty string means none -/
def argOr (configured : Option Str) : Option Str → Option Str
  | none => configured
  | some a => if a = [] then none else some a

/-- `setup_x509_store`, signature.c:495-548 -/
def setupStore (S : Ssl) (k : Keyring) (capath cadir : Option Str) : Option Store :=
  if !S.loads (argOr k.path capath) (argOr k.directory cadir) then none
  else
    match k.purpose with
    | none => some { file := argOr k.path capath, directory := argOr k.directory cadir, crlCheckAll := k.checkCrl, partialChain := k.partialChain, purpose := none }
    | some p =>
      if !S.knows p then none
      else some { file := argOr k.path capath, directory := argOr k.directory cadir, crlCheckAll := k.checkCrl, partialChain := k.partialChain, purpose := some p }

/-- the store of `check_bundle`, bundle.c:2458 -/
def bundleStore (S : Ssl) (k : Keyring) : Option Store := setupStore S k none none

/-- the verification of a new signature in `cms_sign`, signature.c:624-642: the outer `none` is "no keyring given", the inner one an error -/
def signStore (S : Ssl) (k : Keyring) (signing : Option Str) : Option (Option Store) :=
  let path := match signing with
    | some p => some p
    | none => k.path
  let dir := match signing with
    | some _ => some []
    | none => k.directory
  if path.isSome || dir.isSome then some (setupStore S k path dir) else none

/-! ## The purpose check for code signing -/

/-- what OpenSSL computed for a certificate: x509v3.h EXFLAG_KUSAGE 0x2, EXFLAG_XKUSAGE 0x4; KU_DIGITAL_SIGNATURE 0x80; XKU_CODE_SIGN 0x8;
`isCa` is the result of `X509_check_ca` -/
structure Cert where
  flags : BitVec 32
  kusage : BitVec 32
  xkusage : BitVec 32
  isCa : Nat

/-- `check_purpose_code_sign`, signature.c:58-99 -/
def checkPurpose (x : Cert) (ca : Bool) : Nat :=
  if ca then
    if x.flags &&& 0x4#32 ≠ 0 ∧ ¬ x.xkusage &&& 0x8#32 ≠ 0 then 0 else x.isCa
  else if x.flags &&& 0x2#32 ≠ 0 ∧ ¬ x.kusage &&& 0x80#32 ≠ 0 then 0
  else if ¬ x.flags &&& 0x4#32 ≠ 0 ∨ ¬ x.xkusage &&& 0x8#32 ≠ 0 then 0
  else 1

end Rauc.Context
