import Verif.Model.Config
import Verif.Model.ManifestFile
import Verif.Model.Daemon
import Verif.Model.Semver

/-!
# The system configuration: src/config_file.c (`parse_config`, `load_config`), readers in src/utils.c

Key files hold raw values (the text after `=`), as in `Model/ManifestFile`. `none` is a rejected configuration. The order of the checks only
matters for the error message, which is not modelled.
-/

namespace Rauc.ConfigFile

open ManifestFile

/-- what parsing depends on besides the file: `resolve_path` (utils.c:328-349), `g_build_filename`, shell word parsing, build options -/
structure Env where
  resolve : Str → Str := id
  join : Str → Str → Str := fun a b => a ++ '/' :: b
  shellOk : Str → Bool := fun _ => true
  json : Bool := true
  streaming : Bool := true
  composefs : Bool := true

/-- a check in the middle of a function -/
def check (b : Bool) : Option Unit := if b then some () else none

/-- loop that fails with the first failing element -/
def mapAll {α β : Type} (f : α → Option β) : List α → Option (List β)
  | [] => some []
  | a :: l =>
    match f a with
    | none => none
    | some b =>
      match mapAll f l with
      | none => none
      | some r => some (b :: r)

/-! ## Readers -/

/-- the number read by `strtol (s, NULL, 10)`, unbounded -/
def strtolVal (s : Str) : Int :=
  match chug s with
  | '-' :: r => -((digitsAux 10 0 0 r).1 : Int)
  | '+' :: r => ((digitsAux 10 0 0 r).1 : Int)
  | r => ((digitsAux 10 0 0 r).1 : Int)

/-- `g_key_file_get_integer` of a present value: what follows the number must be empty or start with white space, the number must fit an `int` -/
def kfInt (s : Str) : Option Int :=
  let after := (Config.strtoullRest s).head?
  if s = [] ∨ (after.map isSpace).getD true = false then none
  else if -2147483648 ≤ strtolVal s ∧ strtolVal s ≤ 2147483647 then some (strtolVal s)
  else none

/-- `g_key_file_get_uint64` of a present value (signs are accepted and negated modulo 2^64, too large numbers saturate) -/
def kfUint (s : Str) : Option Nat :=
  if s = [] ∨ Config.strtoullRest s ≠ [] then none else some (strtoull 10 s)

/-- `key_file_consume_string` (utils.c:385-409) where only a missing key is tolerated -/
def optStr (kvs : Kvs) (k : Str) : Option (Option Str) := optGot (consume kvs k)

/-- `g_key_file_get_boolean` with a default for a missing key -/
def optBool (kvs : Kvs) (k : Str) (d : Bool) : Option Bool :=
  match KeyFile.gget kvs k with
  | none => some d
  | some raw => Config.kfBool raw

/-- `key_file_consume_integer`, utils.c:430-443 -/
def optInt (kvs : Kvs) (k : Str) : Option (Option Int) :=
  match KeyFile.gget kvs k with
  | none => some none
  | some raw =>
    match kfInt raw with
    | none => none
    | some n => some (some n)

/-- `g_key_file_get_uint64` with a default for a missing key -/
def optUint (kvs : Kvs) (k : Str) (d : Nat) : Option Nat :=
  match KeyFile.gget kvs k with
  | none => some d
  | some raw => kfUint raw

/-- `g_key_file_get_string_list` where only a missing key is tolerated -/
def optList (kvs : Kvs) (k : Str) : Option (Option (List Str)) :=
  match KeyFile.gget kvs k with
  | none => some none
  | some raw =>
    match parseList [] raw with
    | none => none
    | some l => some (some l)

/-- `key_file_consume_string_list`, utils.c:485-522: an empty list is like a missing key -/
def optListIn (kvs : Kvs) (k : Str) (allowed : Option (List Str)) : Option (Option (List Str)) :=
  match optList kvs k with
  | none => none
  | some none => some none
  | some (some l) =>
    if l = [] then some none
    else
      match allowed with
      | none => some (some l)
      | some a => if l.all (fun x => a.contains x) then some (some l) else none

/-- `key_file_consume_binary_suffixed_string` (utils.c:445-483) where a missing key gives 0 -/
def optSize (kvs : Kvs) (k : Str) : Option Nat :=
  match optStr kvs k with
  | none => none
  | some none => some 0
  | some (some s) => Config.binarySuffixed s

/-! ## [system]: config_file.c:281-592 -/

inductive Variant where
  | none | dtb
  | file (path : Str)
  | name (n : Str)
deriving DecidableEq, Repr

structure System where
  compatible : Option Str
  minVersion : Option Str
  bootloader : Option Str
  bbStatename : Option Str
  bbDtbpath : Option Str
  grubenv : Option Str
  efiBootnext : Bool
  customBackend : Option Str
  attempts : Int
  attemptsPrimary : Int
  maxDownload : Nat
  maxSignature : Nat
  mountPrefix : Str
  activateInstalled : Bool
  preventLateFallback : Bool
  variant : Variant
  dataDir : Option Str
  statusFile : Str
  formats : Config.Mask
  preCheck : Bool
deriving DecidableEq, Repr

/-- config_file.c:300-317: the minimum version must be valid and not below "0" -/
def versionOk : Option Str → Bool
  | none => true
  | some v => Semver.lessEqual c!"0" v == some true

/-- keys of [system] that are only read for one boot loader, config_file.c:328-360: read with errors ignored -/
def bootStrKeys (boot : Option Str) : List Str :=
  if boot = some c!"barebox" then [c!"barebox-statename", c!"barebox-dtbpath"]
  else if boot = some c!"grub" then [c!"grubenv"]
  else []

/-- ... and removed -/
def bootRemKeys (boot : Option Str) : List Str := if boot = some c!"efi" then [c!"efi-use-bootnext"] else []

/-- `efi-use-bootnext`, config_file.c:339-348; not set (FALSE) for other boot loaders -/
def bootNext (boot : Option Str) (kvs : Kvs) : Option Bool :=
  if boot = some c!"efi" then optBool kvs c!"efi-use-bootnext" true else some false

/-- the custom backend is mandatory, config_file.c:349-357 -/
def customBackend (E : Env) (boot : Option Str) (handlers : Kvs) : Option (Option Str) :=
  if boot = some c!"custom" then
    match str handlers c!"bootloader-custom-backend" with
    | none => none
    | some p => some (some (E.resolve p))
  else some none

/-- the three variant keys, config_file.c:440-495 -/
def variantOf (dtb : Bool) (file name : Option Str) : Option Variant :=
  match dtb, file, name with
  | false, none, none => some .none
  | true, none, none => some .dtb
  | false, some f, none => some (.file f)
  | false, none, some n => some (.name n)
  | _, _, _ => none

/-- status file, config_file.c:525-555 -/
def statusFileOf (E : Env) (dataDir statusfile : Option Str) : Option Str :=
  let s := match statusfile with
    | some s => s
    | none =>
      match dataDir with
      | some d => E.join d c!"central.raucs"
      | none => c!"per-slot"
  if s = c!"per-slot" then
    match dataDir with
    | some _ => none
    | none => some s
  else some (E.resolve s)

/-- bundle formats, config_file.c:557-574 -/
def formatsOf : Option Str → Option Config.Mask
  | none => some ⟨true, true, true⟩
  | some v =>
    if (Config.parseBundleFormats ⟨true, true, true⟩ v).1 then some (Config.parseBundleFormats ⟨true, true, true⟩ v).2 else none

/-- DEFAULT_MAX_BUNDLE_DOWNLOAD_SIZE, config_file.h:14 -/
def defaultDownload : Nat := 8388608

/-- DEFAULT_MAX_BUNDLE_SIGNATURE_SIZE, config_file.h:16 -/
def defaultSignature : Nat := 65536

/-- keys of [system] read strictly (removed when read) -/
def systemRemKeys : List Str :=
  [c!"compatible", c!"min-bundle-version", c!"boot-attempts", c!"boot-attempts-primary", c!"max-bundle-download-size",
   c!"max-bundle-signature-size", c!"activate-installed", c!"variant-dtb", c!"prevent-late-fallback", c!"variant-file", c!"variant-name",
   c!"data-directory", c!"statusfile", c!"bundle-formats", c!"perform-pre-check"]

/-- keys of [system] read with the error ignored -/
def systemStrKeys : List Str := [c!"bootloader", c!"mountprefix"]

/-- `parse_system_section`, config_file.c:281-592. `handlers` are the keys of the [handlers] group. -/
def parseSystem (E : Env) (kvs handlers : Kvs) : Option System := do
  let compatible ← optStr kvs c!"compatible"
  let minVersion ← optStr kvs c!"min-bundle-version"
  check (versionOk minVersion)
  let boot := str kvs c!"bootloader"
  let bootnext ← bootNext boot kvs
  let backend ← customBackend E boot handlers
  let attempts ← optInt kvs c!"boot-attempts"
  check (decide (0 ≤ attempts.getD 0))
  let primary ← optInt kvs c!"boot-attempts-primary"
  check (decide (0 ≤ primary.getD 0))
  let down ← optUint kvs c!"max-bundle-download-size" defaultDownload
  check (decide (down ≠ 0))
  let sig ← optUint kvs c!"max-bundle-signature-size" defaultSignature
  check (decide (sig ≠ 0))
  let activate ← optBool kvs c!"activate-installed" true
  let dtb ← optBool kvs c!"variant-dtb" false
  let late ← optBool kvs c!"prevent-late-fallback" false
  let vfile ← optStr kvs c!"variant-file"
  let vname ← optStr kvs c!"variant-name"
  let variant ← variantOf dtb vfile vname
  let data ← optStr kvs c!"data-directory"
  let statusRaw ← optStr kvs c!"statusfile"
  let status ← statusFileOf E (data.map E.resolve) statusRaw
  let fmts ← optStr kvs c!"bundle-formats"
  let formats ← formatsOf fmts
  let preCheck ← optBool kvs c!"perform-pre-check" false
  check (noKeysLeft kvs (systemStrKeys ++ bootStrKeys boot) (systemRemKeys ++ bootRemKeys boot))
  some {
    compatible := compatible, minVersion := minVersion, bootloader := boot,
    bbStatename := if boot = some c!"barebox" then str kvs c!"barebox-statename" else none,
    bbDtbpath := if boot = some c!"barebox" then str kvs c!"barebox-dtbpath" else none,
    grubenv := if boot = some c!"grub" then some (((str kvs c!"grubenv").map E.resolve).getD c!"/boot/grub/grubenv") else none,
    efiBootnext := bootnext, customBackend := backend,
    attempts := attempts.getD 0, attemptsPrimary := primary.getD 0, maxDownload := down, maxSignature := sig,
    mountPrefix := (str kvs c!"mountprefix").getD c!"/mnt/rauc/", activateInstalled := activate, preventLateFallback := late,
    variant := variant, dataDir := data.map E.resolve, statusFile := status, formats := formats, preCheck := preCheck }

/-! ## The other fixed sections -/

structure Keyring where
  path : Option Str := none
  directory : Option Str := none
  checkCrl : Bool := false
  partialChain : Bool := false
  signingTime : Bool := false
  purpose : Option Str := none
  signerCns : Option (List Str) := none
deriving DecidableEq, Repr

/-- config_file.c:652-658 -/
def purposeOf (p : Option Str) : Option Str := if p = some c!"codesign" then some c!"codesign-rauc" else p

/-- `parse_keyring_section`, config_file.c:594-676 -/
def parseKeyring (E : Env) (kvs : Kvs) : Option Keyring := do
  let crl ← optBool kvs c!"check-crl" false
  let partialChain ← optBool kvs c!"allow-partial-chain" false
  let signingTime ← optBool kvs c!"use-bundle-signing-time" false
  let purpose ← optStr kvs c!"check-purpose"
  let cns ← optList kvs c!"allowed-signer-cns"
  check (noKeysLeft kvs [c!"path", c!"directory"]
    [c!"check-crl", c!"allow-partial-chain", c!"use-bundle-signing-time", c!"check-purpose", c!"allowed-signer-cns"])
  some {
    path := (str kvs c!"path").map E.resolve, directory := (str kvs c!"directory").map E.resolve,
    checkCrl := crl, partialChain := partialChain, signingTime := signingTime, purpose := purposeOf purpose, signerCns := cns }

structure Casync where
  storePath : Option Str := none
  tmpPath : Option Str := none
  installArgs : Option Str := none
  desync : Bool := false
deriving DecidableEq, Repr

/-- `parse_casync_section`, config_file.c:678-710 -/
def parseCasync (kvs : Kvs) : Option Casync := do
  let desync ← optBool kvs c!"use-desync" false
  check (noKeysLeft kvs [c!"storepath", c!"tmppath", c!"install-args"] [c!"use-desync"])
  some {
    storePath := str kvs c!"storepath", tmpPath := str kvs c!"tmppath", installArgs := str kvs c!"install-args", desync := desync }

structure Streaming where
  user : Option Str := none
  tlsCert : Option Str := none
  tlsKey : Option Str := none
  tlsCa : Option Str := none
  headers : Option (List Str) := none
deriving DecidableEq, Repr

/-- `supported_http_headers`, install.c:1761-1770 -/
def httpHeaders : List Str :=
  [c!"boot-id", c!"transaction-id", c!"machine-id", c!"system-version", c!"serial", c!"variant", c!"uptime"]

/-- `parse_streaming_section`, config_file.c:712-756 -/
def parseStreaming (kvs : Kvs) : Option Streaming := do
  let headers ← optList kvs c!"send-headers"
  check ((headers.getD []).all (fun h => httpHeaders.contains h))
  check (noKeysLeft kvs [c!"sandbox-user", c!"tls-cert", c!"tls-key", c!"tls-ca"] [c!"send-headers"])
  some {
    user := str kvs c!"sandbox-user", tlsCert := str kvs c!"tls-cert", tlsKey := str kvs c!"tls-key", tlsCa := str kvs c!"tls-ca",
    headers := headers }

structure Polling where
  url : Str
  inhibit : Option (List Str)
  candidate : List Str
  install : Option (List Str)
  reboot : Option (List Str)
  intervalMs : Int
  maxMs : Int
  rebootCmd : Str
deriving DecidableEq, Repr

/-- polling.c:624-645 -/
def candidateCriteria : List Str := [c!"higher-semver", c!"different-version"]
def installCriteria : List Str := [c!"always", c!"higher-semver", c!"different-version"]
def rebootCriteria : List Str := [c!"updated-slots", c!"updated-artifacts", c!"failed-update"]

/-- `parse_polling_section`, config_file.c:758-860 -/
def parsePolling (E : Env) (kvs : Kvs) : Option Polling := do
  check E.streaming
  let inhibit ← optListIn kvs c!"inhibit-files" none
  let candidate ← optListIn kvs c!"candidate-criteria" (some candidateCriteria)
  let install ← optListIn kvs c!"install-criteria" (some installCriteria)
  let reboot ← optListIn kvs c!"reboot-criteria" (some rebootCriteria)
  let url ← str kvs c!"url"
  check ((c!"http").isPrefixOf url)
  let interval ← optInt kvs c!"interval-sec"
  let max ← optInt kvs c!"max-interval-sec"
  let ms ← Daemon.intervals interval max
  let cmd ← optStr kvs c!"reboot-cmd"
  check (noKeysLeft kvs [c!"url"] [c!"inhibit-files", c!"candidate-criteria", c!"install-criteria", c!"reboot-criteria",
    c!"interval-sec", c!"max-interval-sec", c!"reboot-cmd"])
  some {
    url := url, inhibit := inhibit, candidate := candidate.getD [c!"higher-semver"], install := install, reboot := reboot,
    intervalMs := ms.1, maxMs := ms.2, rebootCmd := cmd.getD c!"reboot" }

structure Encryption where
  key : Option Str := none
  cert : Option Str := none
deriving DecidableEq, Repr

/-- `parse_encryption_section`, config_file.c:862-885 -/
def parseEncryption (E : Env) (kvs : Kvs) : Option Encryption := do
  check (noKeysLeft kvs [c!"key", c!"cert"] [])
  some { key := (str kvs c!"key").map E.resolve, cert := (str kvs c!"cert").map E.resolve }

/-- `parse_autoinstall_section`, config_file.c:887-907 -/
def parseAutoinstall (E : Env) (kvs : Kvs) : Option (Option Str) := do
  check (noKeysLeft kvs [c!"path"] [])
  some ((str kvs c!"path").map E.resolve)

structure HandlerPaths where
  systemInfo : Option Str := none
  preInstall : Option Str := none
  postInstall : Option Str := none
deriving DecidableEq, Repr

/-- `parse_handlers_section`, config_file.c:909-931; the custom backend was removed by `parse_system_section` -/
def parseHandlers (E : Env) (custom : Bool) (kvs : Kvs) : Option HandlerPaths := do
  check (noKeysLeft kvs [c!"system-info", c!"pre-install", c!"post-install"] (if custom then [c!"bootloader-custom-backend"] else []))
  some {
    systemInfo := (str kvs c!"system-info").map E.resolve, preInstall := (str kvs c!"pre-install").map E.resolve,
    postInstall := (str kvs c!"post-install").map E.resolve }

/-! ## [log.*]: config_file.c:136-279 -/

inductive LogFormat where
  | readable | short | json | jsonPretty
deriving DecidableEq, Repr

structure Logger where
  name : Str
  filename : Str
  format : LogFormat
  events : List Str
  maxSize : Nat
  maxFiles : Int
deriving DecidableEq, Repr

/-- config_file.c:181-213 -/
def logFormat (E : Env) (s : Str) : Option LogFormat :=
  if s = c!"readable" then some .readable
  else if s = c!"short" then some .short
  else if s = c!"json" then (if E.json then some .json else none)
  else if s = c!"json-pretty" then (if E.json then some .jsonPretty else none)
  else none

/-- `supported_event_types`, event_log.c:12-20 -/
def eventTypes : List Str := [c!"all", c!"boot", c!"mark", c!"install", c!"service", c!"writeslot"]

/-- relative file names, config_file.c:166-179 -/
def logFile (E : Env) (dataDir : Option Str) (f : Str) : Option Str :=
  if f.head? = some '/' then some f
  else
    match dataDir with
    | none => none
    | some d => some (E.join d f)

/-- one logger section; `name` is the group name after `log.` -/
def parseLogger (E : Env) (dataDir : Option Str) (name : Str) (kvs : Kvs) : Option Logger := do
  let fname ← optStr kvs c!"filename"
  let f ← fname
  let file ← logFile E dataDir f
  let fmt ← optStr kvs c!"format"
  let format ← logFormat E (fmt.getD c!"readable")
  let evs ← optList kvs c!"events"
  check (!(decide (1 < (evs.getD []).length) && (evs.getD []).contains c!"all"))
  check ((evs.getD []).all (fun e => eventTypes.contains e))
  let size ← optSize kvs c!"max-size"
  let files ← optInt kvs c!"max-files"
  check (decide (1 ≤ files.getD 10 ∧ files.getD 10 ≤ 1000))
  check (noKeysLeft kvs [] [c!"filename", c!"format", c!"events", c!"max-size", c!"max-files"])
  some {
    name := name, filename := file, format := format, events := evs.getD [c!"all"], maxSize := size, maxFiles := files.getD 10 }

/-- the group name after `log.` of logger groups -/
def loggerGroups (kf : KeyFile) : List (Str × Kvs) :=
  kf.filterMap (fun g => (stripPrefix c!"log." g.1).map (fun n => (n, g.2)))

/-! ## [artifacts.*]: config_file.c:1135-1206 -/

structure Repo where
  name : Str
  description : Option Str
  path : Str
  typ : Str
deriving DecidableEq, Repr

/-- `supported_repo_types`, artifacts.c:95-102 -/
def repoTypes (E : Env) : List Str := [c!"files", c!"trees"] ++ (if E.composefs then [c!"composefs"] else [])

/-- one repository section -/
def parseRepo (E : Env) (g : Str × Kvs) : Option Repo :=
  match split '.' g.1 with
  | [_, name] => do
    let p ← optStr g.2 c!"path"
    let path ← p
    let t ← optStr g.2 c!"type"
    let typ ← t
    check ((repoTypes E).contains typ)
    check (str g.2 c!"parent-class").isNone
    check (noKeysLeft g.2 [c!"description", c!"parent-class"] [c!"path", c!"type"])
    some { name := name, description := str g.2 c!"description", path := E.resolve path, typ := typ }
  | _ => none

def isArtifactsGroup (g : Str) : Bool := (split '.' g).head? == some c!"artifacts"

/-! ## Everything -/

/-- slot options read by `g_key_file_get_boolean`, i.e. without decoding escape sequences -/
def slotFlagKeys : List Str :=
  [c!"allow-mounted", c!"readonly", c!"install-same", c!"force-install-same", c!"ignore-checksum", c!"resize"]

/-- values as `Model/Config` expects them: decoded, except for flags -/
def decodeKv (kv : Str × Str) : Str × Str := (kv.1, if slotFlagKeys.contains kv.1 then kv.2 else (unescape kv.2).getD kv.2)

def decode (kf : KeyFile) : KeyFile := kf.map (fun g => (g.1, g.2.map decodeKv))

/-- a slot section with a text that cannot be decoded is rejected: the key is either mandatory or not removed -/
def slotValuesOk (kf : KeyFile) : Bool :=
  kf.all (fun g => !Config.isSlotGroup g.1 || g.2.all (fun kv => slotFlagKeys.contains kv.1 || (unescape kv.2).isSome))

/-- groups removed by the fixed sections -/
def fixedSections : List Str :=
  [c!"system", c!"keyring", c!"casync", c!"streaming", c!"polling", c!"encryption", c!"autoinstall", c!"handlers"]

/-- `check_remaining_groups`, utils.c:358-369, after all sections -/
def groupKnown (g : Str) : Bool :=
  fixedSections.contains g || (stripPrefix c!"log." g).isSome || Config.isSlotGroup g || isArtifactsGroup g

structure Cfg where
  system : System
  keyring : Keyring
  casync : Casync
  streaming : Streaming
  polling : Option Polling
  encryption : Encryption
  autoinstall : Option Str
  handlers : HandlerPaths
  loggers : List Logger
  slots : List Slot
  repos : List Repo

/-- a section that may be missing -/
def section' {α : Type} (kf : KeyFile) (g : Str) (dflt : α) (parse : Kvs → Option α) : Option α :=
  match kf.group g with
  | none => some dflt
  | some kvs => parse kvs

/-- the environment of the slot parser, config_file.c:1118-1121 -/
def slotEnv (E : Env) (boot : Option Str) : Config.Env :=
  { resolve := E.resolve, shellOk := E.shellOk, efi := decide (boot = some c!"efi") }

/-- `parse_config`, config_file.c:1324-1420, after the overrides. A missing [system] group is rejected (the first read fails with
GROUP_NOT_FOUND). -/
def parseConfig (E : Env) (kf : KeyFile) : Option Cfg := do
  let sysKvs ← kf.group c!"system"
  let system ← parseSystem E sysKvs ((kf.group c!"handlers").getD [])
  let keyring ← section' kf c!"keyring" {} (parseKeyring E)
  let casync ← section' kf c!"casync" {} parseCasync
  let streaming ← section' kf c!"streaming" {} parseStreaming
  let polling ← section' kf c!"polling" none (fun kvs => (parsePolling E kvs).map some)
  let encryption ← section' kf c!"encryption" {} (parseEncryption E)
  let autoinstall ← section' kf c!"autoinstall" none (parseAutoinstall E)
  let handlers ← section' kf c!"handlers" {} (parseHandlers E (decide (system.bootloader = some c!"custom")))
  let loggers ← mapAll (fun g => parseLogger E system.dataDir g.1 g.2) (loggerGroups kf)
  check (slotValuesOk kf)
  let parsed ← Config.parseSlots (slotEnv E system.bootloader) (decode kf)
  let slots ← Config.resolveParents parsed
  let repos ← mapAll (parseRepo E) (kf.filter (fun g => isArtifactsGroup g.1))
  check (kf.groups.all groupKnown)
  some {
    system := system, keyring := keyring, casync := casync, streaming := streaming, polling := polling, encryption := encryption,
    autoinstall := autoinstall, handlers := handlers, loggers := loggers, slots := slots, repos := repos }

/-- `supported_bootloaders`, bootchooser.c:15 -/
def bootloaders : List Str := [c!"barebox", c!"grub", c!"uboot", c!"efi", c!"custom", c!"noop"]

/-- `check_config_target`, config_file.c:1497-1529 -/
def targetOk (s : System) : Bool :=
  s.compatible.isSome &&
  (match s.bootloader with
  | none => false
  | some b => bootloaders.contains b && (!decide (0 < s.attempts ∨ 0 < s.attemptsPrimary) || b == c!"uboot" || b == c!"barebox"))

/-- the overrides given on the command line, config_file.c:1343-1347 -/
def override (kf : KeyFile) (ovs : List (Str × Str × Str)) : KeyFile := ovs.foldl (fun k o => k.set o.1 o.2.1 o.2.2) kf

/-- `load_config`, config_file.c:1446-1495, on the loaded key file -/
def loadConfig (E : Env) (ovs : List (Str × Str × Str)) (kf : KeyFile) : Option Cfg := do
  let c ← parseConfig E (override kf ovs)
  check (Config.noDuplicateBootnames [] c.slots)
  check (Config.uniqueClasses (c.repos.map (·.name)) c.slots)
  check (targetOk c.system)
  some c

/-- `default_config`, config_file.c:1422-1444 -/
def defaultConfig (E : Env) (ovs : List (Str × Str × Str)) : Option Cfg := parseConfig E (override [(c!"system", [])] ovs)

end Rauc.ConfigFile
