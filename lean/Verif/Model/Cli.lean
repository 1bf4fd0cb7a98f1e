import Verif.Model.Bundle
import Verif.Model.Context
import Verif.Model.Handlers
import Verif.Model.Slot
import Verif.Model.Stream

/-!
# The command line: bundle tools, `info`, `mount`, `write-slot`; src/main.c:401-916, :1321-1423, :2511-2774, :2804-3080

The syntax of options is GLib's (`g_option_context_parse`): an invocation is the list of options that are given, with their values, and the list of other
arguments (the first one is the command). `install`, `status` and `service` are modelled in Client, StatusView and ServiceStart.
-/

namespace Rauc.Cli

open Context (Cmd)
open Bundle (Params)
open Handlers (Handler)

/-- build options -/
structure Build where
  service : Bool := true
  create : Bool := true
  streaming : Bool := true
  json : Bool := true

/-- the table of main.c:2836-2899 -/
def commands (B : Build) : List (Str × Cmd) :=
  [(c!"help", .help), (c!"install", .install)] ++
  (if B.create then [(c!"bundle", .bundle), (c!"resign", .resign), (c!"convert", .convert), (c!"encrypt", .encrypt), (c!"replace-signature", .replaceSig),
    (c!"extract-signature", .extractSig)] else []) ++
  [(c!"extract", .extract), (c!"info", .info), (c!"status", .status), (c!"write-slot", .writeSlot)] ++
  (if B.service then [(c!"service", .service)] else []) ++ [(c!"mount", .mount)]

/-- the options of all commands, main.c:2809-2824 -/
def mainEntries : List Str :=
  [c!"conf", c!"confopt", c!"cert", c!"key", c!"keyring", c!"intermediate", c!"mount", c!"debug", c!"version", c!"help"]

/-- main.c:2696-2702 -/
def signingEntries : List Str := [c!"cert", c!"key", c!"intermediate", c!"signing-keyring"]

/-- main.c:2704-2711 -/
def accessEntries : List Str := [c!"tls-cert", c!"tls-key", c!"tls-ca", c!"tls-no-verify", c!"http-header"]

/-- the option groups of the commands, main.c:2598-2774 and the sixth column of the table, main.c:2836-2899 -/
def groupEntries (B : Build) : Cmd → List Str
  | .install => [c!"ignore-compatible", c!"ignore-version-limit", c!"transaction-id", c!"require-manifest-hash"] ++
      (if B.service then [c!"progress"] else [c!"handler-args", c!"keyring", c!"override-boot-slot"]) ++ (if B.streaming then accessEntries else [])
  | .bundle => c!"mksquashfs-args" :: signingEntries
  | .resign => [c!"append", c!"keyring", c!"no-verify", c!"no-check-time"] ++ signingEntries
  | .replaceSig => [c!"trust-environment", c!"keyring", c!"no-verify", c!"signing-keyring"]
  | .convert => [c!"trust-environment", c!"keyring", c!"no-verify", c!"mksquashfs-args", c!"casync-args", c!"ignore-image"] ++ signingEntries
  | .encrypt => [c!"to", c!"keyring"]
  | .extractSig => [c!"key", c!"keyring", c!"trust-environment"]
  | .extract => [c!"key", c!"keyring", c!"trust-environment"]
  | .info => [c!"keyring", c!"no-verify", c!"no-check-time", c!"key", c!"output-format", c!"dump-cert", c!"dump-recipients"] ++
      (if B.streaming then accessEntries else [])
  | .status => [c!"detailed", c!"output-format"] ++ (if B.service then [] else [c!"override-boot-slot"])
  | .writeSlot => [c!"image-type", c!"image-type-compat"]
  | .service => [c!"handler-args", c!"keyring", c!"override-boot-slot"]
  | .help | .mount => []

/-- an option with its value (`none` for flags) -/
abbrev Given := List (Str × Option Str)

/-- the flag or option was given -/
def has (g : Given) (n : Str) : Bool := g.any (fun o => o.1 == n)

/-- the value of the last of several options, as the variable is overwritten -/
def value (g : Given) (n : Str) : Option Str := (g.reverse.find? (fun o => o.1 == n)).bind (·.2)

/-- the values of an option that may be repeated -/
def values (g : Given) (n : Str) : List Str := (g.filter (fun o => o.1 == n)).filterMap (·.2)

/-- what a command does to the system -/
inductive Call where
  /-- `check_bundle` -/
  | check (path : Str) (p : Params)
  | create (out inp : Str)
  | resign (b : Bundle.Bundle) (out : Str) (append : Bool)
  | replaceSig (b : Bundle.Bundle) (sig out : Str) (p : Params)
  | extractSig (b : Bundle.Bundle) (out : Str)
  | extract (b : Bundle.Bundle) (dir : Str)
  | convert (b : Bundle.Bundle) (out : Str) (ignored : List Str)
  | encrypt (b : Bundle.Bundle) (out : Str)
  /-- the manifest is loaded (from the bundle if there is none yet) and printed -/
  | show (b : Bundle.Bundle)
  | mount (b : Bundle.Bundle)
  /-- the update handler -/
  | write (h : Handler) (img : Image) (s : Slot)

/-- the functions called, and the state of the system the commands look at -/
structure Ops where
  /-- `r_context_configure`, see Model/Context -/
  configured : Bool := true
  cwd : Str
  isDir : Str → Bool
  /-- `resolve_bundle_path`, see Model/Stream -/
  resolve : Str → Option Str
  check : Str → Params → Option Bundle.Bundle
  create : Str → Str → Bool
  resign : Bundle.Bundle → Str → Bool → Bool
  replaceSig : Bundle.Bundle → Str → Str → Params → Bool
  extractSig : Bundle.Bundle → Str → Bool
  extract : Bundle.Bundle → Str → Bool
  convert : Bundle.Bundle → Str → List Str → Bool
  encrypt : Bundle.Bundle → Str → Bool
  /-- the bundle has a manifest already, or it can be loaded -/
  manifest : Bundle.Bundle → Bool
  mount : Bundle.Bundle → Bool
  /-- size of the image file, if it can be opened -/
  imageSize : Str → Option Nat
  slots : List Slot
  write : Handler → Image → Slot → Bool

/-- calls and exit status -/
abbrev Res := List Call × Nat

/-- `resolve_path(NULL, path)`, utils.c:328-343 -/
def absPath (cwd path : Str) : Str :=
  if c!"pkcs11:".isPrefixOf path then path
  else if Stream.isAbs path then path
  else Stream.buildFilename cwd path

/-- `g_path_get_dirname` (GLib) -/
def dirname (s : Str) : Str :=
  if '/' ∈ s then
    match (s.reverse.dropWhile (fun c => c != '/')).dropWhile (fun c => c == '/') with
    | [] => ['/']
    | c :: t => (c :: t).reverse
  else ['.']

/-- main.c:440-443 and :774-776 -/
def stripSlash (s : Str) : Str := if s.getLast? = some '/' then s.dropLast else s

/-- main.c:446: the output is taken to be inside the input directory -/
def inside (cwd inp out : Str) : Bool := (stripSlash (absPath cwd inp)).isPrefixOf (dirname (absPath cwd out))

/-- `bundle_start`, main.c:401-466 -/
def bundleStart (O : Ops) (g : Given) : List Str → Res
  | [_, inp, out] =>
    if !(has g c!"cert" && has g c!"key") then ([], 1)
    else if !O.isDir (absPath O.cwd inp) then ([], 1)
    else if inside O.cwd inp out then ([], 1)
    else ([.create out inp], if O.create out inp then 0 else 1)
  | _ => ([], 1)

/-- the check of the input bundle, then the operation -/
def withBundle (O : Ops) (path : Str) (p : Params) (k : Bundle.Bundle → Call) (ok : Bundle.Bundle → Bool) : Res :=
  match O.check path p with
  | none => ([.check path p], 1)
  | some b => ([.check path p, k b], if ok b then 0 else 1)

/-- `resign_start`, main.c:584-636 -/
def resignStart (O : Ops) (g : Given) : List Str → Res
  | [_, inp, out] =>
    if !(has g c!"cert" && has g c!"key") then ([], 1)
    else withBundle O inp { noVerify := has g c!"no-verify", noCheckTime := has g c!"no-check-time" } (fun b => .resign b out (has g c!"append"))
      (fun b => O.resign b out (has g c!"append"))
  | _ => ([], 1)

/-- `replace_signature_start`, main.c:640-695 -/
def replaceStart (O : Ops) (g : Given) : List Str → Res
  | [_, inp, sig, out] =>
    let p : Params := { noVerify := has g c!"no-verify", trustEnv := has g c!"trust-environment" }
    withBundle O inp p (fun b => .replaceSig b sig out p) (fun b => O.replaceSig b sig out p)
  | _ => ([], 1)

/-- `extract_signature_start`, main.c:699-745 -/
def extractSigStart (O : Ops) (g : Given) : List Str → Res
  | [_, inp, out] => withBundle O inp { trustEnv := has g c!"trust-environment" } (fun b => .extractSig b out) (fun b => O.extractSig b out)
  | _ => ([], 1)

/-- `extract_start`, main.c:748-801 -/
def extractStart (O : Ops) (g : Given) : List Str → Res
  | [_, inp, out] =>
    withBundle O inp { trustEnv := has g c!"trust-environment" } (fun b => .extract b (stripSlash out)) (fun b => O.extract b (stripSlash out))
  | _ => ([], 1)

/-- `convert_start`, main.c:805-862 -/
def convertStart (O : Ops) (g : Given) (pos : List Str) : Res :=
  if !(has g c!"cert" && has g c!"key") then ([], 1)
  else
    match pos with
    | [_, inp, out] =>
      withBundle O inp { noVerify := has g c!"no-verify", trustEnv := has g c!"trust-environment" } (fun b => .convert b out (values g c!"ignore-image"))
        (fun b => O.convert b out (values g c!"ignore-image"))
    | _ => ([], 1)

/-- `encrypt_start`, main.c:866-916 -/
def encryptStart (O : Ops) (g : Given) (pos : List Str) : Res :=
  if !has g c!"to" then ([], 1)
  else
    match pos with
    | [_, inp, out] => withBundle O inp {} (fun b => .encrypt b out) (fun b => O.encrypt b out)
    | _ => ([], 1)

/-- main.c:1344-1358 -/
def knownFormat (B : Build) : Option Str → Bool
  | none => true
  | some f => f == c!"readable" || f == c!"shell" || (B.json && (f == c!"json" || f == c!"json-pretty" || f == c!"json-2"))

/-- `info_start`, main.c:1321-1423 -/
def infoStart (B : Build) (O : Ops) (g : Given) : List Str → Res
  | [_, arg] =>
    if !knownFormat B (value g c!"output-format") then ([], 1)
    else
      match O.resolve arg with
      | none => ([], 1)
      | some path => withBundle O path { noVerify := has g c!"no-verify", noCheckTime := has g c!"no-check-time" } .show O.manifest
  | _ => ([], 1)

/-- `mount_start`, main.c:2511-2561 -/
def mountStart (O : Ops) : List Str → Res
  | [_, arg] =>
    match O.resolve arg with
    | none => ([], 1)
    | some path => withBundle O path {} .mount O.mount
  | _ => ([], 1)

/-- the image type, main.c:511-522: the option (also under its old short name) or the name of the file. The two options write to the same variable. -/
def imageType (g : Given) (file : Str) : Option Str :=
  match (g.reverse.find? (fun o => o.1 == c!"image-type" || o.1 == c!"image-type-compat")).bind (·.2) with
  | some t => some t
  | none => Handlers.deriveType file

/-- `write_slot_start`, main.c:468-580 -/
def writeSlotStart (O : Ops) (g : Given) : List Str → Res
  | [_, name, file] =>
    match O.imageSize file with
    | none => ([], 1)
    | some size =>
      match imageType g file with
      | none => ([], 1)
      | some t =>
        if !Handlers.typeSupported t then ([], 1)
        else
          match O.slots.find? (fun s => s.name == name) with
          | none => ([], 1)
          | some s =>
            if s.readonly then ([], 1)
            else
              let img : Image := { slotclass := [], size := size, filename := some file, typ := some t }
              match Handlers.getUpdateHandler img s.typ with
              | none => ([], 1)
              | some h => ([.write h img s], if O.write h img s then 0 else 1)
  | _ => ([], 1)

inductive Out where
  | done (calls : List Call) (exit : Nat)
  /-- `install`, `status`, `service` -/
  | other (c : Cmd)

/-- `cmdline_handler`, main.c:2953-3080, when the program starts (the context is never busy then). The first pass over the options ignores the ones of
the commands; the second one rejects what the command does not know. -/
def run (B : Build) (O : Ops) (g : Given) (pos : List Str) : Out :=
  match pos with
  | [] => .done [] (if has g c!"version" || has g c!"help" then 0 else 1)
  | name :: _ =>
    match (commands B).find? (fun c => c.1 == name) with
    | none => .done [] 1
    | some (_, c) =>
      if !g.all (fun o => mainEntries.contains o.1 || (groupEntries B c).contains o.1) then .done [] 1
      else if has g c!"help" then .done [] 0
      else if !O.configured then .done [] 1
      else
        let d := fun r : Res => Out.done r.1 r.2
        match c with
        | .help => .done [] 0
        | .install | .status | .service => .other c
        | .bundle => d (bundleStart O g pos)
        | .resign => d (resignStart O g pos)
        | .convert => d (convertStart O g pos)
        | .encrypt => d (encryptStart O g pos)
        | .replaceSig => d (replaceStart O g pos)
        | .extractSig => d (extractSigStart O g pos)
        | .extract => d (extractStart O g pos)
        | .info => d (infoStart B O g pos)
        | .writeSlot => d (writeSlotStart O g pos)
        | .mount => d (mountStart O pos)

end Rauc.Cli
