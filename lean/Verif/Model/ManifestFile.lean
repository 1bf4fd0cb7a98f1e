import Verif.Model.Manifest
import Verif.Model.Handlers
import Verif.Model.Semver
import Verif.Model.Utils
import Verif.Lib.KeyFile

/-!
# Manifest parser, checks and serialization: src/manifest.c

Key files are lists of groups with unique keys; the values are the raw text after `=` with escape sequences. Splitting the text into lines is
GLib's (not modelled), except that it removes white space around values (`reload`).
-/

namespace Rauc.ManifestFile

open Utils Handlers

/-! ## GLib string values -/

/-- the character an escape sequence stands for (`g_key_file_parse_value_as_string`) -/
def unescapeChar : Char → Option Char
  | 's' => some ' '
  | 'n' => some '\n'
  | 't' => some '\t'
  | 'r' => some '\r'
  | '\\' => some '\\'
  | _ => none

/-- `g_key_file_get_string` on the raw value -/
def unescape : Str → Option Str
  | [] => some []
  | '\\' :: c :: cs =>
    match unescapeChar c with
    | none => none
    | some d =>
      match unescape cs with
      | none => none
      | some r => some (d :: r)
  | ['\\'] => none
  | c :: cs =>
    match unescape cs with
    | none => none
    | some r => some (c :: r)

/-- `g_key_file_parse_string_as_value`: `lead` while only blanks were seen, `list` if the separator is escaped -/
def escape (list : Bool) : Bool → Str → Str
  | _, [] => []
  | lead, c :: cs =>
    if c = ' ' then (if lead then c!"\\s" ++ escape list lead cs else ' ' :: escape list lead cs)
    else if c = '\t' then (if lead then c!"\\t" ++ escape list lead cs else '\t' :: escape list lead cs)
    else if c = '\n' then c!"\\n" ++ escape list lead cs
    else if c = '\r' then c!"\\r" ++ escape list lead cs
    else if c = '\\' then c!"\\\\" ++ escape list false cs
    else if list && c = ';' then c!"\\;" ++ escape list true cs
    else c :: escape list false cs

/-- `g_key_file_set_string` -/
def strVal (s : Str) : Str := escape false true s

/-- `g_key_file_set_string_list` -/
def listVal : List Str → Str
  | [] => []
  | s :: l => escape true true s ++ ';' :: listVal l

/-- `g_key_file_get_string_list` on the raw value -/
def parseList : Str → Str → Option (List Str)
  | acc, [] => some (if acc = [] then [] else [acc])
  | acc, '\\' :: c :: cs =>
    if c = ';' then parseList (acc ++ [';']) cs
    else
      match unescapeChar c with
      | none => none
      | some d => parseList (acc ++ [d]) cs
  | _, ['\\'] => none
  | acc, c :: cs =>
    if c = ';' then
      match parseList [] cs with
      | none => none
      | some l => some (acc :: l)
    else parseList (acc ++ [c]) cs

/-- writing a key file and loading it again: white space around the values is lost -/
def reload (kf : KeyFile) : KeyFile := kf.map (fun g => (g.1, g.2.map (fun kv => (kv.1, chomp (chug kv.2)))))

/-! ## Reading -/

abbrev Kvs := List (Str × Str)

inductive Got where
  | missing | bad
  | ok (s : Str)
deriving DecidableEq, Repr

/-- `key_file_consume_string`, utils.c:385-409 -/
def consume (kvs : Kvs) (k : Str) : Got :=
  match KeyFile.gget kvs k with
  | none => .missing
  | some raw =>
    match unescape raw with
    | none => .bad
    | some [] => .bad
    | some s => .ok s

/-- the same with the error ignored -/
def str (kvs : Kvs) (k : Str) : Option Str :=
  match consume kvs k with
  | .ok s => some s
  | _ => none

/-- `g_key_file_get_string_list` with the error ignored -/
def strList (kvs : Kvs) (k : Str) : Option (List Str) := (KeyFile.gget kvs k).bind (parseList [])

/-- `check_remaining_keys`, utils.c:371-383: `strs` were consumed (which keeps values that cannot be decoded), `rem` removed -/
def noKeysLeft (kvs : Kvs) (strs rem : List Str) : Bool :=
  kvs.all (fun kv => rem.contains kv.1 || (strs.contains kv.1 && (unescape kv.2).isSome))

/-- the string up to the first `d`, and what follows it: `g_strsplit` with `max_tokens = 2` -/
def cutFirst (d : Char) : Str → Str × Option Str
  | [] => ([], none)
  | c :: cs => if c = d then ([], some cs) else (c :: (cutFirst d cs).1, (cutFirst d cs).2)

/-- `guint64` stored in a `goffset` -/
def toOffset (n : Nat) : Int := if n < 2 ^ 63 then n else (n : Int) - 2 ^ 64

/-- manifest.c:127-136; `none` is an error -/
def parseSize (kvs : Kvs) : Option Int :=
  match KeyFile.gget kvs c!"size" with
  | none => some (-1)
  | some raw =>
    match kfUint64 raw with
    | none => none
    | some n => some (toOffset n)

/-- manifest.c:138-152 -/
def parseHooks : List Str → Option SlotHooks
  | [] => some {}
  | h :: l =>
    match parseHooks l with
    | none => none
    | some r =>
      if h = c!"pre-install" then some { r with preInstall := true }
      else if h = c!"install" then some { r with install := true }
      else if h = c!"post-install" then some { r with postInstall := true }
      else none

/-- the type of an image, manifest.c:168-191 and `handle_missing_type` :21-44: type and whether it was derived -/
def parseType (art : Bool) (install : Bool) (filename : Option Str) (got : Got) : Option (Option Str × Bool) :=
  if art then some (none, false)
  else
    match got with
    | .bad => none
    | .ok t => if install || typeSupported t then some (some t, false) else none
    | .missing =>
      if install then some (none, false)
      else
        match filename with
        | none => none
        | some f =>
          match deriveType f with
          | none => none
          | some t => if typeSupported t then some (some t, true) else none

def optGot : Got → Option (Option Str)
  | .missing => some none
  | .bad => none
  | .ok s => some (some s)

/-- `parse_image`, manifest.c:80-212; `rest` is the group name after `image.`. For an empty target (`[image.]`, `[image..x]`) the code leaves
the slot class NULL, here it is empty. -/
def parseImage (rest : Str) (kvs : Kvs) : Option Image :=
  let t := cutFirst '.' rest
  let a := cutFirst '/' t.1
  match parseSize kvs with
  | none => none
  | some size =>
    match parseHooks ((strList kvs c!"hooks").getD []) with
    | none => none
    | some hooks =>
      match optGot (consume kvs c!"filename") with
      | none => none
      | some filename =>
        match parseType a.2.isSome hooks.install filename (consume kvs c!"type") with
        | none => none
        | some ty =>
          if noKeysLeft kvs (c!"sha256" :: c!"filename" :: (if a.2.isSome then [] else [c!"type"]))
              [c!"size", c!"hooks", c!"version", c!"description", c!"build", c!"adaptive", c!"convert", c!"converted"] then
            some {
              slotclass := a.1, artifact := a.2, variant := t.2,
              sha256 := (str kvs c!"sha256").isSome, digest := str kvs c!"sha256", size := size,
              filename := filename, typ := ty.1, typeFromExt := ty.2, hooks := hooks,
              adaptive := strList kvs c!"adaptive", convert := strList kvs c!"convert", converted := strList kvs c!"converted" }
          else none

/-- the loop of `parse_meta`, manifest.c:244-263 -/
def parseMetaKeys : Kvs → Option Kvs
  | [] => some []
  | (k, raw) :: l =>
    match unescape raw with
    | none => none
    | some [] => none
    | some v =>
      match envKey k with
      | none => none
      | some _ =>
        match parseMetaKeys l with
        | none => none
        | some r => some ((k, v) :: r)

/-- `parse_meta`, manifest.c:214-268; `rest` is the group name after `meta.` -/
def parseMeta (rest : Str) (kvs : Kvs) : Option (Str × Kvs) :=
  if '.' ∈ rest then none
  else
    match envKey rest with
    | none => none
    | some _ =>
      match parseMetaKeys kvs with
      | none => none
      | some r => some (rest, r)

def stripPrefix : Str → Str → Option Str
  | [], s => some s
  | _ :: _, [] => none
  | c :: p, d :: s => if c = d then stripPrefix p s else none

/-- the groups removed before the loop -/
def fixedGroups : List Str := [c!"update", c!"bundle", c!"handler", c!"hooks"]

/-- the loop over the groups and the check for remaining ones, manifest.c:388-419 -/
def parseGroups : KeyFile → Option (List Image × List (Str × Kvs))
  | [] => some ([], [])
  | (g, kvs) :: l =>
    match parseGroups l with
    | none => none
    | some (imgs, metas) =>
      if fixedGroups.contains g || g == c!"rollout" then some (imgs, metas)
      else
        match stripPrefix c!"image." g with
        | some rest =>
          (match parseImage rest kvs with
          | none => none
          | some i => some (i :: imgs, metas))
        | none =>
          match stripPrefix c!"meta." g with
          | some rest =>
            (match parseMeta rest kvs with
            | none => none
            | some m => some (imgs, m :: metas))
          | none => none

structure BundleInfo where
  format : Format
  explicit : Bool
  hash : Option Str
  salt : Option Str
  size : Nat
  key : Option Str
deriving DecidableEq, Repr

/-- the bundle section, manifest.c:321-361 -/
def parseBundle (kvs : Kvs) : Option BundleInfo :=
  match str kvs c!"format" with
  | none => if noKeysLeft kvs [c!"format"] [] then some ⟨.plain, false, none, none, 0, none⟩ else none
  | some f =>
    if f = c!"plain" then (if noKeysLeft kvs [c!"format"] [] then some ⟨.plain, true, none, none, 0, none⟩ else none)
    else if f = c!"verity" then
      (if noKeysLeft kvs [c!"format", c!"verity-hash", c!"verity-salt"] [c!"verity-size"] then
        some ⟨.verity, true, str kvs c!"verity-hash", str kvs c!"verity-salt",
          ((KeyFile.gget kvs c!"verity-size").bind kfUint64).getD 0, none⟩
      else none)
    else if f = c!"crypt" then
      (if noKeysLeft kvs [c!"format", c!"verity-hash", c!"verity-salt", c!"crypt-key"] [c!"verity-size"] then
        some ⟨.crypt, true, str kvs c!"verity-hash", str kvs c!"verity-salt",
          ((KeyFile.gget kvs c!"verity-size").bind kfUint64).getD 0, str kvs c!"crypt-key"⟩
      else none)
    else none

/-- `parse_manifest`, manifest.c:280-424. (The meta table is a hash table; its order here is that of the groups.) -/
def parse (kf : KeyFile) : Option Manifest :=
  let u := (kf.group c!"update").getD []
  let h := (kf.group c!"handler").getD []
  let k := (kf.group c!"hooks").getD []
  match str u c!"compatible" with
  | none => none
  | some compatible =>
    if !noKeysLeft u [c!"compatible", c!"version", c!"description", c!"build", c!"min-rauc-version"] [] then none
    else
      match parseBundle ((kf.group c!"bundle").getD []) with
      | none => none
      | some b =>
        if ((str h c!"args").isSome && (str h c!"filename").isNone) || !noKeysLeft h [c!"filename", c!"args"] [] then none
        else if !((strList k c!"hooks").getD []).all (· == c!"install-check") || !noKeysLeft k [c!"filename"] [c!"hooks"] then none
        else
          match parseGroups kf with
          | none => none
          | some (imgs, metas) =>
            some {
              compatible := compatible, version := str u c!"version", description := str u c!"description",
              build := str u c!"build", minRaucVersion := str u c!"min-rauc-version",
              format := b.format, formatExplicit := b.explicit, verityHash := b.hash, veritySalt := b.salt, veritySize := b.size,
              cryptKey := b.key,
              handlerName := str h c!"filename", handlerArgs := str h c!"args",
              hookName := str k c!"filename", installCheck := !((strList k c!"hooks").getD []).isEmpty,
              images := imgs, metas := metas }

/-- `load_manifest_mem`, manifest.c:426-461, and `load_manifest_file`: the manifest remembers the hash of its text -/
def load (sha : Bytes → Str) (toKeyFile : Bytes → Option KeyFile) (text : Bytes) : Option Manifest :=
  match toKeyFile text with
  | none => none
  | some kf =>
    match parse kf with
    | none => none
    | some m => some { m with hash := some (sha text) }

/-! ## Checks -/

/-- `validate_filename_requirements`, manifest.c:46-78 -/
def filenameOk (i : Image) : Bool :=
  (if i.typ = some c!"emptyfs" then i.filename.isNone else i.filename.isSome || i.hooks.install) &&
  !(i.adaptive.isSome && i.filename.isNone) && !(i.convert.isSome && i.filename.isNone)

def usesHooks (m : Manifest) : Bool :=
  m.installCheck || m.images.any (fun i => i.hooks.preInstall || i.hooks.install || i.hooks.postInstall)

/-- the version requirement in `check_manifest_common`, manifest.c:510-532; `running` is the version of RAUC -/
def minVersionOk (running : Str) (m : Manifest) : Bool :=
  match m.minRaucVersion with
  | none => true
  | some v =>
    Semver.lessEqual c!"0" v == some true && Semver.lessEqual v running == some true && Semver.lessEqual v c!"1.13" != some true

/-- `check_manifest_common`, manifest.c:503-583 -/
def checkCommon (running : Str) (m : Manifest) : Bool :=
  minVersionOk running m && !(usesHooks m && m.hookName.isNone) && m.images.all filenameOk

/-- `check_manifest_plain`, manifest.c:585-609 -/
def checkPlain (m : Manifest) : Bool :=
  m.images.all (fun i => i.artifact.isNone && i.convert.isNone && ((i.converted.getD []).isEmpty))

/-- `is_valid_digest`, manifest.c:616-632, for SHA-256 -/
def validDigest (s : Str) : Bool := s.length == 64 && s.all (fun c => (xdigit c).isSome)

/-- manifest.c:685-707 -/
def convertOk : Option (List Str) → Option (List Str) → Bool
  | none, _ => true
  | some _, none => false
  | some c, some d => c.length == d.length && d.all (fun s => !('/' ∈ s))

/-- one image in `check_manifest_bundled`, manifest.c:645-709; a missing size is set to zero if there is an install hook -/
def checkImage (i : Image) : Option Image :=
  match i.filename with
  | none => some i
  | some f =>
    if '/' ∈ f || !i.sha256 then none
    else
      match i.digest with
      | none => none
      | some d =>
        if !validDigest d then none
        else if i.size < 0 && !i.hooks.install then none
        else if convertOk i.convert i.converted then
          some { i with size := if i.size < 0 then 0 else i.size }
        else none

def checkImages : List Image → Option (List Image)
  | [] => some []
  | i :: l =>
    match checkImage i with
    | none => none
    | some i' =>
      match checkImages l with
      | none => none
      | some l' => some (i' :: l')

/-- `check_manifest_bundled`, manifest.c:640-712 -/
def checkBundled (m : Manifest) : Option Manifest := (checkImages m.images).map (fun l => { m with images := l })

/-- `check_manifest_internal`, manifest.c:773-830 -/
def checkInternal (running : Str) (m : Manifest) : Option Manifest :=
  if !checkCommon running m || m.format ≠ .plain then none
  else
    match checkBundled m with
    | none => none
    | some m' =>
      if checkPlain m' && m'.cryptKey.isNone && m'.verityHash.isNone && m'.veritySalt.isNone && m'.veritySize == 0 then some m' else none

def validHex32 : Option Str → Bool
  | none => false
  | some s => (hexDecode s 32).isSome

/-- `check_manifest_external`, manifest.c:832-922 -/
def checkExternal (running : Str) (m : Manifest) : Option Manifest :=
  if !checkCommon running m then none
  else if m.format = .plain then none
  else if m.format = .crypt && !validHex32 m.cryptKey then none
  else if !validHex32 m.verityHash || !validHex32 m.veritySalt || m.veritySize == 0 || m.veritySize % 4096 != 0 then none
  else checkBundled m

/-- `check_manifest_input`, manifest.c:714-771 -/
def checkInput (running : Str) (m : Manifest) : Bool :=
  checkCommon running m && (m.format ≠ .plain || checkPlain m) &&
  m.images.all (fun i => !(match i.filename with | some f => decide ('/' ∈ f) | none => false) && i.digest.isNone && i.size == -1 &&
    (i.converted.getD []).isEmpty)

/-! ## Serialization: `prepare_manifest`, manifest.c:944-1086 -/

def opt (k : Str) : Option Str → Kvs
  | none => []
  | some v => [(k, strVal v)]

def optList (k : Str) : Option (List Str) → Kvs
  | none => []
  | some l => [(k, listVal l)]

def grp (name : Str) (kvs : Kvs) : KeyFile := if kvs = [] then [] else [(name, kvs)]

/-- the name of the group of an image, manifest.c:1021-1035, without `image.` -/
def imageTarget (i : Image) : Str :=
  i.slotclass ++ (match i.artifact with | none => [] | some a => '/' :: a) ++ (match i.variant with | none => [] | some v => '.' :: v)

def hookList (h : SlotHooks) : List Str :=
  (if h.preInstall then [c!"pre-install"] else []) ++ (if h.install then [c!"install"] else []) ++
  (if h.postInstall then [c!"post-install"] else [])

/-- manifest.c:1037-1073 -/
def imageKvs (i : Image) : Kvs :=
  (if i.sha256 then opt c!"sha256" i.digest else []) ++
  (if i.size ≥ 0 then [(c!"size", toDec i.size.toNat)] else []) ++
  opt c!"filename" i.filename ++
  (if i.typeFromExt then [] else opt c!"type" i.typ) ++
  (if hookList i.hooks = [] then [] else [(c!"hooks", listVal (hookList i.hooks))]) ++
  optList c!"adaptive" i.adaptive ++ optList c!"convert" i.convert ++
  (if (i.converted.getD []) = [] then [] else optList c!"converted" i.converted)

def prepareImage (i : Image) : KeyFile :=
  if i.slotclass = [] ∧ i.artifact = none then []  -- NULL slot class
  else grp (c!"image." ++ imageTarget i) (imageKvs i)

def prepareMeta (m : Str × Kvs) : KeyFile := grp (c!"meta." ++ m.1) (m.2.map (fun kv => (kv.1, strVal kv.2)))

def formatStr : Format → Str
  | .plain => c!"plain"
  | .verity => c!"verity"
  | .crypt => c!"crypt"

def bundleKvs (m : Manifest) : Kvs :=
  match m.format with
  | .plain => if m.formatExplicit then [(c!"format", strVal c!"plain")] else []
  | f =>
    (if f = .crypt then opt c!"crypt-key" m.cryptKey else []) ++
    (c!"format", strVal (formatStr f)) ::
    (opt c!"verity-hash" m.verityHash ++ opt c!"verity-salt" m.veritySalt ++
     if m.veritySize = 0 then [] else [(c!"verity-size", toDec m.veritySize)])

def prepare (m : Manifest) : KeyFile :=
  grp c!"update" ((c!"compatible", strVal m.compatible) :: (opt c!"version" m.version ++ opt c!"description" m.description ++ opt c!"build" m.build)) ++
  grp c!"bundle" (bundleKvs m) ++
  grp c!"handler" (opt c!"filename" m.handlerName ++ opt c!"args" m.handlerArgs) ++
  grp c!"hooks" (opt c!"filename" m.hookName ++ (if m.installCheck then [(c!"hooks", listVal [c!"install-check"])] else [])) ++
  m.images.flatMap prepareImage ++ m.metas.flatMap prepareMeta

end Rauc.ManifestFile
