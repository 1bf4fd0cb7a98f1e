import Verif.Lib.Str

/-!
# The way of the options of a bundle: command line, D-Bus, service, streaming process, HTTP request

src/main.c:170-212, :283-319, src/service.c:64-132, :168-205, src/bundle.c:2323-2350, :3258-3343, src/nbd.c:381-505, :557-680, :748-856, :1064-1190, src/polling.c:100-148
-/

namespace Rauc.Stream

/-! ## Dictionaries -/

/-- a value in an `a{sv}`; `other` is a value of any other type -/
inductive V where
  | b (x : Bool)
  | s (x : Str)
  | strv (x : List Str)
  | t (x : Nat)
  | u (x : Nat)
  | other (n : Nat)
deriving DecidableEq, Repr

/-- `GVariantDict`: one value per key -/
abbrev VDict := List (Str × V)

/-- `g_variant_dict_insert` (GLib): replaces -/
def VDict.insert (d : VDict) (k : Str) (v : V) : VDict := (k, v) :: d.filter (fun p => decide (p.1 ≠ k))

/-- `g_variant_dict_init` from a received `a{sv}`: of entries with the same key the last one counts (GLib) -/
def fromVariant (l : List (Str × V)) : VDict := l.foldl (fun d p => VDict.insert d p.1 p.2) []

def VDict.get (d : VDict) (k : Str) : Option V := (d.find? (fun p => decide (p.1 = k))).map (·.2)

/-- `g_variant_dict_remove` -/
def VDict.remove (d : VDict) (k : Str) : VDict := d.filter (fun p => decide (p.1 ≠ k))

/-- `g_variant_dict_lookup` with the type `s`: nothing if the key is missing or its value has another type -/
def asS : Option V → Option Str
  | some (.s x) => some x
  | _ => none
/-- the same with `b` -/
def asB : Option V → Option Bool
  | some (.b x) => some x
  | _ => none
/-- the same with `^as` -/
def asStrv : Option V → Option (List Str)
  | some (.strv x) => some x
  | _ => none
/-- the same with `t` -/
def asT : Option V → Option Nat
  | some (.t x) => some x
  | _ => none
/-- the same with `u` -/
def asU : Option V → Option Nat
  | some (.u x) => some x
  | _ => none

/-- `if (lookup(...)) remove(...)`, service.c:74-83 and :110-122: the value, and what remains of the dictionary -/
def take {α : Type} (conv : Option V → Option α) (d : VDict) (k : Str) : Option α × VDict :=
  match conv (d.get k) with
  | some x => (some x, d.remove k)
  | none => (none, d)

/-! ## Options -/

/-- `RaucBundleAccessArgs`, include/bundle.h:24-33, without the information headers -/
structure Access where
  cert : Option Str := none
  key : Option Str := none
  ca : Option Str := none
  noVerify : Bool := false
  headers : Option (List Str) := none
deriving DecidableEq, Repr

/-- `RaucInstallArgs`, include/install.h:33-51, as far as it comes from the caller -/
structure Args where
  ignoreCompatible : Bool := false
  ignoreVersionLimit : Bool := false
  transaction : Option Str := none
  requireHash : Option Str := none
  access : Access := {}
deriving DecidableEq, Repr

/-- an insertion guarded by a NULL check -/
def VDict.insertO (d : VDict) (k : Str) (v : Option V) : VDict := match v with | none => d | some x => d.insert k x

/-- the dictionary `rauc install` sends, main.c:303-319 -/
def clientDict (a : Args) : VDict :=
  let d : VDict := []
  let d := d.insert c!"ignore-compatible" (.b a.ignoreCompatible)
  let d := d.insert c!"ignore-version-limit" (.b a.ignoreVersionLimit)
  let d := d.insertO c!"transaction-id" (a.transaction.map .s)
  let d := d.insertO c!"require-manifest-hash" (a.requireHash.map .s)
  let d := d.insertO c!"tls-cert" (a.access.cert.map .s)
  let d := d.insertO c!"tls-key" (a.access.key.map .s)
  let d := d.insertO c!"tls-ca" (a.access.ca.map .s)
  let d := d.insertO c!"tls-no-verify" (if a.access.noVerify then some (.b true) else none)
  d.insertO c!"http-headers" (a.access.headers.map .strv)

/-- `convert_dict_to_bundle_access_args`, service.c:64-83 -/
def takeAccess (d : VDict) : Access × VDict :=
  let r1 := take asS d c!"tls-cert"
  let r2 := take asS r1.2 c!"tls-key"
  let r3 := take asS r2.2 c!"tls-ca"
  let r4 := take asB r3.2 c!"tls-no-verify"
  let r5 := take asStrv r4.2 c!"http-headers"
  ({ cert := r1.1, key := r2.1, ca := r3.1, noVerify := r4.1.getD false, headers := r5.1 }, r5.2)

/-- the arguments in `r_on_handle_install_bundle`, service.c:110-135; `none` is the refusal because of a key that is left -/
def installRequest (l : List (Str × V)) : Option Args :=
  let d := fromVariant l
  let r1 := take asB d c!"ignore-compatible"
  let r2 := take asB r1.2 c!"ignore-version-limit"
  let r3 := take asS r2.2 c!"transaction-id"
  let r4 := take asS r3.2 c!"require-manifest-hash"
  let r5 := takeAccess r4.2
  match r5.2 with
  | [] => some { ignoreCompatible := r1.1.getD false, ignoreVersionLimit := r2.1.getD false, transaction := r3.1, requireHash := r4.1, access := r5.1 }
  | _ :: _ => none

/-- the arguments in `r_on_handle_inspect_bundle`, service.c:190-202 -/
def inspectRequest (l : List (Str × V)) : Option Access :=
  let r := takeAccess (fromVariant l)
  match r.2 with
  | [] => some r.1
  | _ :: _ => none

/-! ## Location of the bundle -/

/-- `g_ascii_isalpha` -/
def isAlpha (c : Char) : Bool := (c.val ≥ 'a'.val && c.val ≤ 'z'.val) || (c.val ≥ 'A'.val && c.val ≤ 'Z'.val)

/-- the characters of a scheme after the first one -/
def isSchemeChar (c : Char) : Bool := isAlpha c || (c.val ≥ '0'.val && c.val ≤ '9'.val) || c == '.' || c == '+' || c == '-'

/-- `g_uri_parse_scheme` (GLib) -/
def parseScheme : Str → Option Str
  | [] => none
  | c :: r =>
    if isAlpha c then
      match r.dropWhile isSchemeChar with
      | ':' :: _ => some (c :: r.takeWhile isSchemeChar)
      | _ => none
    else none

/-- `g_build_filename(cwd, path, NULL)` for an absolute path without a slash at its end (other than `/`) and a relative path -/
def buildFilename (cwd path : Str) : Str := if path = [] then cwd else if cwd = ['/'] then '/' :: path else cwd ++ '/' :: path

/-- `g_path_is_absolute` -/
def isAbs : Str → Bool
  | '/' :: _ => true
  | _ => false

/-- `resolve_bundle_path`, main.c:170-212; `fromUri` is `g_filename_from_uri` (the path and the host name), `isFile` is `g_file_test` -/
def resolve (cwd : Str) (fromUri : Str → Option (Str × Option Str)) (isFile : Str → Bool) (path : Str) : Option Str :=
  let scheme := parseScheme path
  if scheme = none ∧ isAbs path = false then
    let p := buildFilename cwd path
    if isFile p then some p else none
  else if scheme = some c!"file" then
    match fromUri path with
    | none => none
    | some (_, some _) => none
    | some (p, none) => if isFile p then some p else none
  else if scheme = none then (if isFile path then some path else none)
  else some path

/-- `is_remote_scheme`, bundle.c:1742-1750 -/
def remoteSchemes : List Str := [c!"http", c!"https", c!"tftp", c!"sftp", c!"ftp", c!"ftps"]

/-- is the bundle streamed? bundle.c:2324-2325 -/
def isRemote (name : Str) : Bool := match parseScheme name with | some s => decide (s ∈ remoteSchemes) | none => false

/-! ## Information headers -/

/-- what the service knows about the system: context.c and the configuration -/
structure Info where
  enabled : Option (List Str) := none
  bootId : Option Str := none
  machineId : Option Str := none
  version : Option Str := none
  serial : Option Str := none
  variant : Option Str := none
  /-- `/proc/uptime` up to the blank, `none` if it cannot be read -/
  uptime : Option Str := none
  /-- output of the system information handler, in the order of the hash table -/
  systemInfo : List (Str × Str) := []
deriving DecidableEq, Repr

/-- `"name: value"` -/
def line (name value : Str) : Str := name ++ c!": " ++ value

/-- a header that is sent if there is a value -/
def lineO (name : Str) : Option Str → List Str
  | none => []
  | some v => [line name v]

/-- the loop body in `assemble_info_headers`, bundle.c:3305-3325 -/
def stdHeader (i : Info) (txn : Option Str) (h : Str) : List Str :=
  (if h = c!"boot-id" then lineO c!"RAUC-Boot-ID" i.bootId else []) ++
  (if h = c!"machine-id" then lineO c!"RAUC-Machine-ID" i.machineId else []) ++
  (if h = c!"system-version" then lineO c!"RAUC-System-Version" i.version else []) ++
  (if h = c!"serial" then lineO c!"RAUC-Serial" i.serial else []) ++
  (if h = c!"variant" then lineO c!"RAUC-Variant" i.variant else []) ++
  (if h = c!"transaction-id" then lineO c!"RAUC-Transaction-ID" txn else []) ++
  (if h = c!"uptime" then [line c!"RAUC-Uptime" (i.uptime.getD c!"(null)")] else [])

/-- `system_info_to_header`, bundle.c:3280-3296 -/
def sysHeader (p : Str × Str) : List Str :=
  if (c!"RAUC_HTTP_").isPrefixOf p.1 then [line (c!"RAUC-" ++ (p.1.drop 10).map (fun c => if c = '_' then '-' else c)) p.2] else []

/-- `assemble_info_headers`, bundle.c:3299-3343 -/
def infoHeaders (i : Info) (txn : Option Str) : List Str :=
  (match i.enabled with | none => [] | some l => l.flatMap (stdHeader i txn)) ++ i.systemInfo.flatMap sysHeader

/-! ## The streaming process -/

/-- the `streaming` section of the system configuration -/
structure Config where
  cert : Option Str := none
  key : Option Str := none
  ca : Option Str := none
deriving DecidableEq, Repr

/-- `RaucNBDServer`, include/nbd.h:38-57, the part that configures it -/
structure Server where
  url : Str
  cert : Option Str := none
  key : Option Str := none
  ca : Option Str := none
  noVerify : Bool := false
  headers : Option (List Str) := none
  infoHeaders : Option (List Str) := none
deriving DecidableEq, Repr

/-- bundle.c:2328-2346 -/
def server (c : Config) (url : Str) (a : Access) (info : Option (List Str)) : Server :=
  { url := url
    cert := a.cert.or c.cert
    key := a.key.or c.key
    ca := a.ca.or c.ca
    noVerify := a.noVerify
    headers := a.headers
    infoHeaders := info }

/-- `nbd_configure`, nbd.c:1077-1092: the request to the streaming process -/
def configDict (s : Server) : VDict :=
  let d : VDict := []
  let d := d.insert c!"url" (.s s.url)
  let d := d.insertO c!"cert" (s.cert.map .s)
  let d := d.insertO c!"key" (s.key.map .s)
  let d := d.insertO c!"ca" (s.ca.map .s)
  let d := d.insertO c!"no-verify" (if s.noVerify then some (.b true) else none)
  let d := d.insertO c!"headers" (s.headers.map .strv)
  d.insertO c!"info-headers" (s.infoHeaders.map .strv)

/-- `RaucNBDContext`, nbd.c:311-331 -/
structure Ctx where
  url : Str
  cert : Option Str := none
  key : Option Str := none
  ca : Option Str := none
  noVerify : Bool := false
  /-- a NULL `curl_slist` is the empty list -/
  headers : List Str := []
  initial : List Str := []
deriving DecidableEq, Repr

/-- `start_configure`, nbd.c:626-652; `none` is the failed assertion on the URL -/
def child (d : VDict) : Option Ctx :=
  match asS (d.get c!"url") with
  | none => none
  | some url =>
    let hs := asStrv (d.get c!"headers")
    some { url := url
           cert := asS (d.get c!"cert")
           key := asS (d.get c!"key")
           ca := asS (d.get c!"ca")
           noVerify := (asB (d.get c!"no-verify")).getD false
           headers := hs.getD []
           initial := hs.getD [] ++ (asStrv (d.get c!"info-headers")).getD [] }

/-- what libcurl is told -/
structure Request where
  url : Str
  cert : Option Str
  key : Option Str
  ca : Option Str
  verifyPeer : Bool
  headers : List Str
  range : Str
deriving DecidableEq, Repr

/-- `prepare_curl`, nbd.c:451-513. Without headers the option is not set; a second setting replaces the first. -/
def prepare (c : Ctx) (range : Str) : Request :=
  { url := c.url, cert := c.cert, key := c.key, ca := c.ca, verifyPeer := !c.noVerify, headers := c.headers, range := range }

/-- `start_configure`, nbd.c:656-666 -/
def configureRequest (c : Ctx) : Request :=
  let r := prepare c c!"0-3"
  match c.initial with
  | [] => r
  | l => { r with headers := l }

/-- `start_read`, nbd.c:557-573 (the range as in `Model/Nbd`) -/
def readRequest (c : Ctx) (off len : Nat) : Request :=
  prepare c (toDec (off % 2 ^ 64) ++ '-' :: toDec ((off + len + (2 ^ 64 - 1)) % 2 ^ 64))

/-- after the first response, nbd.c:805-812: the URL after redirections is used from then on -/
def redirected (c : Ctx) (effective : Str) : Ctx := { c with url := effective }

/-! ## The first response -/

/-- `RaucNBDTransfer`, the part filled from the headers -/
structure Resp where
  size : Nat := 0
  date : Nat := 0
  modified : Nat := 0
  etag : Option Str := none
deriving DecidableEq, Repr

/-- `g_strsplit(s, ": ", 2)` with two parts -/
def splitColon : Str → Option (Str × Str)
  | [] => none
  | [_] => none
  | a :: b :: r =>
    if a = ':' ∧ b = ' ' then some ([], r)
    else match splitColon (b :: r) with
      | none => none
      | some (x, y) => some (a :: x, y)

/-- `g_strsplit(s, d, 2)` with two parts -/
def split2 (d : Char) : Str → Option (Str × Str)
  | [] => none
  | c :: r => if c = d then some ([], r) else (split2 d r).map (fun p => (c :: p.1, p.2))

/-- `g_ascii_tolower` -/
def lower (c : Char) : Char := if c.val ≥ 'A'.val ∧ c.val ≤ 'Z'.val then Char.ofNat (c.toNat + 32) else c

def isDigit (c : Char) : Bool := decide ('0'.val ≤ c.val) && decide (c.val ≤ '9'.val)

/-- the value of decimal digits -/
def digitsVal (s : Str) : Nat := s.foldl (fun n c => n * 10 + (c.toNat - 48)) 0

/-- the sign in front of a number -/
def sign : Str → Bool × Str
  | '-' :: r => (true, r)
  | '+' :: r => (false, r)
  | r => (false, r)

/-- what `g_ascii_strtoull` skips (GLib): the blanks and the vertical tab -/
def isBlank (c : Char) : Bool := isSpace c || c == Char.ofNat 11

/-- nbd.c:418-423: `g_ascii_strtoull(s, &endptr, 10)` without a range error that has read all of `s`. (Without any digit nothing is read, which is all of the
empty string; a negative number is negated modulo 2^64.) -/
def number (s : Str) : Option Nat :=
  let t := sign (s.dropWhile isBlank)
  let ds := t.2.takeWhile isDigit
  if ds = [] then (if s = [] then some 0 else none)
  else if t.2.dropWhile isDigit ≠ [] then none
  else if digitsVal ds ≥ 2 ^ 64 then none
  else some (if t.1 then (2 ^ 64 - digitsVal ds) % 2 ^ 64 else digitsVal ds)

/-- `header_cb`, nbd.c:381-448; `none` makes libcurl end the transfer with an error; `date` is `curl_getdate` (`none` if negative) -/
def headerCb (date : Str → Option Nat) (x : Resp) (raw : Str) : Option Resp :=
  match splitColon (chomp raw) with
  | none => some x
  | some (name, value) =>
    let n := name.map lower
    if n = c!"content-range" then
      match split2 ' ' value with
      | none => none
      | some (_, v) =>
        match split2 '/' v with
        | none => none
        | some (range, total) =>
          if range ≠ c!"0-3" ∨ total = c!"*" then none
          else match number total with
            | none => none
            | some k => some { x with size := k }
    else if n = c!"date" then (match date value with | some t => some { x with date := t } | none => some x)
    else if n = c!"last-modified" then (match date value with | some t => some { x with modified := t } | none => some x)
    else if n = c!"etag" then some { x with etag := some value }
    else some x

/-- all headers of the response(s), in order -/
def headersCb (date : Str → Option Nat) : Resp → List Str → Option Resp
  | x, [] => some x
  | x, h :: l =>
    match headerCb date x h with
    | none => none
    | some y => headersCb date y l

/-- how the transfer ended: the HTTP status code (0: no response), the number of bytes received (of 4), other errors of libcurl, the final URL -/
structure Outcome where
  code : Nat
  got : Nat
  err : Option Str := none
  url : Str
deriving DecidableEq, Repr

def errText (code : Nat) : Str :=
  match code with
  | 0 => c!"server not responding"
  | 200 => c!"range requests not supported by server"
  | 204 => c!"no content"
  | 304 => c!"not modified"
  | n => c!"unexpected HTTP response code " ++ toDec n

/-- `if (number) insert`, nbd.c:830-838 -/
def nz (n : Nat) : Option V := if n = 0 then none else some (.t n)

/-- the reply of the streaming process: `finish_configure`, nbd.c:748-850 (when it does not retry) -/
def configReply (c : Ctx) (x : Resp) (o : Outcome) : VDict :=
  let e : VDict :=
    if o.code ≠ 206 then (VDict.insert [] c!"error" (.s (errText o.code))).insert c!"error-http-code" (.u (o.code % 2 ^ 32))
    else if o.got ≠ 4 then VDict.insert [] c!"error" (.s c!"incomplete HTTP response")
    else match o.err with
      | some t => VDict.insert [] c!"error" (.s t)
      | none => []
  let url := if e = [] then o.url else c.url
  let d := e.insert c!"url" (.s url)
  let d := d.insertO c!"size" (nz x.size)
  let d := d.insertO c!"current-time" (nz x.date)
  let d := d.insertO c!"modified-time" (nz x.modified)
  d.insertO c!"etag" (x.etag.map .s)

/-- the first request from the headers to the reply: if `header_cb` refuses a header, libcurl ends the transfer without a body (what was learned from earlier headers
is still in the reply; here it is left out, since the reply is an error) -/
def firstReply (date : Str → Option Nat) (c : Ctx) (hs : List Str) (o : Outcome) : VDict :=
  match headersCb date {} hs with
  | some x => configReply c x o
  | none => configReply c {} { o with got := 0 }

inductive NbdError where
  | noContent | notModified | unauthorized | notFound | configuration
deriving DecidableEq, Repr

/-- what the service knows afterwards -/
structure Opened where
  size : Nat
  url : Option Str
  modified : Nat
  etag : Option Str
deriving DecidableEq, Repr

/-- the evaluation of the reply in `nbd_configure`, nbd.c:1128-1190 -/
def configured (d : VDict) : Except NbdError Opened :=
  match asS (d.get c!"error") with
  | some _ =>
    let code := (asU (d.get c!"error-http-code")).getD 0
    .error (if code = 204 then .noContent else if code = 304 then .notModified else if code = 401 then .unauthorized
      else if code = 404 then .notFound else .configuration)
  | none =>
    let size := (asT (d.get c!"size")).getD 0
    if size = 0 then .error .configuration
    else .ok { size := size, url := asS (d.get c!"url"), modified := (asT (d.get c!"modified-time")).getD 0, etag := asS (d.get c!"etag") }

/-! ## What the poller remembers -/

/-- the part of `RPollingContext` with the last bundle, polling.c:24-41; `M` is the type of manifests -/
structure Memory (M : Type) where
  manifest : Option M := none
  etag : Option Str := none
deriving Repr

/-- the information headers of a poll, polling.c:105-109 -/
def pollHeaders {M : Type} (i : Info) (m : Memory M) : List Str := infoHeaders i none ++ lineO c!"If-None-Match" m.etag

/-- `polling_fetch`, polling.c:100-148, after `check_bundle`: its error, or the manifest (if any) with what was learned about the file -/
def remember {M : Type} (m : Memory M) (r : Except (Option NbdError) (Option M × Opened)) : Memory M × Bool :=
  match r with
  | .error (some .noContent) => ({ manifest := none, etag := none }, true)
  | .error (some .notModified) => (m, true)
  | .error _ => (m, false)
  | .ok (none, _) => (m, false)
  | .ok (some x, o) => ({ manifest := some x, etag := o.etag }, true)

end Rauc.Stream
