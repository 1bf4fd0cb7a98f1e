import Verif.Lib.Disk

/-!
# Streaming: the NBD server process and its client, src/nbd.c

The server is a single-threaded loop between a socket (the kernel's NBD driver, or `r_nbd_read`) and libcurl. It is modelled as a machine that takes events in any order: requests from the client,
data of any running transfer, the end of any running transfer. What libcurl is trusted for: a transfer to which a callback has refused data does not end with `CURLE_OK`; no data of a transfer
arrives after its end. Events about transfers that do not exist (any more) are therefore ignored.

Not modelled: TLS, redirects, the contents of the configuration, statistics, the headers other than `Content-Range`, the second between retries.
-/

namespace Rauc.Nbd

inductive Kind
  | read
  | disc
  | configure
  | other
deriving DecidableEq, Repr

/-- struct nbd_request, after the conversion from network byte order (nbd.c:955-958): `off` is `from` -/
structure Req where
  kind : Kind
  off : Nat
  len : Nat
  handle : Bytes
deriving DecidableEq, Repr

/-- struct RaucNBDTransfer, nbd.c:330-353. `buf` is the part of the buffer before `buffer_pos`, `size` is `buffer_size`, `id` the number of the request. -/
structure Xfer where
  id : Nat
  req : Req
  buf : Bytes
  size : Nat
  errors : Nat
  refused : Bool
deriving DecidableEq, Repr

/-- a reply that was sent completely. `error` is the field of the header; for a configuration `body` is the size and the dictionary. -/
structure Reply where
  id : Nat
  req : Req
  error : Nat
  body : Bytes
deriving DecidableEq, Repr

inductive Ev
  /-- the client sends a request. `magic`: the magic is right. `cfg`: the data of a configuration request could be read and has the URL. -/
  | request (r : Req) (magic cfg : Bool)
  /-- reading from the client fails, or it closes the connection without a disconnect request -/
  | readFail
  /-- libcurl delivers data of transfer `id` -/
  | chunk (id : Nat) (b : Bytes)
  /-- transfer `id` ends, with `CURLE_OK` or not, and with the given HTTP response code. `wr`: after so many bytes, writing to the client fails -/
  | complete (id : Nat) (ok : Bool) (code : Nat) (wr : Option Nat)
  /-- the loop ends -/
  | exit
deriving DecidableEq, Repr

inductive Status
  | running
  | aborted
  | exited (ok : Bool)
deriving DecidableEq, Repr

/-- the state of the server. `http` are the range requests sent so far (request number, first and last byte), `out` is what was written to the client, `replies` the completely sent replies. -/
structure St where
  status : Status
  done : Bool
  configured : Bool
  next : Nat
  active : List Xfer
  http : List (Nat × Nat × Nat)
  out : Bytes
  replies : List Reply
deriving DecidableEq, Repr

def init : St := ⟨.running, false, false, 0, [], [], [], []⟩

def be (n : Nat) : Nat → Bytes
  | 0 => []
  | w + 1 => be (n / 256) w ++ [UInt8.ofNat (n % 256)]

/-- struct nbd_reply, nbd.c:961-962: magic (NBD_REPLY_MAGIC), error and handle -/
def header (error : Nat) (handle : Bytes) : Bytes := be 0x67446698 4 ++ be error 4 ++ handle

def encode (r : Reply) : Bytes := header r.error r.req.handle ++ r.body

/-- the range of the transfer: start_read, nbd.c:568-570 (64-bit arithmetic), and start_configure, nbd.c:666 -/
def range (r : Req) : Nat × Nat :=
  match r.kind with
  | .configure => (0, 3)
  | _ => (r.off, (r.off + r.len + 2 ^ 64 - 1) % 2 ^ 64)

/-- nbd.c:562-564 and 671-673 -/
def bufSize (r : Req) : Nat :=
  match r.kind with
  | .configure => 4
  | _ => r.len

/-- start_read/start_configure, nbd.c:557-680: a fresh buffer and a range request -/
def start (s : St) (x : Xfer) : St :=
  { s with
    active := s.active ++ [{ x with buf := [], size := bufSize x.req, refused := false }]
    http := s.http ++ [(x.id, range x.req)] }

/-- the first part of the loop, nbd.c:933-966, with start_request, nbd.c:682-704. A configuration request is read completely only if there was none before (nbd.c:614). -/
def onRequest (s : St) (r : Req) (magic cfg : Bool) : St :=
  if magic then
    match r.kind with
    | .disc => { s with done := true }
    | .other => { s with status := .aborted }
    | .read => start { s with next := s.next + 1 } ⟨s.next, r, [], 0, 0, false⟩
    | .configure =>
      if s.configured || cfg then start { s with next := s.next + 1, configured := true } ⟨s.next, r, [], 0, 0, false⟩
      else { s with status := .aborted }
  else { s with status := .aborted }

/-- write_cb, nbd.c:363-378 -/
def onChunk (x : Xfer) (b : Bytes) : Xfer :=
  if x.refused then x
  else if x.size - x.buf.length < b.length then { x with refused := true }
  else { x with buf := x.buf ++ b }

/-- one or several `r_write_exact` to the client that abort on failure -/
def send (s : St) (b : Bytes) (wr : Option Nat) : St :=
  match wr with
  | none => { s with out := s.out ++ b }
  | some k => { s with out := s.out ++ b.take k, status := .aborted }

/-- a complete reply, which counts as such only if all of it could be written -/
def reply (s : St) (r : Reply) (wr : Option Nat) : St :=
  match wr with
  | none => { send s (encode r) none with replies := s.replies ++ [r] }
  | some k => send s (encode r) (some k)

/-- finish_read, nbd.c:706-746, for `done`; `err` is `reply.error` so far -/
def finishRead (s : St) (x : Xfer) (err code : Nat) (wr : Option Nat) : St :=
  let e := if err = 0 then (if code ≠ 206 then 5 else 0) else err
  if e ≠ 0 then reply s ⟨x.id, x.req, e, []⟩ wr
  else if x.size ≠ x.buf.length then { send s (header 0 x.req.handle) wr with status := .aborted }
  else reply s ⟨x.id, x.req, 0, x.buf⟩ wr

/-- finish_configure, nbd.c:748-857, for `done`. `dict` serializes the dictionary of the reply. Without success the loop ends with an error (nbd.c:1002-1010). -/
def finishConfigure (dict : Xfer → Nat → Nat → Bytes) (s : St) (x : Xfer) (err code : Nat) (wr : Option Nat) : St :=
  let s' := reply s ⟨x.id, x.req, err, dict x err code⟩ wr
  if code = 206 ∧ x.size = x.buf.length ∧ err = 0 then s'
  else if s'.status = .running then { s' with status := .exited false }
  else s'

def finish (dict : Xfer → Nat → Nat → Bytes) (s : St) (x : Xfer) (err code : Nat) (wr : Option Nat) : St :=
  match x.req.kind with
  | .configure => finishConfigure dict s x err code wr
  | _ => finishRead s x err code wr

/-- the second part of the loop, nbd.c:973-1020, for the transfer `x` that has ended; it is in `s` no longer -/
def onComplete (dict : Xfer → Nat → Nat → Bytes) (s : St) (x : Xfer) (ok : Bool) (code : Nat) (wr : Option Nat) : St :=
  if ok && !x.refused then finish dict s x 0 code wr
  else if code = 404 then finish dict s x 5 code wr
  else if x.errors ≥ 5 then finish dict s x 5 code wr
  else start s { x with errors := x.errors + 1 }

/-- one event in the loop of `r_nbd_run_server`, nbd.c:924-1021 -/
def event (dict : Xfer → Nat → Nat → Bytes) (s : St) : Ev → St
  | .request r magic cfg => if s.done then s else onRequest s r magic cfg
  | .readFail => if s.done then s else { s with status := .exited false }
  | .chunk id b => { s with active := s.active.map fun x => if x.id = id then onChunk x b else x }
  | .complete id ok code wr =>
    match s.active.find? fun x => decide (x.id = id) with
    | none => s
    | some x => onComplete dict { s with active := s.active.filter fun x => decide (x.id ≠ id) } x ok code wr
  | .exit => if s.done then { s with status := .exited true } else s

def step (dict : Xfer → Nat → Nat → Bytes) (s : St) (e : Ev) : St := if s.status = .running then event dict s e else s

def run (dict : Xfer → Nat → Nat → Bytes) (evs : List Ev) : St := evs.foldl (step dict) init

/-! ## The client -/

/-- `RAUC_NBD_HANDLE`, nbd.c:34 -/
def raucHandle : Bytes := [0x89, 0xce, 0x48, 0x24, 0x0c, 0xe4, 0x82, 0xce]

inductive ClientResult
  | data (b : Bytes) (rest : Bytes)
  | failed (rest : Bytes)
  | aborted
deriving DecidableEq, Repr

/-- the request that `r_nbd_read` sends, nbd.c:1446-1450: the length is reduced to 32 bits -/
def clientReq (size off : Nat) : Req := ⟨.read, off % 2 ^ 64, size % 2 ^ 32, raucHandle⟩

/-- what `r_nbd_read` does with the bytes from the server, nbd.c:1454-1473; the end of the stream aborts -/
def clientRead (size : Nat) (stream : Bytes) : ClientResult :=
  if stream.length < 16 then .aborted
  else if stream.take 4 ≠ be 0x67446698 4 then .aborted
  else if (stream.drop 8).take 8 ≠ raucHandle then .aborted
  else if (stream.drop 4).take 4 ≠ be 0 4 then .failed (stream.drop 16)
  else if (stream.drop 16).length < size then .aborted
  else .data ((stream.drop 16).take size) ((stream.drop 16).drop size)

end Rauc.Nbd
