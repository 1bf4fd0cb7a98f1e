import Verif.Lib.Disk

/-!
# Download of a bundle (builds without streaming): src/network.c:41-178
-/

namespace Rauc.Download

/-- `RaucTransfer`, network.c:14-23; `handed` are the bytes given to `fwrite` successfully -/
structure Xfer where
  limit : Nat
  pos : Nat := 0
  handed : Bytes := []
  err : Bool := false
deriving DecidableEq, Repr

/-- `write_cb`, network.c:41-57: libcurl delivers `data`, `fwrite` takes the first `n` bytes; the result is what the callback returns -/
def writeCb (x : Xfer) (data : Bytes) (n : Nat) : Xfer × Nat :=
  if x.limit ≠ 0 ∧ (x.pos + data.length) % 2 ^ 64 > x.limit then ({ x with err := true }, 0)
  else ({ x with pos := x.pos + (data.take n).length, handed := x.handed ++ data.take n }, (data.take n).length)

/-- `xfer_cb`, network.c:61-74; is the transfer to be aborted? -/
def xferCb (x : Xfer) (total now : Nat) : Xfer × Bool :=
  if x.limit ≠ 0 ∧ (now > x.limit ∨ total > x.limit) then ({ x with err := true }, true) else (x, false)

/-- what libcurl does during the transfer -/
inductive Ev where
  | data (d : Bytes) (taken : Nat)
  | progress (total now : Nat)
deriving DecidableEq, Repr

/-- libcurl: callbacks are run in order; one that does not take all its data, or asks for it, aborts the transfer -/
def transfer : Xfer → List Ev → Xfer × Bool
  | x, [] => (x, true)
  | x, .data d n :: l =>
    let r := writeCb x d n
    if r.2 = d.length then transfer r.1 l else (r.1, false)
  | x, .progress t n :: l =>
    let r := xferCb x t n
    if r.2 then (r.1, false) else transfer r.1 l

/-- `download_file`, network.c:142-178. `old` is the target; `opened`: could it be created (`wbx` fails if it exists); `ended`: does libcurl report success (if no callback
aborted); `disk`: what reaches the disk of the bytes handed to stdio, by `fflush` and `fclose`, whose results are ignored.
The result: success, and the target afterwards. -/
def download (old : Option Bytes) (opened : Bool) (limit : Nat) (evs : List Ev) (ended : Bool) (disk : Bytes → Bytes) : Bool × Option Bytes :=
  match old with
  | some f => (false, some f)
  | none =>
    if !opened then (false, none)
    else
      let r := transfer { limit := limit } evs
      (r.2 && ended, some (disk r.1.handed))

end Rauc.Download
