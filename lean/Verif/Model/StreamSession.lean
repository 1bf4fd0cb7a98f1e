import Verif.Lib.Str

/-!
# A streaming session: src/nbd.c:44-94, 147-309, 1305-1435, src/bundle.c:2326-2351, 3056-3248, src/install.c:1560-1675, src/main.c:2532-2558

The bundle is read by a helper process over a socket pair; to mount it, RAUC hands its end of the socket to a kernel NBD device. The machine runs one session statement by statement; between any
two statements the rest of the system may act (`Ev`).

What the kernel is assumed to do: a connected device keeps a reference to the socket, disconnecting it sends `NBD_CMD_DISC` to the helper; a device with `NBD_CFLAG_DISCONNECT_ON_CLOSE` is
disconnected when its last user is gone; a helper whose peer's last reference is gone reads the end of the stream. What the helper is assumed to do: it ends after either (nbd.c:689-694, 937).
The device mapper devices are only modelled as "something uses the device" (their own life is `Model/Devices`).
-/

namespace Rauc.StreamSession

/-- what the bundle is opened for: `rauc info`, InspectBundle and polling; an installation; `rauc mount` -/
inductive Use where
  | inspect
  | install
  | mount
deriving DecidableEq, Repr

inductive Helper where
  | absent
  | running
  /-- was told to end (disconnect request or end of the stream), or died -/
  | ended
  /-- RAUC waited for it -/
  | reaped
deriving DecidableEq, Repr

/-- The statements at which something can happen. -/
inductive Pc where
  | socketpair | prepare | spawn | configure | check
  | mkdir | setup | connect | openDev | reconf | mapMount | closeFd
  | inUse | umount | rmNetlink | rmSend | stopSend | stopWait
  | freeDev | freeSend | freeStop | freeWait
  | done
  /-- `rauc mount` ended with the bundle mounted -/
  | exited
  /-- RAUC was killed or aborted itself -/
  | dead
deriving DecidableEq, Repr

/-- What may go wrong in this session. -/
structure Cfg where
  use : Use
  /-- while the bundle is released, the netlink socket can always be opened and knows the nbd family -/
  netlinkOk : Bool
  /-- unmounting works, and leaves no device mapper device behind -/
  umountOk : Bool
  /-- the kernel may give the number of a device to another process while this session still remembers it -/
  reuse : Bool
deriving DecidableEq, Repr

structure St where
  pc : Pc := .socketpair
  /- `RaucNBDServer` and `RaucNBDDevice`: nbd.h:25-53 -/
  srvProc : Bool := false
  srvSock : Bool := false
  devSock : Bool := false
  index : Option Nat := none
  /-- `bundle->mount_point` -/
  mounted : Bool := false
  /- file descriptors of RAUC: its end of the socket pair, the opened NBD device -/
  sock : Bool := false
  fd : Bool := false
  /-- a descriptor was closed which was not open -/
  badClose : Bool := false
  /- the kernel -/
  mine : Option Nat := none
  onClose : Bool := false
  /-- the mount or a device mapper device uses the NBD device -/
  held : Bool := false
  others : Nat → Bool := fun _ => false
  /-- devices of other processes which this session disconnected -/
  foreign : List Nat := []
  helper : Helper := .absent

/-- the helper ends -/
def tell (s : St) : St := if s.helper = .running then { s with helper := .ended } else s

/-- the kernel: a device marked for it is disconnected with its last user -/
def autoClose (s : St) : St :=
  if s.onClose && !s.fd && !s.held && s.mine.isSome then tell { s with mine := none } else s

/-- the kernel: the helper reads the end of the stream when nobody has the other end any more -/
def eof (s : St) : St := if !s.sock && s.mine.isNone then tell s else s

def settle (s : St) : St := eof (autoClose s)

/-- `g_close` of RAUC's end of the socket -/
def closeSock (s : St) : St := if s.sock then settle { s with sock := false } else { s with badClose := true }

/-- nbd.c:279-286: the request to disconnect the device with this number; errors are only logged -/
def disconnect (i : Nat) (s : St) : St :=
  if s.mine = some i then tell { s with mine := none }
  else if s.others i then { s with others := fun j => s.others j && j != i, foreign := i :: s.foreign }
  else s

/-- nbd.c:279-296, after the netlink socket was opened; `g_close(-1)` does nothing -/
def removeDevice (s : St) : St :=
  let s := match s.index with
    | some i => disconnect i s
    | none => s
  let s := { s with index := none }
  if s.devSock then closeSock { s with devSock := false } else s

/-- nbd.c:1404-1421: `r_nbd_stop_server` up to the wait -/
def stopSend (s : St) : St :=
  if s.srvSock then closeSock (tell { s with srvSock := false }) else s

/-- bundle.c:3100-3106: the socket goes back to the server; the opened device is closed (nbd.c:157) -/
def setupFailed (s : St) : St :=
  settle { s with srvSock := s.devSock, devSock := false, fd := false, pc := .freeDev }

/-- The process is gone: the kernel closes its descriptors. -/
def die (s : St) : St := settle { s with pc := .dead, sock := false, fd := false }

/-- One statement of RAUC. `fails`: it fails; `idx`: the number the kernel chooses; `keep`: a device mapper device stays behind. -/
def raucStep (C : Cfg) (fails : Bool) (idx : Nat) (keep : Bool) (s : St) : St :=
  match s.pc with
  | .socketpair => -- nbd.c:1316-1324
    if fails then { s with pc := .freeDev } else { s with sock := true, pc := .prepare }
  | .prepare => -- nbd.c:1332-1339, 1380-1383
    if fails then { closeSock s with pc := .freeDev } else { s with pc := .spawn }
  | .spawn => -- nbd.c:1354-1369, 1380-1383
    if fails then { closeSock s with pc := .freeDev }
    else { s with helper := .running, srvProc := true, srvSock := true, pc := .configure }
  | .configure => -- nbd.c:1371-1375; without an answer of the helper RAUC aborts, nbd.c:1107-1111
    if s.helper ≠ .running then die s
    else if fails then { s with pc := .freeDev } else { s with pc := .check }
  | .check => -- the rest of check_bundle and the checks before mounting, install.c:1566-1585
    if fails || C.use == .inspect then { s with pc := .freeDev } else { s with pc := .mkdir }
  | .mkdir => -- bundle.c:3069-3077, 3094-3099
    if fails then { s with pc := .freeDev } else { s with devSock := s.srvSock, srvSock := false, pc := .setup }
  | .setup => -- nbd.c:167-172
    if fails then setupFailed s else { s with pc := .connect }
  | .connect => -- nbd.c:174-210
    if fails || s.others idx then setupFailed s else { s with mine := some idx, index := some idx, pc := .openDev }
  | .openDev => -- nbd.c:212-220
    if fails then setupFailed s else { s with fd := true, pc := .reconf }
  | .reconf => -- nbd.c:222-238
    if fails then setupFailed s else { s with onClose := true, pc := .mapMount }
  | .mapMount => -- bundle.c:3143-3160
    if fails then { s with held := keep && !C.umountOk, pc := .closeFd } else { s with held := true, mounted := true, pc := .closeFd }
  | .closeFd => -- bundle.c:3175-3179; main.c:2556: exit(0)
    let s := settle { s with fd := false }
    if !s.mounted then { s with pc := .freeDev }
    else if C.use == .mount then settle { s with sock := false, pc := .exited } else { s with pc := .inUse }
  | .inUse => { s with pc := .umount } -- install.c:1595-1671
  | .umount => -- bundle.c:3193-3201; the error is ignored, install.c:1672
    if fails && !C.umountOk then { s with pc := .freeDev }
    else { settle { s with mounted := false, held := keep && !C.umountOk } with pc := .rmNetlink }
  | .rmNetlink => -- nbd.c:260-272, bundle.c:3203-3208
    if s.index.isNone then { s with pc := .stopSend }
    else if fails && !C.netlinkOk then { s with pc := .freeDev } else { s with pc := .rmSend }
  | .rmSend => { removeDevice s with pc := .stopSend }
  | .stopSend => -- bundle.c:3210, nbd.c:1399-1421
    if s.srvProc then { stopSend s with pc := .stopWait } else { s with pc := .freeDev }
  | .stopWait => -- nbd.c:1423-1434: waits for the helper
    if s.helper = .running then s else { s with helper := .reaped, srvProc := false, pc := .freeDev }
  | .freeDev => -- bundle.c:3240, nbd.c:53-64
    if s.index.isNone then { s with pc := .freeStop }
    else if fails && !C.netlinkOk then { s with pc := .freeStop } else { s with pc := .freeSend }
  | .freeSend => { removeDevice s with pc := .freeStop }
  | .freeStop => -- bundle.c:3242, nbd.c:75-84
    if s.srvProc then { stopSend s with pc := .freeWait } else { s with pc := .done }
  | .freeWait =>
    if s.helper = .running then s else { s with helper := .reaped, srvProc := false, pc := .done }
  | .done => s
  | .exited => s
  | .dead => s

/-- What can happen next. -/
inductive Ev where
  | rauc (fails : Bool) (idx : Nat) (keep : Bool)
  /-- another process connects a device -/
  | otherConnects (i : Nat)
  | otherDisconnects (i : Nat)
  | helperDies
  /-- RAUC is killed -/
  | kill
  /-- the bundle is unmounted by somebody else, and nothing uses the device any more -/
  | unmounted
deriving DecidableEq, Repr

def step (C : Cfg) (s : St) : Ev → St
  | .rauc fails idx keep => raucStep C fails idx keep s
  | .otherConnects i =>
    if s.mine = some i || (!C.reuse && s.index == some i) then s else { s with others := fun j => s.others j || j == i }
  | .otherDisconnects i => { s with others := fun j => s.others j && j != i }
  | .helperDies => tell s
  | .kill => if s.pc = .done || s.pc = .exited || s.pc = .dead then s else die s
  | .unmounted => settle { s with held := false }

def run (C : Cfg) (s : St) (evs : List Ev) : St := evs.foldl (step C) s

/-- Before the session: other processes may have devices. -/
def start (others : Nat → Bool) : St := { others := others }

end Rauc.StreamSession
