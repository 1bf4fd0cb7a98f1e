import Verif.Model.Update
import Verif.Model.Copy
import Verif.Model.HashIndex
import Verif.Model.Create
import Verif.Model.Install

/-!
# From the image file to the slot

Joins `Model/Install` (which image is written to which slot, in which order), `Model/Update` (the steps of the update handlers,
update_handler.c:577-720, 986-1040, 1365-1375, 1502-2060, 2597-2637) and the models of single steps (`Model/Copy`: `copy_raw_image`,
update_handler.c:326-419; `Model/HashIndex`: `copy_block_hash_index_image_to_dev`, update_handler.c:730-900): what is on a slot
after the events of an installation.

External programs that were successful are trusted to have done their work: `mkfs` and `flash_erase` leave nothing behind, `tar`
unpacks the archive, `nandwrite` and `flashcp` write the image. Failed steps, hooks, `resize2fs`, `casync` and starting an update of
an UBI volume may leave anything. Mounting a slot may change its device but not the files on it.
-/

namespace Rauc.EndToEnd

open Rauc.Update (Step FsKind)

/-- What is on a slot: bytes, or a file system with these files (`none`: erased flash memory, which is an empty jffs2) -/
inductive SlotData where
  | raw (d : Disk)
  | fs (k : Option FsKind) (tree : Create.Dir)

/-- the bytes of the device; those of a file system are not known -/
def HasBytes : SlotData → Disk → Prop
  | .raw d, d' => d' = d
  | .fs _ _, _ => True

/-- The hash of the block hash index. `seen` is bookkeeping: chunks of images and slots which the index was used for. -/
structure Sha where
  hash : Bytes → Nat
  seen : Bytes → Prop

/-- an image file in the mounted bundle, with the size from the manifest -/
structure Source where
  T : Create.Tools
  sha : Sha
  data : Bytes
  size : Nat

/-- the image is at the beginning of the device -/
def Written (S : Source) (y : SlotData) : Prop := ∃ d, y = .raw d ∧ d.read 0 S.data.length = S.data

/-- What one step of an update handler does to the slot; `m`: it is mounted. `none` as file system of `mkfs` does not occur.
- `copyRaw`: update_handler.c:326-419 (`Copy.copyRaw`), no header is written last (only `boot-raw-fallback` does so)
- `copyAdaptive`: update_handler.c:730-900 (`HashIndex.copyAdaptive`), chunks of 4096 bytes; the index in the bundle, if there is
  one, is the one of the image (`rauc bundle` puts it there, C61)
- `untar`: update_handler.c:1321-1363 -/
def StepData (S : Source) (m : Bool) (x : SlotData) (e : Update.Ev) (y : SlotData) : Prop :=
  match e with
  | (.openDev, _) | (.checkSize, _) | (.mountSeed, _) | (.umountSeed, _) | (.closeDev, true) => y = x
  | (.mount, _) | (.umount, _) => ∀ k t, x = .fs k t → y = x
  | (.copyRaw, true) => m = false → ∃ d f io sector, HasBytes x d ∧ (Copy.copyRaw f io S.size 0 sector 0 S.data).ok = true ∧
      y = .raw (Copy.apply d (Copy.copyRaw f io S.size 0 sector 0 S.data).ops)
  | (.copyAdaptive, true) => m = false → ∃ d io I d', HasBytes x d ∧ I.isize = S.data.length ∧ I.image.read 0 I.isize = S.data ∧
      (I.istored = none ∨ I.istored = some (HashIndex.hashFile S.sha.hash 4096 I.image (I.isize / 4096))) ∧
      HashIndex.copyAdaptive S.sha.hash (S.sha.hash (List.replicate 4096 0)) 4096 io I d = .ok (d', true) ∧
      (∀ c < I.isize / 4096, S.sha.seen (d'.read (c * 4096) 4096) ∧ S.sha.seen (I.image.read (c * 4096) 4096)) ∧ y = .raw d'
  | (.flashcp, true) => m = false → Written S y
  | (.nandWrite, true) => m = false → x = .fs none [] → Written S y
  | (.mkfs k, true) => m = false → y = .fs (some k) []
  | (.flashErase, true) => m = false → y = .fs none []
  | (.untar, true) => m = true → ∀ k, x = .fs k [] → ∃ tree, S.T.tar S.data = some tree ∧ y = .fs k tree
  | _ => True

/-- is the slot mounted after the step? mount.c:292-362 -/
def mountedAfter (m : Bool) (e : Update.Ev) : Bool :=
  if e = (.mount, true) then true else if e = (.umount, true) then false else m

/-- the steps of an update handler, one after the other -/
inductive Steps (S : Source) : Bool → SlotData → List Update.Ev → SlotData → Prop
  | nil (m : Bool) (x : SlotData) : Steps S m x [] x
  | cons {m : Bool} {x y z : SlotData} {e : Update.Ev} {es : List Update.Ev} : StepData S m x e y → Steps S (mountedAfter m e) y es z →
      Steps S m x (e :: es) z

/-- the mounted bundle and the slots: `T` are the external tools, `files` the directory of the bundle, `target` what the update
handlers look at in the configuration of a slot -/
structure Device where
  T : Create.Tools
  sha : Sha
  files : Create.Dir
  target : Slot → Update.Target

/-- the image file of an image as it is found in the mounted bundle, install.c:1021-1028: names are relative to the mount point -/
def Device.source (D : Device) (img : Image) : Source :=
  ⟨D.T, D.sha, (img.filename.bind (Create.openFile D.files)).getD [], img.size.toNat⟩

/-- Slots with one of the `boot-*` types have handlers of their own (C41, C42, C43) -/
def Special (img : Image) (t : Update.Target) : Prop :=
  ∃ h, Handlers.getUpdateHandler img t.slotType = some h ∧ Update.handlerProg (Update.optsOf img t) h = none

/-- One event of an installation and the slots (by name). A slot handler that is successful (install.c:1203) is one of
`Model/Update`. From the start of a handler on, its slot may hold anything; so it may when the handler fails (what it leaves is
chosen at the start). Custom handlers may write to any slot; other
handlers and hooks of the system are assumed to leave slots alone. -/
def DevStep (D : Device) (dev : Str → SlotData) (e : Install.Ev) (dev' : Str → SlotData) : Prop :=
  match e with
  | .writeEnd s img true => (∀ n, n ≠ s.name → dev' n = dev n) ∧ (Special img (D.target s) ∨
      ∃ x o tr, Update.updateSlot img (D.target s) o = some (tr, true) ∧ Steps (D.source img) false x tr (dev' s.name))
  | .writeStart s _ _ => ∀ n, n ≠ s.name → dev' n = dev n
  | .customStart | .customEnd _ => True
  | _ => dev' = dev

/-- the events of an installation, one after the other -/
inductive DevSteps (D : Device) : (Str → SlotData) → List Install.Ev → (Str → SlotData) → Prop
  | nil (dev : Str → SlotData) : DevSteps D dev [] dev
  | cons {dev dev1 dev2 : Str → SlotData} {e : Install.Ev} {es : List Install.Ev} : DevStep D dev e dev1 → DevSteps D dev1 es dev2 →
      DevSteps D dev (e :: es) dev2

end Rauc.EndToEnd
