import Verif.Model.Handlers
import Verif.Model.Slot

/-!
# Slot update handlers: src/update_handler.c:577-720, 986-1040, 1365-1375, 1502-2060, 2597-2637

Every handler is a program over *external steps* (hook scripts, mount, mkfs, dd-like copy, casync, tar,
flash tools). A step either succeeds or fails, decided by an arbitrary environment which may depend on
everything that happened before. The four `boot-*` handlers are modelled in `Model/BootSwitch.lean` and
`Model/Emmc.lean`; what a single raw copy or block-hash-index copy writes is modelled in
`Model/Copy.lean` and `Model/HashIndex.lean`.
-/

namespace Rauc.Update

open Rauc.Handlers (Handler)

/-- file systems RAUC creates -/
inductive FsKind where
  | ext4 | vfat | ubifs
deriving DecidableEq, Repr

/-- the hook script argument: `R_SLOT_HOOK_PRE_INSTALL`, `_INSTALL`, `_POST_INSTALL`, update_handler.c:24-26 -/
inductive HookCmd where
  | pre | install | post
deriving DecidableEq, Repr

/-- External steps. The target device is always `dest_slot->device`. -/
inductive Step where
  /-- `run_slot_hook`, update_handler.c:1389-1500: the script is run and its exit status checked -/
  | hook (c : HookCmd)
  /-- `r_mount_slot (dest_slot)`, mount.c:292-340 -/
  | mount
  /-- `r_umount_slot (dest_slot)`, mount.c:342-362 -/
  | umount
  /-- `r_mount_slot (seedslot)` -/
  | mountSeed
  /-- `r_umount_slot (seedslot)` -/
  | umountSeed
  /-- `r_unix_output_stream_open_device` -/
  | openDev
  /-- `check_image_size` -/
  | checkSize
  /-- `ubifs_ioctl`: UBI_IOCVOLUP, which drops the old volume contents -/
  | ubiStart
  /-- `copy_raw_image` -/
  | copyRaw
  /-- `g_output_stream_close` -/
  | closeDev
  /-- `copy_adaptive_image_to_dev` -/
  | copyAdaptive
  /-- `casync_extract` of a block image (`.caibx`) to the device -/
  | casyncBlob
  /-- `casync_extract` of a directory tree (`.caidx`, `.catar`) to the mount point of the target -/
  | casyncTree
  /-- `untar_image` to the mount point of the target -/
  | untar
  /-- `ext4_format_slot` / `vfat_format_slot` / `ubifs_format_slot` -/
  | mkfs (k : FsKind)
  /-- `flash_format_slot`: flash_erase -/
  | flashErase
  /-- `nand_write_slot`: nandwrite -/
  | nandWrite
  /-- `nor_write_slot`: flashcp --erase-all -/
  | flashcp
  /-- `ext4_resize_slot`: resize2fs -/
  | resize2fs
deriving DecidableEq, Repr

/-- Decision trees: perform a step and continue depending on its outcome. -/
inductive Prog where
  | ret (b : Bool)
  | act (s : Step) (yes no : Prog)
deriving DecidableEq, Repr

/-- one executed step with its outcome -/
abbrev Ev := Step × Bool

/-- Run a program. The environment `o` sees the whole history and the step about to be executed. -/
def Prog.run (o : List Ev → Step → Bool) (h : List Ev) : Prog → List Ev × Bool
  | .ret b => (h, b)
  | .act s y n => if o h s then y.run o (h ++ [(s, true)]) else n.run o (h ++ [(s, false)])

/-- sequencing; the second program sees the result of the first -/
def Prog.bind : Prog → (Bool → Prog) → Prog
  | .ret b, f => f b
  | .act s y n, f => .act s (y.bind f) (n.bind f)

/-- a single step whose outcome is the result -/
def step (s : Step) : Prog := .act s (.ret true) (.ret false)

/-- `if (!p) { res = FALSE; goto out; }` -/
def Prog.andThen (p q : Prog) : Prog := p.bind fun b => if b then q else .ret false

/-- `if (c) { res = p; if (!res) goto out; }` -/
def onlyIf (c : Bool) (p : Prog) : Prog := if c then p else .ret true

/-- the archive format, chosen by `unpack_archive`, update_handler.c:1365-1373, from the file name -/
inductive Archive where
  | tar | caidx | catar
deriving DecidableEq, Repr

/-- How `casync_extract_image` finds its seed, update_handler.c:591-635: no seed is used (desync, no active
slot of the class, device not usable); the seed is used as it is; or its file system has to be mounted. -/
inductive Seed where
  | none | ready | mount
deriving DecidableEq, Repr

/-- The inputs on which the control flow of the handlers depends. -/
structure Opts where
  /-- `hook_name && image->hooks.pre_install` -/
  preHook : Bool
  /-- `hook_name && image->hooks.post_install` -/
  postHook : Bool
  /-- the file name ends in `.caibx` -/
  caibx : Bool
  archive : Archive
  /-- `image->adaptive && slot->data_directory` -/
  adaptive : Bool
  /-- `dest_slot->resize` and the slot type is "ext4" -/
  resize : Bool
  /-- the image type is "emptyfs" -/
  emptyfs : Bool
  seed : Seed
deriving DecidableEq, Repr

/-- after `p`, unmount the seed; a failing umount makes the result FALSE, update_handler.c:659-672 -/
def umountSeedAfter (p : Prog) : Prog :=
  p.bind fun b => (step .umountSeed).bind fun u => .ret (b && u)

/-- `casync_extract_image`, update_handler.c:577-674. Only a directory tree needs a mounted seed; failing to
mount it is not an error (no seed is used then). -/
def casyncExtract (o : Opts) (tree : Bool) : Prog :=
  let x := step (if tree then .casyncTree else .casyncBlob)
  if tree && o.archive == .caidx && o.seed == .mount then
    (step .mountSeed).bind fun m => if m then umountSeedAfter x else x
  else x

/-- `copy_raw_image_to_dev`, update_handler.c:689-728 -/
def copyRawToDev : Prog :=
  (step .openDev).andThen ((step .checkSize).andThen ((step .copyRaw).andThen (step .closeDev)))

/-- `write_image_to_dev`, update_handler.c:986-1034 -/
def writeImageToDev (o : Opts) : Prog :=
  if o.caibx then casyncExtract o false
  else if o.adaptive then (step .copyAdaptive).bind fun b => if b then .ret true else copyRawToDev
  else copyRawToDev

/-- `unpack_archive`, update_handler.c:1365-1373 -/
def unpackArchive (o : Opts) : Prog :=
  if o.archive == .caidx then casyncExtract o true
  else if o.archive == .catar then casyncExtract o true
  else step .untar

/-- after `p`, unmount the slot; a failing umount makes the result FALSE, update_handler.c:1733-1745 -/
def umountAfter (p : Prog) : Prog :=
  p.bind fun b => (step .umount).bind fun u => .ret (b && u)

/-- `mount_and_run_slot_hook`, update_handler.c:1502-1543 -/
def mountAndRunHook (c : HookCmd) : Prog :=
  (step .mount).andThen (umountAfter (step (.hook c)))

/-- `img_to_ubivol_handler`, update_handler.c:1545-1612 (`mounted = false`) and `img_to_ubifs_handler`,
update_handler.c:1614-1681 (`mounted = true`: the hooks run with the slot mounted) -/
def imgToUbi (o : Opts) (mounted : Bool) : Prog :=
  let hook := fun c => if mounted then mountAndRunHook c else step (.hook c)
  (onlyIf o.preHook (hook .pre)).andThen <|
  (step .openDev).andThen <|
  (step .ubiStart).andThen <|
  (if o.caibx then casyncExtract o false else step .copyRaw).andThen <|
  (step .closeDev).andThen <|
  onlyIf o.postHook (hook .post)

/-- The common part of `archive_to_ubifs_handler`, update_handler.c:1683-1749, `archive_to_jffs2_handler`,
1751-1817, `archive_to_ext4_handler`, 1819-1888, and `archive_to_vfat_handler`, 1890-1956, after the
pre-install hook: format, mount, unpack (unless `skip`), post-install hook, umount -/
def archiveTo (o : Opts) (format : Step) (skip : Bool) : Prog :=
  (step format).andThen <|
  (step .mount).andThen <|
  umountAfter <|
  (onlyIf (!skip) (unpackArchive o)).andThen <|
  onlyIf o.postHook (step (.hook .post))

/-- `img_to_nor_handler`, update_handler.c:1958-1986 -/
def imgToNor (o : Opts) : Prog :=
  (onlyIf o.preHook (step (.hook .pre))).andThen <|
  (step .flashcp).andThen <|
  onlyIf o.postHook (step (.hook .post))

/-- `img_to_nand_handler`, update_handler.c:1988-2023 -/
def imgToNand (o : Opts) : Prog :=
  (onlyIf o.preHook (step (.hook .pre))).andThen <|
  (step .flashErase).andThen <|
  (step .nandWrite).andThen <|
  onlyIf o.postHook (step (.hook .post))

/-- `img_to_fs_handler`, update_handler.c:2025-2059 -/
def imgToFs (o : Opts) : Prog :=
  (onlyIf o.preHook (mountAndRunHook .pre)).andThen <|
  (writeImageToDev o).andThen <|
  (onlyIf o.resize (step .resize2fs)).andThen <|
  onlyIf o.postHook (mountAndRunHook .post)

/-- `img_to_raw_handler`, update_handler.c:2597-2624 -/
def imgToRaw (o : Opts) : Prog :=
  (onlyIf o.preHook (step (.hook .pre))).andThen <|
  (writeImageToDev o).andThen <|
  onlyIf o.postHook (step (.hook .post))

/-- The handler functions; the `boot-*` handlers are not part of this model (`none`). -/
def handlerProg (o : Opts) : Handler → Option Prog
  | .imgToUbivol => some (imgToUbi o false)
  | .imgToUbifs => some (imgToUbi o true)
  | .archiveToUbifs => some ((onlyIf o.preHook (mountAndRunHook .pre)).andThen (archiveTo o (.mkfs .ubifs) false))
  | .archiveToJffs2 => some ((onlyIf o.preHook (mountAndRunHook .pre)).andThen (archiveTo o .flashErase false))
  | .archiveToExt4 => some ((onlyIf o.preHook (step (.hook .pre))).andThen (archiveTo o (.mkfs .ext4) o.emptyfs))
  | .archiveToVfat => some ((onlyIf o.preHook (step (.hook .pre))).andThen (archiveTo o (.mkfs .vfat) false))
  | .imgToNor => some (imgToNor o)
  | .imgToNand => some (imgToNand o)
  | .imgToFs => some (imgToFs o)
  | .imgToRaw => some (imgToRaw o)
  /- `hook_install_handler`, update_handler.c:2626-2636 -/
  | .hookInstall => some (step (.hook .install))
  | .bootEmmc | .bootMbrSwitch | .bootGptSwitch | .bootRawFallback => none

/-- The part of the slot and of the system configuration that the handlers consult beside the image:
`hookName` stands for `hook_name != NULL`, `dataDir` for `slot->data_directory != NULL`. -/
structure Target where
  slotType : Str
  resize : Bool := false
  dataDir : Bool := false
  hookName : Bool := true
  seed : Seed := .none
deriving DecidableEq, Repr

/-- `g_str_has_suffix` on the image's file name (no name has no suffix) -/
def nameHasSuffix (img : Image) (suf : Str) : Bool :=
  match img.filename with
  | none => false
  | some f => suf.isSuffixOf f

/-- the conditions evaluated by the handlers -/
def optsOf (img : Image) (t : Target) : Opts where
  preHook := t.hookName && img.hooks.preInstall
  postHook := t.hookName && img.hooks.postInstall
  caibx := nameHasSuffix img c!".caibx"
  archive :=
    if nameHasSuffix img c!".caidx" then .caidx
    else if nameHasSuffix img c!".catar" then .catar else .tar
  adaptive := img.adaptive.isSome && t.dataDir
  resize := t.resize && t.slotType == c!"ext4"
  emptyfs := img.typ == some c!"emptyfs"
  seed := t.seed

/-- Installing an image into a slot: the chosen handler runs (`get_update_handler`, install.c:517, and
the call of the handler, install.c:1203). `none`: no handler, or a `boot-*` handler. -/
def updateSlot (img : Image) (t : Target) (o : List Ev → Step → Bool) : Option (List Ev × Bool) :=
  ((Handlers.getUpdateHandler img t.slotType).bind (handlerProg (optsOf img t))).map (·.run o [])

/-- `r_slot_is_mountable`, slot.c:152-190 -/
def mountable (slotType : Str) : Bool :=
  slotType == c!"ext4" || slotType == c!"ubifs" || slotType == c!"vfat"

/-- the characters mkfs.vfat does not accept in labels, update_handler.c:1130 -/
def vfatInvalid : Str := c!"*?.,;:/\\|+=<>[]\""

/-- the loop body of `vfat_label_generator`, update_handler.c:1139-1150 -/
def vfatChar (c : Char) : Char :=
  let c := if 'a' ≤ c ∧ c ≤ 'z' then Char.ofNat (c.toNat - 32) else c
  if c ∈ vfatInvalid then '_' else c

/-- `vfat_label_generator`, update_handler.c:1127-1153. Characters stand for bytes. -/
def vfatLabel (name : Str) : Str := (if name.length > 11 then name.take 11 else name).map vfatChar

/-- `suffixes`, update_handler.c:1287-1307 -/
def tarSuffixes : List (Str × Option Str) := [
  (c!".tar", none), (c!".gz", some c!"-z"), (c!".tgz", some c!"-z"), (c!".taz", some c!"-z"),
  (c!".Z", some c!"-Z"), (c!".taZ", some c!"-Z"), (c!".bz2", some c!"-j"), (c!".tbz", some c!"-j"),
  (c!".tbz2", some c!"-j"), (c!".tz2", some c!"-j"), (c!".lz", some c!"--lzip"), (c!".lzma", some c!"--lzma"),
  (c!".tlz", some c!"--lzma"), (c!".lzo", some c!"--lzop"), (c!".xz", some c!"-J"), (c!".txz", some c!"-J"),
  (c!".zst", some c!"--zstd"), (c!".tzst", some c!"--zstd")]

/-- `suffix_to_tar_flag`, update_handler.c:1309-1319 -/
def tarFlag (filename : Str) : Option Str :=
  match tarSuffixes.find? (fun e => e.1.isSuffixOf filename) with
  | none => none
  | some e => e.2

end Rauc.Update
