import Verif.Model.Image

/-!
# Choice of the update handler: src/update_handler.c:2638-2802

Built with `ENABLE_EMMC_BOOT_SUPPORT == 1` and `ENABLE_GPT == 1` (the meson defaults).
-/

namespace Rauc.Handlers

/-- the handler functions of update_handler.c -/
inductive Handler where
  | imgToFs | imgToRaw | imgToUbivol | imgToUbifs | imgToNor | imgToNand
  | archiveToExt4 | archiveToUbifs | archiveToVfat | archiveToJffs2
  | bootEmmc | bootMbrSwitch | bootGptSwitch | bootRawFallback
  | hookInstall
deriving DecidableEq, Repr

/-- `image_type_map`, update_handler.c:2645-2707 -/
def imageTypeMap : List (Str × Str × Handler) := [
  (c!"ext4-caibx", c!"ext4", .imgToFs),
  (c!"raw-caibx", c!"ext4", .imgToRaw),
  (c!"ext4-caibx", c!"raw", .imgToRaw),
  (c!"vfat-caibx", c!"raw", .imgToRaw),
  (c!"raw-caibx", c!"raw", .imgToRaw),
  (c!"raw-caibx", c!"vfat", .imgToRaw),
  (c!"raw-caibx", c!"jffs2", .imgToRaw),
  (c!"raw-caibx", c!"nor", .imgToRaw),
  (c!"raw-caibx", c!"nand", .imgToRaw),
  (c!"squashfs-caibx", c!"raw", .imgToRaw),
  (c!"squashfs-caibx", c!"ubivol", .imgToUbivol),
  (c!"ubifs-caibx", c!"ubivol", .imgToUbivol),
  (c!"raw-caibx", c!"ubivol", .imgToUbivol),
  (c!"ubifs-caibx", c!"ubifs", .imgToUbifs),
  (c!"raw-caibx", c!"ubifs", .imgToUbifs),
  (c!"caidx", c!"ext4", .archiveToExt4),
  (c!"caidx", c!"ubifs", .archiveToUbifs),
  (c!"caidx", c!"vfat", .archiveToVfat),
  (c!"catar", c!"ext4", .archiveToExt4),
  (c!"ext4", c!"ext4", .imgToFs),
  (c!"ext4", c!"raw", .imgToRaw),
  (c!"vfat", c!"vfat", .imgToFs),
  (c!"vfat", c!"raw", .imgToRaw),
  (c!"squashfs", c!"ubivol", .imgToUbivol),
  (c!"squashfs", c!"raw", .imgToRaw),
  (c!"ubifs", c!"ubivol", .imgToUbivol),
  (c!"ubifs", c!"ubifs", .imgToUbifs),
  (c!"raw", c!"ext4", .imgToFs),
  (c!"raw", c!"nor", .imgToNor),
  (c!"raw", c!"nand", .imgToNand),
  (c!"raw", c!"ubifs", .imgToUbifs),
  (c!"raw", c!"ubivol", .imgToUbivol),
  (c!"raw", c!"vfat", .imgToFs),
  (c!"raw", c!"raw", .imgToRaw),
  (c!"raw", c!"jffs2", .imgToRaw),
  (c!"tar", c!"ext4", .archiveToExt4),
  (c!"tar", c!"ubifs", .archiveToUbifs),
  (c!"tar", c!"vfat", .archiveToVfat),
  (c!"tar", c!"jffs2", .archiveToJffs2),
  (c!"raw", c!"boot-emmc", .bootEmmc),
  (c!"vfat", c!"boot-mbr-switch", .bootMbrSwitch),
  (c!"raw", c!"boot-mbr-switch", .bootMbrSwitch),
  (c!"vfat", c!"boot-gpt-switch", .bootGptSwitch),
  (c!"ext4", c!"boot-gpt-switch", .bootGptSwitch),
  (c!"raw", c!"boot-gpt-switch", .bootGptSwitch),
  (c!"raw", c!"boot-raw-fallback", .bootRawFallback),
  (c!"emptyfs", c!"ext4", .archiveToExt4)]

/-- `f` holds of some tail of the string -/
def anyTail (f : Str → Bool) : Str → Bool
  | [] => f []
  | c :: s => f (c :: s) || anyTail f s

/-- `g_pattern_match_simple` for patterns of literal characters and `*` (GLib, not RAUC; the patterns
below contain no `?`) -/
def globMatch : Str → Str → Bool
  | [], s => s.isEmpty
  | '*' :: p, s => anyTail (globMatch p) s
  | c :: p, d :: s => c == d && globMatch p s
  | _ :: _, [] => false

/-- `ext_type_map`, update_handler.c:2719-2736 -/
def extTypeMap : List (Str × Str) := [
  (c!"*.ext4.caibx", c!"ext4-caibx"),
  (c!"*.vfat.caibx", c!"vfat-caibx"),
  (c!"*.ubifs.caibx", c!"ubifs-caibx"),
  (c!"*.img.caibx", c!"raw-caibx"),
  (c!"*.squashfs.caibx", c!"squashfs-caibx"),
  (c!"*.squashfs-*.caibx", c!"squashfs-caibx"),
  (c!"*.catar", c!"catar"),
  (c!"*.caidx", c!"caidx"),
  (c!"*.tar*", c!"tar"),
  (c!"*.tgz", c!"tar"),
  (c!"*.ext4", c!"ext4"),
  (c!"*.vfat", c!"vfat"),
  (c!"*.img", c!"raw"),
  (c!"*.squashfs-*", c!"squashfs"),
  (c!"*.squashfs", c!"squashfs"),
  (c!"*.ubifs", c!"ubifs")]

/-- `derive_image_type_from_filename_pattern`, update_handler.c:2738-2749 -/
def deriveType (filename : Str) : Option Str :=
  (extTypeMap.find? (fun e => globMatch e.1 filename)).map (·.2)

/-- `get_handler_from_type`, update_handler.c:2751-2764 (the first matching table row; a NULL image
type gives NULL) -/
def handlerFromType (imageType : Option Str) (slotType : Str) : Option Handler :=
  match imageType with
  | none => none
  | some t => (imageTypeMap.find? (fun e => e.1 == t && e.2.1 == slotType)).map (·.2.2)

/-- `is_image_type_supported`, update_handler.c:2766-2777 -/
def typeSupported (t : Str) : Bool := imageTypeMap.any (fun e => e.1 == t)

/-- `get_update_handler`, update_handler.c:2779-2800 -/
def getUpdateHandler (img : Image) (slotType : Str) : Option Handler :=
  if img.hooks.install then some .hookInstall else handlerFromType img.typ slotType

end Rauc.Handlers
