import Verif.Lib.Str

/-!
# Images of a manifest
-/

namespace Rauc

/-- `SlotHooks`, include/manifest.h:24-28 -/
structure SlotHooks where
  preInstall : Bool := false
  install : Bool := false
  postInstall : Bool := false
deriving DecidableEq, Repr

/-- `RaucImage`, include/manifest.h:30-43, with `RaucChecksum`, include/checksum.h:14-19.
`sha256` stands for `checksum.type == G_CHECKSUM_SHA256` (the only type the parser ever sets);
`size` is a goffset, -1 if the manifest gives no size. -/
structure Image where
  slotclass : Str
  artifact : Option Str := none
  variant : Option Str := none
  sha256 : Bool := false
  digest : Option Str := none
  size : Int := -1
  filename : Option Str := none
  typ : Option Str := none
  typeFromExt : Bool := false
  hooks : SlotHooks := {}
  adaptive : Option (List Str) := none
  convert : Option (List Str) := none
  converted : Option (List Str) := none
deriving DecidableEq, Repr

end Rauc
