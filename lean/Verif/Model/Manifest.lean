import Verif.Model.Image

/-!
# Manifests
-/

namespace Rauc

/-- `RManifestBundleFormat`, include/manifest.h:45-49 -/
inductive Format where
  | plain | verity | crypt
deriving DecidableEq, Repr

/-- `RaucManifest`, include/manifest.h:51-84 (the meta table as a list of groups with key/value pairs; `warnings` is not
modelled) -/
structure Manifest where
  compatible : Str
  version : Option Str := none
  description : Option Str := none
  build : Option Str := none
  minRaucVersion : Option Str := none
  format : Format := .plain
  veritySalt : Option Str := none
  verityHash : Option Str := none
  veritySize : Nat := 0
  formatExplicit : Bool := false
  cryptKey : Option Str := none
  handlerName : Option Str := none
  handlerArgs : Option Str := none
  hookName : Option Str := none
  installCheck : Bool := false
  images : List Image := []
  metas : List (Str × List (Str × Str)) := []
  wasEncrypted : Bool := false
  hash : Option Str := none
deriving DecidableEq, Repr

end Rauc
