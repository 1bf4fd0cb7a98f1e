import Verif.Lib.Str

/-!
# Slots
-/

namespace Rauc

/-- The configuration part of a slot: `RaucSlot`, include/slot.h:37-82 (the fields used by the models;
the runtime fields `state`, `status`, `mount_point`, ... are separate arguments of the models).
`parent` is the name of the parent slot (a pointer in the code); slot names are the keys of
the slot hash table, hence unique. Pointer equality of slots is equality here. -/
structure Slot where
  name : Str
  sclass : Str
  device : Str := []
  typ : Str := c!"raw"
  bootname : Option Str := none
  parent : Option Str := none
  readonly : Bool := false
  installSame : Bool := true
  efiLoader : Option Str := none
  efiCmdline : Option Str := none
  regionStart : Nat := 0
  regionSize : Nat := 0
  sizeLimit : Nat := 0
deriving DecidableEq, Repr

/-- What loading a configuration guarantees about the slot table as far as boot names are concerned:
names are hash table keys (src/config_file.c:920-1110), boot names contain no white space and are not
empty (src/config_file.c:1009-1019, empty values are dropped), boot names are unique
(`check_duplicate_bootnames`). The order of the list is the (arbitrary) iteration order of the hash table. -/
structure SlotsWF (slots : List Slot) : Prop where
  nodup : slots.Nodup
  name_inj : ∀ s ∈ slots, ∀ t ∈ slots, s.name = t.name → s = t
  bootname_inj : ∀ s ∈ slots, ∀ t ∈ slots, ∀ b, s.bootname = some b → t.bootname = some b → s = t
  bootname_ok : ∀ s ∈ slots, ∀ b, s.bootname = some b → b ≠ [] ∧ ∀ c ∈ b, isSpace c = false

end Rauc
