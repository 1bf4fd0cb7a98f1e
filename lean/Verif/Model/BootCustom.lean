import Verif.Model.Slot

/-!
# Custom and "noop" boot loader backends: src/bootloaders/custom.c, src/bootchooser.c:76-234

The custom backend is a user-supplied program. It is modelled as an arbitrary state machine: a call with an
argument vector changes its state and either fails (cannot be started, killed, exit status not 0) or
succeeds with some standard output.
-/

namespace Rauc.BootCustom

structure Script where
  Mem : Type
  call : Mem → List Str → Mem × Option Str

/-- the requests of bootchooser.c -/
inductive Op where
  | getState (s : Slot)
  | setState (s : Slot) (good : Bool)
  | getPrimary
  | setPrimary (s : Slot)
deriving DecidableEq, Repr

inductive Res where
  | error
  | done
  | state (good : Bool)
  | primary (s : Slot)
deriving DecidableEq, Repr

/-- what a request did: memory of the backend afterwards, argument vectors of the calls made, result -/
structure Out (sc : Script) where
  mem : sc.Mem
  calls : List (List Str)
  res : Res

/-- `g_strstrip` -/
def strip (s : Str) : Str := chug (chomp s)

/-- `custom_backend_get`, custom.c:16-72 -/
def backendGet (sc : Script) (m : sc.Mem) (argv : List Str) : sc.Mem × Option Str :=
  match sc.call m argv with
  | (m', some out) => (m', some (strip out))
  | (m', none) => (m', none)

/-- `custom_backend_set`, custom.c:84-115; g_return_val_if_fail (bootname) -/
def backendSet (sc : Script) (m : sc.Mem) (cmd : Str) (bootname : Option Str) (arg : Option Str) : Out sc :=
  match bootname with
  | none => ⟨m, [], .error⟩
  | some bn =>
    let argv := cmd :: bn :: arg.toList
    match sc.call m argv with
    | (m', some _) => ⟨m', [argv], .done⟩
    | (m', none) => ⟨m', [argv], .error⟩

/-- `r_custom_get_state` :231-260, `r_custom_set_state` :183-189, `r_custom_get_primary` :192-228,
`r_custom_set_primary` :263-269 -/
def custom (sc : Script) (slots : List Slot) (m : sc.Mem) : Op → Out sc
  | .getState s =>
    let argv := c!"get-state" :: s.bootname.toList
    match backendGet sc m argv with
    | (m', none) => ⟨m', [argv], .error⟩
    | (m', some r) =>
      if r = c!"good" then ⟨m', [argv], .state true⟩
      else if r = c!"bad" then ⟨m', [argv], .state false⟩
      else ⟨m', [argv], .error⟩
  | .setState s good => backendSet sc m (c!"set-state") s.bootname (some (if good then c!"good" else c!"bad"))
  | .getPrimary =>
    match backendGet sc m [c!"get-primary"] with
    | (m', none) => ⟨m', [[c!"get-primary"]], .error⟩
    | (m', some r) =>
      match slots.find? (fun s => s.bootname == some r) with
      | some s => ⟨m', [[c!"get-primary"]], .primary s⟩
      | none => ⟨m', [[c!"get-primary"]], .error⟩
  | .setPrimary s => backendSet sc m (c!"set-primary") s.bootname none

/-- the dispatch of bootchooser.c:76-234 for the loaders other than barebox, grub, uboot, efi (Model/Boot.lean);
`none` is a configuration without `bootloader=` -/
def dispatch (sc : Script) (loader : Option Str) (slots : List Slot) (m : sc.Mem) (op : Op) : Out sc :=
  if loader = some (c!"custom") then custom sc slots m op
  else if loader = some (c!"noop") then
    match op with
    | .setState _ _ => ⟨m, [], .done⟩
    | .setPrimary _ => ⟨m, [], .done⟩
    | _ => ⟨m, [], .error⟩
  else ⟨m, [], .error⟩

end Rauc.BootCustom
