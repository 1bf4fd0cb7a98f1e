import Verif.Model.Boot
import Verif.Model.Status

/-!
# `rauc status mark-*`: src/mark.c

The boot loader is an oracle: `ok : Nat → Bool` gives the outcome of the n-th backend request of a run.
-/

namespace Rauc.Mark

open Rauc.Boot (Req)

/-- `get_slots_by_identifier`, mark.c:9-87. `booted` is the slot in state ST_BOOTED found in the table
(mark.c:18-23); `none` is an error. -/
def resolve (slots : List Slot) (booted : Option Slot) (ident : Str) : Option (List Slot) :=
  if ident = c!"booted" then
    match booted with
    | some b => some [b]
    | none => none
  else if ident = c!"other" then
    match booted with
    | some b =>
      let l := slots.filter (fun s => s.sclass == b.sclass && s.parent.isNone && s.bootname.isSome && !(s == b))
      if l.isEmpty then none else some l
    | none => none
  else if (split '.' ident).length = 2 then
    match slots.find? (fun s => s.name == ident) with
    | none => none
    | some s => if s.bootname.isNone then none else some [s]
  else none

/-- a backend request with its outcome -/
abbrev Call := Req × Bool

/-- result of a run: the backend requests issued, in order, and the marked slots or an error -/
abbrev Res := List Call × Option (List Slot)

/-- the loop for `bad`, mark.c:245-251: stops at the first failure; `i` requests were issued before -/
def markBads (ok : Nat → Bool) : Nat → List Slot → List Call × Bool
  | _, [] => ([], true)
  | i, s :: ss =>
    if ok i then
      let r := markBads ok (i + 1) ss
      ((.setState s false, true) :: r.1, r.2)
    else ([(.setState s false, false)], false)

/-- `mark_run("bad", "other")` as called for late fallback prevention, mark.c:239 -/
def markOtherBad (ok : Nat → Bool) (i : Nat) (slots : List Slot) (booted : Option Slot) : List Call × Bool :=
  match resolve slots booted (c!"other") with
  | none => ([], false)
  | some l => markBads ok i l

/-- `mark_run`, mark.c:204-283. `plf` is `prevent-late-fallback`. -/
def markRun (ok : Nat → Bool) (slots : List Slot) (booted : Option Slot) (plf : Bool) (state ident : Str) : Res :=
  match resolve slots booted ident with
  | none => ([], none)
  | some l =>
    if state = c!"good" then
      match l with
      | [s] =>
        if ok 0 then
          if plf ∧ ident = c!"booted" then
            let r := markOtherBad ok 1 slots booted
            ((.setState s true, true) :: r.1, if r.2 then some [s] else none)
          else ([(.setState s true, true)], some [s])
        else ([(.setState s true, false)], none)
      | _ => ([], none)
    else if state = c!"bad" then
      let r := markBads ok 0 l
      (r.1, if r.2 then some l else none)
    else if state = c!"active" then
      match l with
      | [s] => if ok 0 then ([(.setPrimary s, true)], some [s]) else ([(.setPrimary s, false)], none)
      | _ => ([], none)
    else ([], none)

/-- memory and disk state of one slot's status -/
structure StatusSt where
  mem : SlotStatus
  disk : SlotStatus
deriving DecidableEq, Repr

/-- `r_mark_active`, mark.c:133-164: outcome of the boot loader request, of saving the status, current time.
Result: success, new state. The counter is a guint32. -/
def markActive (primaryOk saveOk : Bool) (now : DateTime) (st : StatusSt) : Bool × StatusSt :=
  if primaryOk then
    let m := { st.mem with activatedTimestamp := some now, activatedCount := (st.mem.activatedCount + 1) % 2 ^ 32 }
    (true, { mem := m, disk := if saveOk then m else st.disk })
  else (false, st)

end Rauc.Mark
