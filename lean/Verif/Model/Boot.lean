import Verif.Model.Slot

/-!
# Boot loader backends

src/bootchooser.c and src/bootloaders/{barebox,uboot,grub,efi}.c.

Every backend is a `Backend`: an environment type, atomic transactions (one call of the boot loader's
tool that modifies the environment), queries, and set operations. A set operation yields the
list of transactions it issues, in order, or `none` if it reports an error before the first one.
A transaction that fails stops the operation with an error, so both a failing tool and a
power loss leave the environment as after a prefix of that list; success means that the whole list was applied.

`rd : Str → Bool` says which variables can be read during an operation (the tools may
fail transiently); a variable which is absent is never readable.
-/

namespace Rauc.Boot

structure Backend where
  Env : Type
  Txn : Type
  /-- effect of one successful call of the boot loader tool -/
  app : Env → Txn → Env
  /-- `r_boot_get_state`, src/bootchooser.c:76-115; `none` is an error -/
  getState : (Str → Bool) → Env → Slot → Option Bool
  /-- `r_boot_get_primary`, src/bootchooser.c:159-193; `none` is an error or "no primary found" (also an error) -/
  getPrimary : (Str → Bool) → List Slot → Env → Option Slot
  /-- `r_boot_set_state`, src/bootchooser.c:118-156 -/
  setState : (Str → Bool) → List Slot → Env → Slot → Bool → Option (List Txn)
  /-- `r_boot_set_primary`, src/bootchooser.c:196-234 -/
  setPrimary : (Str → Bool) → List Slot → Env → Slot → Option (List Txn)

/-- boot related configuration: `boot-attempts`, `boot-attempts-primary`, `efi-use-bootnext` -/
structure Cfg where
  bootDefaultAttempts : Int := 0
  bootAttemptsPrimary : Int := 0
  efiUseBootnext : Bool := true

/-- `attempts <= 0 ? 3 : attempts`, barebox.c:198-200 and :319-321, uboot.c:208-210 and :322-324 -/
def attemptsOr3 (a : Int) : Nat := if a ≤ 0 then 3 else a.toNat

/-! ## key/value environments (U-Boot, GRUB) -/

abbrev KvEnv := Str → Option Str

def kvSet (env : KvEnv) (k : Str) (v : Option Str) : KvEnv := fun k' => if k' = k then v else env k'

/-- `uboot_env_get` (uboot.c:11-81) / `grub_env_get` (grub.c:11-92): the value with trailing white space removed.
The textual output of the tool and its `KEY=` prefix are in `Model/BootText`. -/
def kvGet (rd : Str → Bool) (env : KvEnv) (k : Str) : Option Str :=
  if rd k then (env k).map chomp else none

/-- `r_bootchooser_order_primary`, bootchooser.c:22-45: the slot's boot name, then all other boot names.
(As a list of names; the code joins them with blanks.) -/
def orderPrimaryNames (slots : List Slot) (s : Slot) (bn : Str) : List Str :=
  bn :: slots.filterMap (fun t => if t = s then none else t.bootname)

/-! ## U-Boot -/

def kOrder : Str := c!"BOOT_ORDER"
def kLeft (bn : Str) : Str := c!"BOOT_" ++ bn ++ c!"_LEFT"

/-- `fw_setenv KEY VALUE` (uboot.c:83-111); `fw_setenv` deletes a variable set to the empty string -/
def ubootApp (env : KvEnv) (w : Str × Str) : KvEnv :=
  kvSet env w.1 (if w.2 = [] then none else some w.2)

/-- tokens of the order variable without the slot's name and without empty strings,
uboot.c:182-193 and :306-318 -/
def orderWithout (bn order : Str) : List Str :=
  (split ' ' order).filter (fun t => !(t == bn) && !(t == []))

/-- `r_uboot_get_state`, uboot.c:115-155 -/
def ubootGetState (rd : Str → Bool) (env : KvEnv) (s : Slot) : Option Bool :=
  match s.bootname with
  | none => none
  | some bn =>
    match kvGet rd env kOrder with
    | none => none
    | some order =>
      if (split ' ' order).contains bn then
        match kvGet rd env (kLeft bn) with
        | none => none
        | some a => some (decide (strtoull 16 a > 0))
      else some false

/-- inner loop of `r_uboot_get_primary` (uboot.c:245-264) for one token: `none` = error,
`some none` = no (bootable) slot for this token -/
def ubootTry (rd : Str → Bool) (env : KvEnv) (tok : Str) : List Slot → Option (Option Slot)
  | [] => some none
  | s :: ss =>
    if s.bootname = some tok then
      match kvGet rd env (kLeft tok) with
      | none => none
      | some a => if strtoull 16 a = 0 then ubootTry rd env tok ss else some (some s)
    else ubootTry rd env tok ss

/-- outer loop of `r_uboot_get_primary`, uboot.c:242-268 -/
def ubootScan (rd : Str → Bool) (env : KvEnv) (slots : List Slot) : List Str → Option Slot
  | [] => none
  | tok :: toks =>
    match ubootTry rd env tok slots with
    | none => none
    | some (some s) => some s
    | some none => ubootScan rd env slots toks

/-- `r_uboot_get_primary`, uboot.c:224-279 -/
def ubootGetPrimary (rd : Str → Bool) (slots : List Slot) (env : KvEnv) : Option Slot :=
  match kvGet rd env kOrder with
  | none => none
  | some order => ubootScan rd env slots (split ' ' order)

/-- `r_uboot_set_state`, uboot.c:158-221 -/
def ubootSetState (cfg : Cfg) (rd : Str → Bool) (env : KvEnv) (s : Slot) (good : Bool) : Option (List (Str × Str)) :=
  match s.bootname with
  | none => none
  | some bn =>
    if good then some [(kLeft bn, toHex (attemptsOr3 cfg.bootDefaultAttempts))]
    else
      match kvGet rd env kOrder with
      | none => some [(kLeft bn, toHex 0)]
      | some order => some [(kOrder, join ' ' (orderWithout bn order)), (kLeft bn, toHex 0)]

/-- `r_uboot_set_primary`, uboot.c:282-338 -/
def ubootSetPrimary (cfg : Cfg) (rd : Str → Bool) (slots : List Slot) (env : KvEnv) (s : Slot) :
    Option (List (Str × Str)) :=
  match s.bootname with
  | none => none
  | some bn =>
    let cur := match kvGet rd env kOrder with
      | none => join ' ' (orderPrimaryNames slots s bn)
      | some order => order
    some [(kLeft bn, toHex (attemptsOr3 cfg.bootAttemptsPrimary)),
          (kOrder, join ' ' (bn :: orderWithout bn cur))]

abbrev uboot (cfg : Cfg) : Backend where
  Env := KvEnv
  Txn := Str × Str
  app := ubootApp
  getState := ubootGetState
  getPrimary := ubootGetPrimary
  setState := fun rd _ env s g => ubootSetState cfg rd env s g
  setPrimary := ubootSetPrimary cfg

/-! ## GRUB -/

def gOrder : Str := c!"ORDER"
def gOk (bn : Str) : Str := bn ++ c!"_OK"
def gTry (bn : Str) : Str := bn ++ c!"_TRY"

/-- one `grub-editenv FILE set K=V ...` call, grub.c:94-135 (atomic: the file is replaced as a whole) -/
def grubApp (env : KvEnv) (ws : List (Str × Str)) : KvEnv :=
  ws.foldl (fun e w => kvSet e w.1 (some w.2)) env

/-- `r_grub_get_state`, grub.c:139-187 -/
def grubGetState (rd : Str → Bool) (env : KvEnv) (s : Slot) : Option Bool :=
  match s.bootname with
  | none => none
  | some bn =>
    match kvGet rd env gOrder with
    | none => none
    | some order =>
      if (split ' ' order).contains bn then
        match kvGet rd env (gOk bn), kvGet rd env (gTry bn) with
        | some o, some t => some (strtoull 0 o == 1 && strtoull 0 t == 0)
        | _, _ => none
      else some false

/-- inner loop of `r_grub_get_primary`, grub.c:245-274 -/
def grubTry (rd : Str → Bool) (env : KvEnv) (tok : Str) : List Slot → Option (Option Slot)
  | [] => some none
  | s :: ss =>
    if s.bootname = some tok then
      match kvGet rd env (gOk tok), kvGet rd env (gTry tok) with
      | some o, some t =>
        if strtoull 0 o ≠ 1 ∨ strtoull 0 t > 0 then grubTry rd env tok ss else some (some s)
      | _, _ => none
    else grubTry rd env tok ss

def grubScan (rd : Str → Bool) (env : KvEnv) (slots : List Slot) : List Str → Option Slot
  | [] => none
  | tok :: toks =>
    match grubTry rd env tok slots with
    | none => none
    | some (some s) => some s
    | some none => grubScan rd env slots toks

/-- `r_grub_get_primary`, grub.c:216-290 (an empty ORDER gives an error either way) -/
def grubGetPrimary (rd : Str → Bool) (slots : List Slot) (env : KvEnv) : Option Slot :=
  match kvGet rd env gOrder with
  | none => none
  | some order => grubScan rd env slots (split ' ' order)

/-- `r_grub_set_state`, grub.c:190-213 -/
def grubSetState (s : Slot) (good : Bool) : Option (List (List (Str × Str))) :=
  match s.bootname with
  | none => none
  | some bn =>
    if good then some [[(gOk bn, c!"1"), (gTry bn, c!"0")]]
    else some [[(gOk bn, c!"0"), (gTry bn, c!"0")]]

/-- `r_grub_set_primary`, grub.c:293-314 -/
def grubSetPrimary (slots : List Slot) (s : Slot) : Option (List (List (Str × Str))) :=
  match s.bootname with
  | none => none
  | some bn =>
    some [[(gOk bn, c!"1"), (gTry bn, c!"0"), (gOrder, join ' ' (orderPrimaryNames slots s bn))]]

abbrev grub : Backend where
  Env := KvEnv
  Txn := List (Str × Str)
  app := grubApp
  getState := grubGetState
  getPrimary := grubGetPrimary
  setState := fun _ _ _ s g => grubSetState s g
  setPrimary := fun _ slots _ s => grubSetPrimary slots s

/-! ## barebox -/

/-- barebox-state variables of one boot target: the two printed numbers (u64), `none` when they do
not exist or do not parse (barebox.c:94-132) -/
abbrev BbEnv := Str → Option (Nat × Nat)

inductive BbVar | prio | attempts
deriving DecidableEq, Repr

/-- one `-s bootstate.NAME.VAR=VALUE` argument -/
structure BbSet where
  bn : Str
  var : BbVar
  val : Nat
deriving DecidableEq, Repr

def bbSet1 (env : BbEnv) (w : BbSet) : BbEnv := fun b =>
  if b = w.bn then
    match env b with
    | none => none
    | some (p, a) => match w.var with
      | .prio => some (w.val, a)
      | .attempts => some (p, w.val)
  else env b

/-- one `barebox-state -s ... -s ...` call (atomic), barebox.c:141-185. Variables are declared in the device tree;
the call cannot create variables. -/
def bbApp (env : BbEnv) (ws : List BbSet) : BbEnv := ws.foldl bbSet1 env

/-- `barebox_state_get`, barebox.c:31-138: the u64 values are truncated to u32 (:134-135) -/
def bbGet (rd : Str → Bool) (env : BbEnv) (bn : Str) : Option (Nat × Nat) :=
  if rd bn then (env bn).map (fun pa => (pa.1 % 2 ^ 32, pa.2 % 2 ^ 32)) else none

/-- `r_barebox_get_state`, barebox.c:263-279 -/
def bbGetState (rd : Str → Bool) (env : BbEnv) (s : Slot) : Option Bool :=
  match s.bootname with
  | none => none
  | some bn =>
    match bbGet rd env bn with
    | none => none
    | some (p, a) => some (decide (p > 0) && decide (a > 0))

/-- loop of `r_barebox_get_primary`, barebox.c:229-248: `none` = error -/
def bbScan (rd : Str → Bool) (env : BbEnv) : List Slot → Nat → Option Slot → Option (Option Slot)
  | [], _, best => some best
  | s :: ss, top, best =>
    match s.bootname with
    | none => bbScan rd env ss top best
    | some bn =>
      match bbGet rd env bn with
      | none => none
      | some (p, a) =>
        if a = 0 then bbScan rd env ss top best
        else if p > top then bbScan rd env ss p (some s)
        else bbScan rd env ss top best

/-- `r_barebox_get_primary`, barebox.c:220-259 -/
def bbGetPrimary (rd : Str → Bool) (slots : List Slot) (env : BbEnv) : Option Slot :=
  match bbScan rd env slots 0 none with
  | none => none
  | some r => r

/-- `r_barebox_set_state`, barebox.c:188-217 -/
def bbSetState (cfg : Cfg) (s : Slot) (good : Bool) : Option (List (List BbSet)) :=
  match s.bootname with
  | none => none
  | some bn =>
    if good then some [[⟨bn, .attempts, attemptsOr3 cfg.bootDefaultAttempts⟩]]
    else some [[⟨bn, .prio, 0⟩, ⟨bn, .attempts, 0⟩]]

/-- loop of `r_barebox_set_primary`, barebox.c:294-317: the new priorities -/
def bbPrios (rd : Str → Bool) (env : BbEnv) (s : Slot) : List Slot → Option (List BbSet)
  | [] => some []
  | t :: ts =>
    match t.bootname with
    | none => bbPrios rd env s ts
    | some b =>
      match bbGet rd env b with
      | none => none
      | some (p, _) =>
        match bbPrios rd env s ts with
        | none => none
        | some r => some (⟨b, .prio, if t = s then 20 else if p = 0 then 0 else 10⟩ :: r)

/-- `r_barebox_set_primary`, barebox.c:282-332 -/
def bbSetPrimary (cfg : Cfg) (rd : Str → Bool) (slots : List Slot) (env : BbEnv) (s : Slot) :
    Option (List (List BbSet)) :=
  match s.bootname with
  | none => none
  | some bn =>
    match bbPrios rd env s slots with
    | none => none
    | some ps => some [ps ++ [⟨bn, .attempts, attemptsOr3 cfg.bootAttemptsPrimary⟩]]

abbrev barebox (cfg : Cfg) : Backend where
  Env := BbEnv
  Txn := List BbSet
  app := bbApp
  getState := bbGetState
  getPrimary := bbGetPrimary
  setState := fun _ _ _ s g => bbSetState cfg s g
  setPrimary := bbSetPrimary cfg

/-! ## EFI -/

structure EfiEntry where
  num : Str
  name : Str
deriving DecidableEq, Repr

/-- EFI variables as printed by `efibootmgr`: boot entries, `BootOrder`, `BootNext` -/
structure EfiEnv where
  entries : List EfiEntry
  order : List Str
  next : Option Str := none
deriving DecidableEq, Repr

inductive EfiTxn
  | create (e : EfiEntry)      -- `efibootmgr --create-only --label ...`, efi.c:26-89
  | setOrder (o : List Str)    -- `efibootmgr --bootorder`, efi.c:91-123
  | setNext (n : Str)          -- `efibootmgr --bootnext`, efi.c:125-157
deriving DecidableEq, Repr

def efiApp (env : EfiEnv) : EfiTxn → EfiEnv
  | .create e => { env with entries := env.entries ++ [e] }
  | .setOrder o => { env with order := o }
  | .setNext n => { env with next := some n }

def efiTool : Str := c!"efibootmgr"

/-- `get_efi_entry_by_bootnum`, efi.c:159-174 -/
def efiByNum (entries : List EfiEntry) (n : Str) : Option EfiEntry :=
  entries.find? (fun e => e.num == n)

/-- `efi_bootorder_get`, efi.c:190-332: entries listed in BootOrder (unknown numbers are dropped), all entries,
BootNext entry. Fails if the tool fails, if there is no entry at all or if BootOrder is missing/empty. -/
def efiGet (rd : Str → Bool) (env : EfiEnv) : Option (List EfiEntry × List EfiEntry × Option EfiEntry) :=
  if rd efiTool && !env.entries.isEmpty && !env.order.isEmpty then
    some (env.order.filterMap (efiByNum env.entries), env.entries, env.next.bind (efiByNum env.entries))
  else none

/-- first entry with the slot's boot name, efi.c:360-367, :416-422, :463-469 -/
def efiByName (entries : List EfiEntry) (bn : Str) : Option EfiEntry :=
  entries.find? (fun e => e.name == bn)

/-- `efi_bootorder_prepare`, efi.c:345-399: creates a missing entry (if loader and command line are configured) and
reads the tables again. `fresh` is the number efibootmgr chooses for a new entry. Result: the transactions
issued and the tables, `none` on error. -/
def efiPrepare (fresh : EfiEnv → Str) (rd : Str → Bool) (env : EfiEnv) (s : Slot) (bn : Str) :
    Option (List EfiTxn × List EfiEntry × List EfiEntry) :=
  match efiGet rd env with
  | none => none
  | some (bo, all, _) =>
    match efiByName all bn with
    | some _ => some ([], bo, all)
    | none =>
      if s.efiLoader.isNone || s.efiCmdline.isNone then none
      else
        let t := EfiTxn.create ⟨fresh env, bn⟩
        match efiGet rd (efiApp env t) with
        | none => none
        | some (bo, all, _) => some ([t], bo, all)

/-- `efi_modify_persistent_bootorder`, efi.c:437-493: removes the first entry with the slot's name from the
boot order (`g_list_remove` removes the first list element equal to it), optionally prepends the slot's entry -/
def efiModify (fresh : EfiEnv → Str) (rd : Str → Bool) (env : EfiEnv) (s : Slot) (prepend : Bool) :
    Option (List EfiTxn) :=
  match s.bootname with
  | none => none
  | some bn =>
    match efiPrepare fresh rd env s bn with
    | none => none
    | some (ts, bo, all) =>
      let removed := bo.eraseP (fun e => e.name == bn)
      let l := if prepend then
          (match efiByName all bn with | some e => e :: removed | none => removed)
        else removed
      some (ts ++ [.setOrder (l.map EfiEntry.num)])

/-- `efi_set_temp_primary`, efi.c:401-433 -/
def efiTemp (fresh : EfiEnv → Str) (rd : Str → Bool) (env : EfiEnv) (s : Slot) : Option (List EfiTxn) :=
  match s.bootname with
  | none => none
  | some bn =>
    match efiPrepare fresh rd env s bn with
    | none => none
    | some (ts, _, all) =>
      match efiByName all bn with
      | none => none -- g_assert, excluded by efi_bootorder_prepare
      | some e => some (ts ++ [.setNext e.num])

/-- `r_efi_get_state`, efi.c:587-615 -/
def efiGetState (rd : Str → Bool) (env : EfiEnv) (s : Slot) : Option Bool :=
  match s.bootname with
  | none => none
  | some bn =>
    match efiGet rd env with
    | none => none
    | some (bo, _, _) => some (bo.any (fun e => e.name == bn))

/-- loop of `r_efi_get_primary`, efi.c:531-547 -/
def efiScan (slots : List Slot) : List EfiEntry → Option Slot
  | [] => none
  | e :: es =>
    match slots.find? (fun s => s.bootname == some e.name) with
    | some s => some s
    | none => efiScan slots es

/-- `r_efi_get_primary`, efi.c:510-559 -/
def efiGetPrimary (rd : Str → Bool) (slots : List Slot) (env : EfiEnv) : Option Slot :=
  match efiGet rd env with
  | none => none
  | some (bo, _, nx) => efiScan slots (match nx with | some e => e :: bo | none => bo)

/-- `r_efi_set_primary`, efi.c:561-583 and `r_efi_set_state`, efi.c:495-508 -/
abbrev efi (cfg : Cfg) (fresh : EfiEnv → Str) : Backend where
  Env := EfiEnv
  Txn := EfiTxn
  app := efiApp
  getState := efiGetState
  getPrimary := efiGetPrimary
  setState := fun rd _ env s g => efiModify fresh rd env s g
  setPrimary := fun rd _ env s =>
    if cfg.efiUseBootnext then efiTemp fresh rd env s else efiModify fresh rd env s true

/-! ## Executions -/

/-- a request to the backend -/
inductive Req
  | setState (s : Slot) (good : Bool)
  | setPrimary (s : Slot)
deriving DecidableEq, Repr

/-- One request as it happens: what was readable, and how many of its transactions took effect
(fewer than issued: the tool failed or power was lost). -/
structure Ev where
  req : Req
  rd : Str → Bool
  done : Nat

def Backend.txns (B : Backend) (rd : Str → Bool) (slots : List Slot) (env : B.Env) : Req → Option (List B.Txn)
  | .setState s g => B.setState rd slots env s g
  | .setPrimary s => B.setPrimary rd slots env s

def Backend.appAll (B : Backend) (env : B.Env) (ts : List B.Txn) : B.Env := ts.foldl B.app env

/-- effect of one event on the environment -/
def Backend.ev (B : Backend) (slots : List Slot) (env : B.Env) (e : Ev) : B.Env :=
  match B.txns e.rd slots env e.req with
  | none => env
  | some ts => B.appAll env (ts.take e.done)

def Backend.run (B : Backend) (slots : List Slot) (env : B.Env) (h : List Ev) : B.Env :=
  h.foldl (B.ev slots) env

/-- the request concerns a slot of the configuration (by object identity) -/
def Req.slot : Req → Slot
  | .setState s _ => s
  | .setPrimary s => s

/-- the request revives slot `s` (mark good or mark active) -/
def Req.revives (r : Req) (s : Slot) : Prop := r = .setState s true ∨ r = .setPrimary s

end Rauc.Boot
