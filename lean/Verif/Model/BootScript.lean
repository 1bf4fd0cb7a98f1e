import Verif.Model.Boot

/-!
# The example scripts of the boot loaders: contrib/uboot.sh, contrib/grub.conf
-/

namespace Rauc.Boot

/-- `test -n "${K}" || setenv K DEFAULT` (contrib/uboot.sh in /repo, lines 6-8) -/
def shDefault (k d : Str) (env : KvEnv) : KvEnv :=
  match env k with
  | none => kvSet env k (some d)
  | some v => if v = [] then kvSet env k (some d) else env

/-- `test 0x${BOOT_x_LEFT} -gt 0` (contrib/uboot.sh:14, 21): the counter, zero if there is none. Simplified: trailing white space is ignored. -/
def shLeft (env : KvEnv) (bn : Str) : Nat := match env (kLeft bn) with | none => 0 | some v => strtoull 16 (chomp v)

/-- contrib/uboot.sh:1-43 for the slots `names` (the script: `A`, `B`): the boot name of the slot that is booted, and the variables that are saved. (The shell takes white space at the end for a separator, too.) -/
def ubootSh (names : List Str) (env : KvEnv) : Option Str × KvEnv :=
  let env := shDefault kOrder (join ' ' names) env
  let env := names.foldl (fun e bn => shDefault (kLeft bn) c!"3" e) env
  match (split ' ' (chomp ((env kOrder).getD []))).find? (fun t => decide (t ∈ names) && decide (0 < shLeft env t)) with
  | some t => (some t, kvSet env (kLeft t) (some (toHex (shLeft env t - 1))))
  | none => (none, names.foldl (fun e bn => kvSet e (kLeft bn) (some c!"3")) env)

/-- `[ "$V" -eq N ]` in contrib/grub.conf. Simplified: trailing white space is ignored. -/
def shNum (v : Str) : Nat := strtoull 0 (chomp v)

/-- the variables at contrib/grub.conf:4-9: the defaults, and what was saved -/
def grubVars (names : List Str) (env : KvEnv) : Str → Str := fun k =>
  match env k with
  | some v => v
  | none => if k = gOrder then join ' ' names else c!"0"

def setVar (vars : Str → Str) (k v : Str) : Str → Str := fun k' => if k' = k then v else vars k'

/-- contrib/grub.conf:12-29: the slots in their order; each slot that is looked at counts as tried, until one is ok and was not tried before -/
def grubShScan (names : List Str) : List Str → (Str → Str) → Option Str × (Str → Str)
  | [], v => (none, v)
  | t :: ts, v =>
    if t ∈ names then
      if shNum (v (gOk t)) = 1 ∧ shNum (v (gTry t)) = 0 then (some t, setVar v (gTry t) c!"1") else grubShScan names ts (setVar v (gTry t) c!"1")
    else grubShScan names ts v

/-- contrib/grub.conf:32-39: no slot; ok slots may be tried again -/
def grubReset (names : List Str) (v : Str → Str) : Str → Str :=
  names.foldl (fun v n => if shNum (v (gOk n)) = 1 ∧ shNum (v (gTry n)) = 1 then setVar v (gTry n) c!"0" else v) v

/-- contrib/grub.conf:41 -/
def grubSave (names : List Str) (v : Str → Str) (env : KvEnv) : KvEnv := fun k =>
  if k = gOrder ∨ ∃ n ∈ names, k = gOk n ∨ k = gTry n then some (v k) else env k

/-- contrib/grub.conf for the slots `names` (there: `A`, `B`): the boot name of the slot that is booted (none: the rescue system), and the variables that are saved -/
def grubSh (names : List Str) (env : KvEnv) : Option Str × KvEnv :=
  match grubShScan names (split ' ' (chomp (grubVars names env gOrder))) (grubVars names env) with
  | (some t, v) => (some t, grubSave names v env)
  | (none, v) => (none, grubSave names (grubReset names v) env)

end Rauc.Boot
