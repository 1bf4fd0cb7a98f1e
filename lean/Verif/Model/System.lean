import Verif.Model.Install
import Verif.Model.Boot

/-!
# An installation and the boot loader's data

Joins `Model/Install` (what an installation does, in which order) with `Model/Boot` (what a request to the boot loader does to
its persistent data): install.c:1464-1480 and :1511-1521 through mark.c:109-164 and bootchooser.c:118-156, :196-234.

Only RAUC's own requests change the boot loader's data in this model. Handlers and hooks of the bundle or of the system are
separate programs; nothing is said about what they do to it.
-/

namespace Rauc.System

open Rauc.Boot (Backend Req)
open Rauc.Install (Ev)

/-- the request to the boot loader an event stands for: `r_mark_bad` (mark.c:185-202) asks for state bad, `r_mark_active`
(mark.c:133-164) for the primary role -/
def reqOf : Ev → Option Req
  | .markBad s _ => some (.setState s false)
  | .setPrimary s _ => some (.setPrimary s)
  | _ => none

/-- One event and the boot loader's data. A request reported successful issued all its transactions and each of them took
effect. A request that fails may have carried out some of them. What can be read during the request (`rd`) is arbitrary. -/
inductive EnvStep (B : Backend) (slots : List Slot) : B.Env → Ev → B.Env → Prop
  | badOk (env : B.Env) (s : Slot) (rd : Str → Bool) (ts : List B.Txn) : B.setState rd slots env s false = some ts →
      EnvStep B slots env (.markBad s true) (B.appAll env ts)
  | badFailed (env : B.Env) (s : Slot) (rd : Str → Bool) (n : Nat) :
      EnvStep B slots env (.markBad s false) (B.ev slots env ⟨.setState s false, rd, n⟩)
  | primaryOk (env : B.Env) (s : Slot) (rd : Str → Bool) (ts : List B.Txn) : B.setPrimary rd slots env s = some ts →
      EnvStep B slots env (.setPrimary s true) (B.appAll env ts)
  | primaryFailed (env : B.Env) (s : Slot) (rd : Str → Bool) (n : Nat) :
      EnvStep B slots env (.setPrimary s false) (B.ev slots env ⟨.setPrimary s, rd, n⟩)
  | other (env : B.Env) (e : Ev) : reqOf e = none → EnvStep B slots env e env

inductive EnvSteps (B : Backend) (slots : List Slot) : B.Env → List Ev → B.Env → Prop
  | nil (env : B.Env) : EnvSteps B slots env [] env
  | cons {env env1 env2 : B.Env} {e : Ev} {es : List Ev} : EnvStep B slots env e env1 → EnvSteps B slots env1 es env2 →
      EnvSteps B slots env (e :: es) env2

/-- The power fails during the events `evs`: the events `pre` are completed, the next one is not, or only some of its
transactions with the boot loader's data are. `env'` is what the boot loader finds. (`pre = evs`: after the last event.) -/
inductive Interrupted (B : Backend) (slots : List Slot) (env : B.Env) (evs : List Ev) : List Ev → B.Env → Prop
  | between {pre : List Ev} {env' : B.Env} : pre <+: evs → EnvSteps B slots env pre env' → Interrupted B slots env evs pre env'
  | during {pre rest : List Ev} {e : Ev} {q : Req} {env1 : B.Env} (rd : Str → Bool) (n : Nat) : evs = pre ++ e :: rest →
      EnvSteps B slots env pre env1 → reqOf e = some q → Interrupted B slots env evs pre (B.ev slots env1 ⟨q, rd, n⟩)

end Rauc.System
