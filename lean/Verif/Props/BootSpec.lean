import Verif.Model.Boot

/-!
# Boot selection: specifications (C01 - C05)

Stated once for an arbitrary backend through its requests and queries only.
-/

namespace Rauc.Boot

/-- gint configuration values -/
def Cfg.WF (cfg : Cfg) : Prop := cfg.bootDefaultAttempts < 2 ^ 31 ∧ cfg.bootAttemptsPrimary < 2 ^ 31

/-- everything can be read -/
def allRd : Str → Bool := fun _ => true

/-- C01. After a successful mark-bad of `s`, and after any further history of requests (each completed, failed or
interrupted at any transaction) none of which marks `s` good or active, `s` is neither reported good nor primary,
whatever can or cannot be read at that time. `P` restricts the prior environment. -/
def MarkBadSticks (B : Backend) (P : List Slot → B.Env → Slot → Prop) : Prop :=
  ∀ (slots : List Slot), SlotsWF slots → ∀ s ∈ slots, ∀ (env : B.Env) (rd : Str → Bool) (ts : List B.Txn),
    P slots env s →
    B.setState rd slots env s false = some ts →
    ∀ hist : List Ev, (∀ e ∈ hist, e.req.slot ∈ slots ∧ ¬ e.req.revives s) →
    ∀ rd' : Str → Bool,
      B.getState rd' (B.run slots (B.appAll env ts) hist) s ≠ some true ∧
      B.getPrimary rd' slots (B.run slots (B.appAll env ts) hist) ≠ some s

/-- C02. After a successful activation of `s` the primary slot is `s` (an error if the boot loader data cannot be
read at that time, but never another slot). `P` restricts the prior environment. -/
def ActivateMakesPrimary (B : Backend) (P : List Slot → B.Env → Slot → Prop) : Prop :=
  ∀ (slots : List Slot), SlotsWF slots → ∀ s ∈ slots, ∀ (env : B.Env) (rd : Str → Bool) (ts : List B.Txn),
    P slots env s →
    B.setPrimary rd slots env s = some ts →
    B.getPrimary allRd slots (B.appAll env ts) = some s ∧
    ∀ rd', B.getPrimary rd' slots (B.appAll env ts) = some s ∨ B.getPrimary rd' slots (B.appAll env ts) = none

/-- C03. A request interrupted after any number of transactions leaves the primary slot as before or as after
the completed request; an interrupted mark-bad never makes the slot good. -/
def CrashSafe (B : Backend) (P : List Slot → B.Env → Slot → Prop) : Prop :=
  ∀ (slots : List Slot), SlotsWF slots → ∀ (env : B.Env) (rd : Str → Bool) (r : Req) (ts : List B.Txn),
    r.slot ∈ slots → P slots env r.slot → (∀ s, r ≠ .setState s true) →
    B.txns rd slots env r = some ts →
    ∀ (n : Nat) (rd' : Str → Bool),
      (B.getPrimary rd' slots (B.appAll env (ts.take n)) = B.getPrimary rd' slots env ∨
       B.getPrimary rd' slots (B.appAll env (ts.take n)) = B.getPrimary rd' slots (B.appAll env ts)) ∧
      (∀ s, r = .setState s false → B.getState rd' (B.appAll env (ts.take n)) s = some true →
        B.getState rd' env s = some true)

/-- C04. After a successful mark-good the slot is reported good. -/
def MarkGoodWorks (B : Backend) (P : List Slot → B.Env → Slot → Prop) : Prop :=
  ∀ (slots : List Slot), SlotsWF slots → ∀ s ∈ slots, ∀ (env : B.Env) (rd : Str → Bool) (ts : List B.Txn),
    P slots env s →
    B.setState rd slots env s true = some ts →
    B.getState allRd (B.appAll env ts) s = some true

/-- C05. A completed or interrupted request for one slot never changes the reported state of another
slot from good to anything else, nor from bad to good. `P` restricts environment and reads. -/
def OthersUntouched (B : Backend) (P : List Slot → B.Env → (Str → Bool) → Req → Slot → Prop) : Prop :=
  ∀ (slots : List Slot), SlotsWF slots → ∀ (env : B.Env) (rd : Str → Bool) (r : Req) (ts : List B.Txn),
    r.slot ∈ slots → ∀ t ∈ slots, t ≠ r.slot → P slots env rd r t →
    B.txns rd slots env r = some ts →
    ∀ (n : Nat),
      (B.getState allRd env t = some true → B.getState allRd (B.appAll env (ts.take n)) t = some true) ∧
      (B.getState allRd env t = some false → B.getState allRd (B.appAll env (ts.take n)) t ≠ some true)

/-- every prior environment -/
abbrev anyEnv {B : Backend} : List Slot → B.Env → Slot → Prop := fun _ _ _ => True

end Rauc.Boot
