import Mathlib.Algebra.Order.Floor.Ring
import Mathlib.Data.Rat.Floor

/-!
# Progress steps: src/context.c:589-845

The stack of steps and the percentages reported to the callback. Percentages are `gfloat` in the code: the model takes the rounding `rnd` of every operation as a parameter, so that it can be
instantiated with exact arithmetic (`id`) or with the rounding to single precision (`rnd32`). Numbers of substeps and weights are natural numbers here (`gint` in the code).
-/

namespace Rauc.Progress

/-- `RaucProgressStep`, context.h:87-99 -/
structure Step where
  name : List Char
  weight : Nat
  substeps : Nat
  done : Nat
  total : ℚ
  percent : ℚ
  explicit : Int

/-- a call of the progress callback: the percentage (`gint`) and the nesting depth -/
structure Report where
  percent : Int
  depth : Nat
deriving DecidableEq, Repr

/-- the stack of steps, the innermost first, and what has been reported so far -/
structure St where
  stack : List Step
  reports : List Report

/-- conversion of a `gfloat` to an integer type -/
def trunc (q : ℚ) : Int := if 0 ≤ q then ⌊q⌋ else ⌈q⌉

/-- `r_context_send_progress`, context.c:589-636; none: an assertion fails. The descriptions are not modelled. -/
def send (rnd : ℚ → ℚ) (s : St) : Option St :=
  match s.stack with
  | [] => none
  | top :: anc =>
    let sum := match anc with
      | [] => top.percent
      | _ => anc.foldl (fun p a => rnd (p + a.percent)) 0
    let p := if top.percent < 100 ∧ sum > 99 then 99 else sum
    if trunc p ≤ 100 then some { s with reports := s.reports ++ [⟨trunc p, s.stack.length⟩] } else none

/-- `r_context_begin_step_weighted`, context.c:644-690 -/
def begin (rnd : ℚ → ℚ) (s : St) (name : List Char) (substeps weight : Nat) : Option St :=
  match s.stack with
  | [] => send rnd { s with stack := [⟨name, weight, substeps, 0, 100, 0, 0⟩] }
  | par :: anc =>
    if par.substeps = 0 ∨ par.substeps = par.done then none
    else
      let total := rnd (rnd (weight * par.total) / par.substeps)
      if trunc total ≤ trunc par.total ∧ trunc total ≤ 100 then
        send rnd { s with stack := ⟨name, weight, substeps, 0, total, 0, 0⟩ :: par :: anc }
      else none

/-- `r_context_set_step_percentage`, context.c:778-819. The check of `substeps_total` (802) never applies. -/
def set (rnd : ℚ → ℚ) (s : St) (name : List Char) (percent : Int) : Option St :=
  match s.stack with
  | top :: par :: anc =>
    if top.name ≠ name then none
    else
      let diff := percent - top.explicit
      if diff < 1 then some s
      else
        let p := rnd (top.total * rnd (diff / 100))
        let s' := { s with stack := { top with percent := p, explicit := percent } :: { par with percent := rnd (par.percent + p) } :: anc }
        if percent ≠ 100 then send rnd s' else some s'
  | _ => none

/-- `r_context_end_step`, context.c:724-776 -/
def finish (rnd : ℚ → ℚ) (s : St) (name : List Char) (success : Bool) : Option St :=
  match s.stack with
  | [] => none
  | top :: anc =>
    if top.done > top.substeps then none
    else if success && decide (top.done < top.substeps) then none
    else if top.name ≠ name then none
    else
      let top := { top with percent := top.total }
      let r := match anc with
        | [] => some { s with stack := [top] }
        | par :: anc =>
          let par := { par with done := par.done + top.weight }
          if top.explicit ≠ 0 then set rnd { s with stack := top :: par :: anc } name 100
          else some { s with stack := top :: { par with percent := rnd (par.percent + top.percent) } :: anc }
      match r with
      | none => none
      | some s' =>
        let ok := match s'.stack with
          | top :: par :: _ => decide (trunc top.percent ≤ trunc par.percent)
          | _ => true
        if ok then
          match send rnd s' with
          | none => none
          | some s'' => some { s'' with stack := s''.stack.tail }
        else none

inductive Op
  | begin (name : List Char) (substeps weight : Nat)
  | set (name : List Char) (percent : Int)
  | finish (name : List Char) (success : Bool)
deriving DecidableEq, Repr

def op (rnd : ℚ → ℚ) (s : St) : Op → Option St
  | .begin n k w => begin rnd s n k w
  | .set n p => set rnd s n p
  | .finish n ok => finish rnd s n ok

def run (rnd : ℚ → ℚ) : St → List Op → Option St
  | s, [] => some s
  | s, o :: l => match op rnd s o with
    | none => none
    | some s' => run rnd s' l

/-- rounding to single precision: to the nearest multiple of a power of two with a significand of 24 bits, ties to even. Numbers that are too small or too large are not treated. -/
def rnd32 (q : ℚ) : ℚ :=
  if q ≤ 0 then q
  else
    let n := q.num.toNat
    let d := q.den
    -- the exponent: `2 ^ 23 ≤ q * 2 ^ e < 2 ^ 24`
    let e0 : Int := 23 + Nat.log2 d - Nat.log2 n
    let scale : Int → Nat × Nat := fun e => if 0 ≤ e then (n * 2 ^ e.toNat, d) else (n, d * 2 ^ (-e).toNat)
    let e := if (scale e0).1 / (scale e0).2 < 2 ^ 23 then e0 + 1 else if (scale e0).1 / (scale e0).2 ≥ 2 ^ 24 then e0 - 1 else e0
    let (a, b) := scale e
    let m := a / b
    let r := a % b
    let m' := if 2 * r > b ∨ 2 * r = b ∧ m % 2 = 1 then m + 1 else m
    if 0 ≤ e then (m' : ℚ) / 2 ^ e.toNat else (m' : ℚ) * 2 ^ (-e).toNat

end Rauc.Progress
