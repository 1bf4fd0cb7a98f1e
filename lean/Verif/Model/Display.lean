import Verif.Lib.Str
import Verif.Model.StatusView
import Mathlib.Algebra.Order.Field.Rat

/-!
# Numbers shown to the user

Statistics (stats.c), durations (utils.c:1124-1145) and the progress bar (main.c:62-88, 133-146).

`gdouble` is modelled by rational numbers: rounding is left out (the values are sizes, counts and seconds).
-/

namespace Rauc.Display

open StatusView (decInt)

/-- `RaucStats`, stats.h; only the indices 0 to 63 of `values` are used -/
structure Stats where
  values : Nat → Rat := fun _ => 0
  count : Nat := 0
  next : Nat := 0
  sum : Rat := 0
  min : Rat
  max : Rat

/-- `r_stats_new`, stats.c:6-15; `big` is G_MAXDOUBLE, `tiny` is G_MINDOUBLE (the least positive normal number) -/
def statsNew (big tiny : Rat) : Stats := { min := big, max := tiny }

/-- `r_stats_add`, stats.c:17-31 -/
def statsAdd (s : Stats) (v : Rat) : Stats :=
  { values := fun i => if i = s.next then v else s.values i
    next := (s.next + 1) % 64
    count := (s.count + 1) % 2 ^ 64
    sum := s.sum + v
    min := if v < s.min then v else s.min
    max := if v > s.max then v else s.max }

/-- `r_stats_get_avg`, stats.c:33-41 -/
def statsAvg (s : Stats) : Rat := if s.count ≠ 0 then s.sum / s.count else 0

/-- `r_stats_get_recent_avg`, stats.c:43-61 -/
def statsRecentAvg (s : Stats) : Rat :=
  let count := if s.count > 64 then 64 else s.count
  let sum := (List.range count).foldl (fun a i => a + s.values i) 0
  if count ≠ 0 then sum / count else 0

/-- `r_stats_show`, stats.c:63-87; `fmt` is `%.3f` -/
def statsShow (fmt : Rat → Str) (label : Str) (pre : Option Str) (s : Stats) : Str :=
  let msg := (match pre with | some p => p ++ ' ' :: label | none => label) ++ c!": count=" ++ toDec s.count
  if s.count = 0 then msg
  else msg ++ c!" sum=" ++ fmt s.sum ++ c!" min=" ++ fmt s.min ++ c!" max=" ++ fmt s.max ++ c!" avg=" ++ fmt (statsAvg s) ++
    c!" recent-avg=" ++ fmt (statsRecentAvg s)

/-- `r_format_duration`, utils.c:1124-1145; division of C truncates -/
def formatDuration (n : Int) : Str :=
  let seconds := n.tmod 60
  let minutes := (n.tdiv 60).tmod 60
  let hours := (n.tdiv 3600).tmod 24
  let days := n.tdiv (3600 * 24)
  chomp ((if days ≠ 0 then decInt days ++ c!"d " else []) ++
    (if hours ≠ 0 then decInt hours ++ c!"h " else []) ++
    (if minutes ≠ 0 then decInt minutes ++ c!"m " else []) ++
    (if seconds ≠ 0 ∨ n = 0 then decInt seconds ++ c!"s" else []))

/-- `%3d` -/
def pad3 (n : Int) : Str := List.replicate (3 - (decInt n).length) ' ' ++ decInt n

/-- `make_progress_line`, main.c:62-88; `cols` is what the terminal says (80 if it cannot be asked). More than 100 % gives NULL. -/
def progressLine (cols : Nat) (p : Int) : Option Str :=
  if p ≤ 100 then
    let len : Int := (cols : Int) - 1 - 1 - 5
    some ('[' :: ((List.range len.toNat).map (fun i : Nat => if (i : Int) > (len * p).tdiv 100 then ' ' else '#')) ++ c!"]" ++ pad3 p ++ c!"%")
  else none

/-- the line for a step of the progress without a terminal, main.c:145 -/
def progressText (p : Int) (msg : Str) : Str := pad3 p ++ c!"% " ++ msg

end Rauc.Display
