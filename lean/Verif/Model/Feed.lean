import Verif.Lib.Disk
import Verif.Model.Update

/-!
# Programs that get an image on their standard input: src/update_handler.c:236-324, 1235-1277, 1319-1364

`tar` (archives) and `nandwrite` (images for NAND flash). What the kernel moves with one call of `splice`, and which calls fail, is arbitrary; a program that stops reading shows as a failing `splice`
(SIGPIPE is ignored, context.c:855).
-/

namespace Rauc.Feed

/-- what happens outside -/
structure Env where
  /-- the program can be started -/
  spawn : Bool := true
  /-- `r_open_unix_input_stream` -/
  openImage : Bool := true
  /-- `fstat`; what it reports as size -/
  fstat : Option Nat
  /-- the i-th `splice`: fails, or moves at most so much -/
  splice : Nat → Option Nat
  /-- `close` of the pipe reports no error -/
  closeOut : Bool := true
  closeIn : Bool := true
  /-- `r_context ()->progress` -/
  progress : Bool := true
  /-- the program exits with status 0 -/
  exit : Bool := true

inductive Outcome where
  | ok
  | failed
  /-- the process that installs is gone (division by zero) -/
  | crash
deriving DecidableEq, Repr

structure Res where
  /-- the program that was started -/
  argv : Option (List Str) := none
  /-- what it got on its standard input -/
  stdin : Bytes := []
  /-- the standard input was closed -/
  eof : Bool := false
  /-- its end was awaited -/
  waited : Bool := false
  /-- the percentages given to `r_context_set_step_percentage` -/
  percents : List Nat := []
  out : Outcome
deriving DecidableEq, Repr

/-- what one `splice` moves: between 1 byte and 1 MiB, or nothing at the end of the file, update_handler.c:257 -/
def block (k : Nat) (rest : Bytes) : Bytes := rest.take (max 1 (min k (1024 * 1024)))

theorem block_lt (k : Nat) (rest : Bytes) (h : block k rest ≠ []) : (rest.drop (block k rest).length).length < rest.length := by
  have h1 : 0 < (block k rest).length := List.length_pos_iff.2 h
  have h2 : (block k rest).length ≤ rest.length := by simp [block]; omega
  simp only [List.length_drop]; omega

structure Loop where
  moved : Bytes
  percents : List Nat
  out : Outcome

/-- the loop of `splice_with_progress`, update_handler.c:255-271, with `sum` bytes moved so far and `rest` still in the file. The product does not overflow for files of less than 2^56 bytes. -/
def spliceLoop (E : Env) (size i sum : Nat) (rest : Bytes) : Loop :=
  match E.splice i with
  | none => ⟨[], [], .failed⟩
  | some k =>
    let b := block k rest
    if E.progress && size == 0 then ⟨b, [], .crash⟩
    else
      let p := if E.progress then [(sum + b.length) * 100 / size] else []
      if h : block k rest = [] then ⟨[], p, .ok⟩
      else
        let r := spliceLoop E size (i + 1) (sum + b.length) (rest.drop b.length)
        ⟨b ++ r.moved, p ++ r.percents, r.out⟩
termination_by rest.length
decreasing_by exact block_lt k rest h

/-- `splice_file_to_process_stdin`, `splice_file_to_outstream`, `splice_with_progress`, update_handler.c:236-324, and `g_subprocess_wait_check`, update_handler.c:1344-1360 and 1257-1273.
When splicing fails, the references to the subprocess are dropped; GSubprocess keeps itself, and the pipe, until the program ends, so that the pipe is not closed. -/
def feed (E : Env) (argv : List Str) (img : Bytes) : Res :=
  if !E.spawn then { out := .failed }
  else if !E.openImage then { argv := some argv, out := .failed }
  else
    match E.fstat with
    | none => { argv := some argv, out := .failed }
    | some size =>
      let l := spliceLoop E size 0 0 img
      let r : Res := { argv := some argv, stdin := l.moved, percents := l.percents, out := l.out }
      if l.out ≠ .ok then r
      else if !E.closeOut then { r with eof := true, out := .failed }
      else if !E.closeIn then { r with eof := true, out := .failed }
      else { r with eof := true, waited := true, out := if E.exit then .ok else .failed }

/-- the argument list of `untar_image`, update_handler.c:1326-1333: the flag is the last one, and ends the list if there is none -/
def tarArgs (filename dest : Str) : List Str :=
  [c!"tar", c!"xf", c!"-", c!"-C", dest, c!"--numeric-owner"] ++ (Update.tarFlag filename).toList

/-- `untar_image`, update_handler.c:1319-1364 -/
def untar (E : Env) (filename dest : Str) (img : Bytes) : Res := feed E (tarArgs filename dest) img

/-- `nand_write_slot`, update_handler.c:1235-1277 -/
def nandWrite (E : Env) (device : Str) (img : Bytes) : Res := feed E [c!"nandwrite", c!"--pad", c!"--quiet", device, c!"-"] img

end Rauc.Feed
