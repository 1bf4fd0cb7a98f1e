import Verif.Model.Utils

/-!
# Command lines of the casync conversion: src/bundle.c:206-395
-/

namespace Rauc.CasyncCmd

open Utils (shellQuote)

/-- an optional store, bundle.c:259-262 and :356-359 -/
def storeArgs (f : Str → Str) : Option Str → List Str
  | none => []
  | some s => [c!"--store", f s]

/-- the command line for `sh` in `casync_make_arch`, bundle.c:244-285; `extra` are the parsed extra arguments -/
def archCommand (content tmp idx : Str) (store : Option Str) (extra : List Str) : Str :=
  join ' ' ([c!"tar", c!"xf", shellQuote content, c!"-C", shellQuote tmp, c!"--numeric-owner", c!"&&",
    c!"casync", c!"make", c!"--with=unix", shellQuote idx, shellQuote tmp] ++ storeArgs shellQuote store ++ extra.map shellQuote)

/-- the process started by `casync_make_arch`, bundle.c:279-287 (with casync) -/
def archArgv (pseudo : Bool) (content tmp idx : Str) (store : Option Str) (extra : List Str) : List Str :=
  (if pseudo then [] else [c!"fakeroot"]) ++ [c!"sh", c!"-c", archCommand content tmp idx store extra]

/-- the process started by `casync_make_blob`, bundle.c:305-380; `default` is the store desync uses without a given one -/
def blobArgv (desync : Bool) (default : Str) (content idx : Str) (store : Option Str) (extra : List Str) : List Str :=
  (if desync then [c!"desync", c!"make", c!"--store", store.getD default, idx, content]
   else [c!"casync", c!"make", idx, content] ++ storeArgs id store) ++ extra

end Rauc.CasyncCmd
