import Verif.Model.Log

/-!
# Several log options
-/

namespace Verif.Log
open Verif.C

/-- One option after another, as a program does it which has several `-v` on its command line. Returns what the calls return. No code of the library,
a sequence of uses of `gutil_log_parse_option`, src/gutil_log.c:618-653. -/
def parseOptions (s : State) (modules : List Nat) : List Str → M (State × List (Bool × Option Str))
  | [] => .ok (s, [])
  | opt :: opts => do
    let r ← parseOption s opt modules
    let q ← parseOptions r.1 modules opts
    .ok (q.1, r.2 :: q.2)

end Verif.Log
