import Verif.Model.Objv
import Verif.Model.History
import Verif.Model.Ring

/-!
# `NULL`-tolerant functions which aren't covered by other modules
-/

namespace Verif.History
open Verif.History.Spec (Op)

/-- What the functions of `/repo/src/gutil_history.c` return if the history is `NULL`, having done nothing else:
size, src/gutil_history.c:137 and 147; interval, 154 and 161; clear, 168; add, 211 and 235; median, 243 and 250. -/
def execNull : Op → Int
  | .size _ => 0
  | .interval _ => 0
  | .clear => 0
  | .add _ _ => 0
  | .median d _ => d

end Verif.History

namespace Verif.Objv
open Verif.C

/-- `gutil_object_ref`, src/gutil_misc.c:63-72 -/
def objectRef (c : Refs) (object : Option Nat) : M (Refs × Option Nat) :=
  match object with
  | some a => do
    let c ← objRef c a
    .ok (c, object)
  | none => .ok (c, object)

/-- `gutil_object_unref`, src/gutil_misc.c:74-82 -/
def objectUnref (c : Refs) (object : Option Nat) : M Refs :=
  match object with
  | some a => objUnref c a
  | none => .ok c

end Verif.Objv
