import Verif.Model.History
import Verif.Model.Null

/-!
# The unit tests of the project, run by the model: `/repo/test/test_history/test_history.c`

These are tests of the model and not properties of the code, see `Verif.Check.Ring`.
-/

namespace Verif.Check.History
open Verif.C Verif.History Verif.History.Spec

/-- What the calls return; `none` if something is undefined -/
def results (maxSize maxInterval : Int) (ops : List Op) : Option (List Int) :=
  match new maxSize maxInterval with
  | none => none
  | some h => match run .strict h ops with
    | .ok (l, _) => some l
    | .error _ => none

/-- `test_history_null`, lines 51-66 -/
example : (new 0 0).isNone ∧ (new 1 0).isNone ∧ (new 0 1).isNone := by decide

/-- `test_history_basic`, lines 72-83, at any time -/
example : results 1 1 [.size 1000, .interval 1001] = some [0, 0] := by decide +kernel

/-- `test_history_clear`, lines 89-113; `.clear` returns nothing -/
example : results 2 2 [.median 0 0, .add 1 2, .add 2 2, .add 3 1, .add 5 3, .size 3, .median 0 3, .interval 3, .clear, .size 3, .interval 3] =
    some [0, 1, 2, 3, 4, 2, 4, 1, 0, 0, 0] := by decide +kernel

/-- `test_history_median`, lines 119-140 -/
example : results 2 2 [.add 1 1, .add 5 2, .median 0 3, .median 0 4, .median 0 5] = some [1, 3, 3, 5, 0] := by decide +kernel

/-- `test_history_size`, lines 146-168 -/
example : results 2 2 [.add 1 1, .add 5 2, .size 2, .size 3, .size 4, .size 5] = some [1, 3, 2, 2, 1, 0] := by decide +kernel

/-- `test_history_interval`, lines 174-197 -/
example : results 2 3 [.add 1 1, .add 5 2, .interval 2, .interval 3, .interval 5, .interval 6] = some [1, 3, 1, 2, 3, 0] := by decide +kernel

/-- `test_history_data`, lines 218-238 -/
def data (maxSize maxInterval : Int) (samples : List (Int × Int × Int)) (size interval : Int) : Bool :=
  let time := (samples.getLast?.map (·.1)).getD 0
  decide (results maxSize maxInterval (samples.map (fun s => .add s.2.1 s.1) ++
      [.size time, .interval time, .size (time + maxInterval + 1), .interval (time + maxInterval + 1)]) =
    some (samples.map (·.2.2) ++ [size, interval, 0, 0]))

/-- Lines 248-272 -/
example : data 1 1 [(1, 1, 1)] 1 0 ∧ data 1 1 [(1, 1, 1), (3, 2, 2)] 1 0 ∧ data 3 4 [(1, 2, 2), (3, 2, 2), (4, 8, 3)] 3 3 ∧
    data 3 2 [(1, 2, 2), (3, 2, 2), (4, 8, 5)] 2 1 ∧ data 2 4 [(1, 2, 2), (3, 2, 2), (4, 8, 5)] 2 1 := by decide +kernel

end Verif.Check.History
