import Verif.Model.MiscData
import Verif.Spec.MiscData

/-!
# Clients of gutil_range_skip_prefix

These aren't parts of the library, that's how it's used.
-/

namespace Verif.Misc.Spec
open Verif.C

/-- `for (i = 0; i < n && gutil_range_skip_prefix(&range, p[i]); i++)`; returns the number of the skipped ones. -/
def skipEach (mode : Mode) (r : Range) : List Data → M (Range × Nat)
  | [] => .ok (r, 0)
  | p :: ps => do
    match ← rangeSkipPrefix mode (some r) (some p) with
    | (some r', true) => do
      let (r', n) ← skipEach mode r' ps
      .ok (r', n + 1)
    | _ => .ok (r, 0)

/-- `while (gutil_range_skip_prefix(&range, p)) n++;` with at most `fuel` calls, `none` if there would be more. -/
def skipAll (mode : Mode) (p : Data) : (fuel : Nat) → Range → M (Option (Range × Nat))
  | 0, _ => .ok none
  | fuel + 1, r => do
    match ← rangeSkipPrefix mode (some r) (some p) with
    | (some r', true) => do
      let x ← skipAll mode p fuel r'
      .ok (x.map fun x => (x.1, x.2 + 1))
    | _ => .ok (some (r, 0))

end Verif.Misc.Spec
