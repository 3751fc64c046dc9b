import Verif.Model.IntArray
import Verif.Spec.IntArray

/-!
# Sequences of calls of `/repo/src/gutil_intarray.c`
-/

namespace Verif.IntArray
open Verif.C
open Verif.IntArray.Spec (Op Out)

/-- A call; see `Verif.Model.IntArray` for the functions. src/gutil_intarray.c:43-354. -/
def exec (gsort : (Option Val → Option Val → M Int) → Arr → Arr) (mode : Mode) (a : Option Arr) : Op → M (Out × Option Arr)
  | .append x => do let a ← append a x; .ok (.none, a)
  | .appendVals v => do let a ← appendVals a v; .ok (.none, a)
  | .prepend x => do let a ← prepend a x; .ok (.none, a)
  | .prependVals v => do let a ← prependVals a v; .ok (.none, a)
  | .insert pos x => do let a ← insert a pos x; .ok (.none, a)
  | .insertVals pos v => do let a ← insertVals a pos v; .ok (.none, a)
  | .setCount n => do let a ← setCount a n; .ok (.none, a)
  | .find x => do let i ← find a x; .ok (.int i, a)
  | .contains x => do let b ← contains a x; .ok (.bool b, a)
  | .remove x => do let (a, b) ← remove a x; .ok (.bool b, a)
  | .removeFast x => do let (a, b) ← removeFast a x; .ok (.bool b, a)
  | .removeAll x => do let (a, n) ← removeAll a x; .ok (.count n, a)
  | .removeAllFast x => do let (a, n) ← removeAllFast a x; .ok (.count n, a)
  | .removeIndex pos => do let a ← removeIndex a pos; .ok (.none, a)
  | .removeIndexFast pos => do let a ← removeIndexFast a pos; .ok (.none, a)
  | .removeRange pos count => do let a ← removeRange a pos count; .ok (.none, a)
  | .sortAscending => .ok (.none, sortAscending gsort mode a)
  | .sortDescending => .ok (.none, sortDescending gsort mode a)

/-- A sequence of calls and what they return. No code of the library, a sequence of uses of src/gutil_intarray.c:43-354. -/
def run (gsort : (Option Val → Option Val → M Int) → Arr → Arr) (mode : Mode) (a : Option Arr) : List Op → M (List Out × Option Arr)
  | [] => .ok ([], a)
  | op :: ops => do
    let (o, a) ← exec gsort mode a op
    let (os, a) ← run gsort mode a ops
    .ok (o :: os, a)

/-- The number of ints, initialised or not. No code of the library, bookkeeping for the properties of src/gutil_intarray.c:43-354. -/
def count (a : Option Arr) : Nat := (a.getD []).length

/-- The call doesn't make the array longer except by adding ints at an existing position or at the end; what's sorted is such that differences of ints are ints
(see C48), otherwise anything could happen. No code of the library, a rule for those who use src/gutil_intarray.c:43-354. -/
def Tight (a : Option Arr) : Op → Prop
  | .insert pos _ | .insertVals pos _ => pos ≤ count a
  | .setCount n => n ≤ count a
  | .sortAscending | .sortDescending => ∀ x y, some x ∈ a.getD [] → some y ∈ a.getD [] → x.toInt - y.toInt < 2 ^ 31
  | _ => True

/-- That's true of each call. No code of the library, a rule for those who use src/gutil_intarray.c:43-354. -/
def AllTight (gsort : (Option Val → Option Val → M Int) → Arr → Arr) (mode : Mode) (a : Option Arr) : List Op → Prop
  | [] => True
  | op :: ops => Tight a op ∧ ∀ o a', exec gsort mode a op = .ok (o, a') → AllTight gsort mode a' ops

end Verif.IntArray
