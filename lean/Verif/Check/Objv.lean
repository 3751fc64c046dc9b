import Verif.Model.Objv
import Verif.Model.Ptrv

/-!
# The unit tests of the project, run by the model: `/repo/test/test_objv/test_objv.c`

These are tests of the model and not properties of the code, see `Verif.Check.Strv`.
Objects are numbered in the order they're created. There's no `GWeakRef` in the model; its purpose is to see whether the object still exists, i.e. the number of references isn't zero.
-/

namespace Verif.Check.Objv
open Verif.C Verif.Objv

/-- `g_assert` -/
def check (b : Bool) : M Unit := if b then .ok () else .error .assertFail

/-- `test_null`, lines 43-62 -/
example : (do
    check ((← copy [] none) = ([], none))
    check ((← add [] none none) = ([], none))
    check ((← append [] none none) = ([], none))
    check ((← insert [] none none 0) = ([], none))
    check ((← remove [] none none false) = ([], none))
    check ((← removeAt [] none 0) = ([], none))
    check ((← at_ none 0) = none)
    check ((← first none) = none)
    check ((← last none) = none)
    check (!(← contains none none))
    check ((← find none none) < 0)
    check ((← findLast none none) < 0)
    check (← equal true none none)
    check ((← free [] none) = [])) = .ok () := by decide +kernel

/-- `test_basic`, lines 68-115; the reference returned by `g_weak_ref_get` is dropped there right away. -/
example : (do
    let r : Refs := [1, 1]
    let (r, v) ← add r none (some 0)
    let r ← objUnref r 0
    check (r[0]? = some 1)
    check (← contains v (some 0))
    check (!(← contains v (some 1)))
    check ((← Ptrv.length v) = 1)
    let (r, v) ← add r v (some 1)
    check ((← Ptrv.length v) = 2)
    check (← contains v (some 1))
    check ((← at_ v 0) = some 0)
    check ((← at_ v 1) = some 1)
    check ((← at_ v 2) = none)
    check ((← at_ v 3) = none)
    check ((← first v) = some 0)
    check ((← last v) = some 1)
    check ((← find v (some 0)) = 0)
    check ((← findLast v (some 0)) = 0)
    let (r, v) ← remove r v (some 0) false
    check ((← Ptrv.length v) = 1)
    check ((← at_ v 1) = none)
    check ((← remove r v (some 0) false) = (r, v))
    check ((← remove r v none false) = (r, v))
    check (r[0]? = some 0)
    let r ← objUnref r 1
    let r ← free r v
    check (r = [0, 0])) = .ok () := by decide +kernel

/-- `test_new`, lines 121-156 -/
example : (do
    let r : Refs := [1, 1]
    let (r, v) ← new r []
    check (v ≠ none)
    check ((← Ptrv.length v) = 0)
    let r ← free r v
    let (r, v) ← new r [0, 1]
    check (v = some [Cell.ptr 0, .ptr 1, .null])
    let r ← objUnref r 0
    let r ← objUnref r 1
    check (r = [1, 1])
    let r ← free r v
    check (r = [0, 0])) = .ok () := by decide +kernel

/-- `test_insert`, lines 162-237 -/
example : (do
    let r : Refs := [1, 1, 1]
    let (r, v) ← add r none (some 0)
    let (r, v) ← add r v (some 1)
    let (r, v) ← insert r v (some 2) 100
    check (v = some [Cell.ptr 0, .ptr 1, .ptr 2, .null])
    let (r, v) ← removeAt r v 2
    check ((← Ptrv.length v) = 2)
    check ((← at_ v 0) = some 0)
    check ((← at_ v 1) = some 1)
    let (r, v) ← insert r v (some 2) 2
    check ((← Ptrv.length v) = 3)
    check ((← at_ v 0) = some 0)
    check ((← at_ v 1) = some 1)
    check ((← at_ v 2) = some 2)
    let (r, v) ← removeAt r v 0
    check ((← Ptrv.length v) = 2)
    check ((← at_ v 0) = some 1)
    check ((← at_ v 1) = some 2)
    let (r, v) ← insert r v (some 0) 0
    check ((← Ptrv.length v) = 3)
    check ((← at_ v 0) = some 0)
    check ((← at_ v 1) = some 1)
    check ((← at_ v 2) = some 2)
    let (r, v) ← removeAt r v 1
    check ((← Ptrv.length v) = 2)
    check ((← at_ v 0) = some 0)
    check ((← at_ v 1) = some 2)
    let (r, v) ← insert r v (some 1) 1
    check ((← Ptrv.length v) = 3)
    check ((← at_ v 0) = some 0)
    check ((← at_ v 1) = some 1)
    check ((← at_ v 2) = some 2)
    let r ← objUnref r 0
    let r ← objUnref r 1
    let r ← objUnref r 2
    let r ← free r v
    check (r = [0, 0, 0])) = .ok () := by decide +kernel

/-- `test_append`, lines 243-286 -/
example : (do
    let r : Refs := [1, 1, 1]
    let (r, v1) ← add r none (some 0)
    let (r, v2) ← append r none v1
    check ((← Ptrv.length v2) = 1)
    check (← equal false v1 v2)
    let r ← free r v2
    let (r, v2) ← add r none (some 1)
    let (r, v2) ← add r v2 (some 2)
    check ((← append r v2 none) = (r, v2))
    let (r, v1) ← append r v1 v2
    check ((← Ptrv.length v1) = 3)
    check ((← Ptrv.length v2) = 2)
    check ((← at_ v1 0) = some 0)
    check ((← at_ v1 1) = some 1)
    check ((← at_ v1 2) = some 2)
    let r ← objUnref r 0
    let r ← objUnref r 1
    let r ← objUnref r 2
    let r ← free r v1
    let r ← free r v2
    check (r = [0, 0, 0])) = .ok () := by decide +kernel

/-- `test_copy`, lines 292-348 -/
example : (do
    let r : Refs := [1, 1]
    let (r, v1) ← add r none (some 0)
    let (r, v1) ← add r v1 (some 1)
    let (r, v2) ← copy r v1
    let r ← objUnref r 0
    let r ← objUnref r 1
    check ((← Ptrv.length v1) = 2)
    check ((← Ptrv.length v2) = 2)
    check (← equal false v1 v2)
    check (← equal false v2 v1)
    check (← equal true v1 v1)
    let (r, v1) ← removeAt r v1 1
    check (!(← equal false v1 v2))
    check (!(← equal false v2 v1))
    check (!(← equal false v1 none))
    check (!(← equal false none v1))
    let (r, v2) ← removeAt r v2 0
    check (!(← equal false v1 v2))
    check (!(← equal false v2 v1))
    let (r, v1) ← removeAt r v1 0
    check ((← removeAt r v1 0) = (r, v1))
    check (← equal false v1 none)
    check (← equal false none v1)
    check ((← first v1) = none)
    check ((← last v1) = none)
    check ((← find v1 none) < 0)
    check ((← findLast v1 none) < 0)
    check ((← find v1 (some 0)) < 0)
    check ((← findLast v1 (some 0)) < 0)
    check (!(← contains v1 none))
    check (!(← contains v1 (some 0)))
    let r ← free r v1
    let r ← free r v2
    check (r = [0, 0])) = .ok () := by decide +kernel

/-- `test_remove`, lines 354-379 -/
example : (do
    let r : Refs := [1, 1]
    let (r, v) ← add r none (some 0)
    let (r, v) ← add r v (some 1)
    let (r, v) ← add r v (some 0)
    check ((← find v (some 0)) = 0)
    check ((← findLast v (some 0)) = 2)
    let (r, v) ← remove r v (some 0) true
    check ((← Ptrv.length v) = 1)
    check (!(← contains v (some 0)))
    let r ← free r v
    let r ← objUnref r 0
    let r ← objUnref r 1
    check (r = [0, 0])) = .ok () := by decide +kernel

end Verif.Check.Objv
