import Verif.Model.Ints
import Verif.Model.IntArray
import Verif.Model.IntArrayRef
import Verif.Proof.StrvSort

/-!
# The unit tests of the project, run by the model: `/repo/test/test_ints/test_ints.c` and `/repo/test/test_intarray/test_intarray.c`

These are tests of the model and not properties of the code, see `Verif.Check.Strv`.
-/

namespace Verif.Check.Ints
open Verif.C Verif.Ints

/-- `g_assert` -/
def check (b : Bool) : M Unit := if b then .ok () else .error .assertFail

/-- A new object; these never return `NULL` here. -/
def made (r : State × Option Nat) : M (State × Nat) :=
  match r with
  | (s, some i) => .ok (s, i)
  | (_, none) => .error .nullDeref

/-- `test_ints_null`, lines 44-78. Pointers which are `NULL` are no blocks, in the model. -/
example : (do
    let (s, b) := State.alloc ⟨[], []⟩ [0]
    check ((← new s b 0).2 = none)
    check ((newTake s b 0).2 = none)
    check ((newStatic s b 0).2 = none)
    check ((newWithFreeFunc s b 0 0 .null).2 = none)
    check (Ints.hash none = 0)
    check (!contains none 0)
    check (find none 0 < 0)) = .ok () := by decide +kernel

/-- `test_ints_basic`, lines 92-152 -/
example : (do
    let a1 : List Val := [1, 2, 3]
    let a2 : List Val := [1, 2, 3, 4]
    let (s, p1) := State.alloc ⟨[], []⟩ a1
    let (s, p2) := s.alloc a2
    let (s, i1) ← made (← new s p1 3)
    let (s, i2) ← made (newStatic s p2 4)
    check ((← getCount s i1) = 3)
    check ((← getCount s i2) = 4)
    check ((← s.obj i1).block ≠ p2)
    check ((← s.obj i2).block = p2)
    check ((← newFromInts s i1 4 1).2 = none)
    let (s, i3) ← made (← newFromInts s i1 0 4)
    let (s, i4) ← made (← newFromInts s i2 0 3)
    let l1 ← getData s i1
    let l2 ← getData s i2
    let l3 ← getData s i3
    check (equal true l1 l1)
    check (!equal true l1 l2)
    check (equal true l1 l3)
    check (!contains l1 0)
    check (contains l1 1)
    check (find l1 0 < 0)
    check (find l1 1 = 0)
    check (find l1 2 = 1)
    let (s, data, count) ← unrefToData s i1
    check (count = 3)
    check ((← s.read data.1 data.2 count) = a1)
    let s ← s.release data.1
    let s ← unref s.objs.length s i2
    let s ← unref s.objs.length s i3
    let s ← unref s.objs.length s i4
    let (s, i1) ← made (← new s p1 3)
    let (s, data, _) ← unrefToData s i1
    check ((← s.read data.1 data.2 3) = a1)
    let s ← s.release data.1
    let (s, d) := s.alloc a1
    let (s, i1) ← made (newWithFreeFunc s d 0 3 (.user d))
    let (s, data, count) ← unrefToData s i1
    check (count = 3)
    check ((← s.read data.1 data.2 count) = a1)
    let s ← s.release data.1
    -- nothing is left except for the static arrays
    check (s.objs.all (· == none))
    check ((s.blocks.drop 2).all (· == none))) = .ok () := by decide +kernel

/-- `test_ints_compare`, lines 158-198 -/
example : (
    let i1 : Option (List Val) := some [1]
    let i2 : Option (List Val) := some [1, 2]
    let i3 : Option (List Val) := some [2]
    let i4 : Option (List Val) := some [1]
    (do
    check (Ints.hash i1 = 1235)
    check (Ints.hash i2 = 1239)
    check (equal true none none)
    check (!equal true none i1)
    check (!equal true i1 none)
    check (!equal true i1 i2)
    check (!equal true i2 i1)
    check (!equal true i1 i3)
    check (!equal true i3 i1)
    check (equal true i1 i4)
    check (equal true i4 i1)
    check (compare true none none = 0)
    check (compare true none i1 < 0)
    check (compare true i1 none > 0)
    check (compare true i1 i2 < 0)
    check (compare true i2 i1 > 0)
    check (compare true i1 i3 < 0)
    check (compare true i3 i1 > 0)
    check (compare true i1 i4 = 0)
    check (compare true i4 i1 = 0))) = .ok () := by decide +kernel

end Verif.Check.Ints

namespace Verif.Check.IntArray
open Verif.C Verif.IntArray

/-- `g_assert` -/
def check (b : Bool) : M Unit := if b then .ok () else .error .assertFail

/-- The contents -/
def arr (l : List Val) : Option Arr := some (l.map some)

/-- `test_intarray_null`, lines 44-71 -/
example : (do
    check (free none false = none)
    check (freeToInts none = none)
    check ((← append none 0) = none)
    check ((← appendVals none []) = none)
    check ((← prepend none 0) = none)
    check ((← prependVals none []) = none)
    check ((← insert none 0 0) = none)
    check ((← insertVals none 0 []) = none)
    check ((← find none 0) = -1)
    check (!(← contains none 0))
    check (!(← remove none 0).2)
    check (!(← removeFast none 0).2)
    check ((← removeAll none 0).2 = 0)
    check ((← removeAllFast none 0).2 = 0)
    check ((← setCount none 0) = none)
    check ((← removeIndex none 0) = none)
    check ((← removeIndexFast none 0) = none)
    check ((← removeRange none 0 0) = none)
    check (sortAscending Strv.insertionSort .strict none = none)
    check (sortDescending Strv.insertionSort .strict none = none)) = .ok () := by decide +kernel

/-- `test_intarray_basic`, lines 77-178 -/
example : (do
    let a := new
    let a ← append a 0
    check (a = arr [0])
    let a ← append a 1
    check (a = arr [0, 1])
    let a ← prepend a 2
    check (a = arr [2, 0, 1])
    let a := sortAscending Strv.insertionSort .strict a
    check (a = arr [0, 1, 2])
    let a := sortDescending Strv.insertionSort .strict a
    check (a = arr [2, 1, 0])
    let a ← removeIndexFast a 0
    check (a = arr [0, 1])
    let a ← removeRange a 1 2
    check (a = arr [0])
    let a ← removeRange a 1 2
    check (a = arr [0])
    let a ← removeRange a 0 0
    check (a = arr [0])
    let a ← removeRange a 0 1
    check (a = arr [])
    let a ← insert a 0 0
    let a ← insert a 0 1
    check (a = arr [1, 0])
    let a ← insert a 2 2
    check (a = arr [1, 0, 2])
    let a ← setCount a 2
    check (a = arr [1, 0])
    let a ← removeIndex a 0
    check (a = arr [0])
    let a ← removeIndex a 1
    check (a = arr [0])
    check (free (← sizedNew 100 0).1 false = none)
    check (freeToInts (← sizedNew 100 0).1 = none)
    let a := (← sizedNew 100 3).1
    let a ← appendVals a [0, 1, 2]
    check (a = arr [0, 1, 2])
    check (freeToInts a = some ([some 0, some 1, some 2], 3))) = .ok () := by decide +kernel

/-- ... and the array which is referenced once more when it's freed, lines 158-162: it's empty. -/
example : (do
    let s ← Ref.new Ref.init [some 0]
    let s ← Ref.ref s 0
    let (_, s) ← Ref.free s 0 true
    let a ← s.arr 0
    check (a.data = none)
    check (a.len = 0)
    let s ← Ref.unref s 0
    check (s.arrs = [none] ∧ s.blocks = [none])) = .ok () := by decide +kernel

/-- `test_intarray_find`, lines 184-201 -/
example : (do
    let a := new
    let a ← appendVals a [0, 1, 2]
    check ((← find a (-1)) = -1)
    check ((← find a 0) = 0)
    check ((← find a 1) = 1)
    check ((← find a 2) = 2)
    check ((← find a 3) = -1)
    check (← contains a 2)
    check (!(← contains a 3))) = .ok () := by decide +kernel

/-- `test_intarray_remove_1`, lines 207-221 -/
def remove1 (vals : List Val) (f : Option Arr → Val → M (Option Arr × Bool)) (value : Val) (result : List Val) : M Unit := do
  let a ← newFromVals 100 vals
  let (a, ok) ← f a value
  check ok
  check (a = arr result)

/-- `test_intarray_remove`, lines 223-249 -/
example : (do
    let a ← newFromValue 100 (-1)
    check (a = arr [-1])
    check ((← remove a 0) = (a, false))
    check ((← removeFast a 0) = (a, false))
    let v : List Val := [0, 1, 2, 4]
    remove1 v remove 0 [1, 2, 4]
    remove1 v remove 1 [0, 2, 4]
    remove1 v remove 4 [0, 1, 2]
    remove1 v removeFast 0 [4, 1, 2]
    remove1 v removeFast 1 [0, 4, 2]
    remove1 v removeFast 4 [0, 1, 2]) = .ok () := by decide +kernel

/-- `test_intarray_remove_all_1`, lines 255-270 -/
def removeAll1 (vals : List Val) (f : Option Arr → Val → M (Option Arr × Nat)) (value : Val) (removed : Nat) (result : List Val) : M Unit := do
  let a ← newFromVals 100 vals
  let (a, n) ← f a value
  check (n = removed)
  check (a = arr result)

/-- `test_intarray_remove_all`, lines 272-299 -/
example : (do
    let a ← newFromValue 100 (-1)
    check (a = arr [-1])
    check ((← removeAll a 0) = (a, 0))
    check ((← removeAllFast a 0) = (a, 0))
    let v : List Val := [0, 1, 2, 1, 0]
    removeAll1 v removeAll 0 2 [1, 2, 1]
    removeAll1 v removeAll 1 2 [0, 2, 0]
    removeAll1 v removeAll 2 1 [0, 1, 1, 0]
    removeAll1 v removeAllFast 0 2 [1, 1, 2]
    removeAll1 v removeAllFast 1 2 [0, 0, 2]
    removeAll1 v removeAllFast 2 1 [0, 1, 0, 1]) = .ok () := by decide +kernel

end Verif.Check.IntArray
