import Verif.C.Basic

/-!
# Model of `/repo/src/gutil_intarray.c`

An array is `NULL` (`none`) or a `GArray` of ints with one reference, each being initialised
(`some x`) or not (`none`).  The functions of GLib are modelled by their contracts (GLib 2.68,
garray.c); calling one of them with arguments it rejects (`g_return_val_if_fail`, `g_error`) is
the outcome `badArg`.
-/

namespace Verif.IntArray
open Verif.C

/-- A C `int`, as a bit pattern. `int` elements, src/gutil_intarray.c:41. -/
abbrev Val := BitVec 32

/-- The contents of `GArray` (GLib), that's what `GUtilIntArray` is: include/gutil_intarray.h:43-46 -/
abbrev Arr := List (Option Val)

/-! ### GLib -/

/-- `g_array_sized_new`: an empty array with room for that many elements. `limit` is the largest number of elements which GLib agrees to
make room for; it aborts the program otherwise. (It's 2^30 - 1 in recent versions of GLib, which don't allocate more than 4 GiB.) -/
def gSizedNew (limit reserved : Nat) : M (Arr × Nat) := if reserved ≤ limit then .ok ([], reserved) else .error .badArg

/-- `g_array_append_vals`; the size of an array is a `guint`, too many elements abort the
program. (GLib) Called at src/gutil_intarray.c:142. -/
def gAppendVals (a : Arr) (vals : List Val) : M Arr :=
  if a.length + vals.length < 2 ^ 32 then .ok (a ++ vals.map some) else .error .badArg

/-- `g_array_prepend_vals`. (GLib) Called at src/gutil_intarray.c:162. -/
def gPrependVals (a : Arr) (vals : List Val) : M Arr :=
  if a.length + vals.length < 2 ^ 32 then .ok (vals.map some ++ a) else .error .badArg

/-- `g_array_set_size` (without `clear`): the new elements aren't initialised. (GLib) Called at src/gutil_intarray.c:195. -/
def gSetSize (a : Arr) (n : Nat) : M Arr :=
  if n < 2 ^ 32 then .ok (a.take n ++ List.replicate (n - a.length) none) else .error .badArg

/-- `g_array_insert_vals`: past the end it's `g_array_append_vals` after
`g_array_set_size`. (GLib) Called at src/gutil_intarray.c:184. -/
def gInsertVals (a : Arr) (pos : Nat) (vals : List Val) : M Arr :=
  if vals.length = 0 then .ok a
  else if a.length ≤ pos then do
    let a ← gSetSize a pos
    gAppendVals a vals
  else if a.length + vals.length < 2 ^ 32 then .ok (a.take pos ++ vals.map some ++ a.drop pos)
  else .error .badArg

/-- `g_array_remove_index`. (GLib) Called at src/gutil_intarray.c:233 and 281. -/
def gRemoveIndex (a : Arr) (i : Nat) : M Arr :=
  if i < a.length then .ok (a.eraseIdx i) else .error .badArg

/-- `g_array_remove_index_fast`: the last element takes the place. (GLib) Called at src/gutil_intarray.c:247 and 292. -/
def gRemoveIndexFast (a : Arr) (i : Nat) : M Arr :=
  if h : i < a.length then
    .ok ((if i ≠ a.length - 1 then a.set i (a[a.length - 1]'(by omega)) else a).take (a.length - 1))
  else .error .badArg

/-- `g_array_remove_range`. (GLib) Called at src/gutil_intarray.c:309. -/
def gRemoveRange (a : Arr) (i n : Nat) : M Arr :=
  if i + n ≤ a.length then .ok (a.take i ++ a.drop (i + n)) else .error .badArg

/-- `g_array_sort` sorts, provided that the comparison function is defined, antisymmetric and
transitive on the elements of the array. (GLib) Called at src/gutil_intarray.c:331 and 352. -/
def SortContract (gsort : (Option Val → Option Val → M Int) → Arr → Arr) : Prop :=
  ∀ cmp a,
    (∀ x ∈ a, ∀ y ∈ a, ∃ r, cmp x y = .ok r) →
    (∀ x ∈ a, ∀ y ∈ a, ∀ r s, cmp x y = .ok r → cmp y x = .ok s → (r < 0 ↔ 0 < s)) →
    (∀ x ∈ a, ∀ y ∈ a, ∀ z ∈ a, ∀ r s t, cmp x y = .ok r → cmp y z = .ok s → cmp x z = .ok t →
      r ≤ 0 → s ≤ 0 → t ≤ 0) →
    (gsort cmp a).Perm a ∧ (gsort cmp a).Pairwise (fun x y => ∃ r, cmp x y = .ok r ∧ r ≤ 0)

/-! ### The code -/

/-- `gutil_int_array_new`, src/gutil_intarray.c:43-47 -/
def new : Option Arr := some []

/-- `gutil_int_array_sized_new`, src/gutil_intarray.c:49-55; also returns the number of elements for which there's room. The product is
converted to `guint`. -/
def sizedNew (limit reserved : Nat) : M (Option Arr × Nat) := do
  let (a, room) ← gSizedNew limit (reserved * 4 % 2 ^ 32)
  .ok (some a, room)

/-- `gutil_int_array_append_vals`, src/gutil_intarray.c:135-145 -/
def appendVals (array : Option Arr) (vals : List Val) : M (Option Arr) :=
  match array with
  | some a => do
    let a ← gAppendVals a vals
    .ok (some a)
  | none => .ok none

/-- `gutil_int_array_append`, src/gutil_intarray.c:127-133 -/
def append (array : Option Arr) (val : Val) : M (Option Arr) := appendVals array [val]

/-- `gutil_int_array_new_from_vals`, src/gutil_intarray.c:57-66 -/
def newFromVals (limit : Nat) (vals : List Val) : M (Option Arr) := do
  let (array, _) ← sizedNew limit vals.length
  appendVals array vals

/-- `gutil_int_array_new_from_value`, src/gutil_intarray.c:68-73 -/
def newFromValue (limit : Nat) (value : Val) : M (Option Arr) := newFromVals limit [value]

/-- `gutil_int_array_free`, src/gutil_intarray.c:75-89. Returns the data if there is any and
it isn't freed. -/
def free (array : Option Arr) (freeData : Bool) : Option Arr :=
  match array with
  | some a => if a.length ≠ 0 then (if freeData then none else some a) else none
  | none => none

/-- `gutil_int_array_free_to_ints`, src/gutil_intarray.c:91-106. The result is the data of the
`GUtilInts` (see `Verif.Ints.newTake`) and its count. -/
def freeToInts (array : Option Arr) : Option (Arr × Nat) :=
  match array with
  | some a => if a.length ≠ 0 then
      match free (some a) false with
      | some values => some (values, a.length)
      | none => none
    else none
  | none => none

/-- `gutil_int_array_prepend_vals`, src/gutil_intarray.c:155-165 -/
def prependVals (array : Option Arr) (vals : List Val) : M (Option Arr) :=
  match array with
  | some a => do
    let a ← gPrependVals a vals
    .ok (some a)
  | none => .ok none

/-- `gutil_int_array_prepend`, src/gutil_intarray.c:147-153 -/
def prepend (array : Option Arr) (val : Val) : M (Option Arr) := prependVals array [val]

/-- `gutil_int_array_insert_vals`, src/gutil_intarray.c:176-187 -/
def insertVals (array : Option Arr) (pos : Nat) (vals : List Val) : M (Option Arr) :=
  match array with
  | some a => do
    let a ← gInsertVals a pos vals
    .ok (some a)
  | none => .ok none

/-- `gutil_int_array_insert`, src/gutil_intarray.c:167-174 -/
def insert (array : Option Arr) (pos : Nat) (val : Val) : M (Option Arr) := insertVals array pos [val]

/-- `gutil_int_array_set_count`, src/gutil_intarray.c:189-198 -/
def setCount (array : Option Arr) (count : Nat) : M (Option Arr) :=
  match array with
  | some a => do
    let a ← gSetSize a count
    .ok (some a)
  | none => .ok none

/-- The loop in `gutil_int_array_find`, src/gutil_intarray.c:208-212; `i` is converted to
`int`. -/
def findLoop (value : Val) : Arr → (i : Nat) → M Int
  | [], _ => .ok (-1)
  | none :: _, _ => .error .uninit
  | some x :: t, i => if x = value then .ok (toInt32 i) else findLoop value t (i + 1)

/-- `gutil_int_array_find`, src/gutil_intarray.c:200-215 -/
def find (array : Option Arr) (value : Val) : M Int :=
  match array with
  | some a => findLoop value a 0
  | none => .ok (-1)

/-- `gutil_int_array_contains`, src/gutil_intarray.c:217-223 -/
def contains (array : Option Arr) (value : Val) : M Bool := do
  let pos ← find array value
  .ok (decide (pos ≥ 0))

/-- `g_array_remove_index` and `g_array_remove_index_fast` called with `NULL`. (GLib) src/gutil_intarray.c:275-295. -/
def onArray (f : Arr → Nat → M Arr) (array : Option Arr) (i : Nat) : M (Option Arr) :=
  match array with
  | some a => do
    let a ← f a i
    .ok (some a)
  | none => .error .badArg

/-- `gutil_int_array_remove`, src/gutil_intarray.c:225-237 -/
def remove (array : Option Arr) (value : Val) : M (Option Arr × Bool) := do
  let pos ← find array value
  if pos ≥ 0 then do
    let array ← onArray gRemoveIndex array pos.toNat
    .ok (array, true)
  else .ok (array, false)

/-- `gutil_int_array_remove_fast`, src/gutil_intarray.c:239-251 -/
def removeFast (array : Option Arr) (value : Val) : M (Option Arr × Bool) := do
  let pos ← find array value
  if pos ≥ 0 then do
    let array ← onArray gRemoveIndexFast array pos.toNat
    .ok (array, true)
  else .ok (array, false)

/-- The loops in `gutil_int_array_remove_all` and `gutil_int_array_remove_all_fast`,
src/gutil_intarray.c:260 and 271. `n` is a `guint`. -/
def removeLoop (rm : Option Arr → M (Option Arr × Bool)) : (fuel : Nat) → Option Arr → (n : Nat) → M (Option Arr × Nat)
  | 0, _, _ => .error .diverge
  | fuel + 1, array, n => do
    let (array, found) ← rm array
    if found then removeLoop rm fuel array ((n + 1) % 2 ^ 32) else .ok (array, n)

/-- `gutil_int_array_remove_all`, src/gutil_intarray.c:253-262 -/
def removeAll (array : Option Arr) (value : Val) : M (Option Arr × Nat) :=
  removeLoop (fun a => remove a value) ((array.getD []).length + 1) array 0

/-- `gutil_int_array_remove_all_fast`, src/gutil_intarray.c:264-273 -/
def removeAllFast (array : Option Arr) (value : Val) : M (Option Arr × Nat) :=
  removeLoop (fun a => removeFast a value) ((array.getD []).length + 1) array 0

/-- `gutil_int_array_remove_index`, src/gutil_intarray.c:275-284 -/
def removeIndex (array : Option Arr) (pos : Nat) : M (Option Arr) :=
  match array with
  | some a =>
    if pos < a.length then do
      let a ← gRemoveIndex a pos
      .ok (some a)
    else .ok (some a)
  | none => .ok none

/-- `gutil_int_array_remove_index_fast`, src/gutil_intarray.c:286-295 -/
def removeIndexFast (array : Option Arr) (pos : Nat) : M (Option Arr) :=
  match array with
  | some a => do
    let a ← gRemoveIndexFast a pos
    .ok (some a)
  | none => .ok none

/-- `gutil_int_array_remove_range`, src/gutil_intarray.c:297-312. Everything is `guint`. -/
def removeRange (array : Option Arr) (pos count : Nat) : M (Option Arr) :=
  match array with
  | some a =>
    if pos < a.length ∧ count ≠ 0 then do
      let «end» := (pos + count) % 2 ^ 32
      let «end» := if «end» > a.length then a.length else «end»
      let a ← gRemoveRange a pos (toUInt32 («end» - pos))
      .ok (some a)
    else .ok (some a)
  | none => .ok none

/-- `gutil_int_array_sort_ascending_proc`, src/gutil_intarray.c:314-324 -/
def ascendingProc (mode : Mode) : Option Val → Option Val → M Int
  | some v1, some v2 => arith32 mode (v1.toInt - v2.toInt)
  | _, _ => .error .uninit

/-- `gutil_int_array_sort_descending_proc`, src/gutil_intarray.c:335-345 -/
def descendingProc (mode : Mode) : Option Val → Option Val → M Int
  | some v1, some v2 => arith32 mode (v2.toInt - v1.toInt)
  | _, _ => .error .uninit

/-- `gutil_int_array_sort_ascending`, src/gutil_intarray.c:326-333 -/
def sortAscending (gsort : (Option Val → Option Val → M Int) → Arr → Arr) (mode : Mode) (array : Option Arr) : Option Arr :=
  match array with
  | some a => some (gsort (ascendingProc mode) a)
  | none => none

/-- `gutil_int_array_sort_descending`, src/gutil_intarray.c:347-354 -/
def sortDescending (gsort : (Option Val → Option Val → M Int) → Arr → Arr) (mode : Mode) (array : Option Arr) : Option Arr :=
  match array with
  | some a => some (gsort (descendingProc mode) a)
  | none => none

end Verif.IntArray
