import Verif.Model.IntArray
import Verif.Spec.IntArraySelf

/-!
# Functions of `/repo/src/gutil_intarray.c` whose argument may point to the elements of the same array

Unlike `Model/IntArray.lean`, the memory is a part of the model: it's not always large enough, in which case it's
reallocated and pointers to the old memory become invalid (even if `realloc` returns the same address, that's what C says),
and the elements are moved before the new ones are copied. The functions of GLib (2.68, garray.c) are modelled as they are
written. `NULL` arrays aren't a part of this model.

Parameters: `grow` is the number of elements which memory is allocated for if that many are necessary (the size is rounded
up to a power of two), `limit` is the largest number of elements which GLib allows, and `strict` tells whether it's an error
to pass overlapping memory to `memcpy`, or if it does the same as `memmove`.
-/

namespace Verif.IntArray.Self
open Verif.C

/-- `GArray` (GLib): the memory (as many elements as there's room for), and how many elements there are in the array.
That's `GUtilIntArray`, include/gutil_intarray.h:43-46. -/
structure GArr where
  mem : List (Option Val)
  len : Nat
  deriving DecidableEq, Repr

/-- What the pointer passed to the function points to: `n` elements of the array starting at `i`, or something else.
The argument `vals` of the functions at src/gutil_intarray.c:135-187. -/
inductive Src
  | own (i n : Nat)
  | other (vals : List Val)
  deriving DecidableEq, Repr

/-- How many values there are. The argument `count` of the functions at src/gutil_intarray.c:135-187. -/
def Src.count : Src → Nat
  | .own _ n => n
  | .other v => v.length

/-- The platform. No code of the library, see above. -/
structure Platform where
  grow : Nat → Nat
  limit : Nat
  strict : Bool

/-- What's in the array. No code of the library, bookkeeping for the properties of src/gutil_intarray.c:135-187. -/
def GArr.contents (a : GArr) : List (Option Val) := a.mem.take a.len

/-- `g_array_maybe_expand` (GLib). Also tells whether the memory has been reallocated.
Used by functions called at src/gutil_intarray.c:142, 162 and 184. -/
def expand (pl : Platform) (a : GArr) (n : Nat) : M (GArr × Bool) :=
  if pl.limit < a.len + n then .error .badArg
  else if a.mem.length < a.len + n then
    .ok ({ a with mem := a.mem ++ List.replicate (pl.grow (a.len + n) - a.mem.length) none }, true)
  else .ok (a, false)

/-- Writing to the memory. (GLib) Used by functions called at src/gutil_intarray.c:142, 162 and 184. -/
def write (a : GArr) (pos : Nat) (v : List (Option Val)) : M GArr :=
  if pos + v.length ≤ a.mem.length then .ok { a with mem := a.mem.take pos ++ v ++ a.mem.drop (pos + v.length) }
  else .error .oobWrite

/-- `memcpy` of the values to `dest` (GLib). Used by functions called at src/gutil_intarray.c:142, 162 and 184. -/
def copy (pl : Platform) (a : GArr) (moved : Bool) (dest : Nat) (src : Src) : M GArr :=
  match src with
  | .other v => write a dest (v.map some)
  | .own i n =>
    if moved then .error .useAfterFree
    else if pl.strict = true ∧ i < dest + n ∧ dest < i + n then .error .badArg
    else if i + n ≤ a.mem.length then write a dest ((a.mem.drop i).take n)
    else .error .oobRead

/-- `g_array_append_vals` (GLib), called at src/gutil_intarray.c:142. `moved`: the memory has already been reallocated. -/
def gAppendVals (pl : Platform) (a : GArr) (moved : Bool) (src : Src) : M GArr :=
  if src.count = 0 then .ok a
  else do
    let (a, m) ← expand pl a src.count
    let a ← copy pl a (moved || m) a.len src
    .ok { a with len := a.len + src.count }

/-- `g_array_prepend_vals` (GLib), called at src/gutil_intarray.c:162 -/
def gPrependVals (pl : Platform) (a : GArr) (src : Src) : M GArr :=
  if src.count = 0 then .ok a
  else do
    let (a, m) ← expand pl a src.count
    let a ← write a src.count a.contents
    let a ← copy pl a m 0 src
    .ok { a with len := a.len + src.count }

/-- `g_array_set_size` (GLib) to something which isn't less than the current size; called by the next one. The new elements
aren't initialised. src/gutil_intarray.c:184. -/
def gSetSize (pl : Platform) (a : GArr) (n : Nat) : M (GArr × Bool) :=
  if a.len < n then do
    let (a, m) ← expand pl a (n - a.len)
    .ok ({ a with len := n }, m)
  else .ok (a, false)

/-- `g_array_insert_vals` (GLib), called at src/gutil_intarray.c:184 -/
def gInsertVals (pl : Platform) (a : GArr) (pos : Nat) (src : Src) : M GArr :=
  if src.count = 0 then .ok a
  else if a.len ≤ pos then do
    let (a, m) ← expand pl a (pos - a.len + src.count)
    let (a, m') ← gSetSize pl a pos
    gAppendVals pl a (m || m') src
  else do
    let (a, m) ← expand pl a src.count
    let a ← write a (pos + src.count) (a.contents.drop pos)
    let a ← copy pl a m pos src
    .ok { a with len := a.len + src.count }

/-- `gutil_int_array_new`, src/gutil_intarray.c:43-47 -/
def new : GArr := { mem := [], len := 0 }

/-- `gutil_int_array_sized_new`, src/gutil_intarray.c:49-55; `g_array_sized_new` (GLib) expands the empty array. -/
def sizedNew (pl : Platform) (reserved : Nat) : M GArr := do
  let (a, _) ← expand pl new (reserved * 4 % 2 ^ 32)
  .ok a

/-- `gutil_int_array_append_vals`, src/gutil_intarray.c:135-145 -/
def appendVals (pl : Platform) (a : GArr) (src : Src) : M GArr := gAppendVals pl a false src

/-- `gutil_int_array_prepend_vals`, src/gutil_intarray.c:155-165 -/
def prependVals (pl : Platform) (a : GArr) (src : Src) : M GArr := gPrependVals pl a src

/-- `gutil_int_array_insert_vals`, src/gutil_intarray.c:176-187 -/
def insertVals (pl : Platform) (a : GArr) (pos : Nat) (src : Src) : M GArr := gInsertVals pl a pos src

/-- Which of the functions is called. No code of its own, it goes to the model of src/gutil_intarray.c:135-187. -/
inductive Where
  | back
  | front
  | pos (p : Nat)
  deriving DecidableEq, Repr

/-- One call. No code of its own, it goes to the model of src/gutil_intarray.c:135-187. -/
def add (pl : Platform) (a : GArr) (src : Src) : Where → M GArr
  | .back => appendVals pl a src
  | .front => prependVals pl a src
  | .pos p => insertVals pl a p src

end Verif.IntArray.Self
