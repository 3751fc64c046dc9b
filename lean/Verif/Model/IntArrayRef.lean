import Verif.Model.IntArray
import Verif.Spec.IntArrayRef

/-!
# Reference counting in `/repo/src/gutil_intarray.c`

A `GArray` is a structure with a reference counter which points to a block of memory with the elements. Both are on the heap,
numbered in the order of allocation, `none` being what has been deallocated. The functions of GLib (2.68, garray.c) are modelled by their
contracts. Capacity of the block is not a part of the model, reallocation keeps its number.

The functions which change the contents (those in `Model/IntArray.lean`) are represented by `change`.
-/

namespace Verif.IntArray.Ref
open Verif.C

/-- `GArray` (GLib): `data` (`none` is `NULL`), `len` and `ref_count` -/
structure GArr where
  refs : Nat
  data : Option Nat
  len : Nat
  deriving DecidableEq, Repr

/-- `given` are the blocks which have been given to the user. Everything allocated by src/gutil_intarray.c:43-125, and by GLib. -/
structure State where
  arrs : List (Option GArr)
  blocks : List (Option Vals)
  given : List Nat
  deriving DecidableEq, Repr

/-- Nothing has been allocated by src/gutil_intarray.c:43-125 yet. -/
def init : State := { arrs := [], blocks := [], given := [] }

/-- Dereferencing a pointer to the array. A pointer passed to src/gutil_intarray.c:43-125. -/
def State.arr (s : State) (p : Nat) : M GArr :=
  match s.arrs[p]? with
  | none => .error .badPtr
  | some none => .error .useAfterFree
  | some (some a) => .ok a

/-- Reading the block. What `array->data` points to; include/gutil_intarray.h. -/
def State.block (s : State) (b : Nat) : M Vals :=
  match s.blocks[b]? with
  | none => .error .badPtr
  | some none => .error .useAfterFree
  | some (some v) => .ok v

/-- `g_free` (GLib) -/
def gFree (s : State) (b : Nat) : M State :=
  match s.blocks[b]? with
  | none => .error .badPtr
  | some none => .error .doubleFree
  | some (some _) => .ok { s with blocks := s.blocks.set b none }

/-- `g_array_free` (GLib): returns the block unless it's freed. The structure is kept if that's not the last reference. -/
def gArrayFree (s : State) (p : Nat) (freeSegment : Bool) : M (Option Nat × State) := do
  let a ← s.arr p
  if a.refs = 0 then .error .doubleFree
  else do
    let s ← match freeSegment, a.data with
      | true, some b => gFree s b
      | _, _ => .ok s
    let rest := if a.refs = 1 then none else some { refs := a.refs - 1, data := none, len := 0 }
    .ok (if freeSegment then none else a.data, { s with arrs := s.arrs.set p rest })

/-- `g_array_ref` (GLib) -/
def gArrayRef (s : State) (p : Nat) : M State := do
  let a ← s.arr p
  .ok { s with arrs := s.arrs.set p (some { a with refs := a.refs + 1 }) }

/-- `g_array_unref` (GLib) -/
def gArrayUnref (s : State) (p : Nat) : M State := do
  let a ← s.arr p
  if a.refs = 0 then .error .doubleFree
  else if a.refs = 1 then do
    let (_, s) ← gArrayFree s p true
    .ok s
  else .ok { s with arrs := s.arrs.set p (some { a with refs := a.refs - 1 }) }

/-- The contents. No code of the library, bookkeeping for the properties of src/gutil_intarray.c:43-125. -/
def contents (s : State) (p : Nat) : M Vals := do
  let a ← s.arr p
  match a.data with
  | none => if a.len = 0 then .ok [] else .error .nullDeref
  | some b => do
    let v ← s.block b
    if a.len ≤ v.length then .ok (v.take a.len) else .error .oobRead

/-- New contents are stored there, the block is allocated if necessary (GLib). -/
def change (s : State) (p : Nat) (v : Vals) : M State := do
  let a ← s.arr p
  if v.length < 2 ^ 32 then
    match a.data with
    | none =>
      if v = [] then .ok s
      else .ok { s with blocks := s.blocks ++ [some v], arrs := s.arrs.set p (some { a with data := some s.blocks.length, len := v.length }) }
    | some b => do
      let _ ← s.block b
      .ok { s with blocks := s.blocks.set b (some v), arrs := s.arrs.set p (some { a with len := v.length }) }
  else .error .badArg

/-- `gutil_int_array_new`, src/gutil_intarray.c:43-47; also `gutil_int_array_new_from_vals`, lines 57-66, since the contents
are stored there right away. -/
def new (s : State) (v : Vals) : M State := change { s with arrs := s.arrs ++ [some { refs := 1, data := none, len := 0 }] } s.arrs.length v

/-- `gutil_int_array_free`, src/gutil_intarray.c:75-89 -/
def free (s : State) (p : Nat) (freeData : Bool) : M (Option Nat × State) := do
  let a ← s.arr p
  if a.len ≠ 0 then gArrayFree s p freeData
  else gArrayFree s p true

/-- `gutil_int_array_free_to_ints`, src/gutil_intarray.c:91-106. The result is the block and the number of elements, which are
passed to `gutil_ints_new_take` (see `Verif.Ints.newTake`). -/
def freeToInts (s : State) (p : Nat) : M (Option (Option Nat × Nat) × State) := do
  let a ← s.arr p
  if a.len ≠ 0 then do
    let (values, s) ← free s p false
    .ok (some (values, a.len), s)
  else do
    let (_, s) ← free s p true
    .ok (none, s)

/-- `gutil_int_array_ref`, src/gutil_intarray.c:108-116 -/
def ref (s : State) (p : Nat) : M State := gArrayRef s p

/-- `gutil_int_array_unref`, src/gutil_intarray.c:118-125 -/
def unref (s : State) (p : Nat) : M State := gArrayUnref s p

/-- The user looks at `n` elements of the block. No code of the library, bookkeeping for the properties of src/gutil_intarray.c:43-125. -/
def look (s : State) (b n : Nat) : M Vals := do
  let v ← s.block b
  if n ≤ v.length then .ok (v.take n) else .error .oobRead

/-- One call; the user looks at what's returned. src/gutil_intarray.c:43-125. -/
def step (s : State) : Op → M (Out × State)
  | .new v => do
    let s ← new s v
    .ok (.none, s)
  | .ref p => do
    let s ← ref s p
    .ok (.none, s)
  | .unref p => do
    let s ← unref s p
    .ok (.none, s)
  | .free p fd => do
    let a ← s.arr p
    let (r, s) ← free s p fd
    match r with
    | none => .ok (.data none, s)
    | some b => do
      let v ← look s b a.len
      .ok (.data (some v), { s with given := s.given ++ [b] })
  | .toInts p => do
    let (r, s) ← freeToInts s p
    match r with
    | none => .ok (.data none, s)
    | some (none, _) => .error .nullDeref
    | some (some b, n) => do
      let v ← look s b n
      .ok (.data (some v), { s with given := s.given ++ [b] })
  | .change p v => do
    let s ← change s p v
    .ok (.none, s)
  | .get p => do
    let v ← contents s p
    .ok (.vals v, s)
  | .getData k =>
    match s.given[k]? with
    | none => .error .badArg
    | some b => do
      let v ← s.block b
      .ok (.data (some v), s)
  | .freeData k =>
    match s.given[k]? with
    | none => .error .badArg
    | some b => do
      let s ← gFree s b
      .ok (.none, s)

/-- No code of the library, a sequence of uses of src/gutil_intarray.c:43-125. -/
def run (s : State) : List Op → M (List Out × State)
  | [] => .ok ([], s)
  | o :: os => do
    let (x, s) ← step s o
    let (xs, s) ← run s os
    .ok (x :: xs, s)

end Verif.IntArray.Ref
