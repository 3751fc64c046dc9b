import Verif.C.Basic
import Verif.Spec.Ring

/-!
# Model of `/repo/src/gutil_ring.c`

The buffer is a list of slots whose length is the size of the memory block really
allocated (which is not always `alloc`); `none` is a slot never written.

Simplifications: the reference count is an unbounded number; `g_new` never fails (and its
argument must not be negative); free functions don't call back into the ring; GASSERTs are
left out (release build).
-/

namespace Verif.Ring
open Verif.C
open Verif.Ring.Spec (Ptr Op Out)

/-- `struct gutil_ring`, src/gutil_ring.c:41-49.  `freed` (calls of free functions) and
`allocs` (number of memory blocks allocated for the data) are observations. -/
structure Ring where
  refCount : Nat
  alloc : Int
  maxsiz : Int
  start : Int
  fin : Int
  data : List (Option Ptr)
  free : Option Nat
  freed : List (Nat × Ptr)
  allocs : Nat
  deriving DecidableEq, Repr

/-- `r->data[i]` used as a value. src/gutil_ring.c:51-443. -/
def slot (r : Ring) (i : Int) : M Ptr := do
  match ← rd r.data i with
  | some p => .ok p
  | none => .error .uninit

/-- `r->data[i] = p`. src/gutil_ring.c:279-312. -/
def setSlot (r : Ring) (i : Int) (p : Ptr) : M Ring := do
  if 0 ≤ i then
    let d ← wr r.data i.toNat (some p)
    .ok { r with data := d }
  else .error .oobWrite

/-- Source of `memcpy(..., data + off, sizeof(gpointer) * n)`. src/gutil_ring.c:189-266 and 419-443. -/
def slots (data : List (Option Ptr)) (off n : Int) : M (List (Option Ptr)) :=
  if 0 ≤ off ∧ 0 ≤ n ∧ off + n ≤ data.length then
    .ok ((data.drop off.toNat).take n.toNat)
  else .error .oobRead

/-- `g_new(gpointer, size)` with `contents` copied to its beginning. (GLib) src/gutil_ring.c:189-266 and 419-443. -/
def newBlock (size : Int) (contents : List (Option Ptr)) : M (List (Option Ptr)) :=
  if size < 0 then .error .badArg
  else if contents.length ≤ size.toNat then
    .ok (contents ++ List.replicate (size.toNat - contents.length) none)
  else .error .oobWrite

/-- `free_func(p)` if there is a free function. src/gutil_ring.c:107, 179, 366 and 395. -/
def callFree (r : Ring) (p : Ptr) : Ring :=
  match r.free with
  | none => r
  | some f => { r with freed := r.freed ++ [(f, p)] }

/-- `gutil_ring_new_full`, src/gutil_ring.c:65-82 (`gutil_ring_new` and
`gutil_ring_sized_new`, 51-63, are special cases of it). -/
def newFull (reserved maxSize : Int) (free : Option Nat) : M Ring := do
  let r : Ring :=
    { refCount := 1, alloc := 0, maxsiz := if maxSize < 0 then -1 else maxSize
      start := -1, fin := -1, data := [], free := free, freed := [], allocs := 0 }
  if reserved ≠ 0 then
    let d ← newBlock reserved []
    .ok { r with data := d, alloc := reserved, allocs := 1 }
  else .ok r

/-- `gutil_ring_size`, src/gutil_ring.c:150-166 -/
def size (r : Ring) : M Int :=
  if 0 ≤ r.start then
    if r.start > r.fin then do
      let s ← chk32 (r.alloc + r.fin)
      chk32 (s - r.start)
    else if r.fin > r.start then chk32 (r.fin - r.start)
    else .ok r.alloc
  else .ok 0

/-- `gutil_ring_get`, src/gutil_ring.c:314-332 -/
def get (r : Ring) : M (Ptr × Ring) := do
  if 0 ≤ r.start then
    let p ← slot r r.start
    let st ← chk32 (r.start + 1)
    if st = r.fin then
      .ok (p, { r with start := -1, fin := -1 })
    else
      let st ← cMod st r.alloc
      if st = r.fin then .ok (p, { r with start := -1, fin := -1 })
      else .ok (p, { r with start := st })
  else .ok (0, r)

/-- `gutil_ring_get_last`, src/gutil_ring.c:334-349 -/
def getLast (r : Ring) : M (Ptr × Ring) := do
  if 0 ≤ r.start then
    let e ← chk32 (r.fin + r.alloc)
    let e ← cMod (e - 1) r.alloc
    let p ← slot r e
    if r.start = e then .ok (p, { r with start := -1, fin := -1 })
    else .ok (p, { r with fin := e })
  else .ok (0, r)

/-- The loop in `gutil_ring_clear`, src/gutil_ring.c:178-181; `n` iterations are left. -/
def clearLoop : Nat → Ring → M Ring
  | 0, r => .ok r
  | n + 1, r => do
    let (p, r) ← get r
    let r := callFree r p
    let s ← size r
    if n > 0 ∧ s > 0 then clearLoop n r else .ok r

/-- `gutil_ring_clear`, src/gutil_ring.c:168-187 -/
def clear (r : Ring) : M Ring := do
  let n ← size r
  if n > 0 then
    if r.free.isSome then clearLoop n.toNat r
    else .ok { r with start := -1, fin := -1 }
  else .ok r

/-- The loop in `gutil_ring_drop`, src/gutil_ring.c:365-369 -/
def dropLoop : Nat → Ring → M Ring
  | 0, r => .ok r
  | n + 1, r => do
    let p ← slot r r.start
    let r := callFree r p
    let s ← chk32 (r.start + 1)
    let s ← cMod s r.alloc
    dropLoop n { r with start := s }

/-- `gutil_ring_drop`, src/gutil_ring.c:351-377 -/
def drop (r : Ring) (n : Int) : M (Int × Ring) := do
  if n > 0 then
    let sz ← size r
    if sz > 0 then
      if n ≥ sz then
        let r ← clear r
        .ok (sz, r)
      else if r.free.isSome then
        let r ← dropLoop n.toNat r
        .ok (n, r)
      else
        let s ← chk32 (r.start + n)
        let s ← cMod s r.alloc
        .ok (n, { r with start := s })
    else .ok (0, r)
  else .ok (0, r)

/-- The loop in `gutil_ring_drop_last`, src/gutil_ring.c:393-397 -/
def dropLastLoop : Nat → Ring → M Ring
  | 0, r => .ok r
  | n + 1, r => do
    let e ← chk32 (r.fin + r.alloc)
    let e ← cMod (e - 1) r.alloc
    let r := { r with fin := e }
    let p ← slot r e
    dropLastLoop n (callFree r p)

/-- `gutil_ring_drop_last`, src/gutil_ring.c:379-405 -/
def dropLast (r : Ring) (n : Int) : M (Int × Ring) := do
  if n > 0 then
    let sz ← size r
    if sz > 0 then
      if n ≥ sz then
        let r ← clear r
        .ok (sz, r)
      else if r.free.isSome then
        let r ← dropLastLoop n.toNat r
        .ok (n, r)
      else
        let e ← chk32 (r.fin + r.alloc)
        let e ← cMod (e - n) r.alloc
        .ok (n, { r with fin := e })
    else .ok (0, r)
  else .ok (0, r)

/-- The loop in `gutil_ring_unref`, src/gutil_ring.c:106-108; `n` iterations are left. -/
def unrefLoop : Nat → Int → Ring → M Ring
  | 0, _, r => .ok r
  | n + 1, i, r => do
    let k ← chk32 (r.start + i)
    let k ← cMod k r.alloc
    let p ← slot r k
    unrefLoop n (i + 1) (callFree r p)

/-- `gutil_ring_unref`, src/gutil_ring.c:95-114.  A ring with zero `refCount` is one which
has been freed. -/
def unref (r : Ring) : M Ring := do
  if r.refCount = 1 then
    let r ← if r.free.isSome then do
        let n ← size r
        unrefLoop n.toNat 0 r
      else .ok r
    .ok { r with refCount := 0 }
  else .ok { r with refCount := r.refCount - 1 }

/-- `gutil_ring_set_max_size`, src/gutil_ring.c:133-148 -/
def setMaxSize (r : Ring) (maxSize : Int) : M Ring := do
  let m := if maxSize < 0 then -1 else maxSize
  if r.maxsiz ≠ m then
    let sz ← size r
    let r ← if m ≥ 0 ∧ sz > m then do
        let (_, r) ← drop r (sz - m)
        pure r
      else .ok r
    .ok { r with maxsiz := m }
  else .ok r

/-- `gutil_ring_compact`, src/gutil_ring.c:189-220 -/
def compact (r : Ring) : M Ring := do
  let n ← size r
  if r.alloc > n then
    if n > 0 then
      if r.start < r.fin then
        let a ← slots r.data r.start n
        let d ← newBlock n a
        .ok { r with data := d, alloc := n, start := 0, fin := 0, allocs := r.allocs + 1 }
      else
        let tail ← chk32 (r.alloc - r.start)
        let a ← slots r.data r.start tail
        let b ← slots r.data 0 r.fin
        let d ← newBlock n (a ++ b)
        .ok { r with data := d, alloc := n, start := 0, fin := 0, allocs := r.allocs + 1 }
    else .ok { r with data := [], alloc := 0 }
  else .ok r

/-- `gutil_ring_reserve`, src/gutil_ring.c:222-266 -/
def reserve (r : Ring) (minsize : Int) : M (Bool × Ring) := do
  if minsize ≤ r.alloc then .ok (true, r)
  else if r.maxsiz ≥ 0 ∧ r.alloc ≥ r.maxsiz then .ok (false, r)
  else
    let twice ← chk32 (r.alloc * 2)
    let m := max minsize twice
    let m := if r.maxsiz > 0 ∧ m > r.maxsiz then r.maxsiz else m
    if r.start < r.fin then
      let n ← chk32 (r.fin - r.start)
      let a ← slots r.data r.start n
      let d ← newBlock m a
      .ok (true, { r with data := d, alloc := m, start := 0, fin := n, allocs := r.allocs + 1 })
    else if r.start ≥ 0 then
      let tail ← chk32 (r.alloc - r.start)
      let a ← slots r.data r.start tail
      let b ← slots r.data 0 r.fin
      let d ← newBlock m (a ++ b)
      .ok (true, { r with data := d, alloc := m, start := 0, fin := r.fin + tail
                          allocs := r.allocs + 1 })
    else
      let d ← newBlock m []
      .ok (true, { r with data := d, alloc := m, allocs := r.allocs + 1 })

/-- `gutil_ring_can_put`, src/gutil_ring.c:268-277 -/
def canPut (r : Ring) (n : Int) : M Bool := do
  if r.maxsiz < 0 then .ok true
  else
    let sz ← size r
    let s ← chk32 (sz + n)
    .ok (decide (s ≤ r.maxsiz))

/-- `gutil_ring_put`, src/gutil_ring.c:279-294 -/
def put (r : Ring) (p : Ptr) : M (Bool × Ring) := do
  let sz ← size r
  let s ← chk32 (sz + 1)
  let (ok, r) ← reserve r s
  if ok then
    let r := if r.start < 0 then { r with start := 0, fin := 0 } else r
    let r ← setSlot r r.fin p
    let e ← chk32 (r.fin + 1)
    let e ← cMod e r.alloc
    .ok (true, { r with fin := e })
  else .ok (false, r)

/-- `gutil_ring_put_front`, src/gutil_ring.c:296-312 -/
def putFront (r : Ring) (p : Ptr) : M (Bool × Ring) := do
  let sz ← size r
  let s ← chk32 (sz + 1)
  let (ok, r) ← reserve r s
  if ok then
    let r ← if r.start ≥ 0 then do
        let s ← chk32 (r.start + r.alloc)
        let s ← cMod (s - 1) r.alloc
        pure { r with start := s }
      else .ok { r with start := 0, fin := 1 }
    let r ← setSlot r r.start p
    .ok (true, r)
  else .ok (false, r)

/-- `gutil_ring_data_at`, src/gutil_ring.c:407-417 -/
def dataAt (r : Ring) (pos : Int) : M Ptr := do
  let sz ← size r
  if pos ≥ 0 ∧ pos < sz then
    let k ← chk32 (r.start + pos)
    let k ← cMod k r.alloc
    slot r k
  else .ok 0

/-- `gutil_ring_flatten`, src/gutil_ring.c:419-443.  Returns the offset in `data` of the
pointer returned (`none` for `NULL`) and the size. -/
def flatten (r : Ring) : M (Option Int × Int × Ring) := do
  let n ← size r
  if n > 0 then
    let r ← if r.start > 0 ∧ r.start ≥ r.fin then do
        let n1 ← chk32 (r.alloc - r.start)
        let a ← slots r.data r.start n1
        let b ← slots r.data 0 r.fin
        let d ← newBlock n (a ++ b)
        let e ← cMod n r.alloc
        pure { r with data := d, start := 0, fin := e, allocs := r.allocs + 1 }
      else .ok r
    .ok (some r.start, n, r)
  else .ok (none, n, r)

/-- The caller of flatten reading `n` elements from the pointer returned.
No code of the library; the pointer is returned by src/gutil_ring.c:419-443. -/
def readBlock (data : List (Option Ptr)) (off : Int) : Nat → M (List Ptr)
  | 0 => .ok []
  | n + 1 => do
    match ← rd data off with
    | none => .error .uninit
    | some p =>
      let ps ← readBlock data (off + 1) n
      .ok (p :: ps)

/-- A call with a ring that is not `NULL`. Calls using a ring which has been freed are
undefined. `ref`, `set_free_func` and `max_size` are at src/gutil_ring.c:84-93, 116-131. -/
def exec (r : Ring) (op : Op) : M (Out × Ring) := do
  if r.refCount = 0 then .error .useAfterFree
  else match op with
  | .ref => .ok (.unit, { r with refCount := r.refCount + 1 })
  | .unref => do let r ← unref r; .ok (.unit, r)
  | .setFreeFunc f => .ok (.unit, { r with free := f })
  | .maxSize => .ok (.int r.maxsiz, r)
  | .setMaxSize n => do let r ← setMaxSize r n; .ok (.unit, r)
  | .size => do let n ← size r; .ok (.int n, r)
  | .clear => do let r ← clear r; .ok (.unit, r)
  | .compact => do let r ← compact r; .ok (.unit, r)
  | .reserve n => do let (b, r) ← reserve r n; .ok (.bool b, r)
  | .canPut n => do let b ← canPut r n; .ok (.bool b, r)
  | .put p => do let (b, r) ← put r p; .ok (.bool b, r)
  | .putFront p => do let (b, r) ← putFront r p; .ok (.bool b, r)
  | .get => do let (p, r) ← get r; .ok (.ptr p, r)
  | .getLast => do let (p, r) ← getLast r; .ok (.ptr p, r)
  | .drop n => do let (k, r) ← drop r n; .ok (.int k, r)
  | .dropLast n => do let (k, r) ← dropLast r n; .ok (.int k, r)
  | .dataAt i => do let p ← dataAt r i; .ok (.ptr p, r)
  | .flatten => do
    let (off, n, r) ← flatten r
    match off with
    | none => .ok (.block none n, r)
    | some off => do
      let ps ← readBlock r.data off n.toNat
      .ok (.block (some ps) n, r)

/-- A sequence of calls and what they return. No code of the library, a sequence of uses of src/gutil_ring.c:51-443. -/
def run (r : Ring) : List Op → M (List Out × Ring)
  | [] => .ok ([], r)
  | op :: ops => do
    let (o, r) ← exec r op
    let (os, r) ← run r ops
    .ok (o :: os, r)

/-- What a sequence of calls returns, for a new ring. No code of the library, a sequence of uses of src/gutil_ring.c:51-443. -/
def history (reserved maxSize : Int) (free : Option Nat) (ops : List Op) : M (List Out) := do
  let r ← newFull reserved maxSize free
  let (os, _) ← run r ops
  .ok os

/-- The same calls with a `NULL` ring: what each of the functions returns without
dereferencing it (same lines as above). No code of the library, a sequence of uses of src/gutil_ring.c:51-443. -/
def execNull (op : Op) : Out :=
  match op with
  | .ref | .unref | .setFreeFunc _ | .setMaxSize _ | .clear | .compact => .unit
  | .maxSize | .size | .drop _ | .dropLast _ => .int 0
  | .reserve _ | .canPut _ | .put _ | .putFront _ => .bool false
  | .get | .getLast | .dataAt _ => .ptr 0
  | .flatten => .block none 0

end Verif.Ring
