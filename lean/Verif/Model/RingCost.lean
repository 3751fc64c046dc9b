import Verif.Model.Ring
import Verif.Spec.RingCost

/-!
# Model of `/repo/src/gutil_ring.c` which counts copies and allocations

The same functions as in `Model/Ring.lean` (`C132_counted` says that they do the same), which also say how many pointers have been passed to memcpy and how many
memory blocks have been allocated for the elements.
-/

namespace Verif.RingCost
open Verif.C Verif.Ring Verif.Ring.Spec

/-- `gutil_ring_compact`, src/gutil_ring.c:189-220 -/
def compact (r : Ring) : M (Work × Ring) := do
  let n ← size r
  if r.alloc > n then
    if n > 0 then
      if r.start < r.fin then
        let a ← slots r.data r.start n
        let d ← newBlock n a
        .ok (⟨a.length, 1⟩, { r with data := d, alloc := n, start := 0, fin := 0, allocs := r.allocs + 1 })
      else
        let tail ← chk32 (r.alloc - r.start)
        let a ← slots r.data r.start tail
        let b ← slots r.data 0 r.fin
        let d ← newBlock n (a ++ b)
        .ok (⟨a.length + b.length, 1⟩, { r with data := d, alloc := n, start := 0, fin := 0, allocs := r.allocs + 1 })
    else .ok (.none, { r with data := [], alloc := 0 })
  else .ok (.none, r)

/-- `gutil_ring_reserve`, src/gutil_ring.c:222-266 -/
def reserve (r : Ring) (minsize : Int) : M (Work × Bool × Ring) := do
  if minsize ≤ r.alloc then .ok (.none, true, r)
  else if r.maxsiz ≥ 0 ∧ r.alloc ≥ r.maxsiz then .ok (.none, false, r)
  else
    let twice ← chk32 (r.alloc * 2)
    let m := max minsize twice
    let m := if r.maxsiz > 0 ∧ m > r.maxsiz then r.maxsiz else m
    if r.start < r.fin then
      let n ← chk32 (r.fin - r.start)
      let a ← slots r.data r.start n
      let d ← newBlock m a
      .ok (⟨a.length, 1⟩, true, { r with data := d, alloc := m, start := 0, fin := n, allocs := r.allocs + 1 })
    else if r.start ≥ 0 then
      let tail ← chk32 (r.alloc - r.start)
      let a ← slots r.data r.start tail
      let b ← slots r.data 0 r.fin
      let d ← newBlock m (a ++ b)
      .ok (⟨a.length + b.length, 1⟩, true, { r with data := d, alloc := m, start := 0, fin := r.fin + tail, allocs := r.allocs + 1 })
    else
      let d ← newBlock m []
      .ok (⟨0, 1⟩, true, { r with data := d, alloc := m, allocs := r.allocs + 1 })

/-- `gutil_ring_put`, src/gutil_ring.c:279-294 -/
def put (r : Ring) (p : Ptr) : M (Work × Bool × Ring) := do
  let sz ← size r
  let s ← chk32 (sz + 1)
  let (w, ok, r) ← reserve r s
  if ok then
    let r := if r.start < 0 then { r with start := 0, fin := 0 } else r
    let r ← setSlot r r.fin p
    let e ← chk32 (r.fin + 1)
    let e ← cMod e r.alloc
    .ok (w, true, { r with fin := e })
  else .ok (w, false, r)

/-- `gutil_ring_put_front`, src/gutil_ring.c:296-312 -/
def putFront (r : Ring) (p : Ptr) : M (Work × Bool × Ring) := do
  let sz ← size r
  let s ← chk32 (sz + 1)
  let (w, ok, r) ← reserve r s
  if ok then
    let r ← if r.start ≥ 0 then do
        let s ← chk32 (r.start + r.alloc)
        let s ← cMod (s - 1) r.alloc
        pure { r with start := s }
      else .ok { r with start := 0, fin := 1 }
    let r ← setSlot r r.start p
    .ok (w, true, r)
  else .ok (w, false, r)

/-- `gutil_ring_flatten`, src/gutil_ring.c:419-443 -/
def flatten (r : Ring) : M (Work × Option Int × Int × Ring) := do
  let n ← size r
  if n > 0 then
    let (w, r) ← if r.start > 0 ∧ r.start ≥ r.fin then do
        let n1 ← chk32 (r.alloc - r.start)
        let a ← slots r.data r.start n1
        let b ← slots r.data 0 r.fin
        let d ← newBlock n (a ++ b)
        let e ← cMod n r.alloc
        pure (⟨a.length + b.length, 1⟩, { r with data := d, start := 0, fin := e, allocs := r.allocs + 1 })
      else .ok (.none, r)
    .ok (w, some r.start, n, r)
  else .ok (.none, none, n, r)

/-- A call with a ring that is not `NULL`. The other functions don't allocate or copy anything. src/gutil_ring.c:84-443. -/
def exec (r : Ring) (op : Op) : M (Work × Out × Ring) := do
  if r.refCount = 0 then .error .useAfterFree
  else match op with
  | .compact => do let (w, r) ← compact r; .ok (w, .unit, r)
  | .reserve n => do let (w, b, r) ← reserve r n; .ok (w, .bool b, r)
  | .put p => do let (w, b, r) ← put r p; .ok (w, .bool b, r)
  | .putFront p => do let (w, b, r) ← putFront r p; .ok (w, .bool b, r)
  | .flatten => do
    let (w, off, n, r) ← flatten r
    match off with
    | none => .ok (w, .block none n, r)
    | some off => do
      let ps ← readBlock r.data off n.toNat
      .ok (w, .block (some ps) n, r)
  | op => do
    let (o, r) ← Ring.exec r op
    .ok (.none, o, r)

/-- A sequence of calls. No code of the library, a sequence of uses of src/gutil_ring.c:51-443. -/
def run (r : Ring) : List Op → M (Work × List Out × Ring)
  | [] => .ok (.none, [], r)
  | op :: ops => do
    let (w, o, r) ← exec r op
    let (ws, os, r) ← run r ops
    .ok (w.add ws, o :: os, r)

end Verif.RingCost
