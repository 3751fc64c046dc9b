import Verif.C.Basic
import Verif.Spec.History

/-!
# Model of `/repo/src/gutil_history.c`

What the clock shows is an argument of the functions which may look at it.  The reference
count (`ref`/`unref`, l.89-110) isn't modelled, nor is the block being released with the last
reference. Loops which go around the ring are given as many iterations as there are
entries: all they look at is the position, so that after one turn they would go on forever
(`UB.diverge`).
-/

namespace Verif.History
open Verif.C
open Verif.History.Spec (Sample Op)

/-- `struct gutil_int_history`, src/gutil_history.c:42-55 -/
structure Hist where
  maxInterval : Int
  first : Int
  last : Int
  maxSize : Int
  entry : List Sample
  deriving DecidableEq, Repr

/-- `gutil_int_history_new_full`, src/gutil_history.c:65-87 (`gutil_int_history_new`, 57-63,
uses the default clock).  `none` is `NULL`; `g_malloc0` never fails. -/
def new (maxSize maxInterval : Int) : Option Hist :=
  if maxSize > 0 ∧ maxInterval > 0 then
    some { maxInterval, first := -1, last := -1, maxSize
           entry := List.replicate maxSize.toNat ⟨0, 0⟩ }
  else none

/-- The loop in `gutil_int_history_flush`, src/gutil_history.c:122-124 -/
def flushLoop (h : Hist) (cutoff : Int) : Nat → Int → M Int
  | 0, _ => .error .diverge
  | fuel + 1, first => do
    let e ← rd h.entry first
    if e.time < cutoff then
      let f ← chk32 (first + 1)
      let f ← cMod f h.maxSize
      flushLoop h cutoff fuel f
    else .ok first

/-- `gutil_int_history_flush`, src/gutil_history.c:112-131 -/
def flush (mode : Mode) (h : Hist) (now : Int) : M (Bool × Hist) := do
  let cutoff ← arith64 mode (now - h.maxInterval)
  let e ← rd h.entry h.last
  if e.time ≥ cutoff then
    let f ← flushLoop h cutoff h.maxSize.toNat h.first
    .ok (true, { h with first := f })
  else .ok (false, { h with first := -1, last := -1 })

/-- `gutil_int_history_size`, src/gutil_history.c:133-148 -/
def size (mode : Mode) (h : Hist) (now : Int) : M (Int × Hist) := do
  if h.last ≥ 0 then
    let (b, h) ← flush mode h now
    if b then
      if h.first > h.last then
        let x ← arith32 mode (h.maxSize + h.last)
        let x ← arith32 mode (x - h.first)
        let x ← arith32 mode (x + 1)
        .ok (toUInt32 x, h)
      else
        let x ← arith32 mode (h.last - h.first)
        let x ← arith32 mode (x + 1)
        .ok (toUInt32 x, h)
    else .ok (0, h)
  else .ok (0, h)

/-- `gutil_int_history_interval`, src/gutil_history.c:150-162 -/
def interval (mode : Mode) (h : Hist) (now : Int) : M (Int × Hist) := do
  if h.last ≥ 0 then
    let (b, h) ← flush mode h now
    if b then
      let e ← rd h.entry h.first
      let x ← arith64 mode (now - e.time)
      .ok (x, h)
    else .ok (0, h)
  else .ok (0, h)

/-- `gutil_int_history_clear`, src/gutil_history.c:164-171 -/
def clear (h : Hist) : Hist := { h with first := -1, last := -1 }

/-- The loop in `gutil_int_history_median_at`, src/gutil_history.c:190-201 -/
def medianLoop (mode : Mode) (h : Hist) : Nat → (pos v t dt area : Int) → M (Int × Int)
  | 0, _, _, _, _, _ => .error .diverge
  | fuel + 1, pos, v, t, dt, area => do
    if pos ≠ h.last then
      let pos ← chk32 (pos + 1)
      let pos ← cMod pos h.maxSize
      let e ← rd h.entry pos
      let t1 := e.time
      let v1 := e.value
      let d ← arith64 mode (t1 - t)
      let dt ← arith64 mode (dt + d)
      let s ← arith32 mode (v + v1)
      let p ← arith64 mode (d * s)
      let q ← cDiv p 2
      let area ← arith64 mode (area + q)
      medianLoop mode h fuel pos v1 t1 dt area
    else .ok (area, dt)

/-- `gutil_int_history_median_at`, src/gutil_history.c:174-205 -/
def medianAt (mode : Mode) (h : Hist) : M Int := do
  if h.first = h.last then
    let e ← rd h.entry h.last
    .ok e.value
  else
    let e ← rd h.entry h.first
    let (area, dt) ← medianLoop mode h h.maxSize.toNat h.first e.value e.time 0 0
    let q ← cDiv area dt
    .ok (toInt32 q)

/-- The condition in `gutil_int_history_add`, src/gutil_history.c:215 (true if there are live
samples) -/
def addFlush (mode : Mode) (h : Hist) (now : Int) : M (Bool × Hist) :=
  if h.last < 0 then .ok (false, h) else flush mode h now

/-- The time of the entry to fill in and its position, src/gutil_history.c:216-230 -/
def addPos (h : Hist) (now : Int) : Bool → M (Int × Hist)
  | false => .ok (now, { h with first := 0, last := 0 })
  | true => do
    let e ← rd h.entry h.last
    if now > e.time then
      let l ← chk32 (h.last + 1)
      let l ← cMod l h.maxSize
      if l = h.first then
        let f ← chk32 (h.first + 1)
        let f ← cMod f h.maxSize
        .ok (now, { h with last := l, first := f })
      else .ok (now, { h with last := l })
    else if now < e.time then .ok (e.time, h)
    else .ok (now, h)

/-- `gutil_int_history_add` except for the value it returns, src/gutil_history.c:213-232 -/
def put (mode : Mode) (h : Hist) (value now : Int) : M Hist := do
  let (b, h) ← addFlush mode h now
  let (now, h) ← addPos h now b
  let es ← wr h.entry h.last.toNat ⟨now, value⟩
  .ok { h with entry := es }

/-- `gutil_int_history_add`, src/gutil_history.c:207-236 -/
def add (mode : Mode) (h : Hist) (value now : Int) : M (Int × Hist) := do
  let h ← put mode h value now
  let m ← medianAt mode h
  .ok (m, h)

/-- `gutil_int_history_median`, src/gutil_history.c:238-251 -/
def median (mode : Mode) (h : Hist) (default now : Int) : M (Int × Hist) := do
  if h.last ≥ 0 then
    let (b, h) ← flush mode h now
    if b then
      let m ← medianAt mode h
      .ok (m, h)
    else .ok (default, h)
  else .ok (default, h)

/-- A call. No code of the library, a sequence of uses of src/gutil_history.c:57-251. -/
def exec (mode : Mode) (h : Hist) : Op → M (Int × Hist)
  | .size now => size mode h now
  | .interval now => interval mode h now
  | .clear => .ok (0, clear h)
  | .add v now => add mode h v now
  | .median d now => median mode h d now

/-- A sequence of calls and what they return. No code of the library, a sequence of uses of src/gutil_history.c:57-251. -/
def run (mode : Mode) (h : Hist) : List Op → M (List Int × Hist)
  | [] => .ok ([], h)
  | op :: ops => do
    let (o, h) ← exec mode h op
    let (os, h) ← run mode h ops
    .ok (o :: os, h)

/-- The samples which the ring of entries holds, the oldest one first (what the caller could
see if there were a function for that). No code of the library, bookkeeping for the properties of src/gutil_history.c:57-251. -/
def samples (h : Hist) : List Sample :=
  if h.last < 0 then []
  else
    let n := if h.first > h.last then h.maxSize + h.last - h.first + 1 else h.last - h.first + 1
    (List.range n.toNat).filterMap (fun (i : Nat) => h.entry[((h.first + i) % h.maxSize).toNat]?)

end Verif.History
