import Verif.Model.History

/-!
# `/repo/src/gutil_history.c` in a debug build

The only assertion other than those about the reference count (which isn't modelled) is the one in
`gutil_int_history_size`. See `gassert` about what a failed assertion does.
-/

namespace Verif.History.Debug
open Verif.C
open Verif.History.Spec (Sample Op)

/-- `gutil_int_history_size`, src/gutil_history.c:133-148, with the assertion at line 142 -/
def size (mode : Mode) (h : Hist) (now : Int) : M (Int × Hist) := do
  if h.last ≥ 0 then
    let (b, h) ← flush mode h now
    if b then
      if h.first > h.last then
        let x ← arith32 mode (h.maxSize + h.last)
        let x ← arith32 mode (x - h.first)
        let x ← arith32 mode (x + 1)
        .ok (toUInt32 x, h)
      else
        gassert (h.last > h.first)
        let x ← arith32 mode (h.last - h.first)
        let x ← arith32 mode (x + 1)
        .ok (toUInt32 x, h)
    else .ok (0, h)
  else .ok (0, h)

/-- A call. The other functions (src/gutil_history.c:150-251) have no assertions. -/
def exec (mode : Mode) (h : Hist) : Op → M (Int × Hist)
  | .size now => size mode h now
  | op => History.exec mode h op

/-- A sequence of calls and what they return. No code of the library, a sequence of uses of src/gutil_history.c:57-251. -/
def run (mode : Mode) (h : Hist) : List Op → M (List Int × Hist)
  | [] => .ok ([], h)
  | op :: ops => do
    let (o, h) ← exec mode h op
    let (os, h) ← run mode h ops
    .ok (o :: os, h)

end Verif.History.Debug
