import Verif.Model.Datapack

/-!
# Several numbers one after another
-/

namespace Verif.Datapack
open Verif.C

/-- Writes the numbers to the buffer, each one where the previous one ends. No code of the library, a sequence of uses of `gutil_unsigned_mbn_encode`,
src/gutil_datapack.c:253-260. -/
def unsignedsEncode (buf : List Byte) : List (BitVec 64) → M (List Byte × Nat)
  | [] => .ok (buf, 0)
  | v :: vs => do
    let (b, n) ← unsignedEncode buf v
    let (rest, m) ← unsignedsEncode (b.drop n) vs
    .ok (b.take n ++ rest, n + m)

/-- Reads numbers until that fails; returns them and what's left of the range. No code of the library, a sequence of uses of
`gutil_unsigned_mbn_decode`, src/gutil_datapack.c:284-334. -/
def unsignedsDecode : Nat → Range → M (List (BitVec 64) × Range)
  | 0, _ => .error .diverge
  | fuel + 1, r => do
    let x ← unsignedDecode true r
    match x.ret, x.out with
    | true, some v => do
      let (vs, r) ← unsignedsDecode fuel x.range
      .ok (v :: vs, r)
    | _, _ => .ok ([], x.range)

end Verif.Datapack
