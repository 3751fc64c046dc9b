import Verif.Model.Datapack
import Verif.Spec.Datapack

/-!
# Encoding several TLVs one after another
-/

namespace Verif.Datapack
open Verif.C

/-- Writes the TLVs to the buffer, each one where the previous one ends. No code of the library, a sequence of uses of `gutil_tlv_encode`,
src/gutil_datapack.c:383-402. -/
def tlvsEncode (buf : List Byte) : List Spec.Entry → M (List Byte × Nat)
  | [] => .ok (buf, 0)
  | e :: es => do
    let (b, n) ← tlvEncode buf (BitVec.ofNat 32 e.tag) (some e.value)
    let (rest, m) ← tlvsEncode (b.drop n) es
    .ok (b.take n ++ rest, n + m)

end Verif.Datapack
