import Verif.C.Basic

/-!
# What the order of blocks of ints is about

Written from `/repo/include/gutil_ints.h`, without reference to the model.
-/

namespace Verif.Ints.Spec
open Verif.C

/-- The number whose most significant byte is the one which comes first in memory: the (unsigned) number itself on a big-endian machine, and the
number with the bytes in the opposite order on a little-endian one. -/
def weight (le : Bool) (x : BitVec 32) : Nat :=
  if le then x.toNat % 256 * 256 ^ 3 + x.toNat / 256 % 256 * 256 ^ 2 + x.toNat / 256 ^ 2 % 256 * 256 + x.toNat / 256 ^ 3
  else x.toNat

end Verif.Ints.Spec
