/-!
# Removing some of the occurrences (no code from the model)
-/

namespace Verif.IntArray.Spec

/-- The first `n` occurrences of `v` removed -/
def eraseN (v : BitVec 32) : Nat → List (BitVec 32) → List (BitVec 32)
  | 0, l => l
  | n + 1, l => eraseN v n (l.erase v)

end Verif.IntArray.Spec
