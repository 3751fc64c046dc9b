import Verif.Spec.Hex

/-!
# How one reads a hex dump (no code from the model)
-/

namespace Verif.Misc.Spec

/-- The digits in the columns for those (there are 49 of them), blanks being skipped. -/
def readLine (line : List (BitVec 8)) : Option (List (BitVec 8)) := fromHex ((line.take 49).filter (fun c => c != 0x20))

end Verif.Misc.Spec
