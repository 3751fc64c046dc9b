import Verif.Spec.MiscData

/-!
# Results of operations on blocks of data

Only the definitions of `Data` and `BytesRes` are used here.
-/

namespace Verif.Misc.Spec
open Verif.C

/-- What's returned is `d`: either a new block, or one of the arguments. -/
def Returned (args : List Data) (r : BytesRes) (d : Data) : Prop :=
  match r with
  | .new l => d = ⟨some l, l.length⟩
  | .ref i => args[i]? = some d

end Verif.Misc.Spec
