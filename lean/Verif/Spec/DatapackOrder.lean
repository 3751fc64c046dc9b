import Verif.Spec.DatapackRange

/-! # What it means for two decoded sequences to have the same values -/

namespace Verif.Datapack
open Verif.C Spec

/-- The same values, wherever they are: `cs` and `ds` are the decoded data, `v` and `w` what has been stored by the decoder for these `n` tags. -/
def SameVals (n : Nat) (cs ds : List Byte) : Option (List (Option Val)) → Option (List (Option Val)) → Prop
  | none, none => True
  | some v, some w => ∀ i, i < n → (v[i]? = some none ∧ w[i]? = some none) ∨
      ∃ a b, v[i]? = some (some a) ∧ w[i]? = some (some b) ∧ a.size = b.size ∧ a.bytes cs = b.bytes ds
  | _, _ => False

end Verif.Datapack
