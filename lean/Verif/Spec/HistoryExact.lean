import Verif.Spec.History

/-!
# When the arithmetic of the history is possible (no code from the model)
-/

namespace Verif.History.Spec

/-- It's an `int`. -/
def Fits32 (x : Int) : Prop := -2 ^ 31 ≤ x ∧ x < 2 ^ 31

/-- It's a `gint64`. -/
def Fits64 (x : Int) : Prop := -2 ^ 63 ≤ x ∧ x < 2 ^ 63

/-- The area can be computed: the sums of values, the products, and the sum of areas (`sum` so far) fit in their types. -/
def AreaFits : (sum : Int) → List Sample → Prop
  | sum, a :: b :: t =>
    Fits32 (a.value + b.value) ∧ Fits64 ((b.time - a.time) * (a.value + b.value)) ∧
    Fits64 (sum + ((b.time - a.time) * (a.value + b.value)).tdiv 2) ∧
    AreaFits (sum + ((b.time - a.time) * (a.value + b.value)).tdiv 2) (b :: t)
  | _, _ => True

/-- The call only does what's possible. -/
def OpFits (n : Nat) (interval : Int) (l : List Sample) : Op → Prop
  | .add v now => AreaFits 0 (record n (live interval now l) v now)
  | .median _ now => AreaFits 0 (live interval now l)
  | _ => True

/-- So do all calls. -/
def RunFits (n : Nat) (interval : Int) : List Sample → List Op → Prop
  | _, [] => True
  | l, op :: ops => OpFits n interval l op ∧ RunFits n interval (next n interval l op) ops

/-- The values added are ints. -/
def IntValues (ops : List Op) : Prop := ∀ v now, Op.add v now ∈ ops → Fits32 v

end Verif.History.Spec
