import Verif.Spec.HistoryExact

/-!
# Calls which only look at the history (no code from the model)
-/

namespace Verif.History.Spec

/-- Does the call only return something? -/
def Op.looks : Op → Bool
  | .size _ | .interval _ | .median _ _ => true
  | .clear | .add _ _ => false

/-- What's left if some of the calls (those marked with `false`) aren't made, or their results ignored. -/
def pick {α : Type} : List Bool → List α → List α
  | b :: bs, x :: xs => if b then x :: pick bs xs else pick bs xs
  | _, _ => []

/-- The calls which aren't made only look at the history. -/
def Skips (keep : List Bool) (ops : List Op) : Prop :=
  keep.length = ops.length ∧ ∀ (i : Nat) (op : Op), keep[i]? = some false → ops[i]? = some op → op.looks = true

end Verif.History.Spec
