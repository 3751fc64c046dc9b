import Verif.Spec.Ring

/-!
# Calls which are about the limit of a ring (no code from the model)
-/

namespace Verif.Ring.Spec

/-- What these calls return is about the limit. They don't change what's in the ring. -/
def Op.asks : Op → Bool
  | .maxSize | .canPut _ | .reserve _ => true
  | _ => false

/-- The other calls, and what they have returned -/
def notAsked (ops : List Op) (os : List Out) : List (Op × Out) := (ops.zip os).filter fun x => !x.1.asks

/-- The limit isn't changed. -/
def LimitKept (ops : List Op) : Prop := ∀ n, Op.setMaxSize n ∉ ops

/-- Nothing has been rejected. -/
def NothingRejected (ops : List Op) (os : List Out) : Prop := ∀ p, (Op.put p, Out.bool false) ∉ ops.zip os ∧ (Op.putFront p, Out.bool false) ∉ ops.zip os

end Verif.Ring.Spec
