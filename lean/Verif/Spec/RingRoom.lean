import Verif.Spec.RingCap

/-!
# Calls which only manage the memory of a ring (no code from the model)
-/

namespace Verif.Ring.Spec

/-- Reserve and compact allocate memory, and do nothing else. -/
def Op.memory : Op → Bool
  | .reserve _ | .compact => true
  | _ => false

/-- The other calls, and what they have returned -/
def others (ops : List Op) (os : List Out) : List (Op × Out) := (ops.zip os).filter fun x => !x.1.memory

/-- The limit never gets lower. -/
def NeverLowered (max : Int) : List Op → Prop
  | [] => True
  | .setMaxSize n :: ops => (n < 0 ∨ (0 ≤ max ∧ max ≤ n)) ∧ NeverLowered n ops
  | _ :: ops => NeverLowered max ops

/-- Nothing but put_front, or put, and taking the same element back -/
inductive Undone : Ptr → List Op → Prop
  | back (p : Ptr) : Undone p [.put p, .getLast]
  | front (p : Ptr) : Undone p [.putFront p, .get]

end Verif.Ring.Spec
