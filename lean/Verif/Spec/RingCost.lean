import Verif.Spec.Ring

/-!
# How much work it takes to use a ring (no code from the model)
-/

namespace Verif.Ring.Spec

/-- Work done by the calls: how many pointers were copied from one memory block to another, and how many memory blocks were allocated -/
structure Work where
  copied : Nat
  blocks : Nat
  deriving DecidableEq, Repr

def Work.none : Work := ⟨0, 0⟩

def Work.add (a b : Work) : Work := ⟨a.copied + b.copied, a.blocks + b.blocks⟩

/-- How many elements have been accepted by the calls which returned `os` -/
def accepted : List Op → List Out → Nat
  | op :: ops, o :: os => (stored op o).length + accepted ops os
  | _, _ => 0

/-- Calls which don't change the limit and aren't there to reorganise the memory -/
def Ordinary : Op → Prop
  | .setMaxSize _ | .compact | .reserve _ | .flatten => False
  | _ => True

instance (op : Op) : Decidable (Ordinary op) := by cases op <;> unfold Ordinary <;> infer_instance

/-- `n` elements are added, the memory is reorganised after each of them. -/
def tidy (p : Ptr) : Nat → List Op
  | 0 => []
  | n + 1 => .put p :: .compact :: tidy p n

/-- `n` elements are added to a ring which has `k` of them, the limit is raised by one before each of them. -/
def raised (p : Ptr) (k : Nat) : Nat → List Op
  | 0 => []
  | n + 1 => .setMaxSize (k + 1) :: .put p :: raised p (k + 1) n

end Verif.Ring.Spec
