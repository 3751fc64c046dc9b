import Verif.Spec.Ring

/-!
# Free functions which use the ring: the vocabulary
-/

namespace Verif.RingCb
open Verif.Ring.Spec (Ptr Op)

/-- What the program does: calls a function of the ring (from wherever it is now, which may be a free function called by the
ring), or (`ret`) returns from the free function. -/
inductive Act
  | call (op : Op)
  | ret
  deriving DecidableEq, Repr

/-- Everything stored has been taken, is still inside, or has been released, exactly once. -/
def Exact (stored taken inside released : List Ptr) : Prop :=
  stored.Perm (taken ++ (inside ++ released))

/-- The functions which don't remove anything from the ring -/
def Keeps : Op → Prop
  | .clear | .drop _ | .dropLast _ | .setMaxSize _ | .unref | .get | .getLast => False
  | _ => True

/-- What the free function does -/
def body (ops : List Op) : List Act := ops.map .call ++ [.ret]

/-- It may only add something to the end of the ring... -/
def Back (ops : List Op) : Prop := ∀ op ∈ ops, Keeps op ∧ ∀ p, op ≠ .putFront p

/-- ... or to its front. -/
def Front (ops : List Op) : Prop := ∀ op ∈ ops, Keeps op ∧ ∀ p, op ≠ .put p

/-- What it tries to add to the front of the ring, in the order in which that would be there -/
def fronts : List Op → List Ptr
  | [] => []
  | .putFront p :: ops => fronts ops ++ [p]
  | _ :: ops => fronts ops

/-- What it tries to add to the end of the ring -/
def backs : List Op → List Ptr
  | [] => []
  | .put p :: ops => p :: backs ops
  | _ :: ops => backs ops

/-- Removing elements from the front, one at a time; each time something is added to both ends: what's been removed and what's left -/
def fromFront : List Ptr → List (List Ptr × List Ptr) → List Ptr × List Ptr
  | x :: l, (f, b) :: t => (x :: (fromFront (f ++ l ++ b) t).1, (fromFront (f ++ l ++ b) t).2)
  | l, _ => ([], l)

/-- Removing them from the end -/
def fromBack (l : List Ptr) : List (List Ptr × List Ptr) → List Ptr × List Ptr
  | [] => ([], l)
  | (f, b) :: t => (l.getLast?.toList ++ (fromBack (f ++ l.dropLast ++ b) t).1, (fromBack (f ++ l.dropLast ++ b) t).2)

/-- `added` is what the bodies of the free functions have added, that's (some of) what they tried to add. -/
def Adds : List (List Op) → List (List Ptr × List Ptr) → Prop
  | [], [] => True
  | ops :: bodies, (f, b) :: added => f.Sublist (fronts ops) ∧ b.Sublist (backs ops) ∧ Adds bodies added
  | _, _ => False

end Verif.RingCb
