/-!
# Specification of arrays being added to themselves (no code from the model)
-/

namespace Verif.IntArray.Self.Spec

/-- `n` elements starting with the one at `i` -/
def part {α : Type} (l : List α) (i n : Nat) : List α := (l.drop i).take n

/-- The list after the values have been inserted at this position -/
def inserted {α : Type} (l : List α) (pos : Nat) (vals : List α) : List α := l.take pos ++ vals ++ l.drop pos

end Verif.IntArray.Self.Spec
