import Verif.C.Basic

/-!
# Specification: doing the same thing several times
-/

namespace Verif.RemoveEach.Spec
open Verif.C

/-- `f` is called `n` times, each time with what it returned the time before. -/
def times {α : Type} (f : α → M α) : Nat → α → M α
  | 0, x => .ok x
  | n + 1, x => f x >>= times f n

end Verif.RemoveEach.Spec
