import Verif.Spec.IdleQueue

/-!
# Specification of the idle queue if callbacks do nothing to it (no code from the model)
-/

namespace Verif.Idle

/-- An item: its number, and whether it has got `run` and `destroy` callbacks -/
abbrev Entry := Nat × Bool × Bool

/-- The number of callbacks -/
def callbacks : List Entry → Nat
  | [] => 0
  | (_, run, destroy) :: t => run.toNat + destroy.toNat + callbacks t

/-- The items are run in their order, and destroyed. -/
def runEach (d : Nat) : List Entry → List Event
  | [] => []
  | (id, run, destroy) :: t => (if run then [.run d id] else []) ++ (if destroy then [.destroy id] else []) ++ runEach d t

/-- One call to `gutil_idle_queue_run` -/
def iteration (d : Nat) (l : List Entry) : List Event := .begin d :: runEach d l ++ [.ended d]

/-- The items are cancelled in their order, and destroyed. -/
def cancelEach : List Entry → List Event
  | [] => []
  | (id, _, destroy) :: t => .cancel id :: (if destroy then [.destroy id] else []) ++ cancelEach t

/-- The number of `destroy` callbacks -/
def destructors : List Entry → Nat
  | [] => 0
  | (_, _, destroy) :: t => destroy.toNat + destructors t

/-- One call to `gutil_idle_queue_cancel_all`, `n` items having been added before -/
def cancellation (n : Nat) (l : List Entry) : List Event := .allCalled n :: cancelEach l ++ [.allDone n]

end Verif.Idle
