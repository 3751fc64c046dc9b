/-!
# Specification of the idle pool (no code from the model)

The history of a pool is a list of events, the oldest one first.
-/

namespace Verif.Pool

/-- What happens to a pool. The items are numbered in the order in which they have been added, starting with zero. -/
inductive Event
  /-- a pointer has been added -/
  | added (id : Nat)
  /-- its destroy function has been called -/
  | destroy (id : Nat)
  /-- the pool has been drained; `depth` is the number of callbacks one inside of another one in which
  it has happened (zero being outside of any callback) -/
  | drained (depth : Nat)
  deriving DecidableEq, Repr

/-- What has been added, in that order -/
def adds (log : List Event) : List Nat := log.filterMap (fun | .added id => some id | _ => none)

/-- What has been destroyed, in that order -/
def destroys (log : List Event) : List Nat := log.filterMap (fun | .destroy id => some id | _ => none)

/-- Something happens right after `pre` -/
def At (log pre : List Event) (e : Event) : Prop := ∃ post, log = pre ++ e :: post

end Verif.Pool
