/-!
# Specification of the idle queue (no code from the model)

The history of a queue is a list of events, the oldest one first. The properties are stated in terms
of the history and of the items which are in the queue.
-/

namespace Verif.Idle

/-- What happens to a queue. Items are numbered in the order in which they have been added, starting
with zero; `d` is the number of the invocation of the idle callback. -/
inductive Event
  /-- an item has been added -/
  | added (id : Nat) (run destroy : Bool)
  /-- the main loop has called `gutil_idle_queue_run` -/
  | begin (d : Nat)
  /-- it has returned -/
  | ended (d : Nat)
  /-- `run` of the item has been called by invocation `d` of `gutil_idle_queue_run` -/
  | run (d id : Nat)
  /-- `destroy` of the item has been called -/
  | destroy (id : Nat)
  /-- the item has been removed by one of the cancel functions -/
  | cancel (id : Nat)
  /-- `gutil_idle_queue_cancel_all` has been called, `bound` items having been added before -/
  | allCalled (bound : Nat)
  /-- it has returned -/
  | allDone (bound : Nat)
  deriving DecidableEq, Repr

/-- The items which have been added, in that order -/
def adds (log : List Event) : List Nat :=
  log.filterMap (fun | .added id _ _ => some id | _ => none)

/-- The items which have been run, in that order -/
def runs (log : List Event) : List Nat :=
  log.filterMap (fun | .run _ id => some id | _ => none)

/-- The idle callbacks, in the order of their invocation -/
def begins (log : List Event) : List Nat :=
  log.filterMap (fun | .begin d => some d | _ => none)

/-- Something happens right after `pre` -/
def At (log pre : List Event) (e : Event) : Prop := ∃ post, log = pre ++ e :: post

end Verif.Idle
