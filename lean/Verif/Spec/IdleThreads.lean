/-!
# History of an idle queue which another thread adds to (no code from the model)
-/

namespace Verif.IdleThreads

/-- What happens. `d` is the data, it identifies the callback. -/
inductive Event
  /-- the thread calls `gutil_idle_queue_add_full` -/
  | adding (d : Nat)
  /-- the call returns -/
  | added
  /-- the main loop begins to run the callbacks -/
  | running
  /-- the callback is invoked (and then the destroy function) by the main loop -/
  | ran (d : Nat)
  /-- the main loop has run the callbacks -/
  | finished
  deriving DecidableEq, Repr

/-- What has been added, or is being added, in that order -/
def adds (h : List Event) : List Nat := h.filterMap (fun | .adding d => some d | _ => none)

/-- What has been run by the main loop, in that order -/
def runs (h : List Event) : List Nat := h.filterMap (fun | .ran d => some d | _ => none)

/-- The thread is adding something. -/
def Adding (h : List Event) : Prop := ∃ d a b, h = a ++ .adding d :: b ∧ .added ∉ b

/-- The main loop is running the callbacks. -/
def Running (h : List Event) : Prop := ∃ a b, h = a ++ .running :: b ∧ .finished ∉ b

end Verif.IdleThreads
