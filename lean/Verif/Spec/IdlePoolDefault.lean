/-!
# Default pools of threads: the history (no code from the model)
-/

namespace Verif.PoolDefault

/-- What happens. Threads and pools are numbered; no number is used for two different pools. -/
inductive Event
  /-- `gutil_idle_pool_get_default`, called by the thread `t` or by another function on behalf of it, has returned the pool `p` -/
  | got (t p : Nat)
  /-- the thread exits -/
  | exits (t : Nat)
  deriving DecidableEq, Repr

/-- The pool `p` has been returned to the thread `t`, which hasn't exited since then. -/
def Current (hist : List Event) (t p : Nat) : Prop := ∃ pre post, hist = pre ++ .got t p :: post ∧ .exits t ∉ post

end Verif.PoolDefault
