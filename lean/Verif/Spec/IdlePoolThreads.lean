/-!
# What the clients of an idle pool can see, with its sources in a main loop run by another thread
-/

namespace Verif.PoolThreads.Spec

/-- `added`: `gutil_idle_pool_add` has been called; `destroy`: the destroy function of the item is called;
`critical`: `g_source_remove` complains about this id (there's no such source); `freed`: the pool is deallocated. -/
inductive Event
  | added (item : Nat)
  | destroy (item : Nat)
  | critical (id : Nat)
  | freed
  deriving DecidableEq, Repr

/-- The items which have been added, in this order -/
def added : List Event → List Nat
  | [] => []
  | .added i :: t => i :: added t
  | _ :: t => added t

/-- The items which have been destroyed, in this order -/
def destroyed : List Event → List Nat
  | [] => []
  | .destroy i :: t => i :: destroyed t
  | _ :: t => destroyed t

end Verif.PoolThreads.Spec
