/-!
# Notifications about clock changes: the vocabulary
-/

namespace Verif.TimeNotify

/-- What may happen. `new ok`: the client calls `gutil_time_notify_new`, and if a timer has to be created, the kernel does it (`ok`)
or fails to. The other calls are made by whoever has a reference. `clock`: the system clock is set. `dispatch bad`: the
main loop finds that the timer is readable, or (`bad`) reports an error, and calls the callback. `ret`: the handler which is
being executed returns. -/
inductive Act
  | new (ok : Bool)
  | ref
  | unref
  | add
  | remove (h : Nat)
  | clock
  | dispatch (bad : Bool)
  | ret
  deriving DecidableEq, Repr

end Verif.TimeNotify
