/-!
# Notifications which use the ids: the vocabulary

A program keeps ids of its signal handlers in an array, and the id of a source in a variable. When a handler is disconnected or a
source is removed, the program gets a notification (`GClosureNotify`, `GDestroyNotify`), and may do the same things there.
-/

namespace Verif.MiscCb

/-- What the program does, from wherever it is now -/
inductive Act
  /-- `ids[i] = g_signal_connect_data(instance, ...)` -/
  | connect (i : Nat)
  /-- `gutil_disconnect_handlers(instance, ids, count)` -/
  | disconnect (count : Nat)
  /-- `id = g_idle_add_full(...)` -/
  | add
  /-- `gutil_source_clear(&id)` -/
  | clear
  /-- returns from the notification -/
  | ret
  deriving DecidableEq, Repr

/-- The ids which are there are those of the existing handlers, each one once; zeros don't matter. -/
def Exact (ids live : List Nat) : Prop := (ids.filter (· ≠ 0)).Perm live

end Verif.MiscCb
