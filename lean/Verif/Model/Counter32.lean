import Verif.C.Basic
import Verif.Spec.Counter32

/-!
# Reference counters of 32 bits

`gint ref_count` of ints (src/gutil_ints.c:45), rings (src/gutil_ring.c:42), histories (src/gutil_history.c:48), idle queues
(src/gutil_idlequeue.c:54), idle pools (src/gutil_idlepool.c:52), weak references (src/gutil_weakref.c:57) and of the inotify object
(src/gutil_inotify.c:53). It's an unbounded number in the other models. The atomic operations on it wrap around (that's how
`__atomic_fetch_add` and `__atomic_fetch_sub` of gcc work, there's no undefined behaviour in them), and take effect one after another, no matter which
thread they are made by. `ref` and `unref` are the same for all of these types, the lines are listed in `Model/Shared.lean`.
-/

namespace Verif.Counter32
open Verif.C

/-- The counter (see above), whether the object is allocated, and how many times it has been deallocated. The object belongs to one of the types
listed above, e.g. src/gutil_ints.c:42-48. -/
structure State where
  count : BitVec 32
  alive : Bool
  released : Nat
  deriving DecidableEq, Repr

/-- `g_atomic_int_set(&ref_count, 1)`: src/gutil_ints.c:92, src/gutil_ring.c:73, src/gutil_history.c:79, src/gutil_idlequeue.c:130,
src/gutil_idlepool.c:67, src/gutil_weakref.c:67, src/gutil_inotify.c:214 -/
def new : State := ⟨1#32, true, 0⟩

/-- Access to the object, src/gutil_ints.c:130 and 141, and the same for other types -/
def State.access (s : State) : M Unit := if s.alive then .ok () else .error .useAfterFree

/-- `g_atomic_int_inc(&ref_count)`: src/gutil_ints.c:130, src/gutil_ring.c:90, src/gutil_history.c:95, src/gutil_idlequeue.c:148,
src/gutil_idlepool.c:127, src/gutil_weakref.c:78, src/gutil_inotify.c:107 -/
def ref (s : State) : M State := do
  s.access
  .ok { s with count := s.count + 1#32 }

/-- `if (g_atomic_int_dec_and_test(&ref_count))` and what follows: src/gutil_ints.c:141-146, src/gutil_ring.c:101-112, src/gutil_history.c:106-108,
src/gutil_idlequeue.c:159-162, src/gutil_idlepool.c:138-143, src/gutil_weakref.c:89-92, src/gutil_inotify.c:117-125 -/
def unref (s : State) : M State := do
  s.access
  if s.count - 1#32 = 0#32 then .ok ⟨s.count - 1#32, false, s.released + 1⟩
  else .ok { s with count := s.count - 1#32 }

/-- No code of its own, it goes to the functions above (src/gutil_ints.c:125-148 and so on) -/
def step (s : State) : Op → M State
  | .ref => ref s
  | .unref => unref s

/-- No code of the library, a sequence of uses of src/gutil_ints.c:125-148 and so on -/
def run (s : State) : List Op → M State
  | [] => .ok s
  | op :: t => do
    let s ← step s op
    run s t

/-- `GASSERT(self->ref_count > 0)`, which all of these functions start with in debug builds, except for those of ints: src/gutil_ring.c:89 and 100,
src/gutil_history.c:94 and 105, src/gutil_idlequeue.c:147 and 158, src/gutil_idlepool.c:126 and 137, src/gutil_weakref.c:77 and 88, src/gutil_inotify.c:106
and 116. The counter is a signed number. -/
def debugStep (s : State) (op : Op) : M State := do
  s.access
  if s.count.toInt > 0 then step s op else .error .assertFail

/-- No code of the library, a sequence of uses of src/gutil_ring.c:84-114 and so on in a debug build -/
def debugRun (s : State) : List Op → M State
  | [] => .ok s
  | op :: t => do
    let s ← debugStep s op
    debugRun s t

end Verif.Counter32
