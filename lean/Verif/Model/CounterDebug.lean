import Verif.Model.Shared
import Verif.Model.WeakRef
import Verif.Model.TimeNotify

/-!
# Assertions about reference counters, and about the timer

The functions of `Model/Shared.lean`, `Model/WeakRef.lean` and `Model/TimeNotify.lean` in a debug build. See `gassert` about what a
failed assertion does.
-/

namespace Verif.Shared.Debug
open Verif.C

/-- The functions which start with `GASSERT(self->ref_count > 0)`. Those are `ref` and `unref` of rings (src/gutil_ring.c:89 and 100), histories
(src/gutil_history.c:94 and 105), idle queues (src/gutil_idlequeue.c:147 and 158), idle pools (src/gutil_idlepool.c:126 and 137) and
weak references (src/gutil_weakref.c:77 and 88). -/
inductive Fn
  | ref
  | unref
  deriving DecidableEq, Repr

/-- `pending t`: the thread has called this function, which has made its assertion but hasn't done anything else yet.
The counters are those of src/gutil_ring.c:84-114, src/gutil_history.c:89-110, src/gutil_idlequeue.c:142-164, src/gutil_idlepool.c:121-145, src/gutil_weakref.c:72-94. -/
structure State where
  s : Shared.State
  pending : Nat → Option Fn

/-- A new object with one reference; the functions are at src/gutil_ring.c:84-114, src/gutil_history.c:89-110, src/gutil_idlequeue.c:142-164, src/gutil_idlepool.c:121-145, src/gutil_weakref.c:72-94. -/
def new (kind : Kind) (n : Nat) : State := { s := Shared.new kind n, pending := fun _ => none }

/-- The assertion: the counter is read, and compared to zero.
`GASSERT(self->ref_count > 0)`, the lines are listed at `Fn`; `GASSERT` is at include/gutil_log.h:251-253. -/
def check (s : Shared.State) : M Unit := do
  s.access
  gassert (s.refs > 0)

/-- `call t fn`: the thread calls the function, and makes the assertion; `go t`: then it does the rest, while other threads may have
done anything in the meantime. `other`: what has no assertions, and the rest of deallocation.
No code of its own, it goes to the model of src/gutil_ring.c:84-114, src/gutil_history.c:89-110, src/gutil_idlequeue.c:142-164, src/gutil_idlepool.c:121-145, src/gutil_weakref.c:72-94. -/
inductive Act
  | call (t : Nat) (fn : Fn)
  | go (t : Nat)
  | other (a : Shared.Act)
  deriving DecidableEq, Repr

/-- What the function does after its assertion.
No code of its own, it goes to the model of src/gutil_ring.c:84-114, src/gutil_history.c:89-110, src/gutil_idlequeue.c:142-164, src/gutil_idlepool.c:121-145, src/gutil_weakref.c:72-94. -/
def Fn.act : Fn → Nat → Shared.Act
  | .ref, t => .ref t
  | .unref, t => .unref t

/-- No code of its own, it goes to the model of src/gutil_ring.c:84-114, src/gutil_history.c:89-110, src/gutil_idlequeue.c:142-164, src/gutil_idlepool.c:121-145, src/gutil_weakref.c:72-94. -/
def step (s : State) : Act → M State
  | .call t fn => do
    check s.s
    .ok { s with pending := fun u => if u = t then some fn else s.pending u }
  | .go t =>
    match s.pending t with
    | none => .error .badArg
    | some fn => do
      let s' ← Shared.step s.s (fn.act t)
      .ok { s := s', pending := fun u => if u = t then none else s.pending u }
  | .other a => do
    let s' ← Shared.step s.s a
    .ok { s with s := s' }

/-- The thread which does that.
No code of the library, bookkeeping for the properties of src/gutil_ring.c:84-114, src/gutil_history.c:89-110, src/gutil_idlequeue.c:142-164, src/gutil_idlepool.c:121-145, src/gutil_weakref.c:72-94. -/
def actor : Shared.Act → Nat
  | .ref t | .use t | .give t _ | .unref t | .toData t | .next t => t

/-- The rules are the same as those for release builds, as far as the start of the function is concerned.
No code of the library, a rule for those who use src/gutil_ring.c:84-114, src/gutil_history.c:89-110, src/gutil_idlequeue.c:142-164, src/gutil_idlepool.c:121-145, src/gutil_weakref.c:72-94. -/
def Allowed (s : State) : Act → Prop
  | .call t fn => s.pending t = none ∧ Shared.Allowed s.s (fn.act t)
  | .go t => s.pending t ≠ none
  | .other a => s.pending (actor a) = none ∧ Shared.Allowed s.s a ∧ (match a with | .ref _ | .unref _ | .toData _ => False | _ => True)

/-- What can be reached by following the rules, by `n + 1` threads.
No code of the library, a sequence of uses of src/gutil_ring.c:84-114, src/gutil_history.c:89-110, src/gutil_idlequeue.c:142-164, src/gutil_idlepool.c:121-145, src/gutil_weakref.c:72-94. -/
inductive Reach (kind : Kind) (n : Nat) : State → Prop
  | new : Reach kind n (new kind n)
  | step {s s' : State} {a : Act} : Reach kind n s → Allowed s a → step s a = .ok s' → Reach kind n s'

end Verif.Shared.Debug

namespace Verif.Weak.Debug
open Verif.C

/-- `gutil_weakref_ref`, src/gutil_weakref.c:72-81, the assertion is at line 77. -/
def ref (s : State) : M State := do
  s.access
  gassert (s.refs > 0)
  Weak.ref s

/-- `gutil_weakref_unref`, src/gutil_weakref.c:83-94, the assertion is at line 88. -/
def unref (s : State) : M State := do
  s.access
  gassert (s.refs > 0)
  Weak.unref s

/-- The other functions have no assertions. src/gutil_weakref.c:61-111. -/
def step (s : State) : Act → M State
  | .ref => ref s
  | .unref => unref s
  | a => Weak.step s a

end Verif.Weak.Debug

namespace Verif.TimeNotify.Debug
open Verif.C

/-- `GIOStatus` (GLib) -/
inductive Status
  | error
  | normal
  | eof
  | again
  deriving DecidableEq, Repr

/-- `g_io_channel_read_chars` on the channel, src/gutil_timenotify.c:157-158, and whether there's an error. Reading from a timer which has been
cancelled because the clock has been set fails (`ECANCELED`), from one which isn't readable blocks, since the
descriptor is a blocking one (src/gutil_timenotify.c:175), and the timer never expires. -/
def read (s : State) (c : Chan) : M (Status × Bool) :=
  if c.fd ∈ s.fds then
    if c.fd ∈ s.readable then .ok (.error, true) else .error .diverge
  else .error .badArg

/-- `gutil_time_notify_callback`, src/gutil_timenotify.c:138-169, with the assertion at line 159 -/
def callback (s : State) (src : Source) (bad : Bool) : M State := do
  if ¬ bad then
    let o ← s.self
    match o.chan with
    | none => .error .nullDeref
    | some c => do
      let (status, error) ← read s c
      gassert (status = .error ∧ error = true)
  TimeNotify.callback s src bad

/-- The other functions have no assertions. src/gutil_timenotify.c:83-216. -/
def step (s : State) : Act → M State
  | .dispatch bad =>
    match s.sources with
    | [] => .error .badArg
    | src :: _ => callback s src bad
  | a => TimeNotify.step s a

end Verif.TimeNotify.Debug
