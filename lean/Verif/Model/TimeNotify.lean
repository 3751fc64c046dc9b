import Verif.C.Basic
import Verif.Spec.TimeNotify

/-!
# Model of `/repo/src/gutil_timenotify.c`

A transition system. The client may do anything it's allowed to outside of handlers as well as in a handler; the kernel may
set the clock at any moment.

Contracts. Kernel: a timer with `TFD_TIMER_CANCEL_ON_SET` becomes readable when the clock is set, and stops being that when it's
read; otherwise it never expires (see `timeTMax`). GObject: reference counter, the weak pointer is cleared when the counter gets
to zero. GSignal: handlers are called in the order of connection, those which are disconnected before their turn aren't, those
which are connected in the meantime aren't either. GIOChannel: the watch has a reference to the channel, `g_io_channel_shutdown`
closes the descriptor and turns `close_on_unref` off. GLib's main loop: the source isn't dispatched while it's being dispatched.

Simplifications: one thread; the client doesn't use `g_object_weak_ref`, `g_object_run_dispose` or other means of running its code
while the object is being finalized; ids and descriptors aren't reused.
-/

namespace Verif.TimeNotify
open Verif.C

/-- `GIOChannel` (GLib) -/
structure Chan where
  fd : Nat
  refs : Nat
  closeOnUnref : Bool
  deriving DecidableEq, Repr

/-- `struct gutil_time_notify`, src/gutil_timenotify.c:60-64, with what it inherits from `GObject`. `gen` is the identity. -/
structure Obj where
  gen : Nat
  refs : Nat
  chan : Option Chan
  watch : Nat
  handlers : List Nat
  deriving DecidableEq, Repr

/-- The source created by `g_io_add_watch`; `gen` is which object it passes to the callback. src/gutil_timenotify.c:185-187. -/
structure Source where
  id : Nat
  fd : Nat
  gen : Nat
  deriving DecidableEq, Repr

/-- `inst` is the static variable `gutil_time_notify_instance` (src/gutil_timenotify.c:87) and `obj` the memory it points to, or
pointed to. `client` is the number of references which the client has. `emit` are the handlers which remain to be
called in the emission in progress. The rest is the state of the main loop and the kernel, and observations: descriptors which have
been opened and closed, handlers which have been called, the number of clock changes. -/
structure State where
  inst : Option Nat
  obj : Option Obj
  client : Nat
  emit : Option (List Nat)
  sources : List Source
  fds : List Nat
  readable : List Nat
  opened : List Nat
  closed : List Nat
  calls : List Nat
  ticks : Nat
  rounds : Nat
  created : Nat
  next : Nat
  deriving DecidableEq, Repr

/-- Nothing has been done yet; src/gutil_timenotify.c:87 -/
def init : State :=
  { inst := none, obj := none, client := 0, emit := none, sources := [], fds := [], readable := [], opened := [], closed := [], calls := [], ticks := 0
    rounds := 0, created := 0, next := 1 }

/-- Dereferencing the object. Any dereference of `self` in src/gutil_timenotify.c:83-216. -/
def State.self (s : State) : M Obj :=
  match s.obj with
  | some o => .ok o
  | none => .error .useAfterFree

/-- `close(fd)`. Done by GLib, src/gutil_timenotify.c:212-213. -/
def State.close (s : State) (fd : Nat) : State :=
  { s with fds := s.fds.erase fd, readable := s.readable.filter (· ≠ fd), closed := s.closed ++ [fd] }

/-- `gutil_time_notify_init`, src/gutil_timenotify.c:171-200, in a new object, with the weak pointer set to it
(src/gutil_timenotify.c:92-94). -/
def create (s : State) (ok : Bool) : State :=
  if ok then
    let fd := s.next
    let id := s.next + 1
    { s with obj := some { gen := s.created, refs := 1, chan := some { fd, refs := 2, closeOnUnref := true }, watch := id, handlers := [] }
             inst := some s.created
             sources := { id, fd, gen := s.created } :: s.sources
             fds := fd :: s.fds, opened := s.opened ++ [fd], created := s.created + 1, next := s.next + 2 }
  else
    { s with obj := some { gen := s.created, refs := 1, chan := none, watch := 0, handlers := [] }
             inst := some s.created, created := s.created + 1 }

/-- `gutil_time_notify_ref`, src/gutil_timenotify.c:99-107 -/
def ref (s : State) : M State := do
  let o ← s.self
  .ok { s with obj := some { o with refs := o.refs + 1 } }

/-- `gutil_time_notify_new`, src/gutil_timenotify.c:83-97 -/
def new (s : State) (ok : Bool) : M State := do
  match s.inst with
  | some _ => ref s
  | none => .ok (create s ok)

/-- `g_io_channel_unref` (GLib) -/
def chanUnref (s : State) (c : Chan) : M (State × Chan) :=
  if c.refs = 0 then .error .useAfterFree
  else if c.refs = 1 then .ok (if c.closeOnUnref then s.close c.fd else s, { c with refs := 0 })
  else .ok (s, { c with refs := c.refs - 1 })

/-- The source with this id is removed by `g_source_remove`, or because its callback has returned `G_SOURCE_REMOVE` (GLib):
it drops its reference to the channel. There must be one. -/
def sourceRemove (s : State) (c : Chan) (id : Nat) : M (State × Chan) :=
  if s.sources.any (·.id == id) then chanUnref { s with sources := s.sources.filter (·.id ≠ id) } c
  else .error .badArg

/-- `gutil_time_notify_finalize`, src/gutil_timenotify.c:202-216 -/
def finalize (s : State) (o : Obj) : M State := do
  match o.chan with
  | none => .ok { s with obj := none }
  | some c => do
    -- gutil_source_remove, src/gutil_misc.c
    let (s, c) ← if o.watch ≠ 0 then sourceRemove s c o.watch else .ok (s, c)
    -- g_io_channel_shutdown
    let (s, c) := (s.close c.fd, { c with closeOnUnref := false })
    let (s, _) ← chanUnref s c
    .ok { s with obj := none }

/-- `gutil_time_notify_unref`, src/gutil_timenotify.c:109-116 -/
def unref (s : State) : M State := do
  let o ← s.self
  if o.refs = 1 then finalize { s with inst := none } o
  else .ok { s with obj := some { o with refs := o.refs - 1 } }

/-- `gutil_time_notify_add_handler`, src/gutil_timenotify.c:118-126 -/
def add (s : State) : M State := do
  let o ← s.self
  .ok { s with obj := some { o with handlers := o.handlers ++ [s.next] }, next := s.next + 1 }

/-- `gutil_time_notify_remove_handler`, src/gutil_timenotify.c:128-136 -/
def remove (s : State) (h : Nat) : M State := do
  let o ← s.self
  .ok { s with obj := some { o with handlers := o.handlers.filter (· ≠ h) } }

/-- `g_signal_emit` goes on with the next handler which is still connected, or is done: src/gutil_timenotify.c:165-167. -/
def pump (s : State) : List Nat → M State
  | [] => unref { s with emit := none }
  | h :: t => do
    let o ← s.self
    if h ∈ o.handlers then .ok { s with emit := some t, calls := s.calls ++ [h] }
    else pump s t

/-- `gutil_time_notify_callback`, src/gutil_timenotify.c:138-169, being called by the source `src`. -/
def callback (s : State) (src : Source) (bad : Bool) : M State := do
  let o ← s.self
  if o.gen ≠ src.gen then .error .useAfterFree
  else if bad then
    match o.chan with
    | none => .error .nullDeref
    | some c => do
      let (s, c) ← sourceRemove s c src.id
      .ok { s with obj := some { o with chan := some c, watch := 0 } }
  else do
    let s ← ref s
    match o.chan with
    | none => .error .nullDeref
    | some c => pump { s with readable := s.readable.filter (· ≠ c.fd), rounds := s.rounds + 1 } o.handlers

/-- A call to src/gutil_timenotify.c:83-216, or something that happens outside -/
def step (s : State) : Act → M State
  | .new ok => do
    let s ← new s ok
    .ok { s with client := s.client + 1 }
  | .ref => do
    let s ← ref s
    .ok { s with client := s.client + 1 }
  | .unref => unref { s with client := s.client - 1 }
  | .add => add s
  | .remove h => remove s h
  | .clock => .ok { s with readable := s.fds, ticks := s.ticks + 1 }
  | .dispatch bad =>
    match s.sources with
    | [] => .error .badArg
    | src :: _ => callback s src bad
  | .ret =>
    match s.emit with
    | none => .error .badArg
    | some t => pump s t

/-- The rules: the client uses the object if it has a reference; the main loop calls the callback when the timer is readable (or
there's an error) and not recursively. No code of the library, a rule for those who use src/gutil_timenotify.c:83-216. -/
def Allowed (s : State) : Act → Prop
  | .new _ | .clock => True
  | .ref | .unref | .add | .remove _ => 0 < s.client
  | .dispatch bad => s.emit = none ∧ match s.sources with
    | [] => False
    | src :: _ => bad = true ∨ src.fd ∈ s.readable
  | .ret => s.emit ≠ none

instance (s : State) (a : Act) : Decidable (Allowed s a) := by
  cases a <;> unfold Allowed <;> try infer_instance
  rename_i bad
  cases h : s.sources with
  | nil => dsimp only; infer_instance
  | cons src t => dsimp only; infer_instance

/-- What can be reached by following the rules, and additional ones given by `P`.
No code of the library, a sequence of uses of src/gutil_timenotify.c:83-216. -/
inductive Reach (P : Act → Prop) : State → Prop
  | init : Reach P init
  | step {s s' : State} {a : Act} : Reach P s → Allowed s a → P a → step s a = .ok s' → Reach P s'

/-- A number of steps. No code of the library, a sequence of uses of src/gutil_timenotify.c:83-216. -/
def exec (s : State) : List Act → M State
  | [] => .ok s
  | a :: t =>
    match step s a with
    | .ok s => exec s t
    | .error e => .error e

/-- Are the rules being followed? No code of the library, a rule for those who use src/gutil_timenotify.c:83-216. -/
def legal (s : State) : List Act → Bool
  | [] => true
  | a :: t =>
    if Allowed s a then
      match step s a with
      | .ok s => legal s t
      | .error _ => false
    else false

/-- `TIME_T_MAX`, src/gutil_timenotify.c:58: `(time_t)((1UL << ((sizeof(time_t)*8)-1)) - 1)`, for the given sizes of `unsigned long`
and (signed) `time_t`, in bits. -/
def timeTMax (long time : Nat) : M Int :=
  if time - 1 < long then
    -- unsigned long arithmetic
    let x : Nat := (2 ^ (time - 1) % 2 ^ long + (2 ^ long - 1)) % 2 ^ long
    -- conversion to time_t
    let y : Nat := x % 2 ^ time
    .ok (if y < 2 ^ (time - 1) then (y : Int) else (y : Int) - 2 ^ time)
  else .error .badShift

end Verif.TimeNotify
