import Verif.C.Basic
import Verif.Spec.IdlePoolThreads

/-!
# Model of `/repo/src/gutil_idlepool.c`, the main loop being run by another thread

That's the case described by the comment at lines 192-209: the thread which has created the pool has no main
context of its own, and the sources of the pool are dispatched by the main thread. Both threads access the pool
without any synchronization, except that reference counting is atomic. The main thread does that in
`gutil_idle_pool_idle` and by dropping the reference which belongs to the source.

There's one pool, and two threads. `Act.go` is one access to what's shared by the thread which owns the pool,
`Act.main` is one made by the main thread, and they may be mixed in any order. The fields `first` and `last` are
only accessed by the thread which owns the pool and by the one which drops the last reference.

Simplified: accesses to `idle_id` take place in the order of the program and are seen by the other thread
immediately (in C, that's a data race); destroy functions don't use the pool (they do in
`Model/IdlePool.lean`); ids of sources are never used again; `Act.dispatch` isn't recursive.
-/

namespace Verif.PoolThreads
open Verif.C Spec

/-- Where the owner of the pool is; the lines are those of src/gutil_idlepool.c. -/
inductive Owner
  /-- outside of any function of the pool -/
  | ready
  /-- `gutil_idle_pool_add`, about to look at `idle_id`, line 243 -/
  | addRead
  /-- about to take a reference for the source, line 249 -/
  | addRef
  /-- about to attach the source, line 250 -/
  | addAttach
  /-- about to assign `idle_id`, line 250 -/
  | addStore (id : Nat)
  /-- `gutil_idle_pool_drain`, about to look at `idle_id`, line 176 -/
  | drainRead
  /-- about to read it, line 177 -/
  | drainRead2
  /-- about to clear it, line 179 -/
  | drainClear (id : Nat)
  /-- about to remove the source, line 180 -/
  | drainRemove (id : Nat)
  deriving DecidableEq, Repr

/-- Where the main thread is. The flag is set if the source has been removed meanwhile. src/gutil_idlepool.c:184-217. -/
inductive Main
  /-- not dispatching any source of this pool -/
  | away
  /-- `gutil_idle_pool_idle`, about to clear `idle_id`, line 190 -/
  | clear (src : Nat) (removed : Bool)
  /-- `gutil_idle_pool_idle` has returned (the thread is a wrong one), about to release the source and the reference -/
  | release (src : Nat) (removed : Bool)
  deriving DecidableEq, Repr

/-- `struct gutil_idle_pool`, src/gutil_idlepool.c:51-58, and the sources of the pool which are attached and
aren't being dispatched. `owned` is the number of references which belong to the owner of the pool. -/
structure State where
  alive : Bool
  refs : Nat
  owned : Nat
  idle : Nat
  items : List Nat
  live : List Nat
  owner : Owner
  main : Main
  nextSource : Nat
  nextId : Nat
  log : List Event
  deriving DecidableEq, Repr

/-- `gutil_idle_pool_new`, src/gutil_idlepool.c:60-69 -/
def new : State where
  alive := true
  refs := 1
  owned := 1
  idle := 0
  items := []
  live := []
  owner := .ready
  main := .away
  nextSource := 1
  nextId := 0
  log := []

/-- Access to the pool. Any dereference of `self` in src/gutil_idlepool.c:60-256. -/
def State.access (s : State) : M Unit := if s.alive then .ok () else .error .useAfterFree

/-- The loop at lines 165-175 of src/gutil_idlepool.c -/
def destroyItems (s : State) : State :=
  { s with items := [], log := s.log ++ s.items.map .destroy }

/-- `g_source_remove`, called at line 180 of src/gutil_idlepool.c. The source which is being dispatched keeps
its reference until the end. If there's no such source (in particular, if the id is zero) it complains. It's an
error for the reference of the source to be the last one, that would deallocate the pool inside `gutil_idle_pool_drain`. -/
def removeSource (s : State) (id : Nat) : M State :=
  if id ∈ s.live then
    if s.refs ≤ 1 then .error .useAfterFree
    else .ok { s with live := s.live.erase id, refs := s.refs - 1 }
  else if s.main = .clear id false then .ok { s with main := .clear id true }
  else if s.main = .release id false then .ok { s with main := .release id true }
  else .ok { s with log := s.log ++ [.critical id] }

/-- Lines 176-181 of src/gutil_idlepool.c, if nobody interferes -/
def removeIdle (s : State) : M State :=
  if s.idle ≠ 0 then removeSource { s with idle := 0 } s.idle else .ok s

/-- What's done when the last reference is gone, src/gutil_idlepool.c:138-142. There are no sources and nobody
else has a reference, hence nobody interferes. -/
def final (s : State) : M State := do
  let s ← removeIdle (destroyItems s)
  if s.alive then .ok { s with alive := false, log := s.log ++ [.freed] } else .error .doubleFree

/-- `gutil_idle_pool_unref`, src/gutil_idlepool.c:132-145 -/
def unref (s : State) : M State := do
  s.access
  if s.refs = 0 then .error .badArg
  else if s.refs = 1 then final { s with refs := 0 }
  else .ok { s with refs := s.refs - 1 }

/-- `gutil_idle_pool_add`, src/gutil_idlepool.c:219-242; the item goes to the end of the list. -/
def addStart (s : State) : M State := do
  s.access
  .ok { s with items := s.items ++ [s.nextId], nextId := s.nextId + 1, log := s.log ++ [.added s.nextId], owner := .addRead }

/-- `gutil_idle_pool_drain`, src/gutil_idlepool.c:157-175 -/
def drainStart (s : State) : M State := do
  s.access
  .ok { destroyItems s with owner := .drainRead }

/-- The owner of the pool goes on, src/gutil_idlepool.c:176-181 and 243-253. -/
def go (s : State) : M State := do
  s.access
  match s.owner with
  | .ready => .error .badArg
  | .addRead => .ok { s with owner := if s.idle = 0 then .addRef else .ready }
  | .addRef => .ok { s with refs := s.refs + 1, owner := .addAttach }
  | .addAttach => .ok { s with live := s.live ++ [s.nextSource], nextSource := s.nextSource + 1, owner := .addStore s.nextSource }
  | .addStore id => .ok { s with idle := id, owner := .ready }
  | .drainRead => .ok { s with owner := if s.idle = 0 then .ready else .drainRead2 }
  | .drainRead2 => .ok { s with owner := .drainClear s.idle }
  | .drainClear id => .ok { s with idle := 0, owner := .drainRemove id }
  | .drainRemove id => do
    let s ← removeSource s id
    .ok { s with owner := .ready }

/-- The main thread goes on: `gutil_idle_pool_idle`, src/gutil_idlepool.c:184-217, where the thread turns out to
be a wrong one, after which the source is removed and its reference is released. -/
def mainGo (s : State) : M State := do
  s.access
  match s.main with
  | .away => .error .badArg
  | .clear src r => .ok { s with idle := 0, main := .release src r }
  | .release _ _ => unref { s with main := .away }

/-- What may happen. `drain` and `unref` in this order are `gutil_idle_pool_destroy`, src/gutil_idlepool.c:147-155. -/
inductive Act
  | ref
  | unref
  | add
  | drain
  | go
  | dispatch (src : Nat)
  | main
  deriving DecidableEq, Repr

/-- One action. `ref` is `gutil_idle_pool_ref`, src/gutil_idlepool.c:121-130. -/
def step (s : State) : Act → M State
  | .ref => do
    s.access
    .ok { s with refs := s.refs + 1, owned := s.owned + 1 }
  | .unref => unref { s with owned := s.owned - 1 }
  | .add => addStart s
  | .drain => drainStart s
  | .go => go s
  | .dispatch src => .ok { s with live := s.live.erase src, main := .clear src false }
  | .main => mainGo s

/-- The rules: the owner of the pool uses it as long as it has a reference, and calls one function at a time; the
main loop dispatches sources which are attached, one at a time.
No code of the library, a rule for those who use src/gutil_idlepool.c:60-256. -/
def Allowed (s : State) : Act → Prop
  | .ref | .unref | .add | .drain => s.owner = .ready ∧ 0 < s.owned
  | .go => s.owner ≠ .ready
  | .dispatch src => s.main = .away ∧ src ∈ s.live
  | .main => s.main ≠ .away

instance (s : State) (a : Act) : Decidable (Allowed s a) := by
  cases a <;> unfold Allowed <;> infer_instance

/-- The states which can be reached by following the rules, and those additional ones which are given by `P`.
No code of the library, a sequence of uses of src/gutil_idlepool.c:60-256. -/
inductive Reach (P : State → Act → Prop) : State → Prop
  | new : Reach P new
  | step {s s' : State} {a : Act} : Reach P s → Allowed s a → P s a → step s a = .ok s' → Reach P s'

/-- A number of actions. No code of the library, a sequence of uses of src/gutil_idlepool.c:60-256. -/
def exec (s : State) : List Act → M State
  | [] => .ok s
  | a :: t =>
    match step s a with
    | .ok s => exec s t
    | .error e => .error e

/-- Are the rules being followed? No code of the library, a rule for those who use src/gutil_idlepool.c:60-256. -/
def legal (s : State) : List Act → Bool
  | [] => true
  | a :: t =>
    if Allowed s a then
      match step s a with
      | .ok s => legal s t
      | .error _ => false
    else false

/-- The source isn't dispatched until its id has been stored.
No code of the library, a rule for those who use src/gutil_idlepool.c:60-256. -/
def Stored (s : State) : Act → Prop
  | .dispatch src => s.owner ≠ .addStore src
  | _ => True

/-- The owner does the rest of what it's doing, and the other thread isn't interfering.
No code of the library, a sequence of uses of src/gutil_idlepool.c:60-256. -/
def finish : Nat → State → M State
  | 0, s => .ok s
  | n + 1, s =>
    if s.owner = .ready then .ok s
    else
      match go s with
      | .ok s => finish n s
      | .error e => .error e

end Verif.PoolThreads
