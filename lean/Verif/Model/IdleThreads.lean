import Verif.C.Basic
import Verif.Spec.IdleThreads

/-!
# An idle queue which another thread adds to

`g_idle_add` may be called by any thread, and callbacks are invoked by the main loop. Here the same is done with an idle queue: a thread calls
`gutil_idle_queue_add_full`, and the main loop runs the callbacks. There are no locks in src/gutil_idlequeue.c. Each step accesses one field of the queue or of an item;
steps of the thread and of the main loop are interleaved in any order.

Simplifications: reads and writes of one variable are atomic and nothing is reordered (formally any such race is undefined in C11); there's one such thread, all
items have both functions, and these don't use the queue; nothing is cancelled and the queue isn't deallocated (`Model/IdleQueue.lean` has all of that, with one
thread); memory which has been freed isn't reused, using it is an error; source ids aren't reused; GASSERT does nothing.
-/

namespace Verif.IdleThreads
open Verif.C

/-- `struct gutil_idle_queue_item` (src/gutil_idlequeue.c:44-51) and whether it has been freed. The address of an item is its position in the list of all items. -/
structure Item where
  data : Nat
  next : Option Nat
  completed : Bool
  freed : Bool
  deriving DecidableEq, Repr

/-- Where the thread is, in `gutil_idle_queue_add_tag_full`, with the item which it has allocated. It's going to:
`test`: compare `q->last` with `NULL`, line 213;
`last`: read `q->last` again, line 215; `link`: store the address to `next` of that one;
`first`: store it to `q->first`, line 218;
`tail`: store it to `q->last`, line 220;
`source`: test `q->source_id`, line 223;
`attach`: call `g_idle_add`, line 224; `store`: store what it returns. -/
inductive Work
  | idle
  | test (a : Nat)
  | last (a : Nat)
  | link (a b : Nat)
  | first (a : Nat)
  | tail (a : Nat)
  | source
  | attach
  | store (id : Nat)
  deriving DecidableEq, Repr

/-- Where the main loop is, in `gutil_idle_queue_run` called for the source `id`. It's going to:
`start`: read `q->first`, line 88;
`mark`, `markNext`: set `completed` and read `next`, lines 89 and 88;
`loop`, `cond`: read `q->first`, and `completed` of that item, line 92;
`take`, `remove`: read `next` and store it to `q->first`, line 94;
`empty`, `clear`: test `q->first`, line 95, and reset `q->last`, line 96;
`push`: store `done` to `next`, line 100 (line 101 changes a local variable);
`call`: invoke the callbacks, lines 104-110;
`free`: free the first item of the list, line 114;
`check`: test `q->first`, line 116;
`zero`: reset `q->source_id`, line 120;
`ret`: return to the main loop, which removes the source, line 121. -/
inductive Main
  | idle
  | start (id : Nat)
  | mark (id a : Nat)
  | markNext (id a : Nat)
  | loop (id : Nat) (done : Option Nat)
  | cond (id a : Nat) (done : Option Nat)
  | take (id a : Nat) (done : Option Nat)
  | remove (id a : Nat) (n done : Option Nat)
  | empty (id a : Nat) (done : Option Nat)
  | clear (id a : Nat) (done : Option Nat)
  | push (id a : Nat) (done : Option Nat)
  | call (id a : Nat)
  | free (id : Nat) (p : Option Nat)
  | check (id : Nat)
  | zero (id : Nat)
  | ret (id : Nat)
  deriving DecidableEq, Repr

/-- `struct gutil_idle_queue` (src/gutil_idlequeue.c:53-58), items, idle sources of the main loop, and where the threads are -/
structure State where
  items : List Item
  first : Option Nat
  last : Option Nat
  source : Option Nat
  live : List Nat
  nextSource : Nat
  main : Main
  work : Work
  hist : List Event
  deriving DecidableEq, Repr

/-- `gutil_idle_queue_new`, src/gutil_idlequeue.c:125-132 -/
def init : State := ⟨[], none, none, none, [], 1, .idle, .idle, []⟩

/-- Dereferences the pointer to an item, src/gutil_idlequeue.c:88-114 and 215 -/
def get (s : State) (a : Nat) : M Item :=
  match s.items[a]? with
  | some i => if i.freed then .error .useAfterFree else .ok i
  | none => .error .badPtr

/-- Stores something to a field of an item, src/gutil_idlequeue.c:89, 100, 114 and 215 -/
def put (s : State) (a : Nat) (i : Item) : State := { s with items := s.items.set a i }

/-- `gutil_idle_queue_add_full` (src/gutil_idlequeue.c:175-183) is called, and allocates the item, lines 204-210 -/
def add (s : State) (d : Nat) : State :=
  { s with items := s.items ++ [⟨d, none, false, false⟩], work := .test s.items.length, hist := s.hist ++ [.adding d] }

/-- One step of the thread, src/gutil_idlequeue.c:213-225 -/
def workStep (s : State) : M State :=
  match s.work with
  | .idle => .error .badArg
  | .test a => .ok { s with work := if s.last.isSome then .last a else .first a }
  | .last a =>
    match s.last with
    | some b => .ok { s with work := .link a b }
    | none => .error .nullDeref
  | .link a b => do
    let i ← get s b
    .ok { put s b { i with next := some a } with work := .tail a }
  | .first a => .ok { s with first := some a, work := .tail a }
  | .tail a => .ok { s with last := some a, work := .source }
  | .source => if s.source.isSome then .ok { s with work := .idle, hist := s.hist ++ [.added] } else .ok { s with work := .attach }
  | .attach => .ok { s with live := s.live ++ [s.nextSource], nextSource := s.nextSource + 1, work := .store s.nextSource }
  | .store id => .ok { s with source := some id, work := .idle, hist := s.hist ++ [.added] }

/-- One step of the main loop, src/gutil_idlequeue.c:73-123 -/
def mainStep (s : State) : M State :=
  match s.main with
  | .idle => .error .badArg
  | .start id => .ok { s with main := match s.first with | some a => .mark id a | none => .loop id none }
  | .mark id a => do
    let i ← get s a
    .ok { put s a { i with completed := true } with main := .markNext id a }
  | .markNext id a => do
    let i ← get s a
    .ok { s with main := match i.next with | some b => .mark id b | none => .loop id none }
  | .loop id done => .ok { s with main := match s.first with | some a => .cond id a done | none => .free id done }
  | .cond id a done => do
    let i ← get s a
    .ok { s with main := if i.completed then .take id a done else .free id done }
  | .take id a done => do
    let i ← get s a
    .ok { s with main := .remove id a i.next done }
  | .remove id a n done => .ok { s with first := n, main := .empty id a done }
  | .empty id a done => .ok { s with main := if s.first.isNone then .clear id a done else .push id a done }
  | .clear id a done => .ok { s with last := none, main := .push id a done }
  | .push id a done => do
    let i ← get s a
    .ok { put s a { i with next := done } with main := .call id a }
  | .call id a => do
    let i ← get s a
    .ok { s with main := .loop id (some a), hist := s.hist ++ [.ran i.data] }
  | .free id none => .ok { s with main := .check id }
  | .free id (some a) => do
    let i ← get s a
    .ok { put s a { i with freed := true } with main := .free id i.next }
  | .check id => if s.first.isSome then .ok { s with main := .idle, hist := s.hist ++ [.finished] } else .ok { s with main := .zero id }
  | .zero id => .ok { s with source := none, main := .ret id }
  | .ret id => .ok { s with live := s.live.erase id, main := .idle, hist := s.hist ++ [.finished] }

/-- What may happen: the thread adds something or goes on doing that, the main loop dispatches a source or goes on doing that.
No code of its own, it goes to the model of src/gutil_idlequeue.c:73-123 and 195-229. -/
inductive Act
  | add (d : Nat)
  | work
  | dispatch (id : Nat)
  | main
  deriving DecidableEq, Repr

/-- One action. `gutil_idle_queue_run` (src/gutil_idlequeue.c:73-123) is called by the main loop, for sources which are attached to it. -/
def step (s : State) : Act → M State
  | .add d => .ok (add s d)
  | .work => workStep s
  | .dispatch id => .ok { s with main := .start id, hist := s.hist ++ [.running] }
  | .main => mainStep s

/-- Each of the two does one thing at a time. No code of the library, a rule for those who use src/gutil_idlequeue.c:73-123 and 195-229. -/
def Allowed (s : State) : Act → Prop
  | .add _ => s.work = .idle
  | .work => s.work ≠ .idle
  | .dispatch id => s.main = .idle ∧ id ∈ s.live
  | .main => s.main ≠ .idle

/-- The additional rule: the thread doesn't add anything while the main loop is running the callbacks, and the other way around.
No code of the library, a rule for those who use src/gutil_idlequeue.c:73-123 and 195-229. -/
def Apart (s : State) : Act → Prop
  | .add _ => ¬ Running s.hist
  | .dispatch _ => ¬ Adding s.hist
  | _ => True

/-- The states which can be reached by following the rules, and those additional ones which are given by `P`.
No code of the library, a sequence of uses of src/gutil_idlequeue.c:73-123 and 195-229. -/
inductive Reach (P : State → Act → Prop) : State → Prop
  | init : Reach P init
  | step {s s' : State} {a : Act} : Reach P s → Allowed s a → P s a → step s a = .ok s' → Reach P s'

/-- Whatever is done in which order. No code of the library, a sequence of uses of src/gutil_idlequeue.c:73-123 and 195-229. -/
abbrev AnyReach := Reach (fun _ _ => True)

/-- What may happen after that. No code of the library, a sequence of uses of src/gutil_idlequeue.c:73-123 and 195-229. -/
inductive Later (s : State) : State → Prop
  | refl : Later s s
  | step {s' s'' : State} {a : Act} : Later s s' → Allowed s' a → IdleThreads.step s' a = .ok s'' → Later s s''

/-- Several actions. No code of the library, a sequence of uses of src/gutil_idlequeue.c:73-123 and 195-229. -/
def exec (s : State) : List Act → M State
  | [] => .ok s
  | a :: l => do
    let s ← step s a
    exec s l

end Verif.IdleThreads
