import Verif.Model.IdleThreads

/-!
# An idle queue which is released by another thread

`gutil_idle_queue_ref` and `gutil_idle_queue_unref` use an atomic counter. Here the thread which adds things to the queue drops the last reference
to it, and deallocates the queue, while the main loop may be running the callbacks. One access to a field of the queue or of an item per step.

Simplifications: those of `Model/IdleThreads.lean` (this file is an addition to it); the thread doesn't do anything with the queue after that; `g_source_remove` and
dispatching of a source are atomic.
-/

namespace Verif.IdleRelease
open Verif.C Verif.IdleThreads

/-- Where the thread is, in `gutil_idle_queue_unref` after the counter has become zero (src/gutil_idlequeue.c:159-162). It's going to:
in `gutil_idle_queue_cancel_all`
`start`: read `q->first`, line 302; `mark`, `markNext`: set `completed` and read `next`, lines 303 and 302;
`test`: test `q->first`, line 305; `again`, `cond`: read it again, and `completed` of that item;
in `gutil_idle_queue_cancel_first`
`item`: read `q->first`, line 252; `take`, `remove`: read `next` of the item and store it to `q->first`, line 253;
`empty`, `clear`: test `q->first`, line 254, and reset `q->last`, line 255;
`destroy`: invoke the destroy function, line 67; `free`: free the item, line 69;
in `gutil_idle_queue_cancel_all`
`fin`: test `q->first`, line 308; `source`: test `q->source_id`, line 309 and src/gutil_misc.c:101;
`kill`, `zero`: remove that source and reset `q->source_id`, src/gutil_misc.c:102-103;
in `gutil_idle_queue_unref`
`queue`: free the queue, line 161. -/
inductive Rel
  | off
  | start
  | mark (a : Nat)
  | markNext (a : Nat)
  | test
  | again
  | cond (a : Nat)
  | item
  | take (a : Nat)
  | remove (a : Nat) (n : Option Nat)
  | empty (a : Nat)
  | clear (a : Nat)
  | destroy (a : Nat)
  | free (a : Nat)
  | fin
  | source
  | kill (id : Nat)
  | zero
  | queue
  | done
  deriving DecidableEq, Repr

/-- The queue with its items (`Model/IdleThreads.lean`), whether it's still allocated, where the thread is, and data which the destroy function was called for by
`gutil_idle_queue_cancel_first`. src/gutil_idlequeue.c:44-58. -/
structure State where
  q : IdleThreads.State
  alive : Bool
  rel : Rel
  cancelled : List Nat
  deriving DecidableEq, Repr

/-- `gutil_idle_queue_new`, src/gutil_idlequeue.c:125-132 -/
def init : State := ⟨IdleThreads.init, true, .off, []⟩

/-- The next step of `gutil_idle_queue_run` accesses a field of the queue, src/gutil_idlequeue.c:88, 92, 94-96, 116 and 120. -/
def uses : Main → Bool
  | .start _ | .loop _ _ | .remove _ _ _ _ | .empty _ _ _ | .clear _ _ _ | .check _ | .zero _ => true
  | _ => false

/-- One step of the main loop, src/gutil_idlequeue.c:73-123 -/
def mainStep (s : State) : M State :=
  if uses s.q.main ∧ ¬ s.alive then .error .useAfterFree
  else do
    let q ← IdleThreads.mainStep s.q
    .ok { s with q := q }

/-- One step of the thread which adds something, src/gutil_idlequeue.c:213-225 -/
def workStep (s : State) : M State := do
  let q ← IdleThreads.workStep s.q
  .ok { s with q := q }

/-- One step of the thread which releases the queue, src/gutil_idlequeue.c:60-70, 153-164, 247-258, 296-312, and src/gutil_misc.c:96-108 -/
def relStep (s : State) : M State :=
  match s.rel with
  | .off | .done => .error .badArg
  | .start => .ok { s with rel := match s.q.first with | some a => .mark a | none => .test }
  | .mark a => do
    let i ← get s.q a
    .ok { s with q := put s.q a { i with completed := true }, rel := .markNext a }
  | .markNext a => do
    let i ← get s.q a
    .ok { s with rel := match i.next with | some b => .mark b | none => .test }
  | .test => .ok { s with rel := if s.q.first.isSome then .again else .fin }
  | .again =>
    match s.q.first with
    | some a => .ok { s with rel := .cond a }
    | none => .error .nullDeref
  | .cond a => do
    let i ← get s.q a
    .ok { s with rel := if i.completed then .item else .fin }
  | .item =>
    match s.q.first with
    | some a => .ok { s with rel := .take a }
    | none => .error .nullDeref
  | .take a => do
    let i ← get s.q a
    .ok { s with rel := .remove a i.next }
  | .remove a n => .ok { s with q := { s.q with first := n }, rel := .empty a }
  | .empty a => .ok { s with rel := if s.q.first.isNone then .clear a else .destroy a }
  | .clear a => .ok { s with q := { s.q with last := none }, rel := .destroy a }
  | .destroy a => do
    let i ← get s.q a
    .ok { s with rel := .free a, cancelled := s.cancelled ++ [i.data] }
  | .free a => do
    let i ← get s.q a
    .ok { s with q := put s.q a { i with freed := true }, rel := .test }
  | .fin => .ok { s with rel := if s.q.first.isNone then .source else .queue }
  | .source => .ok { s with rel := match s.q.source with | some id => .kill id | none => .queue }
  | .kill id => .ok { s with q := { s.q with live := s.q.live.erase id }, rel := .zero }
  | .zero => .ok { s with q := { s.q with source := none }, rel := .queue }
  | .queue => .ok { s with alive := false, rel := .done }

/-- What may happen: the thread adds something or goes on doing that, the main loop dispatches a source or goes on doing that, the thread drops the last reference or goes on
doing that. No code of its own, it goes to the model of src/gutil_idlequeue.c:73-123, 153-164 and 195-229. -/
inductive Act
  | add (d : Nat)
  | work
  | dispatch (id : Nat)
  | main
  | unref
  | release
  deriving DecidableEq, Repr

/-- One action. src/gutil_idlequeue.c:73-123, 153-164 and 195-229. -/
def step (s : State) : Act → M State
  | .add d => .ok { s with q := add s.q d }
  | .work => workStep s
  | .dispatch id => .ok { s with q := { s.q with main := .start id, hist := s.q.hist ++ [.running] } }
  | .main => mainStep s
  | .unref => .ok { s with rel := .start }
  | .release => relStep s

/-- The thread is in `gutil_idle_queue_unref`. No code of the library, a name for places in src/gutil_idlequeue.c:153-164. -/
def Releasing (s : State) : Prop := s.rel ≠ .off ∧ s.rel ≠ .done

/-- Each of the two does one thing at a time, and the thread doesn't use the queue without a reference.
No code of the library, a rule for those who use src/gutil_idlequeue.c:73-123, 153-164 and 195-229. -/
def Allowed (s : State) : Act → Prop
  | .add _ => s.q.work = .idle ∧ s.rel = .off
  | .work => s.q.work ≠ .idle
  | .dispatch id => s.q.main = .idle ∧ id ∈ s.q.live
  | .main => s.q.main ≠ .idle
  | .unref => s.q.work = .idle ∧ s.rel = .off
  | .release => Releasing s

/-- The additional rule: the thread doesn't use the queue while the main loop is running the callbacks, and the other way around.
No code of the library, a rule for those who use src/gutil_idlequeue.c:73-123, 153-164 and 195-229. -/
def Apart (s : State) : Act → Prop
  | .add _ => ¬ Running s.q.hist
  | .dispatch _ => ¬ Adding s.q.hist ∧ ¬ Releasing s
  | .unref => ¬ Running s.q.hist
  | _ => True

/-- The states which can be reached by following the rules, and those additional ones which are given by `P`.
No code of the library, a sequence of uses of src/gutil_idlequeue.c:73-123, 153-164 and 195-229. -/
inductive Reach (P : State → Act → Prop) : State → Prop
  | init : Reach P init
  | step {s s' : State} {a : Act} : Reach P s → Allowed s a → P s a → step s a = .ok s' → Reach P s'

/-- Several actions. No code of the library, a sequence of uses of src/gutil_idlequeue.c:73-123, 153-164 and 195-229. -/
def exec (s : State) : List Act → M State
  | [] => .ok s
  | a :: l => do
    let s ← step s a
    exec s l

end Verif.IdleRelease
