import Verif.Model.IdleQueue

/-!
# The unit tests of the project, run by the model: `/repo/test/test_idlequeue/test_idlequeue.c`

These are tests of the model and not properties of the code: they check that the hand translation agrees with what the authors of the code assert about it.
Callbacks are represented by what the program does until it returns from them (`Act.ret`). Counters of the test are counted in the history.
-/

namespace Verif.Check.IdleQueue
open Verif.C Verif.Idle

def check (b : Bool) : M Unit := if b then .ok () else .error .assertFail

/-- The actions are allowed, and this is where they lead to. -/
def go (s : State) (acts : List Act) : M State := do
  check (legal s acts)
  exec s acts

/-- How many `run` callbacks have been invoked -/
def runs (s : State) : Nat := (s.log.filter fun | .run _ _ => true | _ => false).length
/-- How many `destroy` callbacks have been invoked -/
def destroys (s : State) : Nat := (s.log.filter fun | .destroy _ => true | _ => false).length

/-- `test_idlequeue_null`, lines 80-100 -/
example : (addNull false, addNull true) = (0, 1) := by decide +kernel

/-- `test_idlequeue_basic`, lines 106-139. The main loop invokes the source once, three callbacks are invoked then. -/
example : (do
    let s ← go new [.ref, .unref, .add 1 true false, .add 2 false true, .add 3 true false]
    check (!containsTag s.items 0)
    check (containsTag s.items 1 && containsTag s.items 2 && containsTag s.items 3)
    check (s.live = [1])
    let s ← go s [.dispatch 1, .ret, .ret, .ret]
    check (s.stack = [] && s.live = [])
    check (runs s = 2 && destroys s = 1)
    let s ← go s [.unref]
    check (!s.alive)) = .ok () := by decide +kernel

/-- `test_idlequeue_add`, lines 149-184. The callback adds another one, which is invoked by the next iteration of the main loop. -/
example : (do
    let s ← go new [.add 0 true false, .dispatch 1, .add 0 true false, .ret]
    check (s.stack = [] && s.live = [1] && runs s = 1)
    let s ← go s [.dispatch 1, .ret]
    check (s.stack = [] && s.live = [] && runs s = 2)
    let s ← go s [.unref]
    check (!s.alive)) = .ok () := by decide +kernel

/-- `gutil_idle_queue_cancel_tag` and the callback, which just returns -/
def cancel (s : State) (tag : Nat) : M (State × Bool) := do
  let (s, ok) ← cancelTag s tag
  let s ← if ok then go s [.ret] else .ok s
  .ok (s, ok)

/-- `test_idlequeue_cancel`, lines 190-225 -/
example : (do
    let s ← go new [.add 0 true false, .add 0 false true, .add 0 false true, .unref, .ret, .ret]
    check (!s.alive && runs s = 0 && destroys s = 2 && s.live = [])
    let s ← go new [.cancelAll, .add 1 false true, .add 2 false true, .add 3 false true, .add 4 false true]
    let (s, ok) ← cancel s 0
    check (!ok)
    let (s, ok) ← cancel s 3
    check ok
    let (s, ok) ← cancel s 4
    check ok
    let (s, ok) ← cancel s 1
    check ok
    let (s, ok) ← cancel s 2
    check ok
    let (s, ok) ← cancel s 1
    check (!ok)
    check (destroys s = 4 && s.live = [])
    let s ← go s [.cancelAll, .unref]
    check (!s.alive)) = .ok () := by decide +kernel

/-- `test_idlequeue_cancel_all`, lines 231-265 -/
example : (do
    let s ← go new [.add 0 true false, .add 1 false true, .add 2 false true, .cancelAll, .ret, .add 42 true false, .ret]
    check (s.stack = [] && runs s = 0 && destroys s = 2)
    check (!containsTag s.items 1 && !containsTag s.items 2 && containsTag s.items 42)
    let s ← go s [.cancelAll]
    check (!containsTag s.items 42)
    let s ← go s [.cancelAll, .unref]
    check (!s.alive && runs s = 0)) = .ok () := by decide +kernel

end Verif.Check.IdleQueue
