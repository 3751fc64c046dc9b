import Verif.Model.IdlePoolObj

/-!
# The unit tests of the project, run by the model: `/repo/test/test_idlepool/test_idlepool.c`

These are tests of the model and not properties of the code: they check that the hand translation agrees with what the authors of the code assert about it.
Callbacks are represented by what the program does until it returns from them (`ret`).
-/

namespace Verif.Check.IdlePool
open Verif.C

def check (b : Bool) : M Unit := if b then .ok () else .error .assertFail

/-- The actions are allowed, and this is where they lead to. -/
def go (s : PoolObj.State) (acts : List PoolObj.Act) : M PoolObj.State := do
  check (PoolObj.legal s acts)
  PoolObj.exec s acts

def goPool (s : Pool.State) (acts : List Pool.Act) : M Pool.State := do
  check (Pool.legal s acts)
  Pool.exec s acts

/-- `test_basic`, lines 225-305. The pool and the loop are in the main thread. Item 5 is `test_basic_unref_pool`, item 6 is `test_done`, item 7 is
`test_basic_add_during_drain` and item 8 is `test_basic_last`. -/
example : (do
    let s ← go ⟨Pool.new false [], [], [], []⟩ [
      .create .strv, .create .ptrArray, .create .variant, .create .object, .create .bytes,
      .give .strv (some 0),
      .give .ptrArrayRef (some 1), .unref 1,
      .give .variantRef (some 2), .unref 2,
      .give .objectRef (some 3), .unref 3,
      .give .bytesRef (some 4), .unref 4,
      .pool .ref, .pool .add, .pool .add]
    check (s.released = [])
    let s ← go s [
      .pool (.dispatch 1 true), .pool .ret, .pool .ret, .pool .ret, .pool .ret, .pool .ret,
      .pool .unref, .pool .ret,
      .pool .ret]
    check (s.released = [0, 1, 2, 3, 4] && s.pool.stack = [] && s.pool.live = [] && s.pool.refs = 1)
    let s ← go s [.pool .add, .pool .destroy, .pool .add, .pool .ret]
    check (Pool.destroys s.pool.log = [0, 1, 2, 3, 4, 5, 6, 7, 8])
    let s ← go s [.pool .ret]
    check (!s.pool.alive && s.pool.live = [] && s.pool.stack = [])) = .ok () := by decide +kernel

/-- `test_shared`, lines 311-335: the pool invokes the callback and destroys itself. -/
example : (do
    let s ← Pool.newShared false []
    check (s.cell = Pool.Cell.this)
    let s ← goPool s [.add, .dispatch 1 true]
    check (Pool.destroys s.log = [0, 1])
    let s ← goPool s [.ret]
    check (s.cell = Pool.Cell.null && !s.alive && s.live = [])) = .ok () := by decide +kernel

/-- `test_default`, lines 347-449. The first source is dispatched by the main thread, which is the wrong one, and nothing is called then. The second one, which
is scheduled when the second item is added, is dispatched by the right one, and the functions are called in the right order. At the end the thread exits
and the pool is gone. (The main context of the thread only matters if a source has to be removed, and that doesn't happen here.) -/
example : (do
    let s ← goPool (Pool.new false []) [.add, .dispatch 1 false]
    check (Pool.destroys s.log = [] && s.live = [])
    let s ← goPool s [.add]
    check (s.live = [2])
    let s ← goPool s [.dispatch 2 true]
    check (Pool.destroys s.log = [0])
    let s ← goPool s [.ret]
    check (Pool.destroys s.log = [0, 1])
    let s ← goPool s [.ret, .unref]
    check (!s.alive && s.live = [])) = .ok () := by decide +kernel

end Verif.Check.IdlePool
