import Verif.Model.WeakRef

/-!
# The unit tests of the project, run by the model: `/repo/test/test_weakref/test_weakref.c`

These are tests of the model and not properties of the code: they check that the hand translation agrees with what the authors of the code assert about it.
-/

namespace Verif.Check.WeakRef
open Verif.C Verif.Weak

def check (b : Bool) : M Unit := if b then .ok () else .error .assertFail

/-- `test_basic`, lines 58-79. The second weak reference is created when the first one is gone. -/
example : (do
    let s ← new [1] [] (some 0)
    let s ← ref s
    let s ← unref s
    let (s, o) ← get s
    check (o = some 0)
    let s ← objUnref s 0
    let s ← unref s
    check (!s.alive)
    let s ← new s.objs s.log none
    let (s, o) ← get s
    check (o = none)
    let s ← Weak.set s (some 0)
    let (s, o) ← get s
    check (o = some 0)
    let s ← objUnref s 0
    let s ← objUnref s 0
    check (s.objs = [0])
    let (s, o) ← get s
    check (o = none)
    let s ← unref s
    check (!s.alive)) = .ok () := by decide +kernel

end Verif.Check.WeakRef
