import Verif.Spec.Objv

/-!
# Object vectors used by finalizers: the vocabulary

What a program does to its vectors is given by `Verif.Objv.Spec.Op` and what that should result in by `Verif.Objv.Spec.next`. When the
last reference to an object is dropped, the program gets control (in the finalizer of that object) and may do the same things there.
-/

namespace Verif.ObjvCb

/-- What the program does, from wherever it is now -/
inductive Act
  | call (op : Objv.Spec.Op)
  /-- returns from the finalizer -/
  | ret

/-- The vectors used by a call -/
def uses : Objv.Spec.Op → List Nat
  | .ref _ | .unref _ | .new _ => []
  | .copy i | .add i _ | .insert i _ _ | .remove i _ _ | .removeAt i _ | .free i => [i]
  | .append i j => [i, j]

end Verif.ObjvCb
