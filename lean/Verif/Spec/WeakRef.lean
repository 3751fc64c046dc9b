/-!
# Specification of weak references (no code from the model)

A history of objects and one weak reference, the oldest event first. The objects are numbered.
-/

namespace Verif.Weak

inductive Event
  /-- the program has created an object, and holds a reference to it -/
  | create (o : Nat)
  /-- the program has taken another reference to the object -/
  | ref (o : Nat)
  /-- the program has dropped a reference to the object -/
  | unref (o : Nat)
  /-- the object was assigned to the weak reference -/
  | set (o : Option Nat)
  /-- this is what the weak reference has returned -/
  | got (o : Option Nat)
  deriving DecidableEq, Repr

/-- The number of references to the object which the program is holding; whatever it gets from the weak reference is
a reference too. -/
def strong (o : Nat) : List Event → Int
  | [] => 0
  | .create x :: t | .ref x :: t => (if x = o then 1 else 0) + strong o t
  | .got x :: t => (if x = some o then 1 else 0) + strong o t
  | .unref x :: t => (if x = o then -1 else 0) + strong o t
  | .set _ :: t => strong o t

/-- What was assigned to the weak reference the last time -/
def lastSet (log : List Event) : Option Nat :=
  (log.filterMap (fun | .set x => some x | _ => none)).getLast?.join

end Verif.Weak
