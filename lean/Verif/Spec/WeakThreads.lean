/-!
# Specification of weak references shared by threads (no code from the model)

A history of objects and weak references, the oldest event first, no matter which threads. Objects and weak references
are numbered.
-/

namespace Verif.WeakThreads

inductive Event
  /-- an object has been created, and the program holds a reference to it -/
  | create (o : Nat)
  /-- the program has taken another reference to the object -/
  | ref (o : Nat)
  /-- the program has dropped a reference to the object -/
  | unref (o : Nat)
  /-- a weak reference has been created, and the program holds a reference to it -/
  | new (w : Nat)
  /-- the program has taken another reference to the weak reference -/
  | hold (w : Nat)
  /-- the program has dropped a reference to the weak reference -/
  | drop (w : Nat)
  /-- the object was assigned to the weak reference (also when that was created) -/
  | set (w : Nat) (o : Option Nat)
  /-- this is what the weak reference has returned -/
  | got (w : Nat) (o : Option Nat)
  /-- the memory of the weak reference has been released -/
  | freed (w : Nat)
  deriving DecidableEq, Repr

/-- The number of references to the object which the program is holding; whatever it gets from a weak reference is
a reference too. -/
def strong (o : Nat) : List Event → Int
  | [] => 0
  | .create x :: t | .ref x :: t => (if x = o then 1 else 0) + strong o t
  | .got _ x :: t => (if x = some o then 1 else 0) + strong o t
  | .unref x :: t => (if x = o then -1 else 0) + strong o t
  | _ :: t => strong o t

/-- The number of references to the weak reference which the program is holding -/
def held (w : Nat) : List Event → Int
  | [] => 0
  | .new x :: t | .hold x :: t => (if x = w then 1 else 0) + held w t
  | .drop x :: t => (if x = w then -1 else 0) + held w t
  | _ :: t => held w t

/-- What was assigned to the weak reference the last time -/
def lastSet (w : Nat) (log : List Event) : Option Nat :=
  (log.filterMap (fun | .set x o => if x = w then some o else none | _ => none)).getLast?.join

end Verif.WeakThreads
