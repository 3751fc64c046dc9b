/-!
# Counting references

Numbers of references, without any limit. No code from the model.
-/

namespace Verif.Counter32

/-- What those who have references to an object do, in the order in which it takes effect -/
inductive Op
  | ref
  | unref
  deriving DecidableEq, Repr

namespace Spec

/-- How many references there are in the end, if there were `n` in the beginning -/
def left : Nat → List Op → Nat
  | n, [] => n
  | n, .ref :: t => left (n + 1) t
  | n, .unref :: t => left (n - 1) t

/-- Everything is done by those who have a reference: there's at least one each time. -/
def Held : Nat → List Op → Prop
  | _, [] => True
  | n, .ref :: t => 0 < n ∧ Held (n + 1) t
  | n, .unref :: t => 0 < n ∧ Held (n - 1) t

/-- There are never as many references as that. -/
def Below (limit : Nat) (ops : List Op) : Prop := ∀ pre post, ops = pre ++ post → left 1 pre < limit

end Spec
end Verif.Counter32
