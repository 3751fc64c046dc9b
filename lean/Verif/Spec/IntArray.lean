/-!
# Int arrays as lists (no code from the model)
-/

namespace Verif.IntArray.Spec

abbrev Val := BitVec 32

/-- Calls, for an array which isn't `NULL` -/
inductive Op
  | append (x : Val)
  | appendVals (l : List Val)
  | prepend (x : Val)
  | prependVals (l : List Val)
  | insert (pos : Nat) (x : Val)
  | insertVals (pos : Nat) (l : List Val)
  | setCount (n : Nat)
  | find (x : Val)
  | contains (x : Val)
  | remove (x : Val)
  | removeFast (x : Val)
  | removeAll (x : Val)
  | removeAllFast (x : Val)
  | removeIndex (pos : Nat)
  | removeIndexFast (pos : Nat)
  | removeRange (pos count : Nat)
  | sortAscending
  | sortDescending
  deriving DecidableEq, Repr

/-- What a call returns -/
inductive Out
  | none
  | int (i : Int)
  | bool (b : Bool)
  | count (n : Nat)
  deriving DecidableEq, Repr

/-- What the call does to the list, and what it returns -/
def Step (l : List Val) : Op → Out → List Val → Prop
  | .append x, o, l' => o = .none ∧ l' = l ++ [x]
  | .appendVals v, o, l' => o = .none ∧ l' = l ++ v
  | .prepend x, o, l' => o = .none ∧ l' = x :: l
  | .prependVals v, o, l' => o = .none ∧ l' = v ++ l
  | .insert pos x, o, l' => o = .none ∧ l' = l.take pos ++ x :: l.drop pos
  | .insertVals pos v, o, l' => o = .none ∧ l' = l.take pos ++ v ++ l.drop pos
  | .setCount n, o, l' => o = .none ∧ l' = l.take n
  | .find x, o, l' => l' = l ∧ ((o = .int (-1) ∧ x ∉ l) ∨ ∃ i : Nat, o = .int i ∧ l[i]? = some x ∧ x ∉ l.take i)
  | .contains x, o, l' => l' = l ∧ o = .bool (decide (x ∈ l))
  | .remove x, o, l' => o = .bool (decide (x ∈ l)) ∧ l' = l.erase x
  | .removeFast x, o, l' => o = .bool (decide (x ∈ l)) ∧ l'.Perm (l.erase x)
  | .removeAll x, o, l' => o = .count (l.count x) ∧ l' = l.filter (· ≠ x)
  | .removeAllFast x, o, l' => o = .count (l.count x) ∧ l'.Perm (l.filter (· ≠ x))
  | .removeIndex pos, o, l' => o = .none ∧ l' = l.eraseIdx pos
  | .removeIndexFast pos, o, l' => o = .none ∧ l'.Perm (l.eraseIdx pos)
  | .removeRange pos count, o, l' => o = .none ∧ l' = l.take pos ++ l.drop (pos + count)
  | .sortAscending, o, l' => o = .none ∧ l'.Perm l ∧ l'.Pairwise (fun x y => x.toInt ≤ y.toInt)
  | .sortDescending, o, l' => o = .none ∧ l'.Perm l ∧ l'.Pairwise (fun x y => y.toInt ≤ x.toInt)

/-- A number of calls -/
inductive Run : List Val → List Op → List Out → List Val → Prop
  | nil {l} : Run l [] [] l
  | cons {l op o l' ops os l''} : Step l op o l' → Run l' ops os l'' → Run l (op :: ops) (o :: os) l''

/-- The rules. There are no more than 2^31 ints in the array; nothing is inserted past the end, and the count isn't increased (C82); the position given to
remove_index_fast exists (C80); the end of the range given to remove_range is a `guint` (C47); what's sorted is such that differences are ints (C48). -/
def Pre (l : List Val) : Op → Prop
  | .append _ | .prepend _ => l.length < 2 ^ 31
  | .appendVals v | .prependVals v => l.length + v.length ≤ 2 ^ 31
  | .insert pos _ => pos ≤ l.length ∧ l.length < 2 ^ 31
  | .insertVals pos v => pos ≤ l.length ∧ l.length + v.length ≤ 2 ^ 31
  | .setCount n => n ≤ l.length
  | .removeIndexFast pos => pos < l.length
  | .removeRange pos count => pos + count < 2 ^ 32
  | .sortAscending | .sortDescending => ∀ x ∈ l, ∀ y ∈ l, x.toInt - y.toInt < 2 ^ 31
  | _ => True

/-- The rules are followed, whatever the calls return. -/
def Allowed : List Val → List Op → Prop
  | _, [] => True
  | l, op :: ops => Pre l op ∧ ∀ o l', Step l op o l' → Allowed l' ops

/-- The ints which are given to the array by the call -/
def given : Op → List Val
  | .append x | .prepend x | .insert _ x => [x]
  | .appendVals v | .prependVals v | .insertVals _ v => v
  | _ => []

end Verif.IntArray.Spec
