import Verif.C.Basic

/-!
# Int arrays with several references: what the user knows about them

An array is something which has owners and contents. The owners of an array share its contents; one of them may take the contents away,
the others then have an empty array.
-/

namespace Verif.IntArray.Ref
open Verif.C

abbrev Vals := List (Option (BitVec 32))

/-- What the user may do to the array number `p`, in the order of creation, and to the data number `k` which they have got from
`free` or `free_to_ints`. `change` is any function which changes the contents, to whatever it is that the function does;
`get` is looking at the contents. -/
inductive Op
  | new (vals : Vals)
  | ref (p : Nat)
  | unref (p : Nat)
  | free (p : Nat) (freeData : Bool)
  | toInts (p : Nat)
  | change (p : Nat) (vals : Vals)
  | get (p : Nat)
  | getData (k : Nat)
  | freeData (k : Nat)
  deriving DecidableEq, Repr

/-- What the user can see: nothing, the contents, or the data which the user has to free. -/
inductive Out
  | none
  | vals (v : Vals)
  | data (v : Option Vals)
  deriving DecidableEq, Repr

/-- The number of owners and the contents of each array, and the data which belong to the user. -/
structure Abs where
  arrs : List (Nat × Vals)
  datas : List (Option Vals)
  deriving DecidableEq, Repr

namespace Abs

/-- The number of owners -/
def owners (s : Abs) (p : Nat) : Nat := (s.arrs[p]?.map (·.1)).getD 0

/-- The contents -/
def vals (s : Abs) (p : Nat) : Vals := (s.arrs[p]?.map (·.2)).getD []

/-- The data are there. -/
def has (s : Abs) (k : Nat) : Prop := ∃ v, s.datas[k]? = some (some v)

/-- One owner gives up the array, the others are left with the given contents. -/
def drop (s : Abs) (p : Nat) (v : Vals) : Abs := { s with arrs := s.arrs.set p (s.owners p - 1, v) }

/-- Only the owners use the array, data are used until they are freed, and the size is limited. -/
def Allowed (s : Abs) : Op → Prop
  | .new v => v.length < 2 ^ 32
  | .ref p | .unref p | .free p _ | .toInts p | .get p => 0 < s.owners p
  | .change p v => 0 < s.owners p ∧ v.length < 2 ^ 32
  | .getData k | .freeData k => s.has k

/-- What happens, and what's returned -/
def next (s : Abs) : Op → Out × Abs
  | .new v => (.none, { s with arrs := s.arrs ++ [(1, v)] })
  | .ref p => (.none, { s with arrs := s.arrs.set p (s.owners p + 1, s.vals p) })
  | .unref p => (.none, s.drop p (s.vals p))
  | .free p true => (.data none, s.drop p [])
  | .free p false | .toInts p =>
    if s.vals p = [] then (.data none, s.drop p [])
    else (.data (some (s.vals p)), { s.drop p [] with datas := s.datas ++ [some (s.vals p)] })
  | .change p v => (.none, { s with arrs := s.arrs.set p (s.owners p, v) })
  | .get p => (.vals (s.vals p), s)
  | .getData k => (.data (s.datas[k]?.getD none), s)
  | .freeData k => (.none, { s with datas := s.datas.set k none })

/-- The rules are followed all the time. -/
def Follows (s : Abs) : List Op → Prop
  | [] => True
  | o :: os => s.Allowed o ∧ (s.next o).2.Follows os

def outs (s : Abs) : List Op → List Out
  | [] => []
  | o :: os => (s.next o).1 :: (s.next o).2.outs os

def final (s : Abs) : List Op → Abs
  | [] => s
  | o :: os => (s.next o).2.final os

def init : Abs := { arrs := [], datas := [] }

end Abs

end Verif.IntArray.Ref
