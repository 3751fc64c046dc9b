import Verif.Spec.Strv

/-!
# Specification of object vectors

Vectors are lists of objects, reference counts are functions of the object.  `Holds` (a block
of memory is a NULL-terminated vector), `firstIndex` and `lastIndex` are those of the string
vectors.
-/

namespace Verif.Objv.Spec
open Verif.Strv.Spec

/-- The vector `os` has become `os'`, the reference counts have changed from `c` to `c'`
accordingly: by the change of the number of occurrences. -/
def Accounted (c c' : Nat → Nat) (os os' : List Nat) : Prop :=
  ∀ a, c' a + os.count a = c a + os'.count a

/-- There is a reference for each occurrence. -/
def Covered (c : Nat → Nat) (os : List Nat) : Prop := ∀ a, os.count a ≤ c a

/-- `os` without the first, or all, occurrences of `o` -/
def without (o : Nat) (all : Bool) (os : List Nat) : List Nat :=
  if all then os.filter (fun a => decide (a ≠ o)) else os.erase o

/-- What a program may do with objects and object vectors. Vectors are numbered in the order
of their creation. -/
inductive Op
  | ref (a : Nat)                              -- `g_object_ref(a)`
  | unref (a : Nat)                            -- `g_object_unref(a)`
  | new (args : List Nat)                      -- `gutil_objv_new(args..., NULL)`
  | copy (i : Nat)                             -- `gutil_objv_copy(v[i])`
  | add (i : Nat) (o : Option Nat)             -- `v[i] = gutil_objv_add(v[i], o)`
  | insert (i : Nat) (o : Option Nat) (pos : Nat)
  | append (i j : Nat)
  | remove (i : Nat) (o : Option Nat) (all : Bool)
  | removeAt (i : Nat) (pos : Nat)
  | free (i : Nat)                             -- `gutil_objv_free(v[i]); v[i] = NULL`

/-- What such a program has: its own references and the vectors. -/
structure State where
  own : Nat → Nat
  vecs : List (List Nat)

/-- The number of references there should be. -/
def State.refs (s : State) (a : Nat) : Nat := s.own a + (s.vecs.map (List.count a)).sum

/-- The vector number `i`. -/
def State.vec (s : State) (i : Nat) : List Nat := s.vecs[i]?.getD []

/-- The rules: only existing objects and vectors are used, `unref` drops an own reference, a
vector isn't appended to itself. -/
def Pre (s : State) : Op → Prop
  | .ref a => 0 < s.refs a
  | .unref a => 0 < s.own a
  | .new args => ∀ a ∈ args, 0 < s.refs a
  | .copy i => i < s.vecs.length
  | .add i o => i < s.vecs.length ∧ ∀ a, o = some a → 0 < s.refs a
  | .insert i o _ => i < s.vecs.length ∧ ∀ a, o = some a → 0 < s.refs a
  | .append i j => i < s.vecs.length ∧ j < s.vecs.length ∧ i ≠ j
  | .remove i _ _ => i < s.vecs.length
  | .removeAt i _ => i < s.vecs.length
  | .free i => i < s.vecs.length

/-- What the operations should do. -/
def next (s : State) : Op → State
  | .ref a => { s with own := fun x => if x = a then s.own x + 1 else s.own x }
  | .unref a => { s with own := fun x => if x = a then s.own x - 1 else s.own x }
  | .new args => { s with vecs := s.vecs ++ [args] }
  | .copy i => { s with vecs := s.vecs ++ [s.vec i] }
  | .add _ none => s
  | .add i (some o) => { s with vecs := s.vecs.set i (s.vec i ++ [o]) }
  | .insert _ none _ => s
  | .insert i (some o) pos => { s with vecs := s.vecs.set i ((s.vec i).take pos ++ o :: (s.vec i).drop pos) }
  | .append i j => { s with vecs := s.vecs.set i (s.vec i ++ s.vec j) }
  | .remove _ none _ => s
  | .remove i (some o) all => { s with vecs := s.vecs.set i (without o all (s.vec i)) }
  | .removeAt i pos => { s with vecs := s.vecs.set i ((s.vec i).eraseIdx pos) }
  | .free i => { s with vecs := s.vecs.set i [] }

/-- The rules are followed at each step. -/
def Legal (s : State) : List Op → Prop
  | [] => True
  | op :: t => Pre s op ∧ Legal (next s op) t

def run (s : State) (ops : List Op) : State := ops.foldl next s

end Verif.Objv.Spec
