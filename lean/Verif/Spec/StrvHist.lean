import Verif.Spec.Strv

/-!
# String vectors as lists of strings (no code from the model)

Somebody has a number of variables for string vectors, and a number of strings of their own, and calls the functions one after another.
-/

namespace Verif.Strv.Spec
open Verif.C

/-- What they have -/
structure World where
  vecs : List (List Str)
  own : List Str
  deriving DecidableEq, Repr

/-- Where a string comes from -/
inductive Src
  /-- `NULL` -/
  | null
  /-- one of their own strings -/
  | mine (k : Nat)
  /-- what `gutil_strv_at` returns for some vector -/
  | elem (i j : Nat)
  deriving DecidableEq, Repr

/-- Calls. The first number tells which one of the vectors it's for. -/
inductive Op
  /-- another string of their own (`g_strdup`) -/
  | newStr (s : Str)
  /-- one of their strings is released (`g_free`) -/
  | freeStr (k : Nat)
  /-- another variable, `NULL` at first -/
  | newVec
  /-- the vector is released (`g_strfreev`), the variable is `NULL` again -/
  | free (i : Nat)
  | add (i : Nat) (s : Src)
  /-- the arguments, the first `NULL` is the last of them (there's one after those given) -/
  | addv (i : Nat) (args : List Src)
  /-- if the string isn't to be freed, it becomes one of their own. -/
  | removeAt (i : Nat) (pos : Int) (free : Bool)
  | remove (i : Nat) (s : Src) (all : Bool)
  | removeDups (i : Nat)
  | sort (i : Nat) (ascending : Bool)
  | strip (i : Nat)
  | length (i : Nat)
  | «at» (i j : Nat)
  | last (i : Nat)
  | find (i : Nat) (s : Src)
  | findLast (i : Nat) (s : Src)
  | contains (i : Nat) (s : Src)
  | bsearch (i : Nat) (s : Src) (ascending : Bool)
  | equal (i j : Nat)
  deriving DecidableEq, Repr

/-- What a call returns; a vector which is returned replaces the one which was given. -/
inductive Out
  | none
  | count (n : Nat)
  | int (i : Int)
  | bool (b : Bool)
  | str (s : Option Str)
  deriving DecidableEq, Repr

/-- The vector -/
def World.vec (w : World) (i : Nat) : List Str := w.vecs[i]?.getD []

/-- The vector is replaced. -/
def World.setVec (w : World) (i : Nat) (l : List Str) : World := { w with vecs := w.vecs.set i l }

/-- The string -/
def World.src (w : World) : Src → Option Str
  | .null => none
  | .mine k => w.own[k]?
  | .elem i j => (w.vec i)[j]?

/-- The arguments up to the first `NULL` -/
def World.args (w : World) : List Src → List Str
  | [] => []
  | s :: t => match w.src s with
    | some x => x :: w.args t
    | none => []

/-- What the call does to the lists of strings, and what it returns -/
def Does (w : World) : Op → Out → World → Prop
  | .newStr s, o, w' => o = .none ∧ w' = { w with own := w.own ++ [s] }
  | .freeStr k, o, w' => o = .none ∧ w' = { w with own := w.own.eraseIdx k }
  | .newVec, o, w' => o = .none ∧ w' = { w with vecs := w.vecs ++ [[]] }
  | .free i, o, w' => o = .none ∧ w' = w.setVec i []
  | .add i s, o, w' => o = .none ∧ w' = w.setVec i (w.vec i ++ (w.src s).toList)
  | .addv i l, o, w' => o = .none ∧ w' = w.setVec i (w.vec i ++ w.args l)
  | .removeAt i pos free, o, w' => o = .none ∧
      (0 ≤ pos ∧ pos < (w.vec i).length →
        w' = { w.setVec i ((w.vec i).eraseIdx pos.toNat) with
               own := if free then w.own else w.own ++ (w.vec i)[pos.toNat]?.toList }) ∧
      (¬ (0 ≤ pos ∧ pos < (w.vec i).length) → w' = w)
  | .remove i s all, o, w' => o = .none ∧
      (∀ t, w.src s = some t → w' = w.setVec i (without t all (w.vec i))) ∧ (w.src s = none → w' = w)
  | .removeDups i, o, w' => o = .none ∧ w' = w.setVec i (firstsBy (fun s => s) (w.vec i))
  | .sort i asc, o, w' => o = .none ∧ ∃ l, l.Perm (w.vec i) ∧ Sorted asc l ∧ w' = w.setVec i l
  | .strip i, o, w' => o = .none ∧ w' = w.setVec i ((w.vec i).map strip)
  | .length i, o, w' => o = .count (w.vec i).length ∧ w' = w
  | .at i j, o, w' => o = .str (w.vec i)[j]? ∧ w' = w
  | .last i, o, w' => o = .str (w.vec i).getLast? ∧ w' = w
  | .find i s, o, w' => w' = w ∧ (o = .int (-1) ∧ (∀ t, w.src s = some t → t ∉ w.vec i) ∨
      ∃ (k : Nat) (t : Str), o = .int k ∧ w.src s = some t ∧ (w.vec i)[k]? = some t ∧ t ∉ (w.vec i).take k)
  | .findLast i s, o, w' => w' = w ∧ (o = .int (-1) ∧ (∀ t, w.src s = some t → t ∉ w.vec i) ∨
      ∃ (k : Nat) (t : Str), o = .int k ∧ w.src s = some t ∧ (w.vec i)[k]? = some t ∧ t ∉ (w.vec i).drop (k + 1))
  | .contains i s, o, w' => w' = w ∧ ∃ b, o = .bool b ∧ (b = true ↔ ∃ t, w.src s = some t ∧ t ∈ w.vec i)
  | .bsearch i s _, o, w' => w' = w ∧ (o = .int (-1) ∧ (∀ t, w.src s = some t → t ∉ w.vec i) ∨
      ∃ (k : Nat) (t : Str), o = .int k ∧ w.src s = some t ∧ (w.vec i)[k]? = some t)
  | .equal i j, o, w' => o = .bool (decide (w.vec i = w.vec j)) ∧ w' = w

/-- A number of calls -/
inductive Run : World → List Op → List Out → World → Prop
  | nil {w} : Run w [] [] w
  | cons {w op o w' ops os w''} : Does w op o w' → Run w' ops os w'' → Run w (op :: ops) (o :: os) w''

/-- Which vectors a call is for -/
def Op.vecs : Op → List Nat
  | .newStr _ | .freeStr _ | .newVec => []
  | .free i | .add i _ | .addv i _ | .removeAt i _ _ | .remove i _ _ | .removeDups i | .sort i _ | .strip i | .length i | .at i _ | .last i
  | .find i _ | .findLast i _ | .contains i _ | .bsearch i _ _ => [i]
  | .equal i j => [i, j]

/-- Which strings are given -/
def Op.srcs : Op → List Src
  | .add _ s | .remove _ s _ | .find _ s | .findLast _ s | .contains _ s | .bsearch _ s _ => [s]
  | .addv _ l => l
  | _ => []

/-- It exists. -/
def World.Has (w : World) : Src → Prop
  | .null => True
  | .mine k => k < w.own.length
  | .elem i _ => i < w.vecs.length

/-- The rules. Vectors and strings exist; all strings equal to one of the same vector aren't removed by giving that one (C31); what's searched is sorted. -/
def Pre (w : World) (op : Op) : Prop :=
  (∀ i ∈ op.vecs, i < w.vecs.length) ∧ (∀ s ∈ op.srcs, w.Has s) ∧
  match op with
  | .freeStr k => k < w.own.length
  | .remove i s all => all = true → ∀ j, s ≠ .elem i j
  | .bsearch i _ asc => Sorted asc (w.vec i)
  | _ => True

/-- The rules are followed, whatever the calls return. -/
def Allowed : World → List Op → Prop
  | _, [] => True
  | w, op :: ops => Pre w op ∧ ∀ o w', Does w op o w' → Allowed w' ops

end Verif.Strv.Spec
