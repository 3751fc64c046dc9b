import Verif.C.Ptrv

/-!
# Specification of string vectors

What it means for a piece of memory to be a NULL-terminated vector, and what the functions
should do to the list of its elements. No code from the model.
-/

namespace Verif.Strv.Spec
open Verif.C

/-- `v` is a NULL-terminated vector of the pointers `ps`.  `NULL` is an empty vector. Whatever
follows the terminator (possibly nothing) belongs to the block but isn't initialised. -/
def Holds (v : Vec) (ps : List Nat) : Prop :=
  (v = none ∧ ps = []) ∨
  ∃ n, v = some (ps.map .ptr ++ .null :: List.replicate n .uninit)

/-- The strings `ss` are found at the addresses `ps`. -/
def Strings (h : Heap) (ps : List Nat) (ss : List Str) : Prop :=
  ps.map (fun a => h[a]?) = ss.map (fun s => some (some s))

/-- The vector `v` consists of the strings `ss`; they are found at `ps`. -/
structure Is (h : Heap) (v : Vec) (ps : List Nat) (ss : List Str) : Prop where
  holds : Holds v ps
  strings : Strings h ps ss

/-- The vector `v` owns the strings `ss`: there is only one pointer to each of them. -/
structure Owns (h : Heap) (v : Vec) (ps : List Nat) (ss : List Str) : Prop extends Is h v ps ss where
  nodup : ps.Nodup

/-- `h'` is `h` after exactly the strings for which `p` holds have been released. -/
def Released (h h' : Heap) (p : Nat → Bool) : Prop :=
  h'.length = h.length ∧ ∀ a, a < h.length → h'[a]? = if p a then some none else h[a]?

/-- `h'` is `h` with some more strings. -/
def Extended (h h' : Heap) : Prop := ∀ a, a < h.length → h'[a]? = h[a]?

/-- The first index of an element satisfying `p`, or -1. -/
def firstIndex {α : Type} (p : α → Bool) : List α → Int
  | [] => -1
  | x :: t => if p x then 0 else if firstIndex p t < 0 then -1 else firstIndex p t + 1

/-- The last index of an element satisfying `p`, or -1. -/
def lastIndex {α : Type} (p : α → Bool) : List α → Int
  | [] => -1
  | x :: t => if lastIndex p t < 0 then (if p x then 0 else -1) else lastIndex p t + 1

/-- What should be left after removing the first, or all, of the strings equal to `t`. -/
def without (t : Str) (all : Bool) (ss : List Str) : List Str :=
  if all then ss.filter (fun s => decide (s ≠ t)) else ss.erase t

/-- The elements without those having the same `f` as an earlier one. -/
def firstsBy {α β : Type} [DecidableEq β] (f : α → β) : List α → List α
  | [] => []
  | x :: t => x :: (firstsBy f t).filter (fun y => decide (f y ≠ f x))

/-- The order of strings: lexicographic, by unsigned bytes. -/
def less : Str → Str → Prop
  | [], [] => False
  | [], _ :: _ => True
  | _ :: _, [] => False
  | a :: s, b :: t => a.toNat < b.toNat ∨ (a = b ∧ less s t)

/-- Sorted in the given direction. -/
def Sorted (ascending : Bool) (ss : List Str) : Prop :=
  ss.Pairwise (fun x y => if ascending then ¬ less y x else ¬ less x y)

/-- Whitespace: tab, line feed, form feed, carriage return and space. -/
def isSpace (b : Byte) : Bool := b = 9 ∨ b = 10 ∨ b = 12 ∨ b = 13 ∨ b = 32

/-- Without leading and trailing whitespace. -/
def strip (s : Str) : Str := ((s.dropWhile isSpace).reverse.dropWhile isSpace).reverse

end Verif.Strv.Spec
