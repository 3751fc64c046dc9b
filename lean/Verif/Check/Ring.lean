import Verif.Model.Ring

/-!
# The unit tests of the project, run by the model: `/repo/test/test_ring/test_ring.c`

These are tests of the model and not properties of the code: they check that the hand translation agrees with what the authors of the code assert about it.
`expect` is what's asserted by the test; results which aren't asserted there aren't compared.
-/

namespace Verif.Check.Ring
open Verif.C Verif.Ring Verif.Ring.Spec

/-- The call, and what it's expected to return -/
abbrev Step := Op × Option Out

def does (op : Op) : Step := (op, none)
def expect (op : Op) (o : Out) : Step := (op, some o)

/-- All the calls are defined and return what's expected. -/
def passes (r : Ring) : List Step → Bool
  | [] => true
  | (op, want) :: ops =>
    match exec r op with
    | .error _ => false
    | .ok (o, r) => (match want with | none => true | some w => decide (o = w)) && passes r ops

/-- The test passes, with this ring. -/
def test (reserved max : Int) (ops : List Step) : Bool :=
  match newFull reserved max none with
  | .error _ => false
  | .ok r => passes r ops

/-- The free functions called, by those calls -/
def freed (ops : List Op) : Option (List (Nat × Ptr)) :=
  match newFull 0 (-1) none with
  | .error _ => none
  | .ok r => match run r ops with
    | .error _ => none
    | .ok (_, r) => some r.freed

/-- `test_basic`, lines 43-106: `NULL` ring -/
example : execNull .size = .int 0 ∧ execNull (.canPut 1) = .bool false ∧ execNull (.put 0) = .bool false ∧ execNull (.putFront 0) = .bool false ∧
    execNull .get = .ptr 0 ∧ execNull (.dataAt 0) = .ptr 0 ∧ execNull .getLast = .ptr 0 ∧ execNull (.drop 1) = .int 0 ∧ execNull (.dropLast 1) = .int 0 ∧
    execNull .flatten = .block none 0 := by decide

/-- ... and the rest of it -/
example : test 0 (-1) (
    [does (.setFreeFunc none), does .ref, does .unref] ++
    (List.range 5).flatMap (fun i => [expect (.canPut 1) (.bool true), expect (.put i) (.bool true)]) ++
    [expect (.dataAt (-1)) (.ptr 0), expect (.dataAt 5) (.ptr 0)] ++
    (List.range 5).map (fun (i : Nat) => expect (.dataAt i) (.ptr i)) ++
    (List.range 5).flatMap (fun i => [does .flatten, does .compact, expect .get (.ptr i)]) ++
    [expect .get (.ptr 0), does .compact, does .compact, does .clear, expect .flatten (.block none 0), does .unref]) = true := by decide +kernel

/-- `test_put_front`, lines 112-143 -/
example : test 0 (-1) (
    (List.range 5).flatMap (fun i => [expect (.canPut 1) (.bool true), expect (.putFront (5 - i - 1)) (.bool true)]) ++
    (List.range 5).flatMap (fun i => [does .compact, expect .get (.ptr i)]) ++
    (List.range 5).flatMap (fun i => [expect (.canPut 1) (.bool true), expect (.putFront (5 - i - 1)) (.bool true)]) ++
    (List.range 5).flatMap (fun i => [does .compact, expect .getLast (.ptr (5 - i - 1))]) ++
    [expect .getLast (.ptr 0), does .unref]) = true := by decide +kernel

/-- `test_drop`, lines 149-189 -/
example : test 0 5 (
    (List.range 5).map (fun i => does (.put i)) ++
    (List.range 3).map (fun i => expect .get (.ptr i)) ++
    (List.range 3).map (fun i => does (.put (5 + i))) ++
    [expect (.drop 3) (.int 3)] ++
    (List.range 2).map (fun i => expect .get (.ptr (3 + 3 + i))) ++
    (List.range 5).map (fun i => does (.put i)) ++
    [expect (.drop 0) (.int 0), expect (.drop 6) (.int 5), expect (.drop 1) (.int 0), expect .size (.int 0), does .unref]) = true := by decide +kernel

/-- `test_drop_last`, lines 195-236 -/
example : test 0 5 (
    (List.range 5).map (fun i => does (.put i)) ++
    (List.range 2).map (fun i => expect .get (.ptr i)) ++
    (List.range 2).map (fun i => does (.put (5 + i))) ++
    [expect (.dropLast 3) (.int 3), does .flatten] ++
    (List.range 2).map (fun i => expect .get (.ptr (2 + i))) ++
    (List.range 5).map (fun i => does (.put i)) ++
    [expect (.dropLast 0) (.int 0), expect (.dropLast 6) (.int 5), expect (.dropLast 1) (.int 0), expect .size (.int 0), does .unref]) = true := by decide +kernel

/-- `test_limit`, lines 242-301 -/
example : test 2 5 (
    [expect (.reserve 5) (.bool true), expect (.reserve 6) (.bool false)] ++
    (List.range 5).flatMap (fun i => [expect (.canPut 1) (.bool true), expect (.put i) (.bool true)]) ++
    [expect (.canPut 1) (.bool false), expect .getLast (.ptr 4), expect .getLast (.ptr 3), expect (.put 3) (.bool true), expect (.put 4) (.bool true)] ++
    (List.range 2).flatMap (fun i => [expect .get (.ptr i), expect (.canPut 1) (.bool true), expect (.put (i + 5)) (.bool true)]) ++
    [expect .size (.int 5), expect .flatten (.block (some [2, 3, 4, 5, 6]) 5), expect .getLast (.ptr 6), does .compact,
     expect .flatten (.block (some [2, 3, 4, 5]) 4), does .clear] ++
    (List.range 5).map (fun i => does (.put i)) ++
    (List.range 5).map (fun i => expect .get (.ptr i)) ++ [does .unref]) = true := by decide +kernel

/-- `test_max_size`, lines 307-353 -/
example : execNull .maxSize = .int 0 ∧ test 0 (-2) (
    [expect .maxSize (.int (-1)), does (.setMaxSize 5)] ++
    (List.range 5).map (fun i => expect (.put i) (.bool true)) ++
    [expect (.put 5) (.bool false), expect .size (.int 5), does (.setMaxSize 5), expect .size (.int 5), does (.setMaxSize 10)] ++
    (List.range 5).map (fun i => expect (.put (i + 5)) (.bool true)) ++
    [expect (.put 5) (.bool false), expect .size (.int 10), does (.setMaxSize 5), expect .size (.int 5)] ++
    (List.range 5).map (fun i => expect .get (.ptr (i + 5))) ++
    [expect .size (.int 0), does (.setMaxSize (-2)), expect .maxSize (.int (-1)), does .unref]) = true := by decide +kernel

/-- `test_free`, lines 368-436: each of the 5 elements is released once by clear, and all but the one taken are released again by unref, -/
example : ((freed ([.setFreeFunc (some 1)] ++ (List.range 5).map (fun i => .put (i + 1)) ++ [.clear, .clear] ++ (List.range 5).map (fun i => .put (i + 1)) ++
      [.get, .unref])).map fun l => (List.range 5).map fun i => l.count (1, i + 1)) = some [1, 2, 2, 2, 2] := by decide +kernel

/-- ... those dropped are released, and those taken aren't. -/
example : ((freed ([.setFreeFunc (some 1)] ++ (List.range 5).map (fun i => .put (i + 1)) ++ [.drop 2, .dropLast 2, .get, .unref])).map
    fun l => (List.range 5).map fun i => l.count (1, i + 1)) = some [1, 1, 0, 1, 1] ∧
    test 0 (-1) ([does (.setFreeFunc (some 1))] ++ (List.range 5).map (fun i => does (.put (i + 1))) ++
      [expect (.drop 2) (.int 2), expect (.dropLast 2) (.int 2), expect .size (.int 1), expect .get (.ptr 3)]) = true := by decide +kernel

end Verif.Check.Ring
