import Verif.Model.Null
import Verif.Model.Ints
import Verif.Model.IntArray
import Verif.Model.MiscData
import Verif.Model.MiscHex
import Verif.Model.MiscParse
import Verif.Model.Strv
import Verif.Model.IdleQueue

/-!
# `NULL` arguments (C79)

`none` is `NULL`. In addition to these, `C28_null`, `C29_add_null`, `C33_equal_null`, `C34_bsearch_null` (vectors of strings),
`C36_null` (vectors of objects), `C50_null`, `C55_null`, `C56_null`, `C83_null` (miscellaneous) and `C59_null` (log)
are about `NULL`, too.
-/

namespace Verif.Ring
open Verif.Ring.Spec (Op Deque Step)

/-- No call can tell a `NULL` ring from an empty one whose maximum size is zero (except that it's not possible to make room
even for no elements). -/
theorem C79_ring (op : Op) (hr : ∀ n, op = .reserve n → 0 < n) (hp : ∀ n, op = .canPut n → 0 < n) :
    ∃ d', Step (Deque.new 0 0 none) op (execNull op) d' := by
  cases op
  case reserve n =>
    have := hr n rfl
    refine ⟨_, false, rfl, rfl, ?_, ?_⟩ <;> intro h <;> simp [Deque.new, Spec.norm] at h <;> omega
  case canPut n =>
    have := hp n rfl
    refine ⟨_, ?_, rfl⟩
    simp [execNull, Deque.new, Spec.norm]
    omega
  case put => exact ⟨_, .inr ⟨rfl, rfl, by simp [Deque.full, Deque.new, Spec.norm]⟩⟩
  case putFront => exact ⟨_, .inr ⟨rfl, rfl, by simp [Deque.full, Deque.new, Spec.norm]⟩⟩
  case drop n => exact ⟨_, by simp [execNull, Deque.new], rfl⟩
  case dropLast n => exact ⟨_, by simp [execNull, Deque.new], rfl⟩
  case dataAt i => exact ⟨_, by simp [execNull, Deque.new], rfl⟩
  all_goals exact ⟨_, rfl, rfl⟩

example : ∃ d', Step (Deque.new 0 0 none) (.reserve 1) (.bool false) d' := C79_ring (.reserve 1) (by simp) (by simp)

end Verif.Ring

namespace Verif.History
open Verif.C
open Verif.History.Spec (Op)

/-- No call, except for adding a sample, can tell a `NULL` history from a new one. Adding a sample does nothing. -/
theorem C79_history (mode : Mode) (n interval : Int) (h : Hist) (hn : new n interval = some h) (op : Op) :
    (∃ v now, op = .add v now ∧ execNull op = 0) ∨ exec mode h op = .ok (execNull op, h) := by
  unfold new at hn
  split at hn
  · cases hn
    cases op
    case add v now => exact .inl ⟨v, now, rfl, rfl⟩
    all_goals exact .inr rfl
  · cases hn

example : ∃ h, new 3 10 = some h := ⟨_, rfl⟩

end Verif.History

namespace Verif.Ints

/-- Nothing is found in a `NULL` block, `NULL` is equal to `NULL` only, less than any block, and its hash is zero. -/
theorem C79_ints (le : Bool) (l : List Val) (x : Val) :
    find none x = -1 ∧ contains none x = false ∧ hash none = 0 ∧ equal le none none = true ∧
    equal le none (some l) = false ∧ equal le (some l) none = false ∧
    compare le none none = 0 ∧ compare le none (some l) = -1 ∧ compare le (some l) none = 1 :=
  ⟨rfl, rfl, rfl, rfl, rfl, rfl, rfl, rfl, rfl⟩

end Verif.Ints

namespace Verif.IntArray
open Verif.C

/-- A `NULL` array stays `NULL`, there's nothing in it, and nothing can be removed from it. -/
theorem C79_intarray (mode : Mode) (gsort : (Option Val → Option Val → M Int) → Arr → Arr) (x : Val) (l : List Val) (i n : Nat) (b : Bool) :
    append none x = .ok none ∧ appendVals none l = .ok none ∧ prepend none x = .ok none ∧ prependVals none l = .ok none ∧
    insert none i x = .ok none ∧ insertVals none i l = .ok none ∧ setCount none n = .ok none ∧
    find none x = .ok (-1) ∧ contains none x = .ok false ∧
    remove none x = .ok (none, false) ∧ removeFast none x = .ok (none, false) ∧
    removeAll none x = .ok (none, 0) ∧ removeAllFast none x = .ok (none, 0) ∧
    removeIndex none i = .ok none ∧ removeIndexFast none i = .ok none ∧ removeRange none i n = .ok none ∧
    sortAscending gsort mode none = none ∧ sortDescending gsort mode none = none ∧
    free none b = none ∧ freeToInts none = none :=
  ⟨rfl, rfl, rfl, rfl, rfl, rfl, rfl, rfl, rfl, rfl, rfl, rfl, rfl, rfl, rfl, rfl, rfl, rfl, rfl, rfl⟩

end Verif.IntArray

namespace Verif.Objv
open Verif.C

/-- `gutil_object_ref` and `gutil_object_unref` do nothing to `NULL`; otherwise the former adds a reference to the object and
returns it, and the latter drops a reference, no other object is affected. -/
theorem C79_object (c : Refs) :
    objectRef c none = .ok (c, none) ∧ objectUnref c none = .ok c ∧
    ∀ a, 0 < cnt c a →
      (∃ c', objectRef c (some a) = .ok (c', some a) ∧ cnt c' a = cnt c a + 1 ∧ ∀ b, b ≠ a → cnt c' b = cnt c b) ∧
      (∃ c', objectUnref c (some a) = .ok c' ∧ cnt c' a + 1 = cnt c a ∧ ∀ b, b ≠ a → cnt c' b = cnt c b) := by
  refine ⟨rfl, rfl, fun a ha => ?_⟩
  have hl : a < c.length := by
    apply Classical.byContradiction
    intro h
    rw [cnt, List.getElem?_eq_none (by omega)] at ha
    simp at ha
  constructor
  · refine ⟨c.set a (cnt c a + 1), ?_, ?_, ?_⟩
    · simp only [objectRef, objRef, if_pos ha, ok_bind]
    · simp [cnt, hl]
    · intro b hb
      simp only [cnt, List.getElem?_set_ne (Ne.symm hb)]
  · refine ⟨c.set a (cnt c a - 1), ?_, ?_, ?_⟩
    · simp only [objectUnref, objUnref, if_pos ha]
    · have e : cnt (c.set a (cnt c a - 1)) a = cnt c a - 1 := by
        conv => lhs; rw [cnt]
        simp [hl]
      omega
    · intro b hb
      simp only [cnt, List.getElem?_set_ne (Ne.symm hb)]

example : objectRef [1, 2] (some 1) = .ok ([1, 3], some 1) := rfl

end Verif.Objv

namespace Verif.Misc
open Verif.C

/-- `NULL` blocks of data and `GBytes`, strings and arrays of handler ids: the defaults. -/
theorem C79_misc (mode : Mode) (signed upper inst : Bool) (d : Data) (a : Nat) (len count base : Int) (p : Ptr) (size : Nat) (q : List Byte) (ids : List Nat) :
    dataEqual mode none none = .ok true ∧ dataEqual mode (some (a, d)) none = .ok false ∧ dataEqual mode none (some (a, d)) = .ok false ∧
    dataFromString none = .ok ⟨none, 0⟩ ∧ dataFromBytes none = ⟨none, 0⟩ ∧
    dataCopy mode none = .ok none ∧ dataCopyAsVariant mode none = .ok none ∧
    bytesEqual mode none (some q) size = .ok false ∧ bytesHasPrefix mode none p size = .ok false ∧ bytesHasSuffix mode none p size = .ok false ∧
    data2hex none upper = .ok none ∧ hex2bytes signed none len = .ok none ∧
    Parse.parseInt none base = none ∧ Parse.parseUInt none base = none ∧ Parse.parseInt64 none base = none ∧ Parse.parseUInt64 none base = none ∧
    disconnectHandlers inst none count = .ok (none, []) ∧ disconnectHandlers false (some ids) count = .ok (some ids, []) ∧
    sourceClear none = (none, false, []) :=
  ⟨rfl, rfl, rfl, rfl, rfl, rfl, rfl, rfl, rfl, rfl, rfl, rfl, rfl, rfl, rfl, rfl, rfl, rfl, rfl⟩

end Verif.Misc

namespace Verif.Strv
open Verif.C Verif.Ptrv

/-- `NULL` vectors of strings are empty vectors, and there are no `NULL` strings in a vector: nothing is found, nothing changes. -/
theorem C79_strv (qsort : (Cell → Cell → M Int) → Block → Block) (bsearch : (Cell → Cell → M Int) → Cell → Block → Option Nat)
    (h : Heap) (v : Vec) (s : Option Nat) (args : List Nat) (i : Nat) (pos : Int) (b : Bool) :
    length none = .ok 0 ∧ at_ none i = .ok none ∧ last none = .ok none ∧
    find h none s = .ok (-1) ∧ find h v none = .ok (-1) ∧ findLast h none s = .ok (-1) ∧ findLast h v none = .ok (-1) ∧
    contains h none s = .ok false ∧ contains h v none = .ok false ∧
    add h v none = .ok (h, v) ∧ addv h v none args = .ok (h, v) ∧
    remove h none s b = .ok (h, none) ∧ remove h v none b = .ok (h, v) ∧ removeAt h none pos b = .ok (h, none) ∧
    removeDups h none = .ok (h, none) ∧ equal h b none none = .ok true ∧ sort qsort h none b = .ok none ∧
    search bsearch h none s b = .ok (-1) ∧ search bsearch h v none b = .ok (-1) ∧ strip h none = .ok h := by
  refine ⟨rfl, rfl, rfl, ?_, ?_, ?_, rfl, ?_, ?_, rfl, rfl, ?_, ?_, rfl, rfl, ?_, rfl, ?_, rfl, rfl⟩ <;> cases b <;> cases v <;> cases s <;> rfl

end Verif.Strv

namespace Verif.Objv
open Verif.C Verif.Ptrv

/-- The same for objects. -/
theorem C79_objv (c : Refs) (v : Vec) (o : Option Nat) (pos : Nat) (b : Bool) :
    free c none = .ok c ∧ copy c none = .ok (c, none) ∧ add c v none = .ok (c, v) ∧ insert c v none pos = .ok (c, v) ∧
    find none o = .ok (-1) ∧ find v none = .ok (-1) ∧ findLast none o = .ok (-1) ∧ findLast v none = .ok (-1) ∧
    contains none o = .ok false ∧ contains v none = .ok false ∧
    remove c none o b = .ok (c, none) ∧ remove c v none b = .ok (c, v) ∧ removeAt c none pos = .ok (c, none) ∧
    at_ none pos = .ok none ∧ equal b none none = .ok true ∧ first none = .ok none ∧ last none = .ok none ∧
    append c none none = .ok (c, none) := by
  refine ⟨rfl, rfl, rfl, rfl, ?_, ?_, ?_, ?_, ?_, ?_, ?_, ?_, rfl, rfl, ?_, rfl, rfl, ?_⟩ <;> cases b <;> cases v <;> cases o <;> rfl

end Verif.Objv

namespace Verif.Idle

/-- If there's no queue, the data are destroyed right away, once; without a free function nothing happens. -/
theorem C79_idle_queue : addNull true = 1 ∧ addNull false = 0 := ⟨rfl, rfl⟩

end Verif.Idle
