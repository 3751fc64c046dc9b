import Verif.Model.Strv
import Verif.Proof.StrvSort

/-!
# The unit tests of the project, run by the model: `/repo/test/test_strv/test_strv.c`

These are tests of the model and not properties of the code, see `Verif.Check.Ring`.
Each one of them is a program which ends with `assertFail` if something isn't as expected.
That the same pointer is returned, which the tests compare sometimes, can't be seen in the model; the contents are compared instead.
-/

namespace Verif.Check.Strv
open Verif.C Verif.Strv

/-- `g_assert` -/
def check (b : Bool) : M Unit := if b then .ok () else .error .assertFail

/-- `g_strsplit`, with the strings allocated at the end of the heap -/
def split (h : Heap) (l : List Str) : Heap × Vec :=
  (h ++ l.map some, some ((List.range l.length).map (fun i => .ptr (h.length + i)) ++ [.null]))

/-- A string literal -/
def lit (h : Heap) (s : Str) : Heap × Option Nat := (h ++ [some s], some h.length)

/-- The strings of a vector -/
def strings (h : Heap) : Vec → M (List Str)
  | none => .ok []
  | some b => (b.takeWhile (· ≠ .null)).mapM fun c => do
    match ← load c with
    | some a => str h a
    | none => .error .nullDeref

def a : Str := [97]
def b : Str := [98]
def c : Str := [99]
def d : Str := [100]
def bb : Str := [98, 98]
def ccc : Str := [99, 99, 99]

/-- A string is compared by its contents. -/
def isStr (h : Heap) (p : Option Nat) (s : Option Str) : M Bool :=
  match p with
  | none => .ok (decide (s = none))
  | some p => do
    let t ← str h p
    .ok (decide (some t = s))

/-- `test_basic`, lines 44-61 -/
example : (do
    let (h, sv) := split [] [a, b]
    check ((← length none) = 0)
    check ((← length sv) = 2)
    check (← isStr h (← at_ sv 0) (some a))
    check (← isStr h (← at_ sv 1) (some b))
    check ((← at_ sv 2) = none)
    check ((← at_ sv 3) = none)
    check ((← at_ none 0) = none)
    let h' ← strip h none
    check (h' = h)
    let h ← Ptrv.free h sv
    check (h = [none, none])) = .ok () := by decide +kernel

/-- `test_last`, lines 67-84 -/
example : (do
    let (h, empty) := split [] []
    let (h, v) := split h [a]
    let (h, ab) := split h [a, b]
    check ((← last none) = none)
    check ((← last empty) = none)
    check (← isStr h (← last v) (some a))
    check (← isStr h (← last ab) (some b))
    let h ← Ptrv.free h empty
    let h ← Ptrv.free h v
    let h ← Ptrv.free h ab
    check (h = [none, none, none])) = .ok () := by decide +kernel

/-- `test_addv`, lines 90-113 -/
example : (do
    let (h, sa) := lit [] a
    let (h, sbb) := lit h bb
    let (h, sccc) := lit h ccc
    check ((← add h none none) = (h, none))
    check ((← addv h none none []) = (h, none))
    let (h, sv1) ← add h none sa
    check ((← addv h sv1 none []) = (h, sv1))
    let (h, sv2) ← addv h none sa []
    check (← equal h false sv1 sv2)
    let h ← Ptrv.free h sv1
    let (h, sv1) := split h [a, bb, ccc]
    let (h, sv2) ← addv h sv2 sbb [sccc.getD 0]
    check (← equal h false sv1 sv2)
    let h ← Ptrv.free h sv1
    let h ← Ptrv.free h sv2
    check (h.drop 3 = List.replicate (h.length - 3) none)) = .ok () := by decide +kernel

/-- `test_equal`, lines 119-149 -/
example : (do
    let h : Heap := [some a, some b, some c, some [32], some []]
    let (h, sv1) ← addv h none (some 0) [1, 2, 3, 4]
    let (h, sv2) := split h [a, b, c, [32], []]
    let (h, sv3) := split h [a, a, a, [32], []]
    let (h, sv4) := split h [a, b, c, [], []]
    let (h, sv5) := split h [a, b, c, []]
    let empty : Vec := some [.null]
    check ((← add h none none) = (h, none))
    check (← equal h true none none)
    check (← equal h false none empty)
    check (← equal h false empty none)
    check (!(← equal h false sv1 none))
    check (!(← equal h false none sv2))
    check (← equal h true sv1 sv1)
    check (← equal h false sv1 sv2)
    check (!(← equal h false sv1 sv3))
    check (!(← equal h false sv1 sv4))
    check (!(← equal h false sv1 sv5))
    check (!(← equal h false sv5 sv1))) = .ok () := by decide +kernel

/-- `test_find`, lines 155-176 -/
example : (do
    let h : Heap := [some a, some b, some c, some d]
    let (h, sv) := split h [a, b, b, c]
    check (← contains h sv (some 0))
    check (← contains h sv (some 1))
    check (← contains h sv (some 2))
    check (!(← contains h sv (some 3)))
    check ((← find h sv (some 1)) = 1)
    check ((← findLast h sv (some 0)) = 0)
    check ((← findLast h sv (some 1)) = 2)
    check ((← findLast h sv (some 2)) = 3)
    check ((← findLast h sv (some 3)) = -1)
    check ((← findLast h none none) = -1)
    check (!(← contains h sv none))
    check (!(← contains h none (some 0)))
    check (!(← contains h none none))) = .ok () := by decide +kernel

/-- `test_remove`, lines 182-207 -/
example : (do
    let h : Heap := [some [101], some c, some b, some d]
    let (h, sv) := split h [a, b, c, b, c, c, d, b]
    let (h, sv1) := split h [a, b, b, c, c, d, b]
    let (h, sv2) := split h [a, c, c, d]
    let (h, sv3) := split h [a, c, c]
    check ((← remove h none none true) = (h, none))
    check ((← remove h sv none true) = (h, sv))
    check ((← length sv) = 8)
    check ((← remove h sv (some 0) true) = (h, sv))
    let (h, sv) ← remove h sv (some 1) false
    check (← equal h false sv sv1)
    let (h, sv) ← remove h sv (some 2) true
    check (← equal h false sv sv2)
    let (h, sv) ← remove h sv (some 3) true
    check (← equal h false sv sv3)) = .ok () := by decide +kernel

/-- `test_remove_at`, lines 213-234 -/
example : (do
    let h : Heap := [some c, some a]
    let (h, sv) := split h [a, b, c]
    check ((← removeAt h none 0 false) = (h, none))
    check ((← removeAt h sv 3 false) = (h, sv))
    check ((← removeAt h sv (-1) false) = (h, sv))
    let (h, sv) ← removeAt h sv 2 false
    check (!(← contains h sv (some 0)))
    let (h, sv) ← removeAt h sv 0 true
    check (!(← contains h sv (some 1)))
    check ((← length sv) = 1)
    -- `g_free(c)` is valid
    check ((← str h 4) = c)) = .ok () := by decide +kernel

/-- `test_remove_dups`, lines 240-255 -/
example : (do
    let (h, sv) := split [] [a, b, c, b, c, c, d, b]
    let (h, sv1) := split h [a, b, c, d]
    check ((← removeDups h none) = (h, none))
    let (h, sv) ← removeDups h sv
    check (← equal h false sv sv1)
    check ((← removeDups h sv) = (h, sv))
    check (← equal h false sv sv1)) = .ok () := by decide +kernel

/-- `test_sort`, lines 261-281 -/
example : (do
    let (h, i) := split [] [c, a, d, b]
    let (h, a1) := split h [a, b, c, d]
    let (h, d1) := split h [d, c, b, a]
    let a2 ← sort insertionSort h i true
    let d2 ← sort insertionSort h i false
    check (← equal h false a1 a2)
    check (← equal h false d1 d2)
    check ((← sort insertionSort h none false) = none)) = .ok () := by decide +kernel

/-- `test_bsearch`, lines 287-306 -/
example : (do
    let h : Heap := [some a, some [120]]
    let (h, va) := split h [a, b, c, d]
    let (h, vd) := split h [d, c, b, a]
    check ((← sort insertionSort h va true) = va)
    check ((← sort insertionSort h vd false) = vd)
    check ((← search linearSearch h none (some 0) true) < 0)
    check ((← search linearSearch h va none true) < 0)
    check ((← search linearSearch h va (some 1) true) < 0)
    check ((← search linearSearch h va (some 0) true) = 0)
    check ((← search linearSearch h vd (some 0) false) = 3)) = .ok () := by decide +kernel

/-- `test_strip`, lines 312-323 -/
example : (do
    let (h, i) := split [] [[32, 97], [98, 32], [32, 99, 32], []]
    let (h, expect) := split h [a, b, c, []]
    let h ← strip h i
    check (← equal h false i expect)) = .ok () := by decide +kernel

end Verif.Check.Strv
