import Verif.Model.Strv
import Verif.Spec.StrvHist

/-!
# Sequences of calls on string vectors

The functions of `/repo/src/gutil_strv.c` (`Model/Strv.lean`), called one after another by somebody who has a number of vectors and strings.
`g_strfreev` does the same as `gutil_ptrv_free`. Vectors are shorter than 2^31 elements, see `Model/Strv.lean`.
-/

namespace Verif.Strv
open Verif.C Spec

/-- The heap, the vectors (each one belongs to a variable) and the addresses of the caller's own strings.
What src/gutil_strv.c:45-403 is used with. -/
structure State where
  heap : Heap
  vecs : List Vec
  own : List Nat
  deriving DecidableEq, Repr

/-- Nothing at all. What src/gutil_strv.c:45-403 is used with. -/
def init : State := ⟨[], [], []⟩

/-- The `i`th variable; reading one which doesn't exist is an error. What src/gutil_strv.c:45-403 is used with. -/
def State.vec (st : State) (i : Nat) : M Vec :=
  match st.vecs[i]? with
  | some v => .ok v
  | none => .error .badPtr

/-- An assignment. What src/gutil_strv.c:45-403 is used with. -/
def State.setVec (st : State) (i : Nat) (v : Vec) : State := { st with vecs := st.vecs.set i v }

/-- The pointer given to a call; an element is the one `gutil_strv_at` returns, src/gutil_strv.c:55-70. -/
def State.src (st : State) : Src → M (Option Nat)
  | .null => .ok none
  | .mine k => match st.own[k]? with
    | some a => .ok (some a)
    | none => .error .badPtr
  | .elem i j => do
    let v ← st.vec i
    at_ v j

/-- The variable arguments, `va_arg` until there's a `NULL`, src/gutil_strv.c:181-183, 191 -/
def State.args (st : State) : List Src → M (List Nat)
  | [] => .ok []
  | s :: t => do
    let p ← st.src s
    match p with
    | some a => do
      let l ← st.args t
      .ok (a :: l)
    | none => .ok []

/-- What the caller sees of a pointer to a string. No code of the library, bookkeeping for the properties of src/gutil_strv.c:45-403. -/
def see (h : Heap) : Option Nat → M Out
  | some a => do
    let s ← str h a
    .ok (.str (some s))
  | none => .ok (.str none)

/-- The string which the caller is going to own after it has been removed: if it isn't freed, they have asked for it before.
No code of the library, bookkeeping for the properties of src/gutil_strv.c:45-403. -/
def taken (v : Vec) (pos : Int) (free : Bool) : M (Option Nat) :=
  if 0 ≤ pos ∧ free = false then at_ v pos.toNat else .ok none

/-- The whole call. src/gutil_strv.c:45-403. -/
def exec (q : (Cell → Cell → M Int) → Block → Block) (bs : (Cell → Cell → M Int) → Cell → Block → Option Nat) (st : State) : Op → M (Out × State)
  | .newStr s => .ok (.none, { st with heap := st.heap ++ [some s], own := st.own ++ [st.heap.length] })
  | .freeStr k => do
    let a ← st.src (.mine k)
    let h ← gfree st.heap a
    .ok (.none, { st with heap := h, own := st.own.eraseIdx k })
  | .newVec => .ok (.none, { st with vecs := st.vecs ++ [none] })
  | .free i => do
    let v ← st.vec i
    let h ← Ptrv.free st.heap v
    .ok (.none, { st with heap := h }.setVec i none)
  | .add i s => do
    let v ← st.vec i
    let p ← st.src s
    let (h, v) ← add st.heap v p
    .ok (.none, { st with heap := h }.setVec i v)
  | .addv i l => do
    let v ← st.vec i
    let ps ← st.args l
    let (h, v) ← addv st.heap v ps.head? ps.tail
    .ok (.none, { st with heap := h }.setVec i v)
  | .removeAt i pos free => do
    let v ← st.vec i
    let p ← taken v pos free
    let (h, v) ← removeAt st.heap v pos free
    .ok (.none, { heap := h, vecs := st.vecs.set i v, own := st.own ++ p.toList })
  | .remove i s all => do
    let v ← st.vec i
    let p ← st.src s
    let (h, v) ← remove st.heap v p all
    .ok (.none, { st with heap := h }.setVec i v)
  | .removeDups i => do
    let v ← st.vec i
    let (h, v) ← removeDups st.heap v
    .ok (.none, { st with heap := h }.setVec i v)
  | .sort i asc => do
    let v ← st.vec i
    let v ← sort q st.heap v asc
    .ok (.none, st.setVec i v)
  | .strip i => do
    let v ← st.vec i
    let h ← strip st.heap v
    .ok (.none, { st with heap := h })
  | .length i => do
    let v ← st.vec i
    let n ← length v
    .ok (.count n, st)
  | .at i j => do
    let v ← st.vec i
    let p ← at_ v j
    let o ← see st.heap p
    .ok (o, st)
  | .last i => do
    let v ← st.vec i
    let p ← last v
    let o ← see st.heap p
    .ok (o, st)
  | .find i s => do
    let v ← st.vec i
    let p ← st.src s
    let k ← find st.heap v p
    .ok (.int k, st)
  | .findLast i s => do
    let v ← st.vec i
    let p ← st.src s
    let k ← findLast st.heap v p
    .ok (.int k, st)
  | .contains i s => do
    let v ← st.vec i
    let p ← st.src s
    let b ← contains st.heap v p
    .ok (.bool b, st)
  | .bsearch i s asc => do
    let v ← st.vec i
    let p ← st.src s
    let k ← search bs st.heap v p asc
    .ok (.int k, st)
  | .equal i j => do
    let v ← st.vec i
    let w ← st.vec j
    let b ← equal st.heap (decide (i = j)) v w
    .ok (.bool b, st)

/-- One call after another. No code of the library, a sequence of uses of src/gutil_strv.c:45-403. -/
def run (q : (Cell → Cell → M Int) → Block → Block) (bs : (Cell → Cell → M Int) → Cell → Block → Option Nat) (st : State) : List Op → M (List Out × State)
  | [] => .ok ([], st)
  | op :: ops => do
    let (o, st) ← exec q bs st op
    let (os, st) ← run q bs st ops
    .ok (o :: os, st)

end Verif.Strv
