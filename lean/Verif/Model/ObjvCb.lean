import Verif.Model.Objv
import Verif.Spec.ObjvCb

/-!
# Model of `/repo/src/gutil_objv.c` with finalizers

The functions which drop references, `gutil_objv_free`, `gutil_objv_remove` and `gutil_objv_remove_at`, cut where GLib may call the
finalizer of an object. The other ones are those of `Verif.Model.Objv`.

Unlike there, blocks of memory have addresses, so that a finalizer may release the one which is being used.

Contracts: `g_object_unref` calls the finalizer when there are no references left, and the object can't be used from then on.
`g_realloc` moves the block if its contents changes (it may or may not; only a program which uses old pointers would notice).
-/

namespace Verif.ObjvCb
open Verif.C Verif.Objv
open Verif.Objv.Spec (Op)

/-- Where a finalizer has been called from. src/gutil_objv.c:76-86 and 184-223. -/
inductive Frame
  /-- `g_object_unref` called by the program itself -/
  | unref
  /-- src/gutil_objv.c:83; vector number `v`, the block at the address `a`, `i` is the next position -/
  | free (v a i : Nat)
  /-- src/gutil_objv.c:191; `more` tells what comes after that if that's `gutil_objv_remove` with `all` being true: the object, and the
  values of `pos` and `l` for the next call of `gutil_objv_find_last_impl` -/
  | remove (v a pos len : Nat) (more : Option (Nat × Nat × Nat))
  deriving DecidableEq, Repr

/-- Reference counts, blocks of memory by address (`none` is a released one), the pointers which the program has, the calls in
progress (the innermost one first), and the objects whose finalizers have been called. The vectors of src/gutil_objv.c:39-339. -/
structure State where
  refs : Refs
  blocks : List (Option Block)
  vars : List (Option Nat)
  stack : List Frame
  finalized : List Nat
  deriving DecidableEq, Repr

/-- What's there at the address. Any access to the vector, src/gutil_objv.c:39-339. -/
def block (s : State) (a : Nat) : M Block :=
  match s.blocks[a]? with
  | some (some b) => .ok b
  | some none => .error .useAfterFree
  | none => .error .badPtr

/-- `g_free`. (GLib) Called at src/gutil_objv.c:84. -/
def release (s : State) (a : Nat) : M State := do
  let _ ← block s a
  .ok { s with blocks := s.blocks.set a none }

/-- `g_object_unref`; also tells if the finalizer has been called (GLib) -/
def unref (s : State) (a : Nat) : M (State × Bool) := do
  let c ← objUnref s.refs a
  if cnt c a = 0 then .ok ({ s with refs := c, finalized := s.finalized ++ [a] }, true)
  else .ok ({ s with refs := c }, false)

/-- The loop in `gutil_objv_free` and what follows, src/gutil_objv.c:83-84, up to the next finalizer. The vector number `v` is at the
address `a`, the position is `i` and what's there is the last argument. -/
def freeLoop (s : State) (v a i : Nat) : Block → M State
  | [] => .error .oobRead
  | c :: t => do
    let p ← load c
    match p with
    | some o => do
      let (s, called) ← unref s o
      if called then .ok { s with stack := .free v a (i + 1) :: s.stack }
      else freeLoop s v a (i + 1) t
    | none => do
      let s ← release s a
      .ok { s with vars := s.vars.set v none }

/-- `gutil_objv_free`, src/gutil_objv.c:76-86 (after which the program sets its pointer to `NULL`) -/
def free (s : State) (v : Nat) : M State :=
  match s.vars[v]?.getD none with
  | some a => do
    let b ← block s a
    freeLoop s v a 0 b
  | none => .ok s

/-- src/gutil_objv.c:192-193; returns the new address -/
def shift (s : State) (a pos len : Nat) : M (State × Nat) := do
  let b ← block s a
  let b ← memmove b pos (pos + 1) (len - pos)
  let s ← release s a
  .ok ({ s with blocks := s.blocks ++ [some (renew (some b) len)] }, s.blocks.length)

/-- The loop in `gutil_objv_remove`, src/gutil_objv.c:214-218, up to the next finalizer. At the end the program updates its
pointer. -/
def removeLoop (v pos o : Nat) : (fuel : Nat) → State → (a len l : Nat) → M State
  | 0, _, _, _, _ => .error .diverge
  | fuel + 1, s, a, len, l => do
    let b ← block s a
    let i ← findLastImpl b pos o l
    if i ≥ 0 then
      let p ← deref b (pos + i.toNat)
      match p with
      | some x => do
        let (s, called) ← unref s x
        if called then .ok { s with stack := .remove v a (pos + i.toNat) len (some (o, pos, i.toNat)) :: s.stack }
        else do
          let (s, a) ← shift s a (pos + i.toNat) len
          removeLoop v pos o fuel s a (len - 1) i.toNat
      | none => .error .nullDeref
    else .ok { s with vars := s.vars.set v (some a) }

/-- What follows the call of the finalizer, src/gutil_objv.c:192-193, then 213-218 and 222 or 237 -/
def removeRest (s : State) (v a pos len : Nat) (more : Option (Nat × Nat × Nat)) : M State := do
  let (s, a) ← shift s a pos len
  match more with
  | none => .ok { s with vars := s.vars.set v (some a) }
  | some (o, pos, l) => removeLoop v pos o (l + 1) s a (len - 1) l

/-- `gutil_objv_remove_impl`, src/gutil_objv.c:184-194, and what follows, up to the next finalizer -/
def removeImpl (s : State) (v a pos len : Nat) (more : Option (Nat × Nat × Nat)) : M State := do
  let b ← block s a
  let p ← deref b pos
  match p with
  | some x => do
    let (s, called) ← unref s x
    if called then .ok { s with stack := .remove v a pos len more :: s.stack }
    else removeRest s v a pos len more
  | none => .error .nullDeref

/-- `gutil_objv_remove`, src/gutil_objv.c:196-223 -/
def remove (s : State) (v : Nat) (o : Option Nat) (all : Bool) : M State :=
  match s.vars[v]?.getD none, o with
  | some a, some o => do
    let b ← block s a
    let pos ← find (some b) (some o)
    if pos ≥ 0 then
      let len ← Ptrv.length (some b)
      removeImpl s v a pos.toNat len (if all then some (o, pos.toNat, len - 1 - pos.toNat) else none)
    else .ok s
  | _, _ => .ok s

/-- `gutil_objv_remove_at`, src/gutil_objv.c:225-238 -/
def removeAt (s : State) (v pos : Nat) : M State :=
  match s.vars[v]?.getD none with
  | some a => do
    let b ← block s a
    let len ← Ptrv.length (some b)
    if pos < len then removeImpl s v a pos len none else .ok s
  | none => .ok s

/-- The contents of the vector. Reading a vector of src/gutil_objv.c:39-339. -/
def vec (s : State) (v : Nat) : M Vec :=
  match s.vars[v]?.getD none with
  | some a => do
    let b ← block s a
    .ok (some b)
  | none => .ok none

/-- A function which doesn't drop references (src/gutil_objv.c:107-165) is called for the vector number `v`, and returns it. -/
def change (s : State) (v : Nat) (f : Refs → Vec → M (Refs × Vec)) : M State := do
  let old ← vec s v
  let (c, new) ← f s.refs old
  let s := { s with refs := c }
  if new = old then .ok s
  else do
    let s ← match s.vars[v]?.getD none with
      | some a => release s a
      | none => .ok s
    match new with
    | some b => .ok { s with blocks := s.blocks ++ [some b], vars := s.vars.set v (some s.blocks.length) }
    | none => .ok { s with vars := s.vars.set v none }

/-- A function which creates a vector (src/gutil_objv.c:39-74 and 88-105) is called. -/
def create (s : State) (f : Refs → M (Refs × Vec)) : M State := do
  let (c, new) ← f s.refs
  let s := { s with refs := c }
  match new with
  | some b => .ok { s with blocks := s.blocks ++ [some b], vars := s.vars ++ [some s.blocks.length] }
  | none => .ok { s with vars := s.vars ++ [none] }

/-- A call. There is no code behind this definition, it only calls the functions. src/gutil_objv.c:39-339. -/
def call (s : State) : Op → M State
  | .ref a => do
    let c ← objRef s.refs a
    .ok { s with refs := c }
  | .unref a => do
    let (s, called) ← unref s a
    .ok (if called then { s with stack := .unref :: s.stack } else s)
  | .new args => create s (fun c => Objv.new c args)
  | .copy i => do
    let v ← vec s i
    create s (fun c => Objv.copy c v)
  | .add i o => change s i (fun c v => Objv.add c v o)
  | .insert i o pos => change s i (fun c v => Objv.insert c v o pos)
  | .append i j => do
    let w ← vec s j
    change s i (fun c v => Objv.append c v w)
  | .remove i o all => remove s i o all
  | .removeAt i pos => removeAt s i pos
  | .free i => free s i

/-- A finalizer has returned. src/gutil_objv.c:83-84, 191-193 and 214-218. -/
def ret (s : State) : M State :=
  match s.stack with
  | [] => .error .badArg
  | .unref :: rest => .ok { s with stack := rest }
  | .free v a i :: rest => do
    let b ← block s a
    freeLoop { s with stack := rest } v a i (b.drop i)
  | .remove v a pos len more :: rest => removeRest { s with stack := rest } v a pos len more

/-- A call to src/gutil_objv.c:39-339, or a finalizer returns -/
def step (s : State) : Act → M State
  | .call op => call s op
  | .ret => ret s

/-- Finalizers return, `n` of them, one after another. No code of the library, a sequence of uses of src/gutil_objv.c:39-339. -/
def rets : (n : Nat) → State → M State
  | 0, s => .ok s
  | n + 1, s => do
    let s ← ret s
    rets n s

/-- The vectors being changed by the calls in progress. No code of the library, a rule for those who use src/gutil_objv.c:39-339. -/
def busy : List Frame → List Nat
  | [] => []
  | .unref :: t => busy t
  | .free v _ _ :: t => v :: busy t
  | .remove v _ _ _ _ :: t => v :: busy t

/-- Finalizers don't use the vectors which are being changed. No code of the library, a rule for those who use src/gutil_objv.c:39-339. -/
def Polite (s : State) : Act → Prop
  | .call op => ∀ v ∈ uses op, v ∉ busy s.stack
  | .ret => True

instance (s : State) (a : Act) : Decidable (Polite s a) := by
  cases a <;> unfold Polite <;> infer_instance

/-- What can be reached by following the rules (`Objv.Spec.Pre`) and additional ones given by `P`, starting with some objects
referenced by the program (`refs` are the numbers of references) and no vectors. The second state is what the program thinks it has.
No code of the library, a sequence of uses of src/gutil_objv.c:39-339. -/
inductive Reach (P : State → Act → Prop) (refs : Refs) : State → Objv.Spec.State → Prop
  | new : (∀ n ∈ refs, 0 < n) → Reach P refs ⟨refs, [], [], [], []⟩ ⟨cnt refs, []⟩
  | call {s s' : State} {t : Objv.Spec.State} {op : Op} : Reach P refs s t → Objv.Spec.Pre t op → P s (.call op) →
    call s op = .ok s' → Reach P refs s' (Objv.Spec.next t op)
  | ret {s s' : State} {t : Objv.Spec.State} : Reach P refs s t → s.stack ≠ [] → P s .ret → ret s = .ok s' → Reach P refs s' t

end Verif.ObjvCb
