import Verif.Model.IdlePool

/-!
# Model of `/repo/src/gutil_idlepool.c`, lines 258-382

Functions which add things of particular types to a pool: these are built on top of `Model/IdlePool.lean`. There are objects of five
kinds, with reference counters (a `NULL` terminated array of strings is like an object which always has one reference), and it's known
which item of the pool is which object, and how it's going to be destroyed. The client may have references of its own.

Dropping the last reference to an object may run the client's code (e.g. finalizer). That's covered by the client being in
control after each call to a destroy function.

`g_variant_ref`, `g_object_ref` etc. are what the documentation of GLib says. A floating reference to a variant is a reference. The
pool isn't `NULL` (the default pool is a pool like any other).
-/

namespace Verif.PoolObj
open Verif.C

/-- What the destroy functions at src/gutil_idlepool.c:258-342 are for -/
inductive Kind
  | strv
  | object
  | variant
  | ptrArray
  | bytes
  deriving DecidableEq, Repr

/-- `refs` is the reference counter, `owned` is how many of those belong to the client (that's for the purpose of stating the
rules and the properties). The objects belong to GLib. -/
structure Obj where
  kind : Kind
  refs : Nat
  owned : Nat
  deriving DecidableEq, Repr

/-- `data`: the numbers of the items (see `Pool.Event`), the objects being their pointers, and what kind of objects their destroy
functions are for. `released` are the objects which have been freed.
The objects passed to the functions at src/gutil_idlepool.c:266-382. -/
structure State where
  pool : Pool.State
  objs : List Obj
  data : List (Nat × Nat × Kind)
  released : List Nat
  deriving DecidableEq, Repr

/-- `g_object_ref`, `g_variant_ref`, `g_ptr_array_ref`, `g_bytes_ref` (GLib) -/
def ref (s : State) (k : Kind) (p : Nat) : M State :=
  match s.objs[p]? with
  | none => .error .badPtr
  | some o =>
    if o.kind ≠ k then .error .badPtr
    else if o.refs = 0 then .error .useAfterFree
    else .ok { s with objs := s.objs.set p { o with refs := o.refs + 1 } }

/-- `g_strfreev`, `g_object_unref`, `g_variant_unref`, `g_ptr_array_unref`, `g_bytes_unref` (GLib), and the functions at
src/gutil_idlepool.c:258-264, 288-294, 307-313 and 326-332. -/
def unref (s : State) (k : Kind) (p : Nat) : M State :=
  match s.objs[p]? with
  | none => .error .badPtr
  | some o =>
    if o.kind ≠ k then .error .badPtr
    else if o.refs = 0 then .error .doubleFree
    else .ok { s with objs := s.objs.set p { o with refs := o.refs - 1 }
                      released := if o.refs = 1 then s.released ++ [p] else s.released }

/-- `item->destroy(item->pointer)`, src/gutil_idlepool.c:171, for these items. Those which aren't there are something else. -/
def destroy (s : State) (id : Nat) : M State :=
  match s.data.find? (fun e => e.1 == id) with
  | none => .ok s
  | some (_, p, k) => unref s k p

/-- The items one by one, in the loop at src/gutil_idlepool.c:170-173 -/
def destroyAll (s : State) : List Nat → M State
  | [] => .ok s
  | id :: t => do
    let s ← destroy s id
    destroyAll s t

/-- The pool does something; these items are destroyed in the meantime.
No code of its own, it goes to the model of src/gutil_idlepool.c:219-382. -/
def run (s : State) (a : Pool.Act) : M State := do
  let pool ← Pool.step s.pool a
  destroyAll { s with pool := pool } ((Pool.destroys pool.log).drop (Pool.destroys s.pool.log).length)

/-- `gutil_idle_pool_add`, src/gutil_idlepool.c:219-256, with one of the above destroy functions. It returns the pointer. -/
def add (s : State) (p : Nat) (k : Kind) : M (State × Option Nat) := do
  let s ← run { s with data := s.data ++ [(s.pool.nextId, p, k)] } .add
  .ok (s, some p)

/-- `gutil_idle_pool_add_strv`, src/gutil_idlepool.c:266-275 -/
def addStrv (s : State) (strv : Option Nat) : M (State × Option Nat) :=
  match strv with
  | some p => do
    let (s, _) ← add s p .strv
    .ok (s, strv)
  | none => .ok (s, strv)

/-- `gutil_idle_pool_add_object`, src/gutil_idlepool.c:277-286 -/
def addObject (s : State) (object : Option Nat) : M (State × Option Nat) :=
  match object with
  | some p => do
    let (s, _) ← add s p .object
    .ok (s, object)
  | none => .ok (s, object)

/-- `gutil_idle_pool_add_variant`, src/gutil_idlepool.c:296-305 -/
def addVariant (s : State) (variant : Option Nat) : M (State × Option Nat) :=
  match variant with
  | some p => do
    let (s, _) ← add s p .variant
    .ok (s, variant)
  | none => .ok (s, variant)

/-- `gutil_idle_pool_add_ptr_array`, src/gutil_idlepool.c:315-324 -/
def addPtrArray (s : State) (array : Option Nat) : M (State × Option Nat) :=
  match array with
  | some p => do
    let (s, _) ← add s p .ptrArray
    .ok (s, array)
  | none => .ok (s, array)

/-- `gutil_idle_pool_add_bytes`, src/gutil_idlepool.c:334-342 -/
def addBytes (s : State) (bytes : Option Nat) : M (State × Option Nat) :=
  match bytes with
  | some p => add s p .bytes
  | none => .ok (s, none)

/-- `gutil_idle_pool_add_object_ref`, src/gutil_idlepool.c:344-352 -/
def addObjectRef (s : State) (object : Option Nat) : M (State × Option Nat) :=
  match object with
  | some p => do
    let s ← ref s .object p
    addObject s (some p)
  | none => .ok (s, none)

/-- `gutil_idle_pool_add_variant_ref`, src/gutil_idlepool.c:354-362 -/
def addVariantRef (s : State) (variant : Option Nat) : M (State × Option Nat) :=
  match variant with
  | some p => do
    let s ← ref s .variant p
    addVariant s (some p)
  | none => .ok (s, none)

/-- `gutil_idle_pool_add_ptr_array_ref`, src/gutil_idlepool.c:364-372 -/
def addPtrArrayRef (s : State) (array : Option Nat) : M (State × Option Nat) :=
  match array with
  | some p => do
    let s ← ref s .ptrArray p
    addPtrArray s (some p)
  | none => .ok (s, none)

/-- `gutil_idle_pool_add_bytes_ref`, src/gutil_idlepool.c:374-382 -/
def addBytesRef (s : State) (bytes : Option Nat) : M (State × Option Nat) :=
  match bytes with
  | some p => do
    let s ← ref s .bytes p
    addBytes s (some p)
  | none => .ok (s, none)

/-- These functions, by their names. src/gutil_idlepool.c:266-382. -/
inductive Fn
  | strv
  | object
  | variant
  | ptrArray
  | bytes
  | objectRef
  | variantRef
  | ptrArrayRef
  | bytesRef
  deriving DecidableEq, Repr

/-- What they are for. src/gutil_idlepool.c:266-382. -/
def Fn.kind : Fn → Kind
  | .strv => .strv
  | .object | .objectRef => .object
  | .variant | .variantRef => .variant
  | .ptrArray | .ptrArrayRef => .ptrArray
  | .bytes | .bytesRef => .bytes

/-- Those which add a reference, rather than take over the one which belongs to the caller. src/gutil_idlepool.c:344-382. -/
def Fn.isRef : Fn → Bool
  | .objectRef | .variantRef | .ptrArrayRef | .bytesRef => true
  | _ => false

/-- `gutil_idle_pool_add_strv` and others, src/gutil_idlepool.c:266-382 -/
def Fn.call : Fn → State → Option Nat → M (State × Option Nat)
  | .strv => addStrv
  | .object => addObject
  | .variant => addVariant
  | .ptrArray => addPtrArray
  | .bytes => addBytes
  | .objectRef => addObjectRef
  | .variantRef => addVariantRef
  | .ptrArrayRef => addPtrArrayRef
  | .bytesRef => addBytesRef

/-- What the client may do: anything with the pool (`pool .add` is adding something else to it), create an object, reference it and
drop its own reference, use the object, and call one of the above functions.
No code of its own, it goes to the model of src/gutil_idlepool.c:219-382. -/
inductive Act
  | pool (a : Pool.Act)
  | create (k : Kind)
  | ref (p : Nat)
  | unref (p : Nat)
  | use (p : Nat)
  | give (f : Fn) (p : Option Nat)
  deriving DecidableEq, Repr

/-- The number of references which belong to the client changes (that's its own bookkeeping).
No code of the library, bookkeeping for the properties of src/gutil_idlepool.c:219-382. -/
def State.own (s : State) (p : Nat) (f : Nat → Nat) : State :=
  { s with objs := s.objs.modify p (fun o => { o with owned := f o.owned }) }

/-- What the client does: calls to src/gutil_idlepool.c:219-382, and to GLib -/
def step (s : State) : Act → M State
  | .pool a => run s a
  | .create k => .ok { s with objs := s.objs ++ [⟨k, 1, 1⟩] }
  | .ref p =>
    match s.objs[p]? with
    | none => .error .badPtr
    | some o => ref (s.own p (· + 1)) o.kind p
  | .unref p =>
    match s.objs[p]? with
    | none => .error .badPtr
    | some o => unref (s.own p (· - 1)) o.kind p
  | .use p =>
    match s.objs[p]? with
    | none => .error .badPtr
    | some o => if o.refs = 0 then .error .useAfterFree else .ok s
  | .give f p => do
    let s := match p with
      | some p => if f.isRef then s else s.own p (· - 1)
      | none => s
    let (s, _) ← f.call s p
    .ok s

/-- How many times this object is there in the pool, waiting to be destroyed.
No code of the library, bookkeeping for the properties of src/gutil_idlepool.c:219-382. -/
def State.pending (s : State) (p : Nat) : Nat :=
  s.data.countP (fun e => e.2.1 == p && !(Pool.destroys s.pool.log).contains e.1)

/-- The rules. Those for the pool are the same as always. The client can only drop or give away those references which it has; but it
can also use (and reference) an object which is there in the pool. Functions can be called for the right kind of objects; an
array of strings can't be referenced. No code of the library, a rule for those who use src/gutil_idlepool.c:219-382. -/
def Allowed (s : State) : Act → Prop
  | .pool a => Pool.Allowed s.pool a
  | .create _ => True
  | .ref p => ∃ o ∈ s.objs[p]?, o.kind ≠ .strv ∧ (0 < o.owned ∨ 0 < s.pending p)
  | .unref p => ∃ o ∈ s.objs[p]?, 0 < o.owned
  | .use p => ∃ o ∈ s.objs[p]?, (0 < o.owned ∨ 0 < s.pending p)
  | .give _ none => True
  | .give f (some p) => Pool.Allowed s.pool .add ∧
      ∃ o ∈ s.objs[p]?, o.kind = f.kind ∧ (0 < o.owned ∨ (f.isRef = true ∧ 0 < s.pending p))

instance (s : State) (a : Act) : Decidable (Allowed s a) := by
  unfold Allowed
  split <;> infer_instance

/-- What can be reached by following the rules, there's nothing but a pool in the beginning.
No code of the library, a sequence of uses of src/gutil_idlepool.c:219-382. -/
inductive Reach : State → Prop
  | new {p : Pool.State} : Pool.Reach (fun _ _ => True) p → Reach ⟨p, [], [], []⟩
  | step {s s' : State} {a : Act} : Reach s → Allowed s a → step s a = .ok s' → Reach s'

/-- A number of actions. No code of the library, a sequence of uses of src/gutil_idlepool.c:219-382. -/
def exec (s : State) : List Act → M State
  | [] => .ok s
  | a :: t =>
    match step s a with
    | .ok s => exec s t
    | .error e => .error e

/-- Are the rules being followed? No code of the library, a rule for those who use src/gutil_idlepool.c:219-382. -/
def legal (s : State) : List Act → Bool
  | [] => true
  | a :: t =>
    if Allowed s a then
      match step s a with
      | .ok s => legal s t
      | .error _ => false
    else false

end Verif.PoolObj
