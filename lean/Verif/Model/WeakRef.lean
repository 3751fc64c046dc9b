import Verif.C.Basic
import Verif.Spec.WeakRef

/-!
# Model of `/repo/src/gutil_weakref.c`

One weak reference and any number of objects. `GWeakRef` of GLib is represented by its contract: it's registered with the object
which it points to, and is cleared by that object when its last reference is dropped (`g_weak_ref_clear` unregisters it).

Not modelled: simultaneous access by several threads (`GWeakRef` takes care of that), objects which are resurrected when
disposed, overflow of the reference counters.
-/

namespace Verif.Weak
open Verif.C

/-- `objs` are the reference counters of all the objects, zero meaning that the object is gone. `struct gutil_weakref`,
src/gutil_weakref.c:56-59: `alive` tells whether it's allocated, `refs` is `ref_count` and `target` is the contents of `weak_ref`.
`owned` (references which belong to the program) and `log` are for the purpose of stating the rules and the properties. -/
structure State where
  objs : List Nat
  alive : Bool
  refs : Nat
  target : Option Nat
  owned : Nat
  log : List Event
  deriving DecidableEq, Repr

/-- Access to the structure. Any dereference of `ref` in src/gutil_weakref.c:61-111. -/
def State.access (s : State) : M Unit := if s.alive then .ok () else .error .useAfterFree

/-- `g_weak_ref_set` (and `g_weak_ref_init`): the object must exist. (GLib) Called at src/gutil_weakref.c:68 and 109. -/
def weakSet (s : State) (o : Option Nat) : M State :=
  match o with
  | none => .ok { s with target := none }
  | some x =>
    match s.objs[x]? with
    | none | some 0 => .error .useAfterFree
    | some (_ + 1) => .ok { s with target := some x }

/-- `gutil_weakref_new`, src/gutil_weakref.c:61-70. `objs` and `log` is what has happened before that. -/
def new (objs : List Nat) (log : List Event) (o : Option Nat) : M State :=
  weakSet { objs := objs, alive := true, refs := 1, target := none, owned := 1, log := log ++ [.set o] } o

/-- `gutil_weakref_ref`, src/gutil_weakref.c:72-81 -/
def ref (s : State) : M State := do
  s.access
  .ok { s with refs := s.refs + 1, owned := s.owned + 1 }

/-- `gutil_weakref_unref`, src/gutil_weakref.c:83-94 -/
def unref (s : State) : M State := do
  s.access
  if s.refs = 0 then .error .badArg
  else if s.refs = 1 then .ok { s with refs := 0, owned := s.owned - 1, target := none, alive := false }
  else .ok { s with refs := s.refs - 1, owned := s.owned - 1 }

/-- `gutil_weakref_get`, src/gutil_weakref.c:96-101; `g_weak_ref_get` adds a reference to the object. -/
def get (s : State) : M (State × Option Nat) := do
  s.access
  match s.target with
  | none => .ok ({ s with log := s.log ++ [.got none] }, none)
  | some x =>
    match s.objs[x]? with
    | none | some 0 => .error .useAfterFree
    | some (n + 1) => .ok ({ s with objs := s.objs.set x (n + 2), log := s.log ++ [.got (some x)] }, some x)

/-- `gutil_weakref_set`, src/gutil_weakref.c:103-111 -/
def set (s : State) (o : Option Nat) : M State := do
  s.access
  weakSet { s with log := s.log ++ [.set o] } o

/-- `g_object_new` (GLib) -/
def objNew (s : State) : State := { s with objs := s.objs ++ [1], log := s.log ++ [.create s.objs.length] }

/-- `g_object_ref` (GLib) -/
def objRef (s : State) (x : Nat) : M State :=
  match s.objs[x]? with
  | none | some 0 => .error .useAfterFree
  | some (n + 1) => .ok { s with objs := s.objs.set x (n + 2), log := s.log ++ [.ref x] }

/-- `g_object_unref`. When the last reference is gone then the weak reference is cleared, which requires it to exist (GLib) -/
def objUnref (s : State) (x : Nat) : M State :=
  match s.objs[x]? with
  | none | some 0 => .error .useAfterFree
  | some 1 =>
    if s.target = some x then
      if s.alive then .ok { s with objs := s.objs.set x 0, target := none, log := s.log ++ [.unref x] } else .error .useAfterFree
    else .ok { s with objs := s.objs.set x 0, log := s.log ++ [.unref x] }
  | some (n + 2) => .ok { s with objs := s.objs.set x (n + 1), log := s.log ++ [.unref x] }

/-- No code of its own, it goes to the model of src/gutil_weakref.c:61-111. -/
inductive Act
  | objNew
  | objRef (x : Nat)
  | objUnref (x : Nat)
  | ref
  | unref
  | get
  | set (o : Option Nat)
  deriving DecidableEq, Repr

/-- No code of its own, it goes to the model of src/gutil_weakref.c:61-111. -/
def step (s : State) : Act → M State
  | .objNew => .ok (objNew s)
  | .objRef x => objRef s x
  | .objUnref x => objUnref s x
  | .ref => ref s
  | .unref => unref s
  | .get => do
    let (s, _) ← get s
    .ok s
  | .set o => set s o

/-- The rules: only existing objects can be used, and the weak reference is only used by those who hold a reference to it.
No code of the library, a rule for those who use src/gutil_weakref.c:61-111. -/
def Allowed (s : State) : Act → Prop
  | .objNew => True
  | .objRef x | .objUnref x => 0 < s.objs.getD x 0
  | .ref | .unref | .get | .set none => 0 < s.owned
  | .set (some x) => 0 < s.owned ∧ 0 < s.objs.getD x 0

instance (s : State) (a : Act) : Decidable (Allowed s a) := by
  cases a with
  | set o => cases o <;> unfold Allowed <;> infer_instance
  | _ => unfold Allowed; infer_instance

/-- What can happen if the rules are followed: a number of objects is created, then the weak reference to one of them or to nothing.
No code of the library, a sequence of uses of src/gutil_weakref.c:61-111. -/
inductive Reach : State → Prop
  | new {n : Nat} {o : Option Nat} {s : State} : (∀ x, o = some x → x < n) →
    new (List.replicate n 1) ((List.range n).map Event.create) o = .ok s → Reach s
  | step {s s' : State} {a : Act} : Reach s → Allowed s a → step s a = .ok s' → Reach s'

end Verif.Weak
