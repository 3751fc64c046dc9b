import Verif.C.Basic
import Verif.Spec.WeakThreads

/-!
# Model of `/repo/src/gutil_weakref.c`, weak references being shared by threads

Any number of objects, weak references and threads. The steps of threads are mixed in any order. `GWeakRef` of GLib is
represented by its contract: each of its functions is a single step (there's a lock inside), and so is dropping a
reference to an object. A `GWeakRef` which isn't empty is registered with the object, which clears all those registered
with it when its last reference is dropped. The counter of references to the weak reference is atomic. After it drops
to zero, the weak reference is cleared by one more step, and released by yet another one.

Simplified: finalizers of objects aren't part of the step which drops the last reference, whatever they do is done
afterwards, in the form of more steps; objects aren't resurrected; counters don't overflow; numbers of objects and weak
references (i.e. addresses) aren't used again; there's no limit to the number of either.
-/

namespace Verif.WeakThreads
open Verif.C

/-- `GObject` (GLib): the reference counter, zero meaning that the object is gone, and weak references which are
registered with it. -/
structure Obj where
  refs : Nat
  locs : List Nat
  deriving DecidableEq, Repr

/-- `struct gutil_weakref`, src/gutil_weakref.c:56-59: `alive` tells whether it's allocated, `count` is `ref_count` and
`target` is the contents of `weak_ref`. -/
structure Ref where
  alive : Bool
  count : Nat
  target : Option Nat
  deriving DecidableEq, Repr

/-- Where the thread is: not in `gutil_weakref_unref` or, the counter having dropped to zero, about to clear the weak
reference, line 90, or about to release the memory, line 91 of src/gutil_weakref.c. -/
inductive Pc
  | idle
  | clear (w : Nat)
  | free (w : Nat)
  deriving DecidableEq, Repr

/-- All the objects, weak references and threads. `nobj` and `nref` are how many have been created. `log` is for the
purpose of stating the rules and the properties. No code of its own, it goes to the model of src/gutil_weakref.c:56-111. -/
structure State where
  objs : Nat → Obj
  nobj : Nat
  refs : Nat → Ref
  nref : Nat
  pc : Nat → Pc
  log : List Event

/-- Assignment. No code of its own, it goes to the model of src/gutil_weakref.c:56-111. -/
def upd {α : Type} (f : Nat → α) (k : Nat) (v : α) : Nat → α := fun i => if i = k then v else f i

/-- Nothing has been done yet. No code of its own, it goes to the model of src/gutil_weakref.c:56-111. -/
def init : State where
  objs := fun _ => { refs := 0, locs := [] }
  nobj := 0
  refs := fun _ => { alive := false, count := 0, target := none }
  nref := 0
  pc := fun _ => .idle
  log := []

/-- Access to the structure. Any dereference of `self` in src/gutil_weakref.c:61-111. -/
def access (s : State) (w : Nat) : M Unit := if (s.refs w).alive then .ok () else .error .useAfterFree

/-- `g_weak_ref_clear` (GLib), called at src/gutil_weakref.c:90: it's not registered anymore. -/
def weakClear (s : State) (w : Nat) : State :=
  match (s.refs w).target with
  | none => s
  | some x =>
    { s with
      objs := upd s.objs x { s.objs x with locs := (s.objs x).locs.filter (fun l => l ≠ w) }
      refs := upd s.refs w { s.refs w with target := none } }

/-- `g_weak_ref_set` and `g_weak_ref_init` (GLib), called at src/gutil_weakref.c:68 and 109. The object must exist. -/
def weakSet (s : State) (w : Nat) (o : Option Nat) : M State :=
  match o with
  | none => .ok (weakClear s w)
  | some x =>
    if (s.objs x).refs = 0 then .error .useAfterFree
    else
      let s := weakClear s w
      .ok { s with
        objs := upd s.objs x { s.objs x with locs := w :: (s.objs x).locs }
        refs := upd s.refs w { s.refs w with target := some x } }

/-- `g_weak_ref_get` (GLib), called at src/gutil_weakref.c:100. It adds a reference to the object. -/
def weakGet (s : State) (w : Nat) : M (State × Option Nat) :=
  match (s.refs w).target with
  | none => .ok (s, none)
  | some x =>
    if (s.objs x).refs = 0 then .error .useAfterFree
    else .ok ({ s with objs := upd s.objs x { s.objs x with refs := (s.objs x).refs + 1 } }, some x)

/-- `gutil_weakref_new`, src/gutil_weakref.c:61-70. Nobody else knows about the new one until it's returned, hence
that's a single step. -/
def new (s : State) (o : Option Nat) : M State :=
  weakSet { s with
    refs := upd s.refs s.nref { alive := true, count := 1, target := none }
    nref := s.nref + 1
    log := s.log ++ [.new s.nref, .set s.nref o] } s.nref o

/-- `gutil_weakref_ref`, src/gutil_weakref.c:72-81 -/
def ref (s : State) (w : Nat) : M State := do
  access s w
  .ok { s with refs := upd s.refs w { s.refs w with count := (s.refs w).count + 1 }, log := s.log ++ [.hold w] }

/-- `gutil_weakref_unref` until the counter is decremented, src/gutil_weakref.c:83-89 -/
def unref (s : State) (t w : Nat) : M State := do
  access s w
  if (s.refs w).count = 0 then .error .badArg
  else .ok { s with
    refs := upd s.refs w { s.refs w with count := (s.refs w).count - 1 }
    pc := if (s.refs w).count = 1 then upd s.pc t (.clear w) else s.pc
    log := s.log ++ [.drop w] }

/-- The rest of `gutil_weakref_unref`, one step at a time, src/gutil_weakref.c:90-91 -/
def go (s : State) (t : Nat) : M State :=
  match s.pc t with
  | .idle => .error .badArg
  | .clear w => do
    access s w
    let s := weakClear s w
    .ok { s with pc := upd s.pc t (.free w) }
  | .free w =>
    if (s.refs w).alive then
      .ok { s with
        refs := upd s.refs w { s.refs w with alive := false }
        pc := upd s.pc t .idle
        log := s.log ++ [.freed w] }
    else .error .doubleFree

/-- `gutil_weakref_get`, src/gutil_weakref.c:96-101 -/
def get (s : State) (w : Nat) : M (State × Option Nat) := do
  access s w
  let (s, o) ← weakGet s w
  .ok ({ s with log := s.log ++ [.got w o] }, o)

/-- `gutil_weakref_set`, src/gutil_weakref.c:103-111 -/
def set (s : State) (w : Nat) (o : Option Nat) : M State := do
  access s w
  weakSet { s with log := s.log ++ [.set w o] } w o

/-- `g_object_new` (GLib) -/
def objNew (s : State) : State :=
  { s with
    objs := upd s.objs s.nobj { refs := 1, locs := [] }
    nobj := s.nobj + 1
    log := s.log ++ [.create s.nobj] }

/-- `g_object_ref` (GLib) -/
def objRef (s : State) (x : Nat) : M State :=
  if (s.objs x).refs = 0 then .error .useAfterFree
  else .ok { s with
    objs := upd s.objs x { s.objs x with refs := (s.objs x).refs + 1 }
    log := s.log ++ [.ref x] }

/-- `g_object_unref` (GLib). When the last reference is gone, all the weak references registered with the object are
cleared, which requires those to exist. -/
def objUnref (s : State) (x : Nat) : M State :=
  if (s.objs x).refs = 0 then .error .useAfterFree
  else if (s.objs x).refs = 1 then
    if ∀ w ∈ (s.objs x).locs, (s.refs w).alive = true then
      .ok { s with
        objs := upd s.objs x { refs := 0, locs := [] }
        refs := fun w => if w ∈ (s.objs x).locs then { s.refs w with target := none } else s.refs w
        log := s.log ++ [.unref x] }
    else .error .useAfterFree
  else .ok { s with
    objs := upd s.objs x { s.objs x with refs := (s.objs x).refs - 1 }
    log := s.log ++ [.unref x] }

/-- What may be called by a thread. No code of its own, it goes to the model of src/gutil_weakref.c:61-111. -/
inductive Call
  | objNew
  | objRef (x : Nat)
  | objUnref (x : Nat)
  | new (o : Option Nat)
  | ref (w : Nat)
  | unref (w : Nat)
  | get (w : Nat)
  | set (w : Nat) (o : Option Nat)
  deriving DecidableEq, Repr

/-- The thread calls something, or goes on with what it's doing.
No code of its own, it goes to the model of src/gutil_weakref.c:61-111. -/
inductive Act
  | call (t : Nat) (c : Call)
  | go (t : Nat)
  deriving DecidableEq, Repr

/-- One step. No code of its own, it goes to the model of src/gutil_weakref.c:61-111. -/
def step (s : State) : Act → M State
  | .call _ .objNew => .ok (objNew s)
  | .call _ (.objRef x) => objRef s x
  | .call _ (.objUnref x) => objUnref s x
  | .call _ (.new o) => new s o
  | .call _ (.ref w) => ref s w
  | .call t (.unref w) => unref s t w
  | .call _ (.get w) => do
    let (s, _) ← get s w
    .ok s
  | .call _ (.set w o) => set s w o
  | .go t => go s t

/-- The rules: objects and weak references are used as long as the program holds references to those (threads may pass
references to each other), and a thread does one thing at a time.
No code of the library, a rule for those who use src/gutil_weakref.c:61-111. -/
def Allowed (s : State) : Act → Prop
  | .call t c => s.pc t = .idle ∧
    match c with
    | .objNew | .new none => True
    | .objRef x | .objUnref x | .new (some x) => 0 < strong x s.log
    | .ref w | .unref w | .get w | .set w none => 0 < held w s.log
    | .set w (some x) => 0 < held w s.log ∧ 0 < strong x s.log
  | .go t => s.pc t ≠ .idle

/-- What can happen if the rules are followed.
No code of the library, a sequence of uses of src/gutil_weakref.c:61-111. -/
inductive Reach : State → Prop
  | init : Reach init
  | step {s s' : State} {a : Act} : Reach s → Allowed s a → step s a = .ok s' → Reach s'

end Verif.WeakThreads
