import Verif.C.Basic
import Verif.Spec.Shared

/-!
# Objects with atomic reference counters, used by several threads

The functions which are modelled are the same for all of these types:

| | `ref` | `unref` |
|---|---|---|
| `GUtilInts` | src/gutil_ints.c:125-134 | src/gutil_ints.c:136-148 |
| `GUtilRing` | src/gutil_ring.c:84-93 | src/gutil_ring.c:95-114 |
| `GUtilIntHistory` | src/gutil_history.c:89-98 | src/gutil_history.c:100-110 |
| `GUtilIdleQueue` | src/gutil_idlequeue.c:142-151 | src/gutil_idlequeue.c:153-164 |
| `GUtilIdlePool` | src/gutil_idlepool.c:121-130 | src/gutil_idlepool.c:132-145 |
| `GUtilWeakRef` | src/gutil_weakref.c:72-81 | src/gutil_weakref.c:83-94 |

and `gutil_ints_unref_to_data`, src/gutil_ints.c:150-180, is there too. Each atomic operation on the counter, and everything done by a thread between two of
those, or between that and the deallocation, is one step; the steps of all threads are interleaved in any order (`g_atomic_int_inc` and
`g_atomic_int_dec_and_test` are full memory barriers). The counter doesn't overflow. `use` is any call which only reads the contents.
A part of a block of ints (`gutil_ints_new_from_ints`) holds a reference to the whole, which is dropped by the thread which drops the part.
-/

namespace Verif.Shared
open Verif.C

/-- Where the thread is:
`idle`: not in one of the functions below;
`last`: in unref, having decremented the counter to zero (src/gutil_ints.c:142);
`free`: in unref or unref_to_data, about to deallocate the structure (src/gutil_ints.c:145 and 169);
`lastData`: in unref_to_data, having decremented the counter to zero (src/gutil_ints.c:162);
`copy`: in unref_to_data, having decremented the counter, but not to zero (src/gutil_ints.c:171). -/
inductive Pc
  | idle
  | last
  | free
  | lastData
  | copy
  deriving DecidableEq, Repr

/-- A thread: the number of references which it owns, and where it is.
No code of the library, bookkeeping for the properties of src/gutil_ints.c:50-180 and the other functions listed at `Kind`. -/
structure Thread where
  owned : Nat
  pc : Pc
  deriving DecidableEq, Repr

/-- `alive`: the structure is allocated; `data`: its contents are; `refs` is the counter; `released` and `given` are how many times
the free function has been called, and the data have been given to the caller.
`struct gutil_ints`, src/gutil_ints.c:42-48, and other structures listed at `Kind`. -/
structure State where
  kind : Kind
  alive : Bool
  data : Bool
  refs : Nat
  threads : List Thread
  released : Nat
  given : Nat
  deriving DecidableEq, Repr

/-- `gutil_ints_new_with_free_func`, src/gutil_ints.c:78-97, and the same for other types: thread 0 has created the object, there are `n` more -/
def new (kind : Kind) (n : Nat) : State where
  kind := kind
  alive := true
  data := true
  refs := 1
  threads := ⟨1, .idle⟩ :: List.replicate n ⟨0, .idle⟩
  released := 0
  given := 0

/-- Access to the structure. Any dereference of the pointer in src/gutil_ints.c:50-180 and the other functions listed at `Kind`. -/
def State.access (s : State) : M Unit := if s.alive then .ok () else .error .useAfterFree

/-- Access to the contents. Any dereference of `ints->data`, src/gutil_ints.c:43. -/
def State.read (s : State) : M Unit := if s.data then .ok () else .error .useAfterFree

/-- A thread which exists. No code of the library -/
def State.thread (s : State) (t : Nat) : M Thread :=
  match s.threads[t]? with
  | some x => .ok x
  | none => .error .badArg

/-- `g_atomic_int_inc`, src/gutil_ints.c:130 -/
def ref (s : State) (t : Nat) : M State := do
  let x ← s.thread t
  s.access
  .ok { s with refs := s.refs + 1, threads := s.threads.set t { x with owned := x.owned + 1 } }

/-- Any use of the contents, e.g. `gutil_ints_get_data`, src/gutil_ints.c:182-198 -/
def use (s : State) (t : Nat) : M State := do
  let _ ← s.thread t
  s.access
  s.read
  .ok s

/-- The program's own doing. No code of the library. -/
def give (s : State) (t u : Nat) : M State := do
  let x ← s.thread t
  let s := { s with threads := s.threads.set t { x with owned := x.owned - 1 } }
  let y ← s.thread u
  .ok { s with threads := s.threads.set u { y with owned := y.owned + 1 } }

/-- `g_atomic_int_dec_and_test`, src/gutil_ints.c:141 and 161. `zero` and `other` is where the thread goes next. -/
def dec (s : State) (t : Nat) (zero other : Pc) : M State := do
  let x ← s.thread t
  s.access
  if s.refs = 0 then .error .badArg
  else .ok { s with refs := s.refs - 1,
                    threads := s.threads.set t { owned := x.owned - 1, pc := if s.refs - 1 = 0 then zero else other } }

/-- `free_func(user_data)`. src/gutil_ints.c:143. -/
def release (s : State) : M State :=
  if s.data then .ok { s with data := false, released := s.released + 1 } else .error .doubleFree

/-- `if (ints->free_func) ints->free_func(ints->user_data)`, src/gutil_ints.c:142-144 -/
def finish (s : State) : M State := do
  s.access
  match s.kind with
  | .nothing => .ok s
  | _ => release s

/-- Lines 162-168 of src/gutil_ints.c -/
def finishData (s : State) : M State := do
  s.access
  match s.kind with
  | .gfree => do
    s.read
    .ok { s with given := s.given + 1 }
  | .func => do
    s.read
    release s
  | .nothing => do
    s.read
    .error .nullCall

/-- `gutil_slice_free(ints)`, src/gutil_ints.c:145 and 169 -/
def sliceFree (s : State) : M State := if s.alive then .ok { s with alive := false } else .error .doubleFree

/-- Line 171 of src/gutil_ints.c -/
def copy (s : State) : M State := do
  s.access
  s.read
  .ok s

/-- The thread is somewhere else in src/gutil_ints.c:136-180. -/
def State.goto (s : State) (t : Nat) (x : Thread) (pc : Pc) : State := { s with threads := s.threads.set t { x with pc := pc } }

/-- The thread goes on, src/gutil_ints.c:142-145 and 162-171. -/
def next (s : State) (t : Nat) : M State := do
  let x ← s.thread t
  match x.pc with
  | .idle => .error .badArg
  | .last => do
    let s ← finish s
    .ok (s.goto t x .free)
  | .free => do
    let s ← sliceFree s
    .ok (s.goto t x .idle)
  | .lastData => do
    let s ← finishData s
    .ok (s.goto t x .free)
  | .copy => do
    let s ← copy s
    .ok (s.goto t x .idle)

/-- One step of a thread in src/gutil_ints.c:50-180 and the other functions listed at `Kind` -/
def step (s : State) : Act → M State
  | .ref t => ref s t
  | .use t => use s t
  | .give t u => give s t u
  | .unref t => dec s t .last .idle
  | .toData t => dec s t .lastData .copy
  | .next t => next s t

/-- The number of references owned by the thread.
No code of the library, bookkeeping for the properties of src/gutil_ints.c:50-180 and the other functions listed at `Kind`. -/
def State.owned (s : State) (t : Nat) : Nat := (s.threads[t]?.map (·.owned)).getD 0

/-- Is the thread in one of the functions?
No code of the library, bookkeeping for the properties of src/gutil_ints.c:50-180 and the other functions listed at `Kind`. -/
def State.busy (s : State) (t : Nat) : Prop := ∃ x, s.threads[t]? = some x ∧ x.pc ≠ .idle

/-- The rules: a thread only uses the object if it has a reference, and does one thing at a time.
No code of the library, a rule for those who use src/gutil_ints.c:50-180 and the other functions listed at `Kind`. -/
def Allowed (s : State) : Act → Prop
  | .ref t | .use t | .unref t | .toData t => 0 < s.owned t ∧ ¬ s.busy t
  | .give t u => 0 < s.owned t ∧ ¬ s.busy t ∧ u < s.threads.length
  | .next t => s.busy t

instance (s : State) (t : Nat) : Decidable (s.busy t) :=
  match h : s.threads[t]? with
  | none => isFalse (by rintro ⟨x, h1, _⟩; rw [h] at h1; cases h1)
  | some x =>
    if h2 : x.pc = .idle then isFalse (by rintro ⟨y, h1, h3⟩; rw [h] at h1; cases h1; exact h3 h2) else isTrue ⟨x, h, h2⟩

instance (s : State) (a : Act) : Decidable (Allowed s a) := by
  cases a <;> unfold Allowed <;> infer_instance

/-- What can be reached by following the rules, and additional ones given by `P`.
No code of the library, a sequence of uses of src/gutil_ints.c:50-180 and the other functions listed at `Kind`. -/
inductive Reach (P : State → Act → Prop) (kind : Kind) (n : Nat) : State → Prop
  | new : Reach P kind n (new kind n)
  | step {s s' : State} {a : Act} : Reach P kind n s → Allowed s a → P s a → step s a = .ok s' → Reach P kind n s'

/-- A number of steps. No code of the library, a sequence of uses of src/gutil_ints.c:50-180 and the other functions listed at `Kind`. -/
def exec (s : State) : List Act → M State
  | [] => .ok s
  | a :: t =>
    match step s a with
    | .ok s => exec s t
    | .error e => .error e

/-- Are the rules being followed?
No code of the library, a rule for those who use src/gutil_ints.c:50-180 and the other functions listed at `Kind`. -/
def legal (s : State) : List Act → Bool
  | [] => true
  | a :: t =>
    if Allowed s a then
      match step s a with
      | .ok s => legal s t
      | .error _ => false
    else false

end Verif.Shared
