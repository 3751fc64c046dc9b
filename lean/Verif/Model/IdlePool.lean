import Verif.C.Basic
import Verif.Spec.IdlePool

/-!
# Model of `/repo/src/gutil_idlepool.c`

One pool, the main loop, and the client, in the same way as it's done for the idle queue
(`Model/IdleQueue.lean`): the client is in control outside of any callback or inside of a destroy function
called by the pool, and `step` runs the code of the pool until the client is in control again.

`refs` is the reference counter; `owned` is the number of references which belong to the client. `owned` and
`log` are there only for the purpose of stating the rules and the properties. `cell` is the storage for the
pointer to the shared pool, which may also be used by other pools.

`gutil_idle_pool_get_default`, src/gutil_idlepool.c:108-119, is a pool referenced by the thread, like any other
pool it's being released by dropping that reference (see `Model/IdlePoolDefault.lean`). `gutil_idle_pool_add_strv` and others at lines 260-382 call
`gutil_idle_pool_add` with a particular destroy function unless the pointer is `NULL`. `gutil_idle_pool_add`
with `NULL` destroy function does nothing.

Not modelled: simultaneous access by several threads (but the idle callback being invoked by a wrong thread is),
overflow of the reference counter.
-/

namespace Verif.Pool
open Verif.C

/-- `struct gutil_idle_pool_item`, src/gutil_idlepool.c:45-49. `self`: the pointer is the pool itself, and
the destroy function is `gutil_idle_pool_unref_1`; otherwise it's a function of the client. -/
structure Item where
  id : Nat
  self : Bool
  deriving DecidableEq, Repr

/-- Who has called `gutil_idle_pool_drain`. src/gutil_idlepool.c:132-217. -/
inductive Cont
  /-- the client -/
  | ret
  /-- `gutil_idle_pool_destroy`, line 152 -/
  | destroy
  /-- `gutil_idle_pool_idle`, line 212, invoked by the source `src` -/
  | idle (src : Nat)
  /-- `gutil_idle_pool_unref`, line 141 -/
  | final
  deriving DecidableEq, Repr

/-- `gutil_idle_pool_drain` waiting for the destroy function at line 171; `rest` is what's left to do. -/
structure Frame where
  rest : List Item
  cont : Cont
  deriving DecidableEq, Repr

/-- Contents of the storage of the shared pointer. `*shared`, src/gutil_idlepool.c:79-100. -/
inductive Cell
  | null
  | this
  | other
  deriving DecidableEq, Repr

/-- `struct gutil_idle_pool`, src/gutil_idlepool.c:51-58, and the sources attached to the main loop (`live`),
each one holding a reference to the pool. `own`: the thread has a main context of its own, that's where the
sources of the pool are; `foreign` are the sources of everyone else in the default main context. -/
structure State where
  alive : Bool
  refs : Nat
  owned : Nat
  idle : Option Nat
  items : List Item
  last : Option Nat
  shared : Bool
  cell : Cell
  live : List Nat
  own : Bool
  foreign : List Nat
  nextSource : Nat
  nextId : Nat
  stack : List Frame
  log : List Event
  deriving DecidableEq, Repr

/-- `gutil_idle_pool_new`, src/gutil_idlepool.c:60-69 -/
def new (own : Bool) (foreign : List Nat) : State where
  alive := true
  refs := 1
  owned := 1
  idle := none
  items := []
  last := none
  shared := false
  cell := .null
  live := []
  own := own
  foreign := foreign
  nextSource := 1
  nextId := 0
  stack := []
  log := []

/-- Access to the pool. Any dereference of `self` in src/gutil_idlepool.c:60-256. -/
def State.access (s : State) : M Unit := if s.alive then .ok () else .error .useAfterFree

/-- `self->last->next = item` or `self->first = item`, src/gutil_idlepool.c:236-241 -/
def append (items : List Item) (last : Option Nat) (item : Item) : M (List Item) :=
  match last with
  | none => .ok [item]
  | some l =>
    match items.findIdx? (fun i => i.id == l) with
    | some k => .ok (items.take (k + 1) ++ [item])
    | none => .error .badPtr

/-- Lines 243-253 of src/gutil_idlepool.c; the new source holds a reference. -/
def schedule (s : State) : State :=
  match s.idle with
  | some _ => s
  | none => { s with idle := some s.nextSource, live := s.live ++ [s.nextSource], nextSource := s.nextSource + 1, refs := s.refs + 1 }

/-- `gutil_idle_pool_add`, src/gutil_idlepool.c:219-256 -/
def add (s : State) (self : Bool) : M State := do
  let items ← append s.items s.last ⟨s.nextId, self⟩
  .ok (schedule { s with items := items, last := some s.nextId, nextId := s.nextId + 1, log := s.log ++ [.added s.nextId] })

/-- `gutil_idle_pool_get`, src/gutil_idlepool.c:79-100, if there's no pool yet. The caller doesn't get a
reference, it belongs to the item which has been added. -/
def newShared (own : Bool) (foreign : List Nat) : M State := do
  let s ← add { new own foreign with shared := true, owned := 0 } true
  .ok { s with cell := .this }

/-- `gutil_slice_free(self)`, src/gutil_idlepool.c:142 -/
def free (s : State) : M State :=
  if s.alive then .ok { s with alive := false } else .error .doubleFree

/-- The inner loop of `gutil_idle_pool_drain`, src/gutil_idlepool.c:170-173, up to the first call to the client.
The flag is set if the end has been reached. If the reference to itself turns out to be the last one then the
pool is going to be deallocated and then accessed. -/
def proc : List Item → State → Cont → M (State × Bool)
  | [], s, _ => .ok (s, true)
  | i :: t, s, k =>
    if i.self then
      if s.refs ≤ 1 then .error .useAfterFree
      else proc t { s with refs := s.refs - 1, log := s.log ++ [.destroy i.id] } k
    else .ok ({ s with stack := ⟨t, k⟩ :: s.stack, log := s.log ++ [.destroy i.id] }, false)

/-- `*(self->shared) = NULL`, src/gutil_idlepool.c:140 -/
def clearCell (s : State) : State := if s.shared then { s with cell := .null } else s

/-- `g_source_remove`, and the reference which it's holding being released (`gutil_idle_pool_unref_1`), at the end of
`gutil_idle_pool_drain` where there are no items in the pool; src/gutil_idlepool.c:179-180. `g_source_remove`
removes the source with the given id from the default main context, whatever that source is. (Source ids are
unique only within a main context.) -/
def removeIdle (s : State) (id : Nat) : M State :=
  if s.own then .ok { s with idle := none, foreign := s.foreign.erase id }
  else if id ∈ s.live then
    if s.refs = 0 then .error .badArg
    else if s.refs = 1 then free (clearCell { s with idle := none, live := s.live.erase id, refs := 0 })
    else .ok { s with idle := none, live := s.live.erase id, refs := s.refs - 1 }
  else .error .badArg

/-- The end of `gutil_idle_pool_drain`, src/gutil_idlepool.c:176-181 -/
def drainEnd (s : State) (cont : State → M State) : M State :=
  match s.idle with
  | none => cont { s with log := s.log ++ [.drained s.stack.length] }
  | some id => do
    let s ← removeIdle s id
    cont { s with log := s.log ++ [.drained s.stack.length] }

/-- `gutil_idle_pool_drain` from line 165 on (src/gutil_idlepool.c:165-181). If there were no calls to the client then nothing has been added,
and the second iteration of the outer loop is the last one. -/
def drainNext (s : State) (k : Cont) (cont : State → M State) : M State := do
  s.access
  if s.items = [] then drainEnd s cont
  else do
    let (s, done) ← proc s.items { s with items := [], last := none } k
    if done then
      if s.items = [] then drainEnd s cont else .error .diverge
    else .ok s

/-- `gutil_idle_pool_unref`, src/gutil_idlepool.c:132-145 -/
def unref (s : State) : M State := do
  s.access
  if s.refs = 0 then .error .badArg
  else if s.refs = 1 then drainNext (clearCell { s with refs := 0 }) .final free
  else .ok { s with refs := s.refs - 1 }

/-- What follows `gutil_idle_pool_drain`: `gutil_idle_pool_unref` in `gutil_idle_pool_destroy`, line 153; the source
being removed by the main loop after `gutil_idle_pool_idle`, line 216; `gutil_slice_free`, line 142 (src/gutil_idlepool.c). -/
def after (k : Cont) (s : State) : M State :=
  match k with
  | .ret => .ok s
  | .destroy => unref { s with owned := s.owned - 1 }
  | .idle src => unref { s with live := s.live.erase src }
  | .final => free s

/-- `gutil_idle_pool_drain`, src/gutil_idlepool.c:157-182 -/
def drain (s : State) (k : Cont) : M State := drainNext s k (after k)

/-- `gutil_idle_pool_idle`, src/gutil_idlepool.c:184-217. `right`: it's the right thread. -/
def dispatch (s : State) (src : Nat) (right : Bool) : M State := do
  s.access
  if right then drain { s with idle := none } (.idle src)
  else unref { s with idle := none, live := s.live.erase src }

/-- A destroy function returns, src/gutil_idlepool.c:171-182 -/
def ret (s : State) : M State :=
  match s.stack with
  | [] => .error .badArg
  | f :: st => do
    let (s, done) ← proc f.rest { s with stack := st } f.cont
    if done then drain s f.cont else .ok s

/-- What the client may do. `cell` is some other pool being stored to the shared pointer, or removed from there.
No code of its own, it goes to the model of src/gutil_idlepool.c:60-256. -/
inductive Act
  | add
  | ref
  | unref
  | drain
  | destroy
  | dispatch (src : Nat) (right : Bool)
  | ret
  | cell (c : Cell)
  deriving DecidableEq, Repr

/-- One action of the client. `ref` is `gutil_idle_pool_ref`, src/gutil_idlepool.c:121-130, `destroy` is
`gutil_idle_pool_destroy`, lines 147-155. -/
def step (s : State) : Act → M State
  | .add => do
    s.access
    add s false
  | .ref => do
    s.access
    .ok { s with refs := s.refs + 1, owned := s.owned + 1 }
  | .unref => unref { s with owned := s.owned - 1 }
  | .drain => drain s .ret
  | .destroy => drain s .destroy
  | .dispatch src right => dispatch s src right
  | .ret => ret s
  | .cell c => .ok { s with cell := c }

/-- The number of client's references which are needed by the functions called by the client and waiting for a
callback: `gutil_idle_pool_destroy` is going to drop one, and there must be one throughout the call to
`gutil_idle_pool_drain`. No code of the library, a rule for those who use src/gutil_idlepool.c:60-256. -/
def need : List Frame → Nat
  | [] => 0
  | ⟨_, .ret⟩ :: st => max 1 (need st)
  | ⟨_, .destroy⟩ :: st => need st + 1
  | ⟨_, _⟩ :: st => need st

/-- The rules: only an existing pool can be used, and not when it's being destroyed (the reference counter is
zero); only those references which belong to the client and aren't needed can be dropped; the main loop only
dispatches existing sources, and not recursively; the shared pointer is only set if it's `NULL`, and is only
cleared by its owner. No code of the library, a rule for those who use src/gutil_idlepool.c:60-256. -/
def Allowed (s : State) : Act → Prop
  | .add | .ref => 0 < s.refs
  | .unref | .destroy => need s.stack + 1 ≤ s.owned
  | .drain => max 1 (need s.stack) ≤ s.owned
  | .dispatch src _ => src ∈ s.live ∧ ∀ f ∈ s.stack, f.cont ≠ .idle src
  | .ret => s.stack ≠ []
  | .cell c => s.cell = .null ∧ c = .other ∨ s.cell = .other ∧ c = .null

instance (s : State) (a : Act) : Decidable (Allowed s a) := by
  cases a <;> unfold Allowed <;> infer_instance

/-- The states which can be reached by following the rules, and those additional ones which are given by `P`.
No code of the library, a sequence of uses of src/gutil_idlepool.c:60-256. -/
inductive Reach (P : State → Act → Prop) : State → Prop
  | new (own : Bool) (foreign : List Nat) : Reach P (new own foreign)
  | shared {own : Bool} {foreign : List Nat} {s : State} : newShared own foreign = .ok s → Reach P s
  | step {s s' : State} {a : Act} : Reach P s → Allowed s a → P s a → step s a = .ok s' → Reach P s'

/-- A number of actions. No code of the library, a sequence of uses of src/gutil_idlepool.c:60-256. -/
def exec (s : State) : List Act → M State
  | [] => .ok s
  | a :: t =>
    match step s a with
    | .ok s => exec s t
    | .error e => .error e

/-- Are the rules being followed? No code of the library, a rule for those who use src/gutil_idlepool.c:60-256. -/
def legal (s : State) : List Act → Bool
  | [] => true
  | a :: t =>
    if Allowed s a then
      match step s a with
      | .ok s => legal s t
      | .error _ => false
    else false

end Verif.Pool
