import Verif.Model.IdlePool

/-!
# `/repo/src/gutil_idlepool.c` in a debug build

The functions of `Model/IdlePool.lean` with their assertions: `ref_count > 0` in `gutil_idle_pool_ref`, line 126,
and `gutil_idle_pool_unref`, line 137, and the one at line 239. Those which have none (and call no such function)
aren't repeated. See `gassert` about what a failed assertion does.
-/

namespace Verif.Pool.Debug
open Verif.C

/-- Lines 236-241 of src/gutil_idlepool.c; the assertion is at line 239. -/
def append (items : List Item) (last : Option Nat) (item : Item) : M (List Item) := do
  if last = none then gassert (items = [])
  Pool.append items last item

/-- Lines 243-253 of src/gutil_idlepool.c; `gutil_idle_pool_ref` is called at line 249. -/
def schedule (s : State) : M State :=
  match s.idle with
  | some _ => .ok s
  | none => do
    gassert (s.refs > 0)
    .ok (Pool.schedule s)

/-- `gutil_idle_pool_add`, src/gutil_idlepool.c:219-256 -/
def add (s : State) (self : Bool) : M State := do
  let items ← append s.items s.last ⟨s.nextId, self⟩
  schedule { s with items := items, last := some s.nextId, nextId := s.nextId + 1, log := s.log ++ [.added s.nextId] }

/-- `gutil_idle_pool_get`, src/gutil_idlepool.c:79-100 -/
def newShared (own : Bool) (foreign : List Nat) : M State := do
  let s ← add { new own foreign with shared := true, owned := 0 } true
  .ok { s with cell := .this }

/-- The inner loop of `gutil_idle_pool_drain`, src/gutil_idlepool.c:170-173, which may call `gutil_idle_pool_unref_1`. -/
def proc : List Item → State → Cont → M (State × Bool)
  | [], s, _ => .ok (s, true)
  | i :: t, s, k =>
    if i.self then do
      gassert (s.refs > 0)
      if s.refs ≤ 1 then .error .useAfterFree
      else proc t { s with refs := s.refs - 1, log := s.log ++ [.destroy i.id] } k
    else .ok ({ s with stack := ⟨t, k⟩ :: s.stack, log := s.log ++ [.destroy i.id] }, false)

/-- `g_source_remove` calling `gutil_idle_pool_unref_1`, src/gutil_idlepool.c:179-180 -/
def removeIdle (s : State) (id : Nat) : M State :=
  if s.own then .ok { s with idle := none, foreign := s.foreign.erase id }
  else if id ∈ s.live then do
    gassert (s.refs > 0)
    Pool.removeIdle s id
  else .error .badArg

/-- The end of `gutil_idle_pool_drain`, src/gutil_idlepool.c:176-181 -/
def drainEnd (s : State) (cont : State → M State) : M State :=
  match s.idle with
  | none => cont { s with log := s.log ++ [.drained s.stack.length] }
  | some id => do
    let s ← removeIdle s id
    cont { s with log := s.log ++ [.drained s.stack.length] }

/-- `gutil_idle_pool_drain` from line 165 on, src/gutil_idlepool.c:165-181 -/
def drainNext (s : State) (k : Cont) (cont : State → M State) : M State := do
  s.access
  if s.items = [] then drainEnd s cont
  else do
    let (s, done) ← proc s.items { s with items := [], last := none } k
    if done then
      if s.items = [] then drainEnd s cont else .error .diverge
    else .ok s

/-- `gutil_idle_pool_unref`, src/gutil_idlepool.c:132-145, the assertion is at line 137. -/
def unref (s : State) : M State := do
  s.access
  gassert (s.refs > 0)
  if s.refs = 1 then drainNext (clearCell { s with refs := 0 }) .final free
  else .ok { s with refs := s.refs - 1 }

/-- What follows `gutil_idle_pool_drain`; see `Pool.after`, src/gutil_idlepool.c:142, 153, 216. -/
def after (k : Cont) (s : State) : M State :=
  match k with
  | .ret => .ok s
  | .destroy => unref { s with owned := s.owned - 1 }
  | .idle src => unref { s with live := s.live.erase src }
  | .final => free s

/-- `gutil_idle_pool_drain`, src/gutil_idlepool.c:157-182 -/
def drain (s : State) (k : Cont) : M State := drainNext s k (after k)

/-- `gutil_idle_pool_idle`, src/gutil_idlepool.c:184-217 -/
def dispatch (s : State) (src : Nat) (right : Bool) : M State := do
  s.access
  if right then drain { s with idle := none } (.idle src)
  else unref { s with idle := none, live := s.live.erase src }

/-- A destroy function returns, src/gutil_idlepool.c:171-182 -/
def ret (s : State) : M State :=
  match s.stack with
  | [] => .error .badArg
  | f :: st => do
    let (s, done) ← proc f.rest { s with stack := st } f.cont
    if done then drain s f.cont else .ok s

/-- One action of the client. The assertion in `gutil_idle_pool_ref` is at src/gutil_idlepool.c:126. -/
def step (s : State) : Act → M State
  | .add => do
    s.access
    add s false
  | .ref => do
    s.access
    gassert (s.refs > 0)
    .ok { s with refs := s.refs + 1, owned := s.owned + 1 }
  | .unref => unref { s with owned := s.owned - 1 }
  | .drain => drain s .ret
  | .destroy => drain s .destroy
  | .dispatch src right => dispatch s src right
  | .ret => ret s
  | .cell c => .ok { s with cell := c }

end Verif.Pool.Debug
