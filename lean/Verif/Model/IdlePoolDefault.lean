import Verif.Model.IdlePool
import Verif.Spec.IdlePoolDefault

/-!
# Model of `gutil_idle_pool_get_default` of `/repo/src/gutil_idlepool.c`

Any number of threads and pools. Each pool is the one from `Model/IdlePool.lean`; pools have nothing in common.

`GPrivate` (contract of GLib and pthreads): each thread has its own value, initially `NULL`. When the thread exits and the value isn't `NULL`, then it's replaced with
`NULL`, and the function given to `G_PRIVATE_INIT` is called with the old value. If there's a new value after that, then the same is done once more (a limited number of
times; nothing is done afterwards), so that a thread may exit several times in this model.

Simplifications: `own` and `foreign` describe the thread which the pool is created by, see `Model/IdlePool.lean`. References to pools which belong to the client and to threads are
both counted as `owned` there.
-/

namespace Verif.PoolDefault
open Verif.C

/-- All the pools, including those which don't exist anymore, and `thread_pool` (src/gutil_idlepool.c:111) of each thread -/
structure State where
  pools : List Pool.State
  priv : Nat → Option Nat
  hist : List Event

/-- `thread_pool` before its first use, src/gutil_idlepool.c:111 -/
def init : State := ⟨[], fun _ => none, []⟩

/-- `g_private_set`, src/gutil_idlepool.c:116 -/
def State.setPriv (s : State) (t : Nat) (p : Option Nat) : State := { s with priv := fun u => if u = t then p else s.priv u }

/-- Something happens. No code of the library, bookkeeping for the properties of src/gutil_idlepool.c:60-256. -/
def State.note (s : State) (e : Event) : State := { s with hist := s.hist ++ [e] }

/-- `gutil_idle_pool_get_default`, src/gutil_idlepool.c:108-119 -/
def getDefault (s : State) (t : Nat) (own : Bool) (foreign : List Nat) : State × Nat :=
  match s.priv t with
  | some p => (s.note (.got t p), p)
  | none =>
    let p := s.pools.length
    (({ s with pools := s.pools ++ [Pool.new own foreign] }.setPriv t (some p)).note (.got t p), p)

/-- Something is done to the pool. No code of its own, it goes to the model of src/gutil_idlepool.c:60-256. -/
def onPool (s : State) (p : Nat) (a : Pool.Act) : M State :=
  match s.pools[p]? with
  | none => .error .badPtr
  | some x => do
    let x ← Pool.step x a
    .ok { s with pools := s.pools.set p x }

/-- The thread exits: the pool is released by `gutil_idle_pool_unref_1`, src/gutil_idlepool.c:71-77 and 111. -/
def exit (s : State) (t : Nat) : M State :=
  match s.priv t with
  | none => .ok (s.note (.exits t))
  | some p => onPool ((s.setPriv t none).note (.exits t)) p .unref

/-- What may happen: `gutil_idle_pool_get_default`; `gutil_idle_pool_add` and `gutil_idle_pool_drain` with `NULL` instead of the pool; something is done to a pool;
a pool is created; the thread exits. No code of its own, it goes to the model of src/gutil_idlepool.c:60-256. -/
inductive Act
  | getDefault (t : Nat) (own : Bool) (foreign : List Nat)
  | add (t : Nat) (own : Bool) (foreign : List Nat)
  | drain (t : Nat) (own : Bool) (foreign : List Nat)
  | pool (p : Nat) (a : Pool.Act)
  | new (own : Bool) (foreign : List Nat)
  | exit (t : Nat)
  deriving DecidableEq, Repr

/-- One action. `NULL` is handled at lines 161-163 and 233-235 of src/gutil_idlepool.c. -/
def step (s : State) : Act → M State
  | .getDefault t own foreign => .ok (getDefault s t own foreign).1
  | .add t own foreign =>
    let (s, p) := getDefault s t own foreign
    onPool s p .add
  | .drain t own foreign =>
    let (s, p) := getDefault s t own foreign
    onPool s p .drain
  | .pool p a => onPool s p a
  | .new own foreign => .ok { s with pools := s.pools ++ [Pool.new own foreign] }
  | .exit t => exit s t

/-- How many references are going to be dropped by the calls of `gutil_idle_pool_destroy` which are in progress.
No code of the library, a rule for those who use src/gutil_idlepool.c:60-256. -/
def promised (st : List Pool.Frame) : Nat := (st.filter (fun f => f.cont = .destroy)).length

/-- The rules: those of pools; the client doesn't drop the reference which belongs to the thread; a thread isn't in any function when it exits.
No code of the library, a rule for those who use src/gutil_idlepool.c:60-256. -/
def Allowed (s : State) : Act → Prop
  | .getDefault .. | .add .. | .drain .. | .new .. => True
  | .pool p a => ∃ x, s.pools[p]? = some x ∧ Pool.Allowed x a ∧
    (a = .unref ∨ a = .destroy → ∀ t, s.priv t = some p → promised x.stack + 2 ≤ x.owned)
  | .exit t => ∀ p x, s.priv t = some p → s.pools[p]? = some x → x.stack = []

/-- What can be reached by following the rules. No code of the library, a sequence of uses of src/gutil_idlepool.c:60-256. -/
inductive Reach : State → Prop
  | init : Reach init
  | step {s s' : State} {a : Act} : Reach s → Allowed s a → step s a = .ok s' → Reach s'

end Verif.PoolDefault
