import Verif.C.Basic
import Verif.Spec.IdleQueue

/-!
# Model of `/repo/src/gutil_idlequeue.c`

One queue, the main loop, and the client. The client is in control either outside of any
callback or inside of one, which has been invoked by one of the functions of the queue; in the
latter case the function waits in `State.stack` for the callback to return. Being in control,
the client may call any function of the queue, run the main loop (recursively if it's inside
of a callback) or, if it's inside of a callback, return from it. These are the actions (`Act`);
`step` runs the code of the queue until the client is in control again.

The linked list is represented by the items in the order of `next`, starting at `first`. `last`
is a separate pointer, as it is in the code. Items are identified by the order in which they
were added. `log` is the history of calls and callbacks, the oldest one first. `log` and the
fields of frames marked as such are only there for the purpose of stating the properties.

Not modelled: other threads, overflow of the reference counter. `gutil_idle_queue_free`, lines
134-140, just calls `gutil_idle_queue_cancel_all` and `gutil_idle_queue_unref`; that's two actions
here (with other ones possibly in between).
-/

namespace Verif.Idle
open Verif.C

/-- `struct gutil_idle_queue_item`, src/gutil_idlequeue.c:44-51; `run` and `destroy` tell whether
there is such a callback. `tag` is `GUtilIdleQueueTag` (a pointer-sized integer). -/
structure Item where
  id : Nat
  tag : Nat
  run : Bool
  destroy : Bool
  completed : Bool
  deriving DecidableEq, Repr

/-- The functions waiting for a callback to return. src/gutil_idlequeue.c:72-123 and 260-312. -/
inductive Frame
  /-- `gutil_idle_queue_run` at line 105. `d` is the number of this invocation, `bound` the number
  of items added before that (both for the history only), `src` is the source being dispatched. -/
  | run (d src bound : Nat) (item : Item)
  /-- `gutil_idle_queue_run` at line 109 -/
  | runDestroy (d src bound : Nat) (item : Item)
  /-- `gutil_idle_queue_cancel_tag` at line 269 -/
  | tagFirst (item : Item)
  /-- `gutil_idle_queue_cancel_tag` at line 287 -/
  | tagOther (item : Item)
  /-- `gutil_idle_queue_cancel_all` at line 306; `final`: called by `gutil_idle_queue_unref`,
  which is about to free the queue. `bound` is for the history only. -/
  | all (bound : Nat) (final : Bool) (item : Item)
  deriving DecidableEq, Repr

/-- `struct gutil_idle_queue`, src/gutil_idlequeue.c:53-58, the sources attached to the main loop
(`live`), and the rest of it. -/
structure State where
  alive : Bool
  refs : Nat
  source : Option Nat
  items : List Item
  last : Option Nat
  live : List Nat
  nextSource : Nat
  nextId : Nat
  nextRun : Nat
  stack : List Frame
  log : List Event
  deriving DecidableEq, Repr

/-- `gutil_idle_queue_new`, src/gutil_idlequeue.c:125-132 -/
def new : State where
  alive := true
  refs := 1
  source := none
  items := []
  last := none
  live := []
  nextSource := 1
  nextId := 0
  nextRun := 0
  stack := []
  log := []

/-- Access to the queue. Any dereference of `q` in src/gutil_idlequeue.c:60-312. -/
def State.access (s : State) : M Unit := if s.alive then .ok () else .error .useAfterFree

/-- `gutil_source_clear(&q->source_id)`, src/gutil_misc.c:96-108 -/
def State.clearSource (s : State) : M State :=
  match s.source with
  | none => .ok s
  | some id => if id ∈ s.live then .ok { s with source := none, live := s.live.erase id } else .error .badArg

/-- Lines 88-90 and 302-304 of src/gutil_idlequeue.c -/
def markAll (items : List Item) : List Item := items.map (fun i => { i with completed := true })

/-- `last` after removing the first item, `t` being the rest; lines 94-97 and 253-256 -/
def lastOf (t : List Item) (last : Option Nat) : Option Nat := if t.isEmpty then none else last

/-- The loop in `gutil_idle_queue_run`, src/gutil_idlequeue.c:92-111, up to the first callback.
Returns the remaining items, `last` and the item to invoke the callbacks of. (The `done` list of
removed items is local, they are freed at line 114.) -/
def runScan : List Item → Option Nat → List Item × Option Nat × Option Item
  | [], last => ([], last, none)
  | i :: t, last =>
    if i.completed then
      if i.run || i.destroy then (t, lastOf t last, some i) else runScan t (lastOf t last)
    else (i :: t, last, none)

/-- The end of `gutil_idle_queue_run`, src/gutil_idlequeue.c:113-123. If it returns
`G_SOURCE_REMOVE` then the source is removed (if it still exists). -/
def runEnd (s : State) (d src : Nat) : State :=
  if s.items ≠ [] then { s with log := s.log ++ [.ended d] }
  else { s with source := none, live := s.live.erase src, log := s.log ++ [.ended d] }

/-- `gutil_idle_queue_run` from line 92 on, src/gutil_idlequeue.c:92-123 -/
def runLoop (s : State) (d src bound : Nat) : State :=
  match runScan s.items s.last with
  | (items, last, some i) =>
    if i.run then
      { s with items := items, last := last, stack := .run d src bound i :: s.stack, log := s.log ++ [.run d i.id] }
    else
      { s with items := items, last := last, stack := .runDestroy d src bound i :: s.stack, log := s.log ++ [.destroy i.id] }
  | (items, last, none) => runEnd { s with items := items, last := last } d src

/-- The main loop calls `gutil_idle_queue_run`, src/gutil_idlequeue.c:72-123 -/
def dispatch (s : State) (src : Nat) : M State := do
  s.access
  .ok (runLoop { s with items := markAll s.items, nextRun := s.nextRun + 1, log := s.log ++ [.begin s.nextRun] } s.nextRun src s.nextId)

/-- `gutil_idle_queue_run`, src/gutil_idlequeue.c:104-111: `run` has returned, `destroy` is next. -/
def afterRun (s : State) (d src bound : Nat) (i : Item) : M State :=
  if i.destroy then .ok { s with stack := .runDestroy d src bound i :: s.stack, log := s.log ++ [.destroy i.id] }
  else do
    s.access
    .ok (runLoop s d src bound)

/-- The loop in `gutil_idle_queue_cancel_all`, src/gutil_idlequeue.c:305-307, up to the first
callback. The last two components of the result are the items removed without a callback
(which they don't have) and the one to invoke the callback of. -/
def cancelScan : List Item → Option Nat → List Item × Option Nat × List Item × Option Item
  | [], last => ([], last, [], none)
  | i :: t, last =>
    if i.completed then
      if i.destroy then (t, lastOf t last, [], some i)
      else
        let (items, last, gone, stop) := cancelScan t (lastOf t last)
        (items, last, i :: gone, stop)
    else (i :: t, last, [], none)

/-- Lines 308-310 and 271-273 of src/gutil_idlequeue.c. (The assertion at line 270 is in
`Model/IdleQueueDebug.lean`.) -/
def clearIfEmpty (s : State) : M State := if s.items = [] then s.clearSource else .ok s

/-- The end of `gutil_idle_queue_cancel_all`, src/gutil_idlequeue.c:308-312, and of
`gutil_idle_queue_unref`, line 161. -/
def cancelEnd (s : State) (bound : Nat) (final : Bool) : M State := do
  let s ← clearIfEmpty s
  .ok { s with alive := !final, log := s.log ++ [.allDone bound] }

/-- `gutil_idle_queue_cancel_all` from line 305 on, src/gutil_idlequeue.c:305-312 -/
def cancelLoop (s : State) (bound : Nat) (final : Bool) : M State :=
  match cancelScan s.items s.last with
  | (items, last, gone, some i) =>
    .ok { s with
      items := items, last := last, stack := .all bound final i :: s.stack
      log := s.log ++ gone.map (fun i => .cancel i.id) ++ [.cancel i.id, .destroy i.id] }
  | (items, last, gone, none) =>
    cancelEnd { s with items := items, last := last, log := s.log ++ gone.map (fun i => .cancel i.id) } bound final

/-- `gutil_idle_queue_cancel_all`, src/gutil_idlequeue.c:296-312 -/
def cancelAll (s : State) (final : Bool) : M State :=
  cancelLoop { s with items := markAll s.items, log := s.log ++ [.allCalled s.nextId] } s.nextId final

/-- `gutil_idle_queue_unref`, src/gutil_idlequeue.c:153-164 -/
def unref (s : State) : M State :=
  if s.refs = 1 then cancelAll { s with refs := 0 } true else .ok { s with refs := s.refs - 1 }

/-- `q->last->next = item` or `q->first = item`, src/gutil_idlequeue.c:212-219 -/
def append (items : List Item) (last : Option Nat) (item : Item) : M (List Item) :=
  match last with
  | none => .ok [item]
  | some l =>
    match items.findIdx? (fun i => i.id == l) with
    | some k => .ok (items.take (k + 1) ++ [item])
    | none => .error .badPtr

/-- `g_idle_add` if necessary, src/gutil_idlequeue.c:222-225 -/
def schedule (s : State) : State :=
  match s.source with
  | some _ => s
  | none => { s with source := some s.nextSource, live := s.live ++ [s.nextSource], nextSource := s.nextSource + 1 }

/-- `gutil_idle_queue_add_tag_full`, src/gutil_idlequeue.c:195-229, and the functions at lines
166-193, which call it with zero tag or without `destroy`. -/
def add (s : State) (tag : Nat) (run destroy : Bool) : M State := do
  let items ← append s.items s.last ⟨s.nextId, tag, run, destroy, false⟩
  .ok (schedule { s with
    items := items, last := some s.nextId, nextId := s.nextId + 1, log := s.log ++ [.added s.nextId run destroy] })

/-- `gutil_idle_queue_contains_tag`, src/gutil_idlequeue.c:231-245 -/
def containsTag : List Item → Nat → Bool
  | [], _ => false
  | i :: t, tag => if i.tag = tag then true else containsTag t tag

/-- `gutil_idle_queue_item_destroy`, src/gutil_idlequeue.c:60-70, invoked by
`gutil_idle_queue_cancel_tag`. `f` is what's waiting, `k` is what follows if there's no callback. -/
def itemDestroy (s : State) (item : Item) (f : Frame) (k : State → M State) : M State :=
  if item.destroy then .ok { s with stack := f :: s.stack, log := s.log ++ [.cancel item.id, .destroy item.id] }
  else k { s with log := s.log ++ [.cancel item.id] }

/-- The loop in `gutil_idle_queue_cancel_tag`, src/gutil_idlequeue.c:276-290, removing the item from
the list. `prev` is the item before. -/
def removeTag (tag : Nat) : (prev : Item) → List Item → Option Nat → Option (Item × List Item × Option Nat)
  | _, [], _ => none
  | prev, i :: t, last =>
    if i.tag = tag then some (i, t, if t.isEmpty then some prev.id else last)
    else
      match removeTag tag i t last with
      | some (x, t, last) => some (x, i :: t, last)
      | none => none

/-- `gutil_idle_queue_cancel_tag`, src/gutil_idlequeue.c:260-294. The result is known before the
callback is invoked. -/
def cancelTag (s : State) (tag : Nat) : M (State × Bool) :=
  match s.items with
  | [] => .ok (s, false)
  | i :: t =>
    if i.tag = tag then do
      let s ← itemDestroy { s with items := t, last := lastOf t s.last } i (.tagFirst i) clearIfEmpty
      .ok (s, true)
    else
      match removeTag tag i t s.last with
      | some (x, t, last) => do
        let s ← itemDestroy { s with items := i :: t, last := last } x (.tagOther x) .ok
        .ok (s, true)
      | none => .ok (s, false)

/-- A callback returns: what follows lines 105, 109, 269 (257, 67), 287 (67) and 306 (257, 67) of
src/gutil_idlequeue.c. -/
def ret (s : State) : M State :=
  match s.stack with
  | [] => .error .badArg
  | .run d src bound i :: rest => afterRun { s with stack := rest } d src bound i
  | .runDestroy d src bound _ :: rest => do
    s.access
    .ok (runLoop { s with stack := rest } d src bound)
  | .tagFirst _ :: rest => do
    s.access
    clearIfEmpty { s with stack := rest }
  | .tagOther _ :: rest => .ok { s with stack := rest }
  | .all bound final _ :: rest => do
    s.access
    cancelLoop { s with stack := rest } bound final

/-- What the client may do. No code of its own, it goes to the model of src/gutil_idlequeue.c:60-312. -/
inductive Act
  | add (tag : Nat) (run destroy : Bool)
  | cancelTag (tag : Nat)
  | cancelAll
  | ref
  | unref
  | dispatch (src : Nat)
  | ret
  deriving DecidableEq, Repr

/-- One action of the client. `ref` is `gutil_idle_queue_ref`, src/gutil_idlequeue.c:142-151. -/
def step (s : State) : Act → M State
  | .add tag run destroy => do
    s.access
    add s tag run destroy
  | .cancelTag tag => do
    s.access
    let (s, _) ← cancelTag s tag
    .ok s
  | .cancelAll => do
    s.access
    cancelAll s false
  | .ref => do
    s.access
    .ok { s with refs := s.refs + 1 }
  | .unref => do
    s.access
    unref s
  | .dispatch src => dispatch s src
  | .ret => ret s

/-- The source being dispatched by the function on the stack; that's how GLib sees it (`G_HOOK_FLAG_IN_CALL`). -/
def Frame.source? : Frame → Option Nat
  | .run _ src _ _ => some src
  | .runDestroy _ src _ _ => some src
  | _ => none

/-- The rules: the client calls the functions having a reference to the queue, and doesn't drop the last one
inside of a callback. The main loop only dispatches existing sources, and not recursively.
No code of the library, a rule for those who use src/gutil_idlequeue.c:60-312. -/
def Allowed (s : State) : Act → Prop
  | .add .. | .cancelTag _ | .cancelAll | .ref => 0 < s.refs
  | .unref => 2 ≤ s.refs ∨ (s.refs = 1 ∧ s.stack = [])
  | .dispatch src => src ∈ s.live ∧ ∀ f ∈ s.stack, f.source? ≠ some src
  | .ret => s.stack ≠ []

instance (s : State) (a : Act) : Decidable (Allowed s a) := by
  cases a <;> unfold Allowed <;> infer_instance

/-- The states which can be reached by following the rules. No code of the library, a sequence of uses of src/gutil_idlequeue.c:60-312. -/
inductive Reach : State → Prop
  | new : Reach new
  | step {s s' : State} {a : Act} : Reach s → Allowed s a → step s a = .ok s' → Reach s'

/-- A number of actions. No code of the library, a sequence of uses of src/gutil_idlequeue.c:60-312. -/
def exec (s : State) : List Act → M State
  | [] => .ok s
  | a :: t =>
    match step s a with
    | .ok s => exec s t
    | .error e => .error e

/-- Are the rules being followed? No code of the library, a rule for those who use src/gutil_idlequeue.c:60-312. -/
def legal (s : State) : List Act → Bool
  | [] => true
  | a :: t =>
    if Allowed s a then
      match step s a with
      | .ok s => legal s t
      | .error _ => false
    else false

/-- All the functions with `NULL` queue: only `gutil_idle_queue_add_tag_full`, lines 226-228, does
something, it calls `destroy`. -/
def addNull (destroy : Bool) : Nat := if destroy then 1 else 0

end Verif.Idle
