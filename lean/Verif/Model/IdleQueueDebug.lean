import Verif.Model.IdleQueue

/-!
# `/repo/src/gutil_idlequeue.c` in a debug build

The functions of `Model/IdleQueue.lean` with their assertions. Those which have none (and call no such
function) aren't repeated. See `gassert` about what a failed assertion does.
-/

namespace Verif.Idle.Debug
open Verif.C

/-- `gutil_idle_queue_item_destroy`, src/gutil_idlequeue.c:60-70, the assertion is at line 65. -/
def itemDestroy (s : State) (item : Item) (f : Frame) (k : State → M State) : M State := do
  gassert (item.completed = true)
  Idle.itemDestroy s item f k

/-- The loop in `gutil_idle_queue_cancel_all`, src/gutil_idlequeue.c:305-307, up to the first callback;
the assertion is at line 65. -/
def cancelScan : List Item → Option Nat → M (List Item × Option Nat × List Item × Option Item)
  | [], last => .ok ([], last, [], none)
  | i :: t, last =>
    if i.completed then do
      gassert (i.completed = true)
      if i.destroy then .ok (t, lastOf t last, [], some i)
      else do
        let (items, last, gone, stop) ← cancelScan t (lastOf t last)
        .ok (items, last, i :: gone, stop)
    else .ok (i :: t, last, [], none)

/-- `gutil_idle_queue_cancel_all` from line 305 on, src/gutil_idlequeue.c:305-312 -/
def cancelLoop (s : State) (bound : Nat) (final : Bool) : M State := do
  match ← cancelScan s.items s.last with
  | (items, last, gone, some i) =>
    .ok { s with
      items := items, last := last, stack := .all bound final i :: s.stack
      log := s.log ++ gone.map (fun i => .cancel i.id) ++ [.cancel i.id, .destroy i.id] }
  | (items, last, gone, none) =>
    cancelEnd { s with items := items, last := last, log := s.log ++ gone.map (fun i => .cancel i.id) } bound final

/-- `gutil_idle_queue_cancel_all`, src/gutil_idlequeue.c:296-312 -/
def cancelAll (s : State) (final : Bool) : M State :=
  cancelLoop { s with items := markAll s.items, log := s.log ++ [.allCalled s.nextId] } s.nextId final

/-- `gutil_idle_queue_unref`, src/gutil_idlequeue.c:153-164, the assertion is at line 158. -/
def unref (s : State) : M State := do
  gassert (s.refs > 0)
  if s.refs = 1 then cancelAll { s with refs := 0 } true else .ok { s with refs := s.refs - 1 }

/-- Lines 212-219 of src/gutil_idlequeue.c; the assertions are at lines 214 and 217. -/
def append (items : List Item) (last : Option Nat) (item : Item) : M (List Item) := do
  if last ≠ none then gassert (items ≠ []) else gassert (items = [])
  Idle.append items last item

/-- `gutil_idle_queue_add_tag_full`, src/gutil_idlequeue.c:195-229 -/
def add (s : State) (tag : Nat) (run destroy : Bool) : M State := do
  let items ← append s.items s.last ⟨s.nextId, tag, run, destroy, false⟩
  .ok (schedule { s with
    items := items, last := some s.nextId, nextId := s.nextId + 1, log := s.log ++ [.added s.nextId run destroy] })

/-- The loop in `gutil_idle_queue_cancel_tag`, src/gutil_idlequeue.c:276-290; the assertion is at line 282. -/
def removeTag (tag : Nat) : (prev : Item) → List Item → Option Nat → M (Option (Item × List Item × Option Nat))
  | _, [], _ => .ok none
  | prev, i :: t, last =>
    if i.tag = tag then
      if t.isEmpty then do
        gassert (last = some i.id)
        .ok (some (i, t, some prev.id))
      else .ok (some (i, t, last))
    else do
      match ← removeTag tag i t last with
      | some (x, t, last) => .ok (some (x, i :: t, last))
      | none => .ok none

/-- The end of the first branch of `gutil_idle_queue_cancel_tag`, src/gutil_idlequeue.c:270-273, with
the assertion at line 270 -/
def tagEnd (s : State) : M State := do
  gassert (s.source ≠ none)
  clearIfEmpty s

/-- `gutil_idle_queue_cancel_tag`, src/gutil_idlequeue.c:260-294 (`completed` is set at lines 268 and
286). -/
def cancelTag (s : State) (tag : Nat) : M (State × Bool) :=
  match s.items with
  | [] => .ok (s, false)
  | i :: t =>
    if i.tag = tag then do
      let s ← itemDestroy { s with items := t, last := lastOf t s.last } { i with completed := true } (.tagFirst i) tagEnd
      .ok (s, true)
    else do
      match ← removeTag tag i t s.last with
      | some (x, t, last) => do
        let s ← itemDestroy { s with items := i :: t, last := last } { x with completed := true } (.tagOther x) .ok
        .ok (s, true)
      | none => .ok (s, false)

/-- A callback returns. src/gutil_idlequeue.c:104-123, 269-290 and 305-312. -/
def ret (s : State) : M State :=
  match s.stack with
  | .tagFirst _ :: rest => do
    s.access
    tagEnd { s with stack := rest }
  | .all bound final _ :: rest => do
    s.access
    cancelLoop { s with stack := rest } bound final
  | _ => Idle.ret s

/-- One action of the client. The assertion in `gutil_idle_queue_ref` is at src/gutil_idlequeue.c:147. -/
def step (s : State) : Act → M State
  | .add tag run destroy => do
    s.access
    add s tag run destroy
  | .cancelTag tag => do
    s.access
    let (s, _) ← cancelTag s tag
    .ok s
  | .cancelAll => do
    s.access
    cancelAll s false
  | .ref => do
    s.access
    gassert (s.refs > 0)
    .ok { s with refs := s.refs + 1 }
  | .unref => do
    s.access
    unref s
  | .dispatch src => dispatch s src
  | .ret => ret s

/-- A number of actions. No code of the library, a sequence of uses of src/gutil_idlequeue.c:60-312. -/
def exec (s : State) : List Act → M State
  | [] => .ok s
  | a :: t =>
    match step s a with
    | .ok s => exec s t
    | .error e => .error e

/-- Is it the function waiting at line 269 of src/gutil_idlequeue.c? -/
def isTagFirst : Frame → Bool
  | .tagFirst _ => true
  | _ => false

/-- Is the topmost callback the one invoked by `gutil_idle_queue_cancel_tag` at line 269? -/
def inTagFirst (s : State) : Bool := s.stack.head?.any isTagFirst

/-- A callback invoked by `gutil_idle_queue_cancel_tag` for the first item of the queue doesn't cancel
anything and runs no main loop, it may only add items. No code of the library, a rule for those who use src/gutil_idlequeue.c:60-312. -/
def Calm (s : State) (a : Act) : Prop :=
  inTagFirst s = true → a = .ret ∨ a = .ref ∨ ∃ tag run destroy, a = .add tag run destroy

/-- The states which can be reached by following the rules and that.
No code of the library, a sequence of uses of src/gutil_idlequeue.c:60-312. -/
inductive CalmReach : State → Prop
  | new : CalmReach Idle.new
  | step {s s' : State} {a : Act} : CalmReach s → Allowed s a → Calm s a → Idle.step s a = .ok s' → CalmReach s'

end Verif.Idle.Debug
