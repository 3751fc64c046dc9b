import Verif.Spec.Inotify

/-!
# Handlers of inotify watches: what must happen (no code from the model)
-/

namespace Verif.InotifyCb
open Verif.Inotify (Ev)

/-- The history. Handlers are identified by the ids which `gutil_inotify_watch_add_handler` returns, these aren't reused. -/
inductive Event
  /-- a handler of the watch has been connected -/
  | connected (id w : Nat)
  /-- the handler has been disconnected -/
  | disconnected (id : Nat)
  /-- an event has come for the watch -/
  | emit (w : Nat) (ev : Ev)
  /-- the handler is called for the watch, with these arguments -/
  | call (id w : Nat) (ev : Ev)
  /-- the library is done with the event -/
  | done (w : Nat) (ev : Ev)
  deriving DecidableEq, Repr

/-- Which handlers are connected (in the order of connection, with their watches), and which are still to be called for the event
which is being handled. -/
structure Monitor where
  conns : List (Nat × Nat)
  cur : Option (Nat × Ev × List Nat)
  deriving DecidableEq, Repr

/-- Those which are connected to the watch -/
def handlers (conns : List (Nat × Nat)) (w : Nat) : List Nat := (conns.filter (fun c => c.2 == w)).map (·.1)

/-- What may come next, and what changes then. All the handlers which are connected to the watch when the event comes have to be called
in the order of connection, except for those which get disconnected before their turn. -/
def Monitor.next (m : Monitor) : Event → Option Monitor
  | .connected id w => some { m with conns := m.conns ++ [(id, w)] }
  | .disconnected id => some ⟨m.conns.filter (fun c => c.1 ≠ id), m.cur.map (fun (w, ev, l) => (w, ev, l.filter (· ≠ id)))⟩
  | .emit w ev => if m.cur = none then some { m with cur := some (w, ev, handlers m.conns w) } else none
  | .call id w ev =>
    match m.cur with
    | some (w', ev', id' :: t) => if w = w' ∧ ev = ev' ∧ id = id' then some { m with cur := some (w, ev, t) } else none
    | _ => none
  | .done w ev => if m.cur = some (w, ev, []) then some { m with cur := none } else none

/-- The whole history, `none` if there's something wrong with it -/
def monitor (log : List Event) : Option Monitor := log.foldlM Monitor.next ⟨[], none⟩

/-- The events which have come -/
def emits (log : List Event) : List (Nat × Ev) := log.filterMap (fun | .emit w ev => some (w, ev) | _ => none)

/-- The number of calls to the handler -/
def calls (id : Nat) (log : List Event) : Nat := log.countP (fun | .call i _ _ => i == id | _ => false)

/-- What the inotify watches have been told about -/
def deliveries (log : List Inotify.Event) : List (Nat × Ev) := log.filterMap (fun | .delivered w ev => some (w, ev) | _ => none)

end Verif.InotifyCb
