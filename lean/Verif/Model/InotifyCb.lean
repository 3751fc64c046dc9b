import Verif.Model.Inotify
import Verif.Spec.InotifyCb

/-!
# Model of `/repo/src/gutil_inotify.c`, lines 350-368 and 408-436

Handlers and callbacks, on top of `Model/Inotify.lean` where calling all the handlers of a watch is a point at which the client is in
control. Here each handler is called separately.

GSignal (a contract): those handlers are called which are connected when the emission begins and are still connected when their turn
comes, in the order of connection. When the object is gone, its handlers are gone too; here they stay in the list, which makes no
difference because nothing can be emitted by such object, or disconnected from it. Disconnecting a handler which doesn't exist is
an error. Descriptors aren't opened by other threads in the middle of a call.
-/

namespace Verif.InotifyCb
open Verif.C
open Verif.Inotify (Ev Watch)

/-- `struct gutil_inotify_watch_callback`, src/gutil_inotify.c:73-76. No handler is 0. -/
structure Callback where
  watch : Nat
  id : Nat
  deriving DecidableEq, Repr

/-- `cbs` are the callbacks, `none` is one which has been freed. `emit` is what's being emitted, with the handlers which `g_signal_emit` has yet
to look at. `client` is `false` if the library has to do something before the client gets in control.
The functions at src/gutil_inotify.c:350-368 and 408-436, `g_signal_emit` is called at src/gutil_inotify.c:167-169. -/
structure State where
  ino : Inotify.State
  conns : List (Nat × Nat)
  nextId : Nat
  cbs : List (Option Callback)
  emit : Option (Nat × Ev × List Nat)
  client : Bool
  log : List Event
  deriving DecidableEq, Repr

/-- Nothing has been done yet; src/gutil_inotify.c:99 -/
def init (foreign : List Nat) : State where
  ino := Inotify.init foreign
  conns := []
  nextId := 1
  cbs := []
  emit := none
  client := true
  log := []

/-- `gutil_inotify_watch_add_handler`, src/gutil_inotify.c:350-358; `fn` tells if there's a function. -/
def addHandler (s : State) (w : Nat) (fn : Bool) : M (Nat × State) :=
  if fn then do
    let _ ← s.ino.watch w
    .ok (s.nextId, { s with conns := s.conns ++ [(s.nextId, w)], nextId := s.nextId + 1, log := s.log ++ [.connected s.nextId w] })
  else .ok (0, s)

/-- `gutil_inotify_watch_remove_handler`, src/gutil_inotify.c:360-368 -/
def removeHandler (s : State) (w id : Nat) : M State :=
  if id = 0 then .ok s
  else do
    let _ ← s.ino.watch w
    if (id, w) ∈ s.conns then
      .ok { s with conns := s.conns.filter (fun c => c.1 ≠ id), log := s.log ++ [.disconnected id] }
    else .error .badArg

/-- `gutil_inotify_watch_callback_new`, src/gutil_inotify.c:408-425, if the watch has been created -/
def callbackNew (s : State) (file : Nat) (mask : BitVec 32) (fd : Nat) (fn : Bool) : M State := do
  let w := s.ino.watches.length
  let ino ← Inotify.step none s.ino (.new file mask fd)
  let (id, s) ← addHandler { s with ino := ino } w fn
  .ok { s with cbs := s.cbs ++ [some ⟨w, id⟩] }

/-- `gutil_inotify_watch_callback_free`, src/gutil_inotify.c:427-436 -/
def callbackFree (s : State) (c : Nat) : M State :=
  match s.cbs[c]? with
  | none => .error .badPtr
  | some none => .error .useAfterFree
  | some (some cb) => do
    let s ← removeHandler s cb.watch cb.id
    let ino ← Inotify.step none s.ino (.unref cb.watch)
    .ok { s with ino := ino, cbs := s.cbs.set c none }

/-- The arguments of `g_signal_emit`, src/gutil_inotify.c:167-169 -/
def event (s : Inotify.State) : Ev :=
  match s.log.getLast? with
  | some (.delivered _ ev) => ev
  | _ => ⟨0, 0, []⟩

/-- `g_signal_emit` (GLib), if that's where `gutil_inotify_read` is. Otherwise it has returned. -/
def emission (s : State) : State :=
  match s.ino.frame with
  | none => { s with emit := none, client := true }
  | some (w, _) => { s with emit := some (w, event s.ino, handlers s.conns w), client := false, log := s.log ++ [.emit w (event s.ino)] }

/-- `g_signal_emit` (GLib) calls or skips the next handler, or returns to `gutil_inotify_read`, src/gutil_inotify.c:170. -/
def next (s : State) : M State :=
  match s.emit with
  | none => .error .badArg
  | some (w, ev, []) => do
    let ino ← Inotify.step none s.ino .ret
    .ok (emission { s with ino := ino, log := s.log ++ [.done w ev] })
  | some (w, ev, id :: t) =>
    if (id, w) ∈ s.conns then .ok { s with emit := some (w, ev, t), client := true, log := s.log ++ [.call id w ev] }
    else .ok { s with emit := some (w, ev, t) }

/-- What may happen: anything with the watches and files, as well as calls to the above functions. `next` is what the library does,
`ret` is the handler returning. No code of its own, it goes to the model of src/gutil_inotify.c:133-436. -/
inductive Act
  | ino (a : Inotify.Act)
  | addHandler (w : Nat) (fn : Bool)
  | removeHandler (w id : Nat)
  | callbackNew (file : Nat) (mask : BitVec 32) (fd : Nat) (fn : Bool)
  | callbackFree (c : Nat)
  | next
  | ret
  deriving DecidableEq, Repr

/-- One step: calls to src/gutil_inotify.c:275-436, and what happens inside of src/gutil_inotify.c:180-201 -/
def step (s : State) : Act → M State
  | .ino (.dispatch n) => do
    let ino ← Inotify.step none s.ino (.dispatch n)
    .ok (emission { s with ino := ino })
  | .ino a => do
    let ino ← Inotify.step none s.ino a
    .ok { s with ino := ino }
  | .addHandler w fn => do
    let (_, s) ← addHandler s w fn
    .ok s
  | .removeHandler w id => removeHandler s w id
  | .callbackNew file mask fd fn => callbackNew s file mask fd fn
  | .callbackFree c => callbackFree s c
  | .next => next s
  | .ret => .ok { s with client := false }

/-- The number of callbacks which use the watch. No code of the library, bookkeeping for the properties of src/gutil_inotify.c:133-436. -/
def State.held (s : State) (w : Nat) : Nat := s.cbs.countP (fun | some cb => cb.watch == w | none => false)

/-- The watch can be used: there's a reference to it, or its handlers are being called.
No code of the library, a rule for those who use src/gutil_inotify.c:133-436. -/
def State.usable (s : State) (w : Nat) : Prop := 0 < s.ino.owned w ∨ s.ino.frame.map (·.1) = some w

/-- Is it something which happens by itself? No code of the library, a rule for those who use src/gutil_inotify.c:133-436. -/
def outside : Inotify.Act → Bool
  | .happen _ _ | .vanish _ | .merge _ _ | .lose _ _ | .vanishLost _ | .fopen _ | .fclose _ => true
  | _ => false

/-- The reference belongs to the client (rather than to a callback) if it's going to be dropped.
No code of the library, a rule for those who use src/gutil_inotify.c:133-436. -/
def State.mine (s : State) : Inotify.Act → Prop
  | .unref w | .destroy w => s.held w < s.ino.owned w
  | _ => True

/-- The rules. Those for watches are the same as always. The client has to be in control; it doesn't drop references and disconnect
handlers which belong to callbacks, and only disconnects those handlers which are connected.
No code of the library, a rule for those who use src/gutil_inotify.c:133-436. -/
def Allowed (s : State) : Act → Prop
  | .ino a => Inotify.Allowed s.ino a ∧ a ≠ .ret ∧ (outside a = true ∨ s.client = true) ∧ s.mine a
  | .addHandler w _ => s.client = true ∧ s.usable w
  | .removeHandler w id => s.client = true ∧ s.usable w ∧ (id = 0 ∨ ((id, w) ∈ s.conns ∧ ∀ cb, some cb ∈ s.cbs → cb.id ≠ id))
  | .callbackNew file mask fd _ => s.client = true ∧ Inotify.Allowed s.ino (.new file mask fd)
  | .callbackFree c => s.client = true ∧ ∃ cb, s.cbs[c]? = some (some cb)
  | .next => s.client = false
  | .ret => s.client = true ∧ s.emit ≠ none

instance (s : State) (a : Inotify.Act) : Decidable (s.mine a) := by
  unfold State.mine
  split <;> infer_instance

instance (s : State) (a : Act) : Decidable (Allowed s a) := by
  have h1 : ∀ c : Nat, Decidable (∃ cb, s.cbs[c]? = some (some cb)) := fun c =>
    match h : s.cbs[c]? with
    | some (some cb) => isTrue ⟨cb, rfl⟩
    | some none => isFalse (by simp)
    | none => isFalse (by simp)
  have h2 : ∀ id, Decidable (∀ cb, some cb ∈ s.cbs → cb.id ≠ id) := fun id =>
    if h : ∀ x ∈ s.cbs, (x.map (·.id)) ≠ some id then isTrue (fun cb hc e => h _ hc (by simp [e]))
    else isFalse (fun h' => h (fun x hx e => by
      cases x with
      | none => cases e
      | some cb => exact h' cb hx (by simpa using e)))
  cases a <;> unfold Allowed State.usable <;> infer_instance

/-- What can be reached by following the rules. No code of the library, a sequence of uses of src/gutil_inotify.c:133-436. -/
inductive Reach : State → Prop
  | init (foreign : List Nat) : foreign.Nodup → Reach (init foreign)
  | step {s s' : State} {a : Act} : Reach s → Allowed s a → step s a = .ok s' → Reach s'

/-- What can be reached from there. No code of the library, a sequence of uses of src/gutil_inotify.c:133-436. -/
inductive Later (s : State) : State → Prop
  | refl : Later s s
  | step {s' s'' : State} {a : Act} : Later s s' → Allowed s' a → step s' a = .ok s'' → Later s s''

/-- A number of actions. No code of the library, a sequence of uses of src/gutil_inotify.c:133-436. -/
def exec (s : State) : List Act → M State
  | [] => .ok s
  | a :: t =>
    match step s a with
    | .ok s => exec s t
    | .error e => .error e

/-- Are the rules being followed? No code of the library, a rule for those who use src/gutil_inotify.c:133-436. -/
def legal (s : State) : List Act → Bool
  | [] => true
  | a :: t =>
    if Allowed s a then
      match step s a with
      | .ok s => legal s t
      | .error _ => false
    else false

end Verif.InotifyCb
