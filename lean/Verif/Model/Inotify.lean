import Verif.C.Basic
import Verif.Spec.Inotify

/-!
# Model of `/repo/src/gutil_inotify.c`

The library, the kernel and the client. The client is in control outside of any callback, or inside of a handler
of a watch; then it may do anything except for running the handlers once again: the source isn't recursive.

The kernel: `inotify_add_watch` returns the existing watch descriptor if the file is already being watched, replacing its mask
(or adding to it, with `IN_MASK_ADD`);
otherwise the number is one which hasn't been used by this inotify instance before. The events are queued; that may be omitted (`merge`) if the last event
in the queue is like the new one. When the watch is removed, or the file is gone, then `IN_IGNORED` is queued. If the queue is full (that
may be the case at any time) then the events are lost (`lose`, `vanishLost`) and `IN_Q_OVERFLOW` is queued instead; its watch descriptor is -1, which is 0 here.
The kernel may stop watching a file at any time (`vanish`, `vanishLost`): because the file has been removed, its filesystem has been unmounted, or `IN_ONESHOT` was in the mask.
(If the queue is full when a watch is being removed by the library then that's `vanishLost` followed by `inotify_rm_watch` which does nothing.)
With `IN_MASK_CREATE`, `inotify_add_watch` fails if the file is already being watched; it may also fail for other reasons at any time (`newFails`).

The bytes being read from the kernel are in `Model/InotifyRead.lean`. Signals are a contract of GLib: `g_signal_emit` calls all
the handlers which are connected, each of them being a point at which the client is in control. `gutil_inotify_watch_callback_new`
and `gutil_inotify_watch_callback_free`, lines 408-436, are made of the other functions. Overflow of the reference counters,
and simultaneous access by several threads, aren't modelled; descriptors being opened by another thread are.
-/

namespace Verif.Inotify
open Verif.C

/-- `struct gutil_inotify_watch`, src/gutil_inotify.c:64-71. `inst` is the instance which it points to, `wd` is `none` for -1;
`refs` is the reference counter of the object, which is gone if that's zero. `owned` references belong to the client. `file`
is what the path was pointing to. -/
structure Watch where
  inst : Nat
  file : Nat
  mask : BitVec 32
  wd : Option Nat
  refs : Nat
  owned : Nat
  deriving DecidableEq, Repr

/-- `struct gutil_inotify`, src/gutil_inotify.c:52-59; `source`: there's a source in the main loop, `table` are the watches by watch
descriptors. `id` is the address (which isn't reused). -/
structure Inst where
  id : Nat
  fd : Nat
  refs : Nat
  source : Bool
  table : List (Nat × Nat)
  deriving DecidableEq, Repr

/-- A watch of the kernel. inotify(7), what `inotify_add_watch` at src/gutil_inotify.c:284 creates. -/
structure KWatch where
  wd : Nat
  file : Nat
  mask : BitVec 32
  deriving DecidableEq, Repr

/-- `inst` is `gutil_inotify_instance`, `kernel`, `queue` and `nextWd` belong to its descriptor. `frame` is the watch whose handlers are
being called and the rest of events which have been read. `foreign` are the other open descriptors. `gutil_inotify_instance` is at src/gutil_inotify.c:99. -/
structure State where
  inst : Option Inst
  nextInst : Nat
  watches : List Watch
  frame : Option (Nat × List (Nat × Ev))
  kernel : List KWatch
  queue : List (Nat × Ev)
  nextWd : Nat
  foreign : List Nat
  log : List Event
  deriving DecidableEq, Repr

/-- Nothing has been done yet. `gutil_inotify_instance` is `NULL`, src/gutil_inotify.c:99. -/
def init (foreign : List Nat) : State where
  inst := none
  nextInst := 0
  watches := []
  frame := none
  kernel := []
  queue := []
  nextWd := 1
  foreign := foreign
  log := []

/-- Access to the instance. Any dereference of `self` in src/gutil_inotify.c:101-269. -/
def State.access (s : State) (id : Nat) : M Inst :=
  match s.inst with
  | some i => if i.id = id then .ok i else .error .useAfterFree
  | none => .error .useAfterFree

/-- Access to the watch. Any dereference of the watch in src/gutil_inotify.c:275-389. -/
def State.watch (s : State) (w : Nat) : M Watch :=
  match s.watches[w]? with
  | some x => if x.refs = 0 then .error .useAfterFree else .ok x
  | none => .error .badPtr

/-- `gutil_inotify_unref`, src/gutil_inotify.c:111-131. The descriptor is closed by `g_io_channel_shutdown`, then `close` is called.
`race` is a descriptor opened by another thread in the meantime. The kernel drops all the watches and events. -/
def unrefInst (race : Option Nat) (s : State) (id : Nat) : M State := do
  let i ← s.access id
  if i.refs = 1 then
    .ok { s with inst := none, kernel := [], queue := [], nextWd := 1,
                 foreign := (s.foreign ++ race.toList).erase i.fd, log := s.log ++ [.closed i.fd, .closed i.fd] }
  else .ok { s with inst := some { i with refs := i.refs - 1 } }

/-- `gutil_inotify_new` and `gutil_inotify_create`, src/gutil_inotify.c:203-249; `fd` is what `inotify_init` returns. (If that fails then
nothing has been done, and `gutil_inotify_watch_new` returns `NULL`.) -/
def newInst (s : State) (fd : Nat) : State × Inst :=
  match s.inst with
  | some i => ({ s with inst := some { i with refs := i.refs + 1 } }, { i with refs := i.refs + 1 })
  | none =>
    ({ s with inst := some ⟨s.nextInst, fd, 1, true, []⟩, nextInst := s.nextInst + 1, log := s.log ++ [.opened fd] }, ⟨s.nextInst, fd, 1, true, []⟩)

/-- `g_hash_table_insert`, src/gutil_inotify.c:258 -/
def tableInsert (t : List (Nat × Nat)) (wd w : Nat) : List (Nat × Nat) := (wd, w) :: t.filter (fun e => e.1 ≠ wd)

/-- `g_hash_table_remove`, src/gutil_inotify.c:268 -/
def tableRemove (t : List (Nat × Nat)) (wd : Nat) : List (Nat × Nat) := t.filter (fun e => e.1 ≠ wd)

/-- `g_hash_table_lookup`, src/gutil_inotify.c:162 -/
def tableLookup (t : List (Nat × Nat)) (wd : Nat) : Option Nat := (t.find? (fun e => e.1 = wd)).map (·.2)

/-- `IN_MASK_ADD` in the mask: what's being watched for is added to what was being watched for. See inotify(7). -/
def newMask (old mask : BitVec 32) : BitVec 32 := if mask &&& 0x20000000 ≠ 0 then old ||| mask else mask

/-- `inotify_add_watch`. Called at src/gutil_inotify.c:284; what it does is described in inotify(7). -/
def kernelAdd (s : State) (file : Nat) (mask : BitVec 32) : State × Nat :=
  match s.kernel.find? (fun k => k.file = file) with
  | some k => ({ s with kernel := s.kernel.map (fun x => if x.wd = k.wd then { x with mask := newMask x.mask mask } else x) }, k.wd)
  | none => ({ s with kernel := s.kernel ++ [⟨s.nextWd, file, mask⟩], nextWd := s.nextWd + 1 }, s.nextWd)

/-- `inotify_rm_watch`. Called at src/gutil_inotify.c:314; what it does is described in inotify(7). -/
def kernelRemove (s : State) (wd : Nat) : State :=
  if s.kernel.any (fun k => k.wd = wd) then
    { s with kernel := s.kernel.filter (fun k => k.wd ≠ wd), queue := s.queue ++ [(wd, ignored)] }
  else s

/-- `gutil_inotify_watch_new`, src/gutil_inotify.c:275-305, if there's nothing wrong with the path -/
def newWatch (s : State) (file : Nat) (mask : BitVec 32) (fd : Nat) : State :=
  let (s, i) := newInst s fd
  let (s, wd) := kernelAdd s file mask
  { s with inst := some { i with table := tableInsert i.table wd s.watches.length },
           watches := s.watches ++ [⟨i.id, file, mask, some wd, 1, 1⟩], log := s.log ++ [.created s.watches.length file mask] }

/-- `gutil_inotify_watch_new` if `inotify_add_watch` fails, src/gutil_inotify.c:295-304 -/
def newFails (race : Option Nat) (s : State) (fd : Nat) : M State :=
  let (s, i) := newInst s fd
  unrefInst race s i.id

/-- `gutil_inotify_watch_stop`, src/gutil_inotify.c:307-317 -/
def stop (s : State) (w : Nat) (x : Watch) : M State :=
  match x.wd with
  | none => .ok s
  | some wd => do
    let i ← s.access x.inst
    .ok { kernelRemove s wd with inst := some { i with table := tableRemove i.table wd },
                                 watches := s.watches.set w { x with wd := none }, log := s.log ++ [.stopped w] }

/-- `gutil_inotify_watch_unref`, src/gutil_inotify.c:341-348, and `gutil_inotify_watch_finalize`, lines 377-389 -/
def unrefWatch (race : Option Nat) (s : State) (w : Nat) : M State := do
  let x ← s.watch w
  if x.refs = 1 then
    let s ← stop { s with watches := s.watches.set w { x with refs := 0 } } w { x with refs := 0 }
    unrefInst race s x.inst
  else .ok { s with watches := s.watches.set w { x with refs := x.refs - 1 } }

/-- The client gives up a reference. No code of the library, bookkeeping for the properties of src/gutil_inotify.c:101-389. -/
def disown (s : State) (w : Nat) : State :=
  { s with watches := s.watches.modify w (fun x => { x with owned := x.owned - 1 }) }

/-- `gutil_inotify_watch_destroy`, src/gutil_inotify.c:319-327 -/
def destroy (race : Option Nat) (s : State) (w : Nat) : M State := do
  let x ← s.watch w
  let s ← stop s w x
  unrefWatch race (disown s w) w

/-- `gutil_inotify_watch_ref`, src/gutil_inotify.c:329-339 -/
def ref (s : State) (w : Nat) : M State := do
  let x ← s.watch w
  .ok { s with watches := s.watches.set w { x with refs := x.refs + 1 } }

/-- The loop in `gutil_inotify_read`, src/gutil_inotify.c:150-175, up to the handlers being called, or to the end of it and that of
`gutil_inotify_callback`, lines 197-198. `id` is the instance. -/
def proc (race : Option Nat) (s : State) (id : Nat) : List (Nat × Ev) → M State
  | [] => unrefInst race s id
  | (wd, ev) :: t => do
    let i ← s.access id
    match tableLookup i.table wd with
    | none => proc race s id t
    | some w => do
      let s ← ref s w
      .ok { s with frame := some (w, t), log := s.log ++ [.delivered w ev] }

/-- `gutil_inotify_callback`, src/gutil_inotify.c:180-201: `n` events have been read. -/
def dispatch (race : Option Nat) (s : State) (n : Nat) : M State :=
  match s.inst with
  | none => .error .badArg
  | some i => proc race { s with inst := some { i with refs := i.refs + 1 }, queue := s.queue.drop n } i.id (s.queue.take n)

/-- `gutil_inotify_callback` if nothing can be read, src/gutil_inotify.c:189-198. The reference which is taken and dropped there is never the
last one. -/
def readFails (s : State) : M State :=
  match s.inst with
  | none => .error .badArg
  | some i => .ok { s with inst := some { i with source := false } }

/-- The handlers have been called, src/gutil_inotify.c:170-198 -/
def ret (race : Option Nat) (s : State) : M State :=
  match s.frame, s.inst with
  | some (w, t), some i => do
    let s ← unrefWatch race { s with frame := none } w
    proc race s i.id t
  | _, _ => .error .badArg

/-- Something happens to the file. No code of the library: what the kernel queues for src/gutil_inotify.c:142 to read, see inotify(7). -/
def happen (s : State) (file : Nat) (ev : Ev) : State :=
  { s with queue := s.queue ++ (s.kernel.filter (fun k => k.file = file ∧ ev.mask &&& k.mask ≠ 0)).map (fun k => (k.wd, ev)),
           log := s.log ++ [.happened file ev] }

/-- Something happens to the file, but the last event in the queue is like that. The cookie isn't compared by the kernel.
No code of the library, see inotify(7). -/
def merge (s : State) (file : Nat) (ev : Ev) : State := { s with log := s.log ++ [.merged file ev] }

/-- Is there an event like that at the end of the queue? No code of the library, see inotify(7) and src/gutil_inotify.c:142. -/
def mergeable (s : State) (file : Nat) (ev : Ev) : Prop :=
  ∃ k ∈ s.kernel, k.file = file ∧ ev.mask &&& k.mask ≠ 0 ∧ ∃ p ∈ s.queue.getLast?, p.1 = k.wd ∧ p.2.mask = ev.mask ∧ p.2.name = ev.name

instance (s : State) (file : Nat) (ev : Ev) : Decidable (mergeable s file ev) := by
  unfold mergeable
  infer_instance

/-- The kernel has no place for an event: `IN_Q_OVERFLOW` is queued unless it's there already. No code of the library, see inotify(7). -/
def overflowed (s : State) (file : Nat) : List (Nat × Ev) :=
  if s.kernel.any (fun k => k.file = file) ∧ (0, overflow) ∉ s.queue then s.queue ++ [(0, overflow)] else s.queue

/-- Something happens to the file, but the queue is full. No code of the library, see inotify(7) and src/gutil_inotify.c:142. -/
def lose (s : State) (file : Nat) (ev : Ev) : State :=
  { s with queue := overflowed s file, log := s.log ++ [.lost file ev] }

/-- The kernel stops watching the file, which is removed for example. No code of the library, see inotify(7) and src/gutil_inotify.c:142. -/
def vanish (s : State) (file : Nat) : State :=
  { s with queue := s.queue ++ (s.kernel.filter (fun k => k.file = file)).map (fun k => (k.wd, ignored)),
           kernel := s.kernel.filter (fun k => k.file ≠ file), log := s.log ++ [.vanished file] }

/-- The kernel stops watching the file, and the queue is full. No code of the library, see inotify(7) and src/gutil_inotify.c:142. -/
def vanishLost (s : State) (file : Nat) : State :=
  { s with queue := overflowed s file, kernel := s.kernel.filter (fun k => k.file ≠ file), log := s.log ++ [.vanishedLost file] }

/-- What may happen. `new` is `gutil_inotify_watch_new` which succeeds, `newFails` is the one which doesn't, `fd` is the descriptor
to be used if there isn't one yet; `fopen` and `fclose` are made by someone else.
No code of its own, it goes to the model of src/gutil_inotify.c:101-389. -/
inductive Act
  | new (file : Nat) (mask : BitVec 32) (fd : Nat)
  | newFails (fd : Nat)
  | ref (w : Nat)
  | unref (w : Nat)
  | destroy (w : Nat)
  | dispatch (n : Nat)
  | readFails
  | ret
  | happen (file : Nat) (ev : Ev)
  | vanish (file : Nat)
  | merge (file : Nat) (ev : Ev)
  | lose (file : Nat) (ev : Ev)
  | vanishLost (file : Nat)
  | fopen (fd : Nat)
  | fclose (fd : Nat)
  deriving DecidableEq, Repr

/-- What may happen, one step: calls to src/gutil_inotify.c:275-389 by the client, src/gutil_inotify.c:180-201 by the main loop, and what the kernel and the others do -/
def step (race : Option Nat) (s : State) : Act → M State
  | .new file mask fd => .ok (newWatch s file mask fd)
  | .newFails fd => newFails race s fd
  | .ref w => do
    let s ← ref s w
    .ok { s with watches := s.watches.modify w (fun x => { x with owned := x.owned + 1 }) }
  | .unref w => unrefWatch race (disown s w) w
  | .destroy w => destroy race s w
  | .dispatch n => dispatch race s n
  | .readFails => readFails s
  | .ret => ret race s
  | .happen file ev => .ok (happen s file ev)
  | .vanish file => .ok (vanish s file)
  | .merge file ev => .ok (merge s file ev)
  | .lose file ev => .ok (lose s file ev)
  | .vanishLost file => .ok (vanishLost s file)
  | .fopen fd => .ok { s with foreign := fd :: s.foreign }
  | .fclose fd => .ok { s with foreign := s.foreign.erase fd }

/-- The number of references which belong to the client.
No code of the library, bookkeeping for the properties of src/gutil_inotify.c:101-389. -/
def State.owned (s : State) (w : Nat) : Nat := (s.watches[w]?.map (·.owned)).getD 0

/-- The descriptor in use. `gutil_inotify_instance->fd`, src/gutil_inotify.c:54. -/
def State.fd (s : State) : Option Nat := s.inst.map (·.fd)

/-- The rules: the client only uses what it holds references to, the kernel doesn't return the descriptors which are in use, events are only dispatched by the source, and not from a handler.
No code of the library, a rule for those who use src/gutil_inotify.c:101-389. -/
def Allowed (s : State) : Act → Prop
  | .new _ _ fd => fd ∉ s.foreign
  | .newFails fd => fd ∉ s.foreign
  | .ref w | .unref w | .destroy w => 0 < s.owned w
  | .dispatch n => 1 ≤ n ∧ n ≤ s.queue.length ∧ s.frame = none ∧ ∃ i, s.inst = some i ∧ i.source = true
  | .readFails => s.frame = none ∧ ∃ i, s.inst = some i ∧ i.source = true
  | .ret => s.frame ≠ none
  | .happen .. | .vanish _ | .lose .. | .vanishLost _ => True
  | .merge file ev => mergeable s file ev
  | .fopen fd => fd ∉ s.foreign ∧ s.fd ≠ some fd
  | .fclose fd => fd ∈ s.foreign

instance (s : State) (a : Act) : Decidable (Allowed s a) := by
  have : ∀ s : State, Decidable (∃ i, s.inst = some i ∧ i.source = true) := fun s =>
    match h : s.inst with
    | none => isFalse (by rintro ⟨i, h1, _⟩; simp at h1)
    | some i => if h1 : i.source = true then isTrue ⟨i, rfl, h1⟩ else isFalse (by rintro ⟨j, h2, h3⟩; cases h2; exact h1 h3)
  cases a <;> unfold Allowed <;> infer_instance

/-- What can be reached by following the rules, and the additional ones given by `P`.
No code of the library, a sequence of uses of src/gutil_inotify.c:101-389. -/
inductive Reach (P : State → Option Nat → Act → Prop) : State → Prop
  | init (foreign : List Nat) : foreign.Nodup → Reach P (init foreign)
  | step {s s' : State} {a : Act} {race : Option Nat} : Reach P s → Allowed s a → (∀ fd, race = some fd → fd ∉ s.foreign) →
    P s race a → step race s a = .ok s' → Reach P s'

/-- A number of actions. No code of the library, a sequence of uses of src/gutil_inotify.c:101-389. -/
def exec (s : State) : List Act → M State
  | [] => .ok s
  | a :: t =>
    match step none s a with
    | .ok s => exec s t
    | .error e => .error e

/-- Are the rules being followed? No code of the library, a rule for those who use src/gutil_inotify.c:101-389. -/
def legal (s : State) : List Act → Bool
  | [] => true
  | a :: t =>
    if Allowed s a then
      match step none s a with
      | .ok s => legal s t
      | .error _ => false
    else false

end Verif.Inotify
