import Verif.Model.Inotify
import Verif.Model.InotifyRead

/-!
# `/repo/src/gutil_inotify.c` in a debug build

The functions of `Model/Inotify.lean` with their assertions. The assertions about the watch descriptor not being negative (lines
257 and 267) repeat the conditions at lines 286 and 312; those at lines 144 and 210 are about what GLib returns. Those functions which have no assertions aren't repeated. See `gassert` about what a failed assertion
does.
-/

namespace Verif.Inotify.Debug
open Verif.C

/-- `gutil_inotify_unref`, src/gutil_inotify.c:111-131, the assertions are at lines 116 and 121. -/
def unrefInst (race : Option Nat) (s : State) (id : Nat) : M State := do
  let i ← s.access id
  gassert (i.refs > 0)
  if i.refs = 1 then gassert (i.table = [])
  Inotify.unrefInst race s id

/-- `gutil_inotify_new`, src/gutil_inotify.c:229-249, which calls `gutil_inotify_ref`, the assertion is at line 106. -/
def newInst (s : State) (fd : Nat) : M (State × Inst) := do
  match s.inst with
  | some i => gassert (i.refs > 0)
  | none => .ok ()
  .ok (Inotify.newInst s fd)

/-- `gutil_inotify_watch_new`, src/gutil_inotify.c:275-305 -/
def newWatch (s : State) (file : Nat) (mask : BitVec 32) (fd : Nat) : M State := do
  let _ ← newInst s fd
  .ok (Inotify.newWatch s file mask fd)

/-- `gutil_inotify_watch_new` if `inotify_add_watch` fails, src/gutil_inotify.c:295-304 -/
def newFails (race : Option Nat) (s : State) (fd : Nat) : M State := do
  let (s, i) ← newInst s fd
  unrefInst race s i.id

/-- `gutil_inotify_watch_stop`, src/gutil_inotify.c:307-317; `GVERIFY` is at line 268: the watch must be in the table. -/
def stop (s : State) (w : Nat) (x : Watch) : M State :=
  match x.wd with
  | none => .ok s
  | some wd => do
    let i ← s.access x.inst
    gassert (tableLookup i.table wd ≠ none)
    Inotify.stop s w x

/-- `gutil_inotify_watch_unref`, src/gutil_inotify.c:341-348, and `gutil_inotify_watch_finalize`, lines 377-389 -/
def unrefWatch (race : Option Nat) (s : State) (w : Nat) : M State := do
  let x ← s.watch w
  if x.refs = 1 then
    let s ← stop { s with watches := s.watches.set w { x with refs := 0 } } w { x with refs := 0 }
    unrefInst race s x.inst
  else .ok { s with watches := s.watches.set w { x with refs := x.refs - 1 } }

/-- `gutil_inotify_watch_destroy`, src/gutil_inotify.c:319-327 -/
def destroy (race : Option Nat) (s : State) (w : Nat) : M State := do
  let x ← s.watch w
  let s ← stop s w x
  unrefWatch race (disown s w) w

/-- The loop in `gutil_inotify_read`, src/gutil_inotify.c:150-175, and the end of `gutil_inotify_callback`, lines 197-198 -/
def proc (race : Option Nat) (s : State) (id : Nat) : List (Nat × Ev) → M State
  | [] => unrefInst race s id
  | (wd, ev) :: t => do
    let i ← s.access id
    match tableLookup i.table wd with
    | none => proc race s id t
    | some w => do
      let s ← ref s w
      .ok { s with frame := some (w, t), log := s.log ++ [.delivered w ev] }

/-- `gutil_inotify_callback`, src/gutil_inotify.c:180-201, the assertion in `gutil_inotify_ref` is at line 106. -/
def dispatch (race : Option Nat) (s : State) (n : Nat) : M State :=
  match s.inst with
  | none => .error .badArg
  | some i => do
    gassert (i.refs > 0)
    proc race { s with inst := some { i with refs := i.refs + 1 }, queue := s.queue.drop n } i.id (s.queue.take n)

/-- The handlers have been called, src/gutil_inotify.c:170-198 -/
def ret (race : Option Nat) (s : State) : M State :=
  match s.frame, s.inst with
  | some (w, t), some i => do
    let s ← unrefWatch race { s with frame := none } w
    proc race s i.id t
  | _, _ => .error .badArg

/-- What may happen; see `Inotify.step`. Nothing is different for the rest of the actions. src/gutil_inotify.c:101-389. -/
def step (race : Option Nat) (s : State) : Act → M State
  | .new file mask fd => newWatch s file mask fd
  | .newFails fd => newFails race s fd
  | .unref w => unrefWatch race (disown s w) w
  | .destroy w => destroy race s w
  | .dispatch n => dispatch race s n
  | .ret => ret race s
  | a => Inotify.step race s a

/-- A number of actions. No code of the library, a sequence of uses of src/gutil_inotify.c:101-389. -/
def exec (s : State) : List Act → M State
  | [] => .ok s
  | a :: t =>
    match step none s a with
    | .ok s => exec s t
    | .error e => .error e

/-- The loop, src/gutil_inotify.c:150-175, the assertion is at line 158. -/
def parseLoop (little : Bool) : (fuel : Nat) → List Byte → M (List KEvent)
  | 0, _ => .ok []
  | fuel + 1, buf =>
    if buf.length > 0 then do
      let len ← field little buf 12
      gassert (headerSize + len.toNat ≤ buf.length)
      if headerSize + len.toNat > buf.length then .ok []
      else do
        let e ← parseEvent little buf len
        let t ← parseLoop little fuel (buf.drop (headerSize + len.toNat))
        .ok (e :: t)
    else .ok []

/-- `gutil_inotify_read`, src/gutil_inotify.c:133-178: `data` is what has been read. -/
def parse (little : Bool) (data : List Byte) : M (List KEvent) := parseLoop little data.length data

end Verif.Inotify.Debug
