import Verif.Model.InotifyCb

/-!
# The unit tests of the project, run by the model: `/repo/test/test_inotify/test_inotify.c`

These are tests of the model and not properties of the code: they check that the hand translation agrees with what the authors of the code assert about it.
Directories are files 0 and 1. Of what happens when a file is created in the first directory, just the creation is there.
-/

namespace Verif.Check.Inotify
open Verif.C Verif.InotifyCb
open Verif.Inotify (Ev ignored)

def check (b : Bool) : M Unit := if b then .ok () else .error .assertFail

/-- The actions are allowed, and this is where they lead to. -/
def go (s : State) (acts : List Act) : M State := do
  check (legal s acts)
  exec s acts

/-- Calls of handlers -/
def calls (s : State) : List (Nat × Nat × Ev) := s.log.filterMap fun | .call id w ev => some (id, w, ev) | _ => none

def name : List (BitVec 8) := [0x74, 0x65, 0x73, 0x74]
/-- `IN_CREATE`, `IN_MOVED_FROM` and `IN_MOVED_TO` -/
def created : Ev := ⟨0x100, 0, name⟩
def movedFrom : Ev := ⟨0x40, 1, name⟩
def movedTo : Ev := ⟨0x80, 1, name⟩
/-- `IN_ALL_EVENTS | IN_ONLYDIR | IN_EXCL_UNLINK`, line 77 -/
def mask : BitVec 32 := 0x05000fff

/-- `test_inotify_basic`, lines 125-151. The directory doesn't exist when `gutil_inotify_watch_new` is called for the second time. -/
example : (do
    let s ← go (init []) [.ino (.new 0 0xfff 3), .removeHandler 0 0, .addHandler 0 false, .ino (.destroy 0)]
    check (s.conns = [] && s.ino.inst.isNone)
    let s ← go s [.ino (.vanish 0), .ino (.newFails 3)]
    check (s.ino.inst.isNone)) = .ok () := by decide +kernel

/-- `test_inotify_move`, lines 166-246 -/
example : (do
    let s ← go (init []) [.ino (.new 0 mask 3), .ino (.new 1 mask 3), .addHandler 0 true, .addHandler 1 true,
      .ino (.happen 0 created), .ino (.happen 0 movedFrom), .ino (.happen 1 movedTo)]
    check (calls s = [])
    let s ← go s [.ino (.dispatch 3), .next, .ret, .next, .next, .ret, .next, .next, .ret, .next]
    check (calls s = [(1, 0, created), (1, 0, movedFrom), (2, 1, movedTo)])
    check (s.client = true && s.emit.isNone)
    let s ← go s [.removeHandler 0 1, .removeHandler 1 2, .ino (.destroy 0), .ino (.destroy 1)]
    check (s.ino.inst.isNone)) = .ok () := by decide +kernel

/-- `test_inotify_callback`, lines 261-341. There are two watches for each directory, those created last are notified. -/
example : (do
    let s ← go (init []) [.ino (.new 0 mask 3), .ino (.new 1 mask 3), .callbackNew 0 0x40 3 true, .callbackNew 1 0x80 3 true,
      .ino (.happen 0 created), .ino (.happen 0 movedFrom), .ino (.happen 1 movedTo)]
    let s ← go s [.ino (.dispatch 2), .next, .ret, .next, .next, .ret, .next]
    check (calls s = [(1, 2, movedFrom), (2, 3, movedTo)])
    check (s.client = true && s.emit.isNone)
    let s ← go s [.callbackFree 0, .callbackFree 1, .ino (.destroy 0), .ino (.destroy 1)]
    check (s.ino.inst.isNone)) = .ok () := by decide +kernel

end Verif.Check.Inotify
