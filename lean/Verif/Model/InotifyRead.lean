import Verif.C.Basic
import Verif.Spec.Inotify

/-!
# Model of the loop in `gutil_inotify_read` of `/repo/src/gutil_inotify.c`, at the level of bytes

What's done to the events is in `Model/Inotify.lean`.
-/

namespace Verif.Inotify
open Verif.C

/-- `sizeof(struct inotify_event)`. (Linux) src/gutil_inotify.c:58 and 154. -/
def headerSize : Nat := 16

/-- `sizeof(self->buf)`, src/gutil_inotify.c:58; `NAME_MAX` is 255. -/
def bufSize : Nat := headerSize + 255 + 1

/-- A 32-bit field of the structure. `event->wd` and others, src/gutil_inotify.c:153-169. -/
def field (little : Bool) (buf : List Byte) (off : Nat) : M (BitVec 32) := do
  let a ← rd buf off
  let b ← rd buf (off + 1)
  let c ← rd buf (off + 2)
  let d ← rd buf (off + 3)
  .ok (if little then d ++ c ++ b ++ a else a ++ b ++ c ++ d)

/-- What a handler would see behind the pointer: a string terminated by zero. `path`, src/gutil_inotify.c:155 and 169. -/
def cstring : List Byte → M (List Byte)
  | [] => .error .oobRead
  | c :: t => if c = 0 then .ok [] else do
    let t ← cstring t
    .ok (c :: t)

/-- `event->len ? event->name : NULL`, src/gutil_inotify.c:155, followed by what the handler does with it -/
def nameOf (len : BitVec 32) (buf : List Byte) : M (List Byte) := if len = 0 then .ok [] else cstring buf

/-- One event, `src/gutil_inotify.c:153-174`: `buf` is what the pointer `next` points to, up to the last byte which has been read. -/
def parseEvent (little : Bool) (buf : List Byte) (len : BitVec 32) : M KEvent := do
  let wd ← field little buf 0
  let mask ← field little buf 4
  let cookie ← field little buf 8
  let name ← nameOf len (buf.drop headerSize)
  .ok ⟨wd, ⟨mask, cookie, name⟩⟩

/-- The loop, src/gutil_inotify.c:150-175. It goes on as long as `nbytes > 0`; each turn takes at least the size of the structure,
`fuel` is the number of bytes. -/
def parseLoop (little : Bool) : (fuel : Nat) → List Byte → M (List KEvent)
  | 0, _ => .ok []
  | fuel + 1, buf =>
    if buf.length > 0 then do
      let len ← field little buf 12
      if headerSize + len.toNat > buf.length then .ok []
      else do
        let e ← parseEvent little buf len
        let t ← parseLoop little fuel (buf.drop (headerSize + len.toNat))
        .ok (e :: t)
    else .ok []

/-- `gutil_inotify_read`, src/gutil_inotify.c:133-178: `data` is what has been read. -/
def parse (little : Bool) (data : List Byte) : M (List KEvent) := parseLoop little data.length data

/-- `read` returns as many events as fit into the buffer, see inotify(7): how many of them is that?
Called at src/gutil_inotify.c:142 by GLib. -/
def fitting (little : Bool) : List KEvent → (room : Nat) → Nat
  | [], _ => 0
  | e :: t, room => if (encode little e).length ≤ room then fitting little t (room - (encode little e).length) + 1 else 0

end Verif.Inotify
