/-!
# Specification of inotify watches (no code from the model)
-/

namespace Verif.Inotify

/-- What handlers get. `mask` is the set of flags telling what has happened. No name is an empty one. -/
structure Ev where
  mask : BitVec 32
  cookie : BitVec 32
  name : List (BitVec 8)
  deriving DecidableEq, Repr

/-- `IN_IGNORED`: the kernel has removed the watch. -/
def ignored : Ev := ⟨0x8000, 0, []⟩

/-- `IN_Q_OVERFLOW`: some events have been lost. -/
def overflow : Ev := ⟨0x4000, 0, []⟩

/-- The history. Files are identified by numbers (that's not the path), watches are numbered in the order in which they have
been created. -/
inductive Event
  /-- a watch has been created -/
  | created (w file : Nat) (mask : BitVec 32)
  /-- the watch has been destroyed, or the last reference to it has been dropped -/
  | stopped (w : Nat)
  /-- something happens to a file -/
  | happened (file : Nat) (ev : Ev)
  /-- the kernel stops watching the file: the file is gone, has been unmounted, or has been watched for one event only -/
  | vanished (file : Nat)
  /-- something happens to a file, and the kernel doesn't report that because the last thing which it has to report is the same -/
  | merged (file : Nat) (ev : Ev)
  /-- something happens to a file, and the kernel can't report that: it has too much to report already -/
  | lost (file : Nat) (ev : Ev)
  /-- the kernel stops watching the file, and can't report that either -/
  | vanishedLost (file : Nat)
  /-- handlers of the watch have been called -/
  | delivered (w : Nat) (ev : Ev)
  /-- an inotify descriptor has been opened -/
  | opened (fd : Nat)
  /-- `close` has been called -/
  | closed (fd : Nat)
  deriving DecidableEq, Repr

/-- Which file a watch is watching, for what, and everything it must have been told about -/
abbrev Track := Option (Nat × BitVec 32) × List Ev

/-- The watch `w` must be told about everything it was created for which happens to the file (and is reported by the kernel), and about the file being
gone (or the kernel not watching it anymore for another reason), until it's stopped. -/
def track1 (w : Nat) (t : Track) : Event → Track
  | .created v file mask => if v = w then (some (file, mask), t.2) else t
  | .stopped v => if v = w then (none, t.2) else t
  | .happened file ev =>
    match t.1 with
    | some (f, m) => if f = file ∧ ev.mask &&& m ≠ 0 then (t.1, t.2 ++ [ev]) else t
    | none => t
  | .vanished file =>
    match t.1 with
    | some (f, _) => if f = file then (none, t.2 ++ [ignored]) else t
    | none => t
  | .vanishedLost file =>
    match t.1 with
    | some (f, _) => if f = file then (none, t.2) else t
    | none => t
  | _ => t

/-- What the watch `w` must be told about -/
def expected (w : Nat) (log : List Event) : List Ev := (log.foldl (track1 w) (none, [])).2

/-- The file which the watch `w` is watching, and what for -/
def watching (w : Nat) (log : List Event) : Option (Nat × BitVec 32) := (log.foldl (track1 w) (none, [])).1

/-- The same, except for the number which tells what belongs together -/
def alike (a b : Ev) : Prop := a.mask = b.mask ∧ a.name = b.name

/-- What the watch `w` has been told about -/
def delivered (w : Nat) (log : List Event) : List Ev := log.filterMap (fun | .delivered v ev => if v = w then some ev else none | _ => none)

/-- There was a reason to report `ev` to those who watch the file: that happened to the file when it was being watched by some watch `v` which
had been created for such events; or that's the notification about the watch being removed, and at some point when the file was being watched
by `v` the kernel has stopped watching it or `v` has been stopped. -/
def reported (file : Nat) (ev : Ev) (log : List Event) : Prop :=
  ∃ pre e post v m, log = pre ++ e :: post ∧ watching v pre = some (file, m) ∧
    (e = .happened file ev ∧ ev.mask &&& m ≠ 0 ∨ ev = ignored ∧ (e = .vanished file ∨ e = .stopped v))

/-- Has the watch been stopped? -/
def isStopped (w : Nat) (log : List Event) : Prop := Event.stopped w ∈ log

/-- The number of descriptors opened -/
def opens (log : List Event) : Nat := log.countP (fun | .opened _ => true | _ => false)

/-- The number of calls to `close` -/
def closes (log : List Event) : Nat := log.countP (fun | .closed _ => true | _ => false)

/-! ## What the kernel puts to the buffer -/

/-- An event with its watch descriptor -/
structure KEvent where
  wd : BitVec 32
  ev : Ev
  deriving DecidableEq, Repr

/-- The bytes of a 32-bit integer, the least significant one first -/
def le32 (x : BitVec 32) : List (BitVec 8) := [x.extractLsb' 0 8, x.extractLsb' 8 8, x.extractLsb' 16 8, x.extractLsb' 24 8]

/-- The same in the byte order of the machine -/
def word (little : Bool) (x : BitVec 32) : List (BitVec 8) := if little then le32 x else (le32 x).reverse

/-- The name is terminated and padded with zeros, its size is a multiple of 16; see inotify(7). -/
def padded (name : List (BitVec 8)) : List (BitVec 8) :=
  if name = [] then [] else name ++ List.replicate ((name.length / 16 + 1) * 16 - name.length) 0

/-- `struct inotify_event` -/
def encode (little : Bool) (e : KEvent) : List (BitVec 8) :=
  word little e.wd ++ word little e.ev.mask ++ word little e.ev.cookie ++ word little (BitVec.ofNat 32 (padded e.ev.name).length) ++ padded e.ev.name

/-- A name of a file: there are no zeros in it, and no more than `NAME_MAX` bytes. -/
def NameOk (name : List (BitVec 8)) : Prop := 0 ∉ name ∧ name.length ≤ 255

end Verif.Inotify
