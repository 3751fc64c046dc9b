import Verif.Spec.Inotify

/-!
# Specification of inotify watches of the same file (no code from the model)

Watches of the same file which exist at the same time share what the kernel has got for the file. They make a group.
-/

namespace Verif.Inotify

/-- Watches sharing what the kernel has got for a file. -/
structure Group where
  file : Nat
  /-- what the kernel reports: whatever the last one of them was created for (see `Group.join`) -/
  mask : BitVec 32
  /-- the watches, the last one being the first -/
  members : List Nat
  /-- does the kernel watch the file for the group? -/
  watched : Bool
  /-- has any of them been stopped? -/
  ended : Bool
  /-- what the kernel has reported -/
  events : List Ev
  deriving DecidableEq, Repr

/-- A watch joins the group. With `IN_MASK_ADD` in the mask, the others still get what they were created for. -/
def Group.join (g : Group) (w : Nat) (mask : BitVec 32) : Group :=
  { g with members := w :: g.members, mask := if mask &&& 0x20000000 ≠ 0 then g.mask ||| mask else mask }

/-- The kernel doesn't watch the file anymore, and tells that unless there's no place for that. -/
def Group.forget (g : Group) (tell : Bool) : Group :=
  { g with watched := false, events := if g.watched ∧ tell then g.events ++ [ignored] else g.events }

/-- The kernel reports an event. -/
def Group.report (g : Group) (ev : Ev) : Group := { g with events := g.events ++ [ev] }

/-- Is the kernel watching the file for the group? -/
def Group.active (g : Group) (file : Nat) : Bool := g.watched && g.file == file

/-- How an event changes the groups. The kernel watches the file until any of the watches is stopped, no matter what the others think of that. -/
def share1 (l : List Group) : Event → List Group
  | .created w file mask =>
    if l.any (·.active file) then l.map (fun g => if g.active file then g.join w mask else g)
    else l ++ [⟨file, mask, [w], true, false, []⟩]
  | .stopped w => l.map (fun g => if w ∈ g.members then { g.forget true with ended := true } else g)
  | .happened file ev => l.map (fun g => if g.active file ∧ ev.mask &&& g.mask ≠ 0 then g.report ev else g)
  | .vanished file => l.map (fun g => if g.active file then g.forget true else g)
  | .vanishedLost file => l.map (fun g => if g.active file then g.forget false else g)
  | .closed _ => l.map (fun g => g.forget false)
  | _ => l

/-- The groups -/
def groups (log : List Event) : List Group := log.foldl share1 []

/-- What any of the watches has been told about -/
def deliveredTo (ws : List Nat) (log : List Event) : List Ev :=
  log.filterMap (fun | .delivered v ev => if v ∈ ws then some ev else none | _ => none)

end Verif.Inotify
