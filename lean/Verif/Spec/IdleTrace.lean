import Verif.Model.IdleQueue

/-!
# Histories which are the same apart from numbers of items and sources

Only the types of events and actions are used here.
-/

namespace Verif.Idle

/-- One more, except for those which are less than `n` -/
def shift (n k : Nat) : Nat := if k < n then k else k + 1

/-- The same event with other numbers of items. The number of items which had been added before `gutil_idle_queue_cancel_all` isn't visible to
anyone, there's zero instead. -/
def Event.ren (f : Nat → Nat) : Event → Event
  | .added id r x => .added (f id) r x
  | .begin d => .begin d
  | .ended d => .ended d
  | .run d id => .run d (f id)
  | .destroy id => .destroy (f id)
  | .cancel id => .cancel (f id)
  | .allCalled _ => .allCalled 0
  | .allDone _ => .allDone 0

/-- The same action with another number of the source -/
def Act.ren (g : Nat → Nat) : Act → Act
  | .dispatch src => .dispatch (g src)
  | a => a

/-- The same events, apart from the numbers of items -/
def SameEvents (f : Nat → Nat) (a b : List Event) : Prop := b.map (Event.ren id) = a.map (Event.ren f)

end Verif.Idle
