import Verif.Model.Inotify

/-!
# Reading of events which are reported to handlers which do nothing to the watches
-/

namespace Verif.Inotify.Spec
open Verif.C

/-- Iterations of the main loop, each of which reads the given number of events (that's up to the kernel). The handlers which are called do nothing to the
watches: the only thing which happens during the iteration is that they return. -/
inductive Reads : State → List Nat → State → Prop
  | nil {s : State} : Reads s [] s
  | cons {s s1 s' : State} {n k : Nat} {ns : List Nat} : Allowed s (.dispatch n) → exec s (.dispatch n :: List.replicate k .ret) = .ok s1 → s1.frame = none →
    Reads s1 ns s' → Reads s (n :: ns) s'

end Verif.Inotify.Spec
