import Verif.Spec.LogThreads
import Verif.Spec.Log

/-!
# Which messages are logged when the log is used by several threads (no code from the model of threads)
-/

namespace Verif.LogThreads
open Verif.C
open Verif.Log (Proc Proc2 Out)
open Verif.Log.Spec (Chain NoneDisabled levelOf Passes)

/-- What the thread has passed to functions of type `GLogProc2`, and for which module -/
def passed (t : Nat) (h : List Event) : List (Nat × Proc2) := h.filterMap (fun | .called2 u i p => if u = t then some (i, p) else none | _ => none)

/-- The settings which tell what to log, and what not to log: levels, parents and flags of modules -/
def selects : Setting → Bool
  | .level .. | .parent .. | .flags .. => true
  | _ => false

/-- The message is to be logged: there's a function to pass it to; if there's no module then it's up to the default level; otherwise neither the module nor
any of those from which it inherits its level is disabled, and the message passes the level. -/
def Wanted (c : Log.State) (j : Job) : Prop :=
  c.func2 ≠ none ∧
    match j.module with
    | none => ∃ d, c.modules[0]? = some d ∧ Passes j.level d.level
    | some i => ∃ rest max, Chain c.modules (i :: rest) ∧ NoneDisabled c.modules (i :: rest) ∧ levelOf c.modules (i :: rest) = some max ∧ Passes j.level max

end Verif.LogThreads
