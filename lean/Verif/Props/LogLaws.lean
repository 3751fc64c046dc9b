import Verif.Proof.LogLaws
import Verif.Props.Log

/-!
# Changes of log levels: C140
-/

namespace Verif.Log
open Verif.C Spec

/-- C140. If the levels of any modules are lowered, or modules disabled, then each message either still is logged in the same way, or isn't logged.
So messages which are logged still are, and look the same, if levels are raised or modules enabled. -/
theorem C140_lower (env : Env) (a b : State) (h : Quieter a b) (module : Option Nat) (level : Int) (msg : Str) :
    (logv env a module level msg = .ok [] ∨ logv env a module level msg = logv env b module level msg) ∧
    (∀ o, o ≠ [] → logv env a module level msg = .ok o → logv env b module level msg = .ok o) ∧
    (enabled a module level = .ok true → enabled b module level = .ok true) := by
  have hl := logv_less env h module level msg
  refine ⟨hl, fun o ho ha => ?_, fun he => ?_⟩
  · rcases hl with hl | hl
    · rw [hl] at ha; injection ha with ha; exact absurd ha.symm ho
    · rw [← hl]; exact ha
  · have ef : a.func2 = b.func2 := by rw [h.2.2]
    unfold enabled at *
    rw [ef, h.1] at he
    split
    · rename_i hc
      rw [if_pos hc] at he
      rcases enabledR_less h level (b.modules.length + 1) (module.getD 0) with hf | hf
      · rw [hf] at he; cases he
      · rw [← hf]; exact he
    · rename_i hc
      rw [if_neg hc] at he
      exact he

/-- C140. Modules which are neither the default one, nor the one which logs, nor ancestors of that don't matter, whatever is done to them. -/
theorem C140_others (env : Env) (family : Nat → Prop) (a b : State) (h : SameFamily family a b) (module : Option Nat) (hm : family (module.getD 0))
    (level : Int) (msg : Str) :
    logv env a module level msg = logv env b module level msg ∧ enabled a module level = enabled b module level := by
  have ef : a.func2 = b.func2 := by rw [h.2.1]
  unfold logv enabled
  rw [ef, h.1]
  constructor
  · split
    · refine logvR_family env h module hm level msg _ module (fun i hi => ?_)
      rw [hi] at hm
      exact hm
    · rfl
  · split
    · exact enabledR_family h level _ _ hm
    · rfl

/-- The default level of the example is "warning"; here it's "error". -/
def quietState : State := { exampleState with modules := [{ defaultModule 1 with level := 1 }] ++ exampleState.modules.drop 1 }

/-- The conditions of `C140_lower` are met, and one of the messages is gone. -/
example (env : Env) : Quieter quietState exampleState ∧
    logv env exampleState (some 2) 2 (lit "x") = .ok [.call 5 (some (lit "b")) 2 (lit "x")] ∧
    logv env quietState (some 2) 2 (lit "x") = .ok [] ∧
    logv env quietState (some 2) 1 (lit "x") = .ok [.call 5 (some (lit "b")) 1 (lit "x")] := by
  refine ⟨⟨rfl, fun i m k h1 h2 => ?_, rfl⟩, rfl, rfl, rfl⟩
  rcases i with _ | _ | _ | i
  · cases h1; cases h2; exact ⟨rfl, rfl, rfl, rfl, by decide, .inr (by decide)⟩
  · cases h1; cases h2; exact ⟨rfl, rfl, rfl, rfl, by decide, .inl rfl⟩
  · cases h1; cases h2; exact ⟨rfl, rfl, rfl, rfl, by decide, .inl rfl⟩
  · cases h1

/-- The grandchild is disabled and renamed; that doesn't matter for its parent. -/
def otherState : State :=
  { exampleState with modules := exampleState.modules.take 2 ++ [⟨some (lit "c"), some 2, some (.other 1), 5, true, true⟩] }

/-- The conditions of `C140_others` are met. -/
example : SameFamily (fun i => i < 2) otherState exampleState ∧ otherState ≠ exampleState ∧ enabled otherState (some 1) 2 = .ok true := by
  refine ⟨⟨rfl, rfl, by decide, fun i hi => ?_⟩, by decide +kernel, by decide +kernel⟩
  rcases i with _ | _ | i
  · exact ⟨rfl, fun m p h1 h2 => by cases h1; cases h2⟩
  · exact ⟨rfl, fun m p h1 h2 => by cases h1; cases h2; exact (by decide : (0 : Nat) < 2)⟩
  · exact absurd hi (by omega)

end Verif.Log
