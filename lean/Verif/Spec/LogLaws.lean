import Verif.Spec.Log

/-!
# Changes of log levels

Only the record types of the model are used here.
-/

namespace Verif.Log.Spec

/-- `a` has been made of `b` by lowering its level (which it has got, instead of inheriting it), disabling it, both or none of that. -/
def Lowered (a b : Module) : Prop :=
  a.name = b.name ∧ a.parent = b.parent ∧ a.proc = b.proc ∧ a.hideName = b.hideName ∧ (b.disable = true → a.disable = true) ∧
  (a.level = b.level ∨ (a.level ≠ -1 ∧ b.level ≠ -1 ∧ a.level ≤ b.level))

/-- Nothing but that has been done to any number of modules. -/
def Quieter (a b : State) : Prop :=
  a.modules.length = b.modules.length ∧ (∀ (i : Nat) m k, a.modules[i]? = some m → b.modules[i]? = some k → Lowered m k) ∧
  a = { b with modules := a.modules }

/-- These modules, including the default one, are the same, and so are their parents, the parents of those, and so on; other modules may be
anything. -/
def SameFamily (family : Nat → Prop) (a b : State) : Prop :=
  a.modules.length = b.modules.length ∧ a = { b with modules := a.modules } ∧ family 0 ∧
  ∀ i, family i → a.modules[i]? = b.modules[i]? ∧ ∀ m p, b.modules[i]? = some m → m.parent = some p → family p

end Verif.Log.Spec
