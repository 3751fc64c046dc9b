import Verif.Spec.Log
import Verif.Model.Log

/-!
# What an option is about

Only the definition of the state of the log is used here.
-/

namespace Verif.Log.Spec
open Verif.C

/-- The option is about the module `i` and the level `l`: it's either a level on its own (that's the default module, number zero), or a name and a
level with a colon in between, and it's the first one of the `modules` with this name. -/
def About (s : State) (modules : List Nat) (opt : Str) (i l : Nat) : Prop :=
  ((0x3a : Byte) ∉ opt ∧ Denotes opt l ∧ i = 0) ∨
  ∃ name t pre post m n, opt = name ++ 0x3a :: t ∧ (0x3a : Byte) ∉ name ∧ Denotes t l ∧ modules = pre ++ i :: post ∧ s.modules[i]? = some m ∧
    m.name = some n ∧ SameText n name ∧ ∀ j ∈ pre, ∀ m n, s.modules[j]? = some m → m.name = some n → ¬ SameText n name

/-- The same modules with the same names, only levels may be different -/
def SameNames (a b : State) : Prop :=
  b = { a with modules := b.modules } ∧ b.modules.length = a.modules.length ∧
  ∀ (i : Nat) (m : Module), a.modules[i]? = some m → ∃ m' : Module, b.modules[i]? = some m' ∧ m' = { m with level := m'.level }

end Verif.Log.Spec
