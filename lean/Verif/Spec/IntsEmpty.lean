import Verif.Spec.Ints

/-!
# Empty parts of `GUtilInts`

What happens to those who ask for empty parts too: there's nothing to be had, but it costs a reference if the offset is within the ints.
No code from the model.
-/

namespace Verif.Ints.Spec

/-- An empty part has been asked for. -/
def State.empty (s : State) (i off : Nat) : State :=
  { s with objs := s.objs.modify i (fun o => if off < o.count then { o with own := o.own + 1 } else o) }

/-- The same as `next`, for empty parts too. -/
noncomputable def nextE (s : State) : Op → State × Res
  | .part i off 0 => (s.empty i off, .ints none)
  | op => next s op

/-- The same rules, but parts may be empty. -/
def PreE (s : State) : Op → Prop
  | .part i off 0 => s.obj i (fun o => 0 < o.own) ∧ off < 2 ^ 32
  | op => Pre s op

/-- The rules are followed at each step. -/
def LegalE (s : State) : List Op → Prop
  | [] => True
  | op :: t => PreE s op ∧ LegalE (nextE s op).1 t

noncomputable def runE (s : State) : List Op → State × List Res
  | [] => (s, [])
  | op :: t => ((runE (nextE s op).1 t).1, (nextE s op).2 :: (runE (nextE s op).1 t).2)

end Verif.Ints.Spec
