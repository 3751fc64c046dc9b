import Verif.Spec.HistoryExact

/-!
# Averages which aren't truncated, and calls which resemble each other (no code from the model)
-/

namespace Verif.History.Spec

/-- Twice the area below the polygon through the samples; nothing is truncated. -/
def area2 : List Sample → Int
  | a :: b :: t => (b.time - a.time) * (a.value + b.value) + area2 (b :: t)
  | _ => 0

/-- The difference between `o` and the average (which is `area2 l / (2 * duration l)`) is less than 3/2. -/
def Near (l : List Sample) (o : Int) : Prop :=
  area2 l - 3 * duration l < 2 * duration l * o ∧ 2 * duration l * o < area2 l + 3 * duration l

/-- `o` is the average, truncated towards zero. -/
def Truncated (l : List Sample) (o : Int) : Prop := o = (area2 l).tdiv (2 * duration l)

/-- The same call at the same time, the values being the same ones or larger. -/
def OpLe : Op → Op → Prop
  | .size t, .size u => t = u
  | .interval t, .interval u => t = u
  | .clear, .clear => True
  | .add v t, .add w u => v ≤ w ∧ t = u
  | .median v t, .median w u => v ≤ w ∧ t = u
  | _, _ => False

/-- The same calls at the same times, the values being the same ones or larger. -/
def OpsLe : List Op → List Op → Prop
  | [], [] => True
  | a :: s, b :: t => OpLe a b ∧ OpsLe s t
  | _, _ => False

/-- What's returned by two sequences of calls: sizes and intervals are the same, averages are the same or larger. -/
def AllLe : List Op → List Int → List Int → Prop
  | [], [], [] => True
  | op :: ops, a :: s, b :: t => (if op.averages then a ≤ b else a = b) ∧ AllLe ops s t
  | _, _, _ => False

/-- The same call with the opposite value. -/
def Op.neg : Op → Op
  | .add v t => .add (-v) t
  | .median v t => .median (-v) t
  | op => op

/-- What that returns. -/
def negResults : List Op → List Int → List Int
  | op :: ops, a :: s => (if op.averages then -a else a) :: negResults ops s
  | _, _ => []

/-- The same call some time later. -/
def Op.later (d : Int) : Op → Op
  | .size t => .size (t + d)
  | .interval t => .interval (t + d)
  | .clear => .clear
  | .add v t => .add v (t + d)
  | .median v t => .median v (t + d)

end Verif.History.Spec
