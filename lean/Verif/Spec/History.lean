/-!
# Specification of the history (no code from the model)
-/

namespace Verif.History.Spec

structure Sample where
  time : Int
  value : Int
  deriving DecidableEq, Repr

/-- The calls; `now` is what the clock shows if the call looks at it. -/
inductive Op
  | size (now : Int)
  | interval (now : Int)
  | clear
  | add (value now : Int)
  | median (default now : Int)
  deriving DecidableEq, Repr

/-- The samples, the oldest one first, not older than `interval` at the time `now`. -/
def live (interval now : Int) (l : List Sample) : List Sample :=
  l.filter (fun s => decide (now - interval ≤ s.time))

/-- The last `n` elements. -/
def lastN {α : Type} (n : Nat) (l : List α) : List α := l.drop (l.length - n)

/-- A new sample is appended, unless the time is that of the last one or earlier, in which
case it replaces the last one. -/
def record (n : Nat) (l : List Sample) (value now : Int) : List Sample :=
  match l.getLast? with
  | none => [⟨now, value⟩]
  | some s =>
    if s.time < now then lastN n (l ++ [⟨now, value⟩])
    else l.dropLast ++ [⟨s.time, value⟩]

/-- The area below the polygon through the samples, each trapezoid being truncated as C
does that. -/
def area : List Sample → Int
  | a :: b :: t => ((b.time - a.time) * (a.value + b.value)).tdiv 2 + area (b :: t)
  | _ => 0

/-- The time between the first and the last sample. -/
def duration : List Sample → Int
  | a :: b :: t => (b.time - a.time) + duration (b :: t)
  | _ => 0

/-- The time-weighted average, truncated. -/
def average : List Sample → Int
  | [] => 0
  | [s] => s.value
  | l => (area l).tdiv (duration l)

/-- The contents after a call. -/
def next (n : Nat) (interval : Int) (l : List Sample) : Op → List Sample
  | .size now => live interval now l
  | .interval now => live interval now l
  | .clear => []
  | .add v now => record n (live interval now l) v now
  | .median _ now => live interval now l

/-- What the call returns (nothing for clear). -/
def result (n : Nat) (interval : Int) (l : List Sample) : Op → Int
  | .size now => (live interval now l).length
  | .interval now =>
    match live interval now l with
    | [] => 0
    | s :: _ => now - s.time
  | .clear => 0
  | .add v now => average (record n (live interval now l) v now)
  | .median d now => if live interval now l = [] then d else average (live interval now l)

/-- The contents after a sequence of calls. -/
def contents (n : Nat) (interval : Int) : List Sample → List Op → List Sample
  | l, [] => l
  | l, op :: ops => contents n interval (next n interval l op) ops

/-- What they return. -/
def results (n : Nat) (interval : Int) : List Sample → List Op → List Int
  | _, [] => []
  | l, op :: ops => result n interval l op :: results n interval (next n interval l op) ops

/-- The time shown by the clock during the call. -/
def Op.now? : Op → Option Int
  | .size now | .interval now | .add _ now | .median _ now => some now
  | .clear => none

/-- The clock shows 64-bit numbers, they aren't too far from each other (less than 2^63), and the time one
interval before the earliest of them still is a 64-bit number. Clocks which are never negative are fine,
with all intervals. -/
def ClockOk (interval : Int) (ops : List Op) : Prop :=
  ∃ lo : Int, -2 ^ 63 ≤ lo - interval ∧
    ∀ op ∈ ops, ∀ now, op.now? = some now → lo ≤ now ∧ now < lo + 2 ^ 63 ∧ now < 2 ^ 63

/-- Is that a query of the size? -/
def Op.isSize : Op → Bool
  | .size _ => true
  | _ => false

/-- The size fits in half of the numbers which an `int` can have, or isn't queried. -/
def SizeOk (n : Nat) (ops : List Op) : Prop := n ≤ 2 ^ 30 ∨ ∀ op ∈ ops, op.isSize = false

/-- The clock never goes backwards from `t` on. -/
def Monotonic : Int → List Op → Prop
  | _, [] => True
  | t, op :: ops =>
    match op.now? with
    | none => Monotonic t ops
    | some now => t ≤ now ∧ Monotonic now ops

/-- Samples added since the last clear; of those added at the same time only the last. -/
def added : List Sample → List Op → List Sample
  | l, [] => l
  | _, .clear :: ops => added [] ops
  | l, .add v now :: ops =>
    added (l.filter (fun s => decide (s.time ≠ now)) ++ [⟨now, v⟩]) ops
  | l, _ :: ops => added l ops

/-- The time of the last call (`t` if there was none). -/
def clock : Int → List Op → Int
  | t, [] => t
  | t, op :: ops => clock (op.now?.getD t) ops

/-- Does the call return an average? -/
def Op.averages : Op → Bool
  | .add _ _ | .median _ _ => true
  | _ => false

/-- The calls other than the averaging ones return what they should. -/
def AgreeOnSizes : List Op → List Int → List Int → Prop
  | [], [], [] => True
  | op :: ops, o :: os, r :: rs => (op.averages = false → o = r) ∧ AgreeOnSizes ops os rs
  | _, _, _ => False

/-- The values added are between `-V` and `V`. -/
def Bounded (V : Int) (ops : List Op) : Prop :=
  ∀ v now, Op.add v now ∈ ops → -V ≤ v ∧ v ≤ V

end Verif.History.Spec
