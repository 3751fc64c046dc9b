import Verif.Spec.RingCap

/-!
# Ring buffer with its memory (no code from the model)

Where exactly the elements are. `Spec/RingCap.lean` leaves it open whether flatten has allocated less memory than the capacity of the ring. That depends on
which slots are occupied, because flatten does nothing unless the elements reach the last slot (without starting at the first one). Here that's taken into account too, which
makes it known in advance which puts write outside of the memory allocated: `Mem.next` is `none` for those.
-/

namespace Verif.Ring.Spec

structure Mem where
  /-- the elements and the capacity (its `short` is not used) -/
  buf : Buf
  /-- the slot of the oldest element, if there are any. The next ones are in the slots following it, and slot 0 follows the last one. -/
  first : Int
  /-- how many slots have been allocated -/
  room : Int
  deriving DecidableEq, Repr

def Mem.new (reserved max : Int) (free : Option Nat) : Mem :=
  { buf := Buf.new reserved max free, first := 0, room := reserved }

/-- Make room for `n` elements: if the capacity has to be changed then all that is allocated, and the elements get moved to the beginning. -/
def Mem.grow (m : Mem) (n : Int) : Option Mem :=
  match m.buf.grow n with
  | none => none
  | some b => some (if n ≤ m.buf.cap then m else { buf := b, first := 0, room := b.cap })

/-- The slot where the next element goes to, if it's added to the end -/
def Mem.back (m : Mem) : Int := if m.buf.items = [] then 0 else (m.first + m.buf.items.length) % m.buf.cap

/-- ... and to the beginning -/
def Mem.front (m : Mem) : Int := if m.buf.items = [] then 0 else (m.first - 1) % m.buf.cap

/-- What the call returns and does, or `none` if it writes outside of the memory allocated. -/
def Mem.next (m : Mem) (op : Op) : Option (Out × Mem) :=
  let (o, b) := m.buf.next op
  match op with
  | .put _ =>
    match m.grow (m.buf.items.length + 1) with
    | none => some (o, m)
    | some g =>
      if g.back < g.room then some (o, { buf := b, first := if m.buf.items = [] then 0 else g.first, room := g.room }) else none
  | .putFront _ =>
    match m.grow (m.buf.items.length + 1) with
    | none => some (o, m)
    | some g => if g.front < g.room then some (o, { buf := b, first := g.front, room := g.room }) else none
  | .reserve n => some (o, (m.grow n).getD m)
  | .compact => some (o, if m.buf.items.length < m.buf.cap then { buf := b, first := 0, room := m.buf.items.length } else { m with buf := b })
  | .flatten =>
    some (o, if m.buf.items ≠ [] ∧ 0 < m.first ∧ m.buf.cap ≤ m.first + m.buf.items.length
      then { buf := b, first := 0, room := m.buf.items.length } else { m with buf := b })
  | .getLast | .dropLast _ => some (o, { m with buf := b })
  | _ => some (o, { m with buf := b, first := (m.first + (m.buf.items.length - b.items.length)) % m.buf.cap })

/-- What the caller must respect: the ring is alive and numbers are not too large. -/
def Mem.Pre (m : Mem) (op : Op) : Prop := { m.buf with short := false }.Pre op

/-- A sequence of calls which respects that -/
def Mem.Allowed : Mem → List Op → Prop
  | _, [] => True
  | m, op :: ops => m.Pre op ∧ match m.next op with
    | none => True
    | some (_, m') => m'.Allowed ops

/-- What the calls return, or `none` if one of them writes outside of the memory allocated -/
def Mem.outs : Mem → List Op → Option (List Out)
  | _, [] => some []
  | m, op :: ops =>
    match m.next op with
    | none => none
    | some (o, m') => (m'.outs ops).map (o :: ·)

/-- Calls which may move elements, or store new ones -/
def Op.moves : Op → Bool
  | .put _ | .putFront _ | .reserve _ | .compact | .flatten => true
  | _ => false

instance (m : Mem) (op : Op) : Decidable (m.Pre op) := by unfold Mem.Pre; infer_instance
instance instMemAllowed : (m : Mem) → (ops : List Op) → Decidable (m.Allowed ops)
  | _, [] => isTrue trivial
  | m, op :: ops => by
    unfold Mem.Allowed
    cases m.next op with
    | none => infer_instance
    | some x =>
      have := instMemAllowed x.2 ops
      infer_instance

end Verif.Ring.Spec
