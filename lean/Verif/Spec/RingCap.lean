import Verif.Spec.Ring

/-!
# Ring buffer with its capacity (no code from the model)

`Spec/Ring.lean` leaves open when exactly a call fails, because that depends on how much memory has been allocated. Here that's taken into
account, which makes everything about the ring known in advance: `Buf.next` is what a call returns and does.
-/

namespace Verif.Ring.Spec

structure Buf where
  items : List Ptr
  /-- negative means unlimited -/
  max : Int
  free : Option Nat
  /-- calls of free functions made so far, the oldest one first -/
  freed : List (Nat × Ptr)
  refs : Nat
  /-- how many elements there's room for -/
  cap : Int
  /-- flatten may have allocated less than that -/
  short : Bool
  deriving DecidableEq, Repr

def Buf.new (reserved max : Int) (free : Option Nat) : Buf :=
  { items := [], max := norm max, free := free, freed := [], refs := 1, cap := reserved, short := false }

/-- The capacity which is needed for `n` elements: at least twice as much as there is, but no more than the limit. -/
def Buf.more (b : Buf) (n : Int) : Int :=
  let m := Max.max n (2 * b.cap)
  if b.max < 0 then m else Min.min m b.max

/-- Make room for `n` elements. It fails (`none`) only if there's not enough room and the capacity has reached the limit. -/
def Buf.grow (b : Buf) (n : Int) : Option Buf :=
  if n ≤ b.cap then some b
  else if 0 ≤ b.max ∧ b.max ≤ b.cap then none
  else some { b with cap := b.more n, short := false }

/-- Remove the elements and release them (if there's a free function), in this order. -/
def Buf.release (b : Buf) (ps rest : List Ptr) : Buf :=
  { b with items := rest, freed := b.freed ++ match b.free with | none => [] | some f => ps.map (f, ·) }

/-- ... the `n` oldest ones -/
def Buf.dropFront (b : Buf) (n : Nat) : Buf := b.release (b.items.take n) (b.items.drop n)

/-- ... the `n` newest ones -/
def Buf.dropBack (b : Buf) (n : Nat) : Buf :=
  if b.items.length ≤ n then b.dropFront n
  else b.release (b.items.drop (b.items.length - n)).reverse (b.items.take (b.items.length - n))

/-- What the call returns, and what it does. -/
def Buf.next (b : Buf) : Op → Out × Buf
  | .ref => (.unit, { b with refs := b.refs + 1 })
  | .unref => (.unit, if b.refs = 1 then { b.dropFront b.items.length with refs := 0 } else { b with refs := b.refs - 1 })
  | .setFreeFunc f => (.unit, { b with free := f })
  | .maxSize => (.int b.max, b)
  | .setMaxSize n => (.unit, if norm n = b.max then b else { (if norm n < 0 then b else b.dropFront (b.items.length - n.toNat)) with max := norm n })
  | .size => (.int b.items.length, b)
  | .clear => (.unit, b.dropFront b.items.length)
  | .compact => (.unit, { b with cap := b.items.length, short := false })
  | .reserve n =>
    match b.grow n with
    | none => (.bool false, b)
    | some b => (.bool true, b)
  | .canPut n => (.bool (decide (b.max < 0 ∨ b.items.length + n ≤ b.max)), b)
  | .put p =>
    match b.grow (b.items.length + 1) with
    | none => (.bool false, b)
    | some b => (.bool true, { b with items := b.items ++ [p] })
  | .putFront p =>
    match b.grow (b.items.length + 1) with
    | none => (.bool false, b)
    | some b => (.bool true, { b with items := p :: b.items })
  | .get => (.ptr (b.items.head?.getD 0), { b with items := b.items.tail })
  | .getLast => (.ptr (b.items.getLast?.getD 0), { b with items := b.items.dropLast })
  | .drop n => (.int (Min.min b.items.length n.toNat : Nat), b.dropFront n.toNat)
  | .dropLast n => (.int (Min.min b.items.length n.toNat : Nat), b.dropBack n.toNat)
  | .dataAt i => (.ptr (if i < 0 then 0 else (b.items[i.toNat]?).getD 0), b)
  | .flatten => (.block (if b.items = [] then none else some b.items) b.items.length, { b with short := b.short || decide (0 < b.items.length ∧ b.items.length < b.cap) })

/-- If the capacity has to change then it's less than 2^30 and doesn't exceed that after the change. -/
def Buf.Small (b : Buf) (n : Int) : Prop := n ≤ b.cap ∨ (0 ≤ b.max ∧ b.max ≤ b.cap) ∨ (b.cap < 2 ^ 30 ∧ b.more n ≤ 2 ^ 30)

/-- What the caller must respect: the ring is alive; nothing is added after a flatten which may have allocated less than the capacity, until the
memory gets allocated anew by compact or reserve; numbers are not too large. -/
def Buf.Pre (b : Buf) (op : Op) : Prop :=
  0 < b.refs ∧
  match op with
  | .put _ | .putFront _ => b.Small (b.items.length + 1) ∧ b.short = false
  | .reserve n => b.Small n
  | .canPut n => 0 ≤ b.max → -2 ^ 31 ≤ b.items.length + n ∧ b.items.length + n < 2 ^ 31
  | _ => True

/-- A sequence of calls which respects that -/
def Buf.Allowed : Buf → List Op → Prop
  | _, [] => True
  | b, op :: ops => b.Pre op ∧ (b.next op).2.Allowed ops

/-- What the calls return -/
def Buf.outs : Buf → List Op → List Out
  | _, [] => []
  | b, op :: ops => (b.next op).1 :: (b.next op).2.outs ops

/-- ... and do -/
def Buf.final : Buf → List Op → Buf
  | b, [] => b
  | b, op :: ops => (b.next op).2.final ops

instance (b : Buf) (n : Int) : Decidable (b.Small n) := by unfold Buf.Small; infer_instance
instance (b : Buf) (op : Op) : Decidable (b.Pre op) := by cases op <;> unfold Buf.Pre <;> infer_instance
instance instAllowed : (b : Buf) → (ops : List Op) → Decidable (b.Allowed ops)
  | _, [] => isTrue trivial
  | b, op :: ops =>
    have := instAllowed (b.next op).2 ops
    inferInstanceAs (Decidable (_ ∧ _))

end Verif.Ring.Spec
