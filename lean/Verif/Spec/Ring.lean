/-!
# Specification of the ring buffer (no code from the model)

A ring is a plain list of pointers.  `Step` says what each call returns and how the list
changes; the ring adds nothing observable to it except that, once the capacity exceeds the
maximum size, a call to put may still succeed.
-/

namespace Verif.Ring.Spec

/-- A pointer; 0 is `NULL`. -/
abbrev Ptr := Nat

/-- The calls, without the ring argument.  A free function is identified by a number;
`none` is `NULL`. -/
inductive Op
  | ref
  | unref
  | setFreeFunc (f : Option Nat)
  | maxSize
  | setMaxSize (n : Int)
  | size
  | clear
  | compact
  | reserve (n : Int)
  | canPut (n : Int)
  | put (p : Ptr)
  | putFront (p : Ptr)
  | get
  | getLast
  | drop (n : Int)
  | dropLast (n : Int)
  | dataAt (i : Int)
  | flatten
  deriving DecidableEq, Repr

/-- What a call returns; for flatten it's what the returned pointer points to (`none` being
`NULL`), and the size. -/
inductive Out
  | unit
  | bool (b : Bool)
  | int (n : Int)
  | ptr (p : Ptr)
  | block (b : Option (List Ptr)) (n : Int)
  deriving DecidableEq, Repr

structure Deque where
  items : List Ptr
  /-- negative means unlimited -/
  max : Int
  free : Option Nat
  /-- calls of free functions made so far, the oldest one first -/
  freed : List (Nat × Ptr)
  refs : Nat
  /-- Is it certain that the capacity doesn't exceed the maximum size? -/
  tight : Bool
  /-- flatten has been called after the last compact -/
  flat : Bool
  deriving DecidableEq, Repr

def norm (n : Int) : Int := if n < 0 then -1 else n

/-- A new ring. -/
def Deque.new (reserved max : Int) (free : Option Nat) : Deque :=
  { items := [], max := norm max, free := free, freed := [], refs := 1
    tight := decide (max < 0 ∨ reserved ≤ max), flat := false }

/-- There's no room for one more element. -/
def Deque.full (d : Deque) : Prop := 0 ≤ d.max ∧ d.max ≤ d.items.length

/-- Release `ps`, in this order. -/
def Deque.release (d : Deque) (ps : List Ptr) : List (Nat × Ptr) :=
  match d.free with
  | none => d.freed
  | some f => d.freed ++ ps.map (f, ·)

/-- Release the `n` oldest elements. -/
def Deque.dropFront (d : Deque) (n : Nat) : Deque :=
  { d with items := d.items.drop n, freed := d.release (d.items.take n) }

/-- Release the `n` newest elements: starting with the newest one, unless everything goes. -/
def Deque.dropBack (d : Deque) (n : Nat) : Deque :=
  if d.items.length ≤ n then d.dropFront n else
  { d with items := d.items.take (d.items.length - n)
           freed := d.release (d.items.drop (d.items.length - n)).reverse }

/-- The call `op` may return `o` and turn `d` into `d'`. -/
def Step (d : Deque) (op : Op) (o : Out) (d' : Deque) : Prop :=
  match op with
  | .ref => o = .unit ∧ d' = { d with refs := d.refs + 1 }
  | .unref => o = .unit ∧
      d' = if d.refs = 1 then { d.dropFront d.items.length with refs := 0 }
           else { d with refs := d.refs - 1 }
  | .setFreeFunc f => o = .unit ∧ d' = { d with free := f }
  | .maxSize => o = .int d.max ∧ d' = d
  | .setMaxSize n => o = .unit ∧
      let m := norm n
      d' = { (if 0 ≤ m ∧ m ≠ d.max then d.dropFront (d.items.length - m.toNat) else d) with
              max := m
              tight := d.tight && decide (m < 0 ∨ (0 ≤ d.max ∧ d.max ≤ m)) }
  | .size => o = .int d.items.length ∧ d' = d
  | .clear => o = .unit ∧ d' = d.dropFront d.items.length
  | .compact => o = .unit ∧
      d' = { d with tight := decide (d.max < 0 ∨ d.items.length ≤ d.max), flat := false }
  | .reserve n => ∃ b, o = .bool b ∧ d' = d ∧ (n ≤ d.items.length → b = true) ∧
      (d.max < 0 ∨ n ≤ d.max → b = true)
  | .canPut n => o = .bool (decide (d.max < 0 ∨ d.items.length + n ≤ d.max)) ∧ d' = d
  | .put p =>
      (o = .bool true ∧ d' = { d with items := d.items ++ [p] } ∧ (d.tight → ¬ d.full)) ∨
      (o = .bool false ∧ d' = d ∧ d.full)
  | .putFront p =>
      (o = .bool true ∧ d' = { d with items := p :: d.items } ∧ (d.tight → ¬ d.full)) ∨
      (o = .bool false ∧ d' = d ∧ d.full)
  | .get => o = .ptr (d.items.head?.getD 0) ∧ d' = { d with items := d.items.tail }
  | .getLast => o = .ptr (d.items.getLast?.getD 0) ∧ d' = { d with items := d.items.dropLast }
  | .drop n => o = .int (min d.items.length n.toNat : Nat) ∧ d' = d.dropFront n.toNat
  | .dropLast n => o = .int (min d.items.length n.toNat : Nat) ∧ d' = d.dropBack n.toNat
  | .dataAt i => o = .ptr (if i < 0 then 0 else (d.items[i.toNat]?).getD 0) ∧ d' = d
  | .flatten => o = .block (if d.items = [] then none else some d.items) d.items.length ∧
      d' = { d with flat := true }

/-- What the caller must respect: the ring is alive, sizes are far from the limits of `int`
(2^29 elements), and flatten is followed by compact before anything is added. -/
def Pre (d : Deque) (op : Op) : Prop :=
  0 < d.refs ∧
  match op with
  | .put _ | .putFront _ => d.items.length < 2 ^ 29 ∧ d.flat = false
  | .reserve n => n ≤ 2 ^ 29
  | .canPut n => -2 ^ 30 ≤ n ∧ n < 2 ^ 30
  | _ => True

/-- A sequence of calls which respects that, whatever the calls return. -/
def Allowed : Deque → List Op → Prop
  | _, [] => True
  | d, op :: ops => Pre d op ∧ ∀ o d', Step d op o d' → Allowed d' ops

/-- A history: calls, what they return and what the list becomes. -/
inductive Run : Deque → List Op → List Out → Deque → Prop
  | nil {d} : Run d [] [] d
  | cons {d op o d' ops os d''} : Step d op o d' → Run d' ops os d'' →
      Run d (op :: ops) (o :: os) d''

/-- Elements accepted by `op`, which returned `o`. -/
def stored : Op → Out → List Ptr
  | .put p, .bool true => [p]
  | .putFront p, .bool true => [p]
  | _, _ => []

/-- Elements handed over to the caller by `op`. -/
def taken (d : Deque) : Op → List Ptr
  | .get => d.items.head?.toList
  | .getLast => d.items.getLast?.toList
  | _ => []

/-- A history with the elements stored, and those handed over to the caller. -/
inductive Account : Deque → List Op → List Out → Deque → List Ptr → List Ptr → Prop
  | nil {d} : Account d [] [] d [] []
  | cons {d op o d' ops os d'' st tk} : Step d op o d' → Account d' ops os d'' st tk →
      Account d (op :: ops) (o :: os) d'' (stored op o ++ st) (taken d op ++ tk)

end Verif.Ring.Spec
