import Verif.Spec.Strv

/-!
# Numbers written as strings

The usual rules of the C library: an optional sign followed by digits, letters being the digits
from 10 on.  Base 16 allows `0x` in front of the digits; base 0 means that the number says it
itself, `0x` for hexadecimal, `0` for octal, anything else is decimal.
-/

namespace Verif.Parse.Spec

/-- The value of a digit. -/
def digitVal (c : BitVec 8) : Option Nat :=
  if 0x30 ≤ c.toNat ∧ c.toNat ≤ 0x39 then some (c.toNat - 0x30)
  else if 0x41 ≤ c.toNat ∧ c.toNat ≤ 0x5a then some (c.toNat - 0x41 + 10)
  else if 0x61 ≤ c.toNat ∧ c.toNat ≤ 0x7a then some (c.toNat - 0x61 + 10)
  else none

/-- A digit in base `b`. -/
def IsDigit (b : Nat) (c : BitVec 8) : Prop := ∃ d, digitVal c = some d ∧ d < b

/-- The number which the digits stand for, the first one is the most significant. -/
def value (b : Nat) (ds : List (BitVec 8)) : Nat := ds.foldl (fun v c => v * b + (digitVal c).getD 0) 0

/-- What follows the sign is `ds` in base `b`. -/
inductive Radix : (base : Int) → (s : List (BitVec 8)) → (b : Nat) → (ds : List (BitVec 8)) → Prop
  | given (base : Nat) (s : List (BitVec 8)) : 2 ≤ base → base ≤ 36 → Radix base s base s
  | hex (base : Int) (x : BitVec 8) (ds : List (BitVec 8)) : base = 0 ∨ base = 16 → x = 0x58 ∨ x = 0x78 → Radix base (0x30 :: x :: ds) 16 ds
  | octal (t : List (BitVec 8)) : Radix 0 (0x30 :: t) 8 (0x30 :: t)
  | decimal (s : List (BitVec 8)) : s.head? ≠ some 0x30 → Radix 0 s 10 s

/-- A non-empty string of digits with the value `n` -/
def Unsigned (base : Int) (s : List (BitVec 8)) (n : Nat) : Prop :=
  ∃ b ds, Radix base s b ds ∧ ds ≠ [] ∧ (∀ c ∈ ds, IsDigit b c) ∧ n = value b ds

/-- `s` is the number `v`, with or without a sign. -/
def Number (base : Int) (s : List (BitVec 8)) (v : Int) : Prop :=
  ∃ t n, Unsigned base t n ∧ ((s = t ∧ v = n) ∨ (s = 0x2b :: t ∧ v = n) ∨ (s = 0x2d :: t ∧ v = -n))

/-- `s` is the number `n`, and there is no minus in front of it. -/
def Positive (base : Int) (s : List (BitVec 8)) (n : Nat) : Prop :=
  Unsigned base s n ∨ ∃ t, s = 0x2b :: t ∧ Unsigned base t n

/-- What's left of a string without white space at both ends and without vertical tabs (possibly followed
by more of white space) in front of the rest -/
def trim (s : List (BitVec 8)) : List (BitVec 8) := (Strv.Spec.strip s).dropWhile (fun c => Strv.Spec.isSpace c || c == 11)

/-- The bases which are allowed -/
def ValidBase (base : Int) : Prop := base = 0 ∨ (2 ≤ base ∧ base ≤ 36)

end Verif.Parse.Spec
