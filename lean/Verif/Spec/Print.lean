import Verif.Spec.Parse

/-!
# How numbers are printed (no code from the model)
-/

namespace Verif.Parse.Spec

/-- The digit of a value less than 36. -/
def numeral (upper : Bool) (d : Nat) : BitVec 8 :=
  BitVec.ofNat 8 (if d < 10 then 0x30 + d else if upper then 0x41 + (d - 10) else 0x61 + (d - 10))

/-- The digits of `n` in base `b`, the most significant one first, with no zeros in front of them; zero has one digit. -/
def printed (b : Nat) (upper : Bool) (n : Nat) : List (BitVec 8) :=
  if h : n < b ∨ b < 2 then [numeral upper n] else printed b upper (n / b) ++ [numeral upper (n % b)]
termination_by n
decreasing_by exact Nat.div_lt_self (by omega) (by omega)

/-- The ways of writing a number: the digits in some base, and three kinds of constants of C. -/
inductive Style
  | digits (b : Nat) (upper : Bool)
  | decimal
  | hexadecimal (x : Bool) (upper : Bool)
  | octal
  deriving DecidableEq, Repr

/-- The number written like that. -/
def Style.write : Style → Nat → List (BitVec 8)
  | .digits b upper, n => printed b upper n
  | .decimal, n => printed 10 false n
  | .hexadecimal x upper, n => 0x30 :: (if x then 0x58 else 0x78) :: printed 16 upper n
  | .octal, n => 0x30 :: printed 8 false n

/-- The bases which one should specify in order to read that. -/
def Style.ReadBy : Style → (base : Int) → Prop
  | .digits b _, base => base = b ∧ 2 ≤ b ∧ b ≤ 36
  | .decimal, base => base = 0 ∨ base = 10
  | .hexadecimal _ _, base => base = 0 ∨ base = 16
  | .octal, base => base = 0 ∨ base = 8

/-- Together with the sign; one may write a plus if the number isn't negative. -/
def Style.writeInt (s : Style) (plus : Bool) (v : Int) : List (BitVec 8) :=
  if v < 0 then 0x2d :: s.write v.natAbs else if plus then 0x2b :: s.write v.natAbs else s.write v.natAbs

/-- Nothing but white space -/
def Blank (s : List (BitVec 8)) : Prop := ∀ c ∈ s, Strv.Spec.isSpace c = true

end Verif.Parse.Spec
