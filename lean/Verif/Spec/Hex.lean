/-!
# Hexadecimal numbers, and the format of a hex dump
-/

namespace Verif.Misc.Spec

/-- The value of a hexadecimal digit. -/
def digitVal (c : BitVec 8) : Option Nat :=
  if 0x30 ≤ c.toNat ∧ c.toNat ≤ 0x39 then some (c.toNat - 0x30)
  else if 0x41 ≤ c.toNat ∧ c.toNat ≤ 0x46 then some (c.toNat - 0x41 + 10)
  else if 0x61 ≤ c.toNat ∧ c.toNat ≤ 0x66 then some (c.toNat - 0x61 + 10)
  else none

/-- The digit of a value less than 16. -/
def digit (upper : Bool) (n : Nat) : BitVec 8 :=
  if n < 10 then BitVec.ofNat 8 (0x30 + n)
  else if upper then BitVec.ofNat 8 (0x41 + (n - 10)) else BitVec.ofNat 8 (0x61 + (n - 10))

/-- Two digits for each byte. -/
def toHex (upper : Bool) (data : List (BitVec 8)) : List (BitVec 8) :=
  data.flatMap (fun b => [digit upper (b.toNat / 16), digit upper (b.toNat % 16)])

/-- The bytes written as pairs of digits. -/
def fromHex : List (BitVec 8) → Option (List (BitVec 8))
  | [] => some []
  | a :: b :: t =>
    match digitVal a, digitVal b, fromHex t with
    | some x, some y, some r => some (BitVec.ofNat 8 (16 * x + y) :: r)
    | _, _, _ => none
  | [_] => none

/-- Where the digits of byte `i` are in a line of a hex dump: there's a gap in the middle. -/
def hexColumn (i : Nat) : Nat := 3 * i + (if i < 8 then 0 else 1)

/-- Where its character is. -/
def textColumn (i : Nat) : Nat := 52 + i + (if i < 8 then 0 else 1)

/-- A line of a hex dump of at most 16 bytes: the digits and characters are in their columns
and everything else is blank. -/
structure Line (printable : BitVec 8 → Bool) (data line : List (BitVec 8)) : Prop where
  length : line.length = 52 + data.length + (if data.length ≤ 8 then 0 else 1)
  digit1 : ∀ (i : Nat) (b : BitVec 8), data[i]? = some b → line[hexColumn i]? = some (digit false (b.toNat / 16))
  digit2 : ∀ (i : Nat) (b : BitVec 8), data[i]? = some b → line[hexColumn i + 1]? = some (digit false (b.toNat % 16))
  text : ∀ (i : Nat) (b : BitVec 8), data[i]? = some b →
    line[textColumn i]? = some (if printable b then b else 0x2e)
  blank : ∀ j : Nat, j < line.length →
    (∀ i, i < data.length → j ≠ hexColumn i ∧ j ≠ hexColumn i + 1 ∧ j ≠ textColumn i) → line[j]? = some 0x20

end Verif.Misc.Spec
