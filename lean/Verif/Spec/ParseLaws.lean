import Verif.Spec.Parse

/-!
# Strings which stand for the same number (no code from the model)
-/

namespace Verif.Parse.Spec

/-- Upper case, of ASCII letters -/
def upper (c : BitVec 8) : BitVec 8 := if 0x61 ≤ c.toNat ∧ c.toNat ≤ 0x7a then c - 0x20#8 else c

/-- The same string, except for upper and lower case -/
def SameLetters (s t : List (BitVec 8)) : Prop := s.map upper = t.map upper

/-- White space only (without vertical tabs) -/
def AllBlank (s : List (BitVec 8)) : Prop := ∀ c ∈ s, c = 9 ∨ c = 10 ∨ c = 12 ∨ c = 13 ∨ c = 32

/-- What's left of a string without its sign -/
def unsign : List (BitVec 8) → List (BitVec 8)
  | [] => []
  | c :: t => if c = 0x2d ∨ c = 0x2b then t else c :: t

/-- The base which is written in front of the digits: `0x` means hexadecimal, `0` octal, anything else decimal. -/
def writtenBase (s : List (BitVec 8)) : Int :=
  match unsign (trim s) with
  | c :: t => if c = 0x30 then (if t.head? = some 0x58 ∨ t.head? = some 0x78 then 16 else 8) else 10
  | [] => 10

end Verif.Parse.Spec
