import Verif.Spec.Datapack

/-!
# Which encodings are the shortest ones

Without reference to the model.
-/

namespace Verif.Datapack.Spec
open Verif.C

/-- An unsigned number doesn't begin with a zero digit (unless that's the only one). -/
def Short (f : List Byte) : Prop := f.length = 1 ∨ f.head? ≠ some 0x80#8

/-- The first digit of a signed number isn't there only to repeat the sign of the next one. -/
def SShort (f : List Byte) : Prop :=
  (∀ b rest, f = 0x80#8 :: b :: rest → 64 ≤ b.toNat % 128) ∧ (∀ b rest, f = 0xff#8 :: b :: rest → b.toNat % 128 < 64)

/-- A TLV with the shortest tag and length -/
def ShortTlv (bs : List Byte) (tag : Nat) (value : List Byte) : Prop :=
  ∃ t l, UFrame t tag ∧ tag ≤ 2147483647 ∧ UFrame l value.length ∧ Short t ∧ Short l ∧ bs = t ++ l ++ value

/-- A sequence of those, with non-zero tags -/
inductive ShortSeq : List Byte → List Entry → Prop
  | nil : ShortSeq [] []
  | cons {b bs : List Byte} {e : Entry} {es : List Entry} :
      ShortTlv b e.tag e.value → e.tag ≠ 0 → ShortSeq bs es → ShortSeq (b ++ bs) (e :: es)

end Verif.Datapack.Spec
