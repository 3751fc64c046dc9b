import Verif.C.Basic

/-!
# What MBN and TLV encodings mean

Written from the comments in `/repo/src/gutil_datapack.c` (lines 38-57, 227-238,
356-373) and `/repo/include/gutil_datapack.h`, without reference to the model.
-/

namespace Verif.Datapack.Spec
open Verif.C

/-- The number spelled by the low 7 bits of each byte, most significant byte first. -/
def val128 : List Byte → Nat
  | [] => 0
  | b :: bs => (b.toNat % 128) * 128 ^ bs.length + val128 bs

/-- A frame: bytes with the continuation flag 0x80, then one without it. -/
def IsFrame (f : List Byte) : Prop :=
  ∃ init last, f = init ++ [last] ∧ (∀ b ∈ init, 128 ≤ b.toNat) ∧ last.toNat < 128

/-- An unsigned number which fits in 64 bits, encoded in no more bytes than 64 bits can
    take. -/
def UFrame (f : List Byte) (v : Nat) : Prop :=
  IsFrame f ∧ f.length ≤ 10 ∧ val128 f = v ∧ v < 2 ^ 64

/-- The signed number spelled by the low 7 bits of each byte in two's complement. -/
def sval128 (f : List Byte) : Int :=
  if val128 f < 2 ^ (7 * f.length - 1) then val128 f else val128 f - 2 ^ (7 * f.length)

/-- Fitting in a `7 * n` bit signed number. -/
def Fits (v : Int) (n : Nat) : Prop := -2 ^ (7 * n - 1) ≤ v ∧ v < 2 ^ (7 * n - 1)

/-- A signed number which fits in 64 bits, encoded in no more bytes than 64 bits can
    take. -/
def SFrame (f : List Byte) (v : Int) : Prop :=
  IsFrame f ∧ f.length ≤ 10 ∧ sval128 f = v ∧ -2 ^ 63 ≤ v ∧ v < 2 ^ 63

/-- A frame of 10 bytes whose unused bits agree with each other but not with the sign bit:
    the most significant byte is 0x81 or 0xfe. -/
def Quirk (f : List Byte) : Prop :=
  IsFrame f ∧ f.length = 10 ∧ (f.head? = some 0x81#8 ∨ f.head? = some 0xfe#8)

/-- An encoded TLV with the given tag and value (not necessarily in the shortest form). -/
def IsTlv (bs : List Byte) (tag : Nat) (value : List Byte) : Prop :=
  ∃ t l, UFrame t tag ∧ tag ≤ 2147483647 ∧ UFrame l value.length ∧ bs = t ++ l ++ value

/-- A TLV header (tag and length) with a length of 2^63 or more, which no block of memory
    can have. -/
def HugeHeader (bs : List Byte) : Prop :=
  ∃ t l rest tag len, UFrame t tag ∧ tag ≤ 2147483647 ∧ UFrame l len ∧ 2 ^ 63 ≤ len ∧
    bs = t ++ l ++ rest

/-- A TLV with its tag and value. -/
structure Entry where
  tag : Nat
  value : List Byte

/-- A sequence of encoded TLVs with non-zero tags. -/
inductive IsSeq : List Byte → List Entry → Prop
  | nil : IsSeq [] []
  | cons {b bs : List Byte} {e : Entry} {es : List Entry} :
      IsTlv b e.tag e.value → e.tag ≠ 0 → IsSeq bs es → IsSeq (b ++ bs) (e :: es)

/-- Tag `t` is at the position `i` of the list of tags (the first one if it's there more
    than once) and the position is among the first 31. -/
def TagAt (tags : List Nat) (t : Nat) (i : Nat) : Prop :=
  i < 31 ∧ tags[i]? = some t ∧ ∀ j, j < i → tags[j]? ≠ some t

/-- Tag `t` is expected. -/
def Known (tags : List Nat) (t : Nat) : Prop := ∃ i, TagAt tags t i

/-- None of the entries is offending: unknown tags are allowed, or there aren't any, and
    no known tag occurs twice. -/
def Clean (tags : List Nat) (skipUnknown : Bool) (es : List Entry) : Prop :=
  (skipUnknown = true ∨ ∀ e ∈ es, Known tags e.tag) ∧
  ∀ (i j : Nat) (a b : Entry), i < j → es[i]? = some a → es[j]? = some b → Known tags a.tag → a.tag ≠ b.tag

end Verif.Datapack.Spec
