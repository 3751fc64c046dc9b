import Verif.Model.Datapack
import Verif.Spec.DatapackRange

/-!
# The unit tests of the project, run by the model: `/repo/test/test_datapack/test_datapack.c`

These are tests of the model and not properties of the code, see `Verif.Check.Ring`.
They're run in the mode `.wrap`: that's how the compiled code behaves where the C standard leaves the shift of a negative number and the address of something far outside of the buffer undefined.
-/

namespace Verif.Check.Datapack
open Verif.C Verif.Datapack

/-- Lines 39-46 -/
def unsignedData : List (BitVec 64 × List Byte) := [
  (0, [0x00]), (64, [0x40]), (127, [0x7f]), (128, [0x81, 0x00]), (257, [0x82, 0x01]), (383, [0x82, 0x7f]), (16383, [0xff, 0x7f]),
  (0xffffffffffffffff, [0x81, 0xff, 0xff, 0xff, 0xff, 0xff, 0xff, 0xff, 0xff, 0x7f])]

/-- Lines 48-70 -/
def signedData : List (Int × List Byte) := [
  (0, [0x00]), (33, [0x21]), (-33, [0x5f]), (65, [0x80, 0x41]), (-65, [0xff, 0x3f]), (127, [0x80, 0x7f]), (128, [0x81, 0x00]), (129, [0x81, 0x01]),
  (-129, [0xfe, 0x7f]), (257, [0x82, 0x01]), (383, [0x82, 0x7f]), (16383, [0x80, 0xff, 0x7f]), (-16383, [0xff, 0x80, 0x01]),
  (-9223372036854775808, [0xff, 0x80, 0x80, 0x80, 0x80, 0x80, 0x80, 0x80, 0x80, 0x00]),
  (9223372036854775807, [0x80, 0xff, 0xff, 0xff, 0xff, 0xff, 0xff, 0xff, 0xff, 0x7f])]

/-- Lines 77-81 -/
def short : List Byte := [0x80]
def tooLong : List Byte := [0x80, 0x81, 0x82, 0x83, 0x84, 0x85, 0x86, 0x87, 0x88, 0x89, 0x8a, 0x8b, 0x8c, 0x8d, 0x8e, 0x8f]

/-- Lines 249-256, 502-505 -/
def positiveSignExt : List Byte := [0x8f, 0xff, 0xff, 0xff, 0xff, 0xff, 0xff, 0xff, 0xff, 0x7f]
def negativeSignExt : List Byte := [0xf1, 0x80, 0x80, 0x80, 0x80, 0x80, 0x80, 0x80, 0x80, 0x00]
def extraBits : List Byte := [0xff, 0xff, 0xff, 0xff, 0xff, 0xff, 0xff, 0xff, 0xff, 0x7f]

/-- A buffer filled with `0xaa` -/
def room (n : Nat) : List Byte := List.replicate n 0xaa

/-- `test_mbn_corner_cases`, lines 87-95 -/
example : signedEncode2 (room 1) 0 0 = .ok (room 1, 0) ∧ unsignedEncode2 (room 1) 0 0 = .ok (room 1, 0) := by decide +kernel

/-- `test_signed_mbn_size`, lines 132-140, and `test_signed_mbn_encode`, lines 180-194 -/
example : (signedData.all fun (v, bs) => decide (signedSize v = bs.length) && decide (signedEncode (room bs.length) v = .ok (bs, bs.length))) = true := by
  decide +kernel

/-- `test_signed_mbn_decode_ok`, lines 234-252 -/
example : (signedData.all fun (v, bs) =>
    decide (signedDecode .wrap false (Range.whole bs) = .ok ⟨true, ⟨bs, bs.length, bs.length⟩, none⟩) &&
    decide (signedDecode .wrap true (Range.whole bs) = .ok ⟨true, ⟨bs, bs.length, bs.length⟩, some v⟩)) = true := by decide +kernel

/-- The decoder fails, and the range stays where it was. -/
def signedFails (wantOut : Bool) (bs : List Byte) : Bool :=
  match signedDecode .wrap wantOut (Range.whole bs) with
  | .ok d => !d.ret && decide (d.range = Range.whole bs)
  | .error _ => false

/-- `test_signed_mbn_decode_fail`, lines 284-299 -/
example : ([[], short, tooLong, positiveSignExt, negativeSignExt].all fun bs => signedFails true bs && signedFails false bs) = true := by decide +kernel

/-- The returned value -/
def ret {α : Type} : M (Bool × α) → Option Bool
  | .ok (b, _) => some b
  | .error _ => none

/-- `test_signed_mbn_decode2`, lines 305-333 -/
example : ([none, some [0x12, 0x34], some [], some short].all fun d =>
      decide (ret (signedDecode2 .wrap false d) = some false) && decide (ret (signedDecode2 .wrap true d) = some false)) = true ∧
    ret (signedDecode2 .wrap false (some [0x00])) = some true ∧ signedDecode2 .wrap true (some [0x00]) = .ok (true, some 0) := by decide +kernel

/-- `test_unsigned_mbn_size`, lines 361-369, and `test_unsigned_mbn_encode`, lines 398-412 -/
example : (unsignedData.all fun (v, bs) => decide (unsignedSize v = bs.length) && decide (unsignedEncode (room bs.length) v = .ok (bs, bs.length))) = true := by
  decide +kernel

/-- `test_unsigned_mbn_decode_ok`, lines 441-459 -/
example : (unsignedData.all fun (v, bs) =>
    decide (unsignedDecode false (Range.whole bs) = .ok ⟨true, ⟨bs, bs.length, bs.length⟩, none⟩) &&
    decide (unsignedDecode true (Range.whole bs) = .ok ⟨true, ⟨bs, bs.length, bs.length⟩, some v⟩)) = true := by decide +kernel

/-- The decoder fails, and the range stays where it was. -/
def unsignedFails (wantOut : Bool) (bs : List Byte) : Bool :=
  match unsignedDecode wantOut (Range.whole bs) with
  | .ok d => !d.ret && decide (d.range = Range.whole bs)
  | .error _ => false

/-- `test_unsigned_mbn_decode_fail`, lines 485-500 -/
example : ([[], short, tooLong, extraBits].all fun bs => unsignedFails true bs && unsignedFails false bs) = true := by decide +kernel

/-- `test_unsigned_mbn_decode2`, lines 506-535 -/
example : ([none, some [0x12, 0x34], some [], some short].all fun d =>
      decide (ret (unsignedDecode2 false d) = some false) && decide (ret (unsignedDecode2 true d) = some false)) = true ∧
    ret (unsignedDecode2 false (some [0x00])) = some true ∧ unsignedDecode2 true (some [0x00]) = .ok (true, some 0) := by decide +kernel

/-- `test_tlv_corner_cases`, lines 541-551 -/
example : tlvEncode (room 2) 3 none = .ok ([3, 0], 2) := by decide +kernel

/-- `test_tlv_size`, lines 574-582 -/
example : tlvSize 1 0 = 2 ∧ tlvSize 1 1 = 3 ∧ tlvSize 128 1 = 4 ∧ tlvSize 128 127 = 130 ∧ tlvSize 128 129 = 133 := by decide +kernel

/-- `test_tlv_encode`, lines 613-626 -/
example : tlvSize 1 0 = 2 ∧ tlvEncode (room 2) 1 (some []) = .ok ([0x01, 0x00], 2) ∧
    tlvSize 1 3 = 5 ∧ tlvEncode (room 5) 1 (some [0x01, 0x02, 0x03]) = .ok ([0x01, 0x03, 0x01, 0x02, 0x03], 5) := by decide +kernel

/-- `test_tlv_decode_ok`, lines 644-664 -/
example : tlvDecode .wrap (Range.whole [0x01, 0x00]) = .ok ⟨1, ⟨[0x01, 0x00], 2, 2⟩, some ⟨2, 0⟩⟩ ∧
    tlvDecode .wrap (Range.whole [0x01, 0x03, 0x01, 0x02, 0x03]) = .ok ⟨1, ⟨[0x01, 0x03, 0x01, 0x02, 0x03], 5, 5⟩, some ⟨2, 3⟩⟩ ∧
    Val.bytes ⟨2, 3⟩ [0x01, 0x03, 0x01, 0x02, 0x03] = [0x01, 0x02, 0x03] := by decide +kernel

/-- `test_tlv_decode_fail`, lines 690-706 -/
example : ([[], [0x81, 0xff, 0xff, 0xff, 0xff, 0xff, 0xff, 0xff, 0x7f, 0x00], [0x01, 0xff], [0x01, 0x02, 0x00]].all fun (bs : List Byte) =>
    match tlvDecode .wrap (Range.whole bs) with
    | .ok d => decide (d.tag = 0) && decide (d.range = Range.whole bs)
    | .error _ => false) = true := by decide +kernel

/-- What the decoder of the sequence returns, and the values -/
def tlvs (input : List Byte) (tags : List Nat) (vals : Bool) (skipUnknown : Bool) : Option (Int × Option (List (Option (List Byte)))) :=
  match tlvsDecode .wrap 100 input tags (if vals then some (List.replicate (tags.length - 1) (some ⟨0xaa, 0xaa⟩)) else none) skipUnknown with
  | .ok (some (r, vals)) => some (r, vals.map fun l => l.map fun v => v.map fun v => v.bytes input)
  | _ => none

/-- Both calls of the test return that. -/
def tlvsReturn (input : List Byte) (tags : List Nat) (skipUnknown : Bool) (r : Int) : Bool :=
  decide ((tlvs input tags false skipUnknown).map (·.1) = some r) && decide ((tlvs input tags true skipUnknown).map (·.1) = some r)

/-- `test_tlvs_decode`, lines 793-832 -/
example : tlvsReturn [] [1, 0] false 0 = true ∧
    tlvsReturn [0x01, 0x02, 0x03, 0x04, 0x01, 0x00] [1, 0] false DUPLICATE_TAG = true ∧
    tlvsReturn [0x02, 0x03, 0x04, 0x05, 0x06, 0x7f, 0x00] [1, 2, 0] false UNKNOWN_TAG = true ∧
    tlvsReturn [0x02, 0x03, 0x04, 0x05, 0x06, 0x7f, 0x00] [1, 2, 0] true 2 = true ∧
    tlvsReturn [0x7f, 0x00] [1, 2, 0] true 0 = true ∧
    tlvsReturn [0x01, 0x02, 0x03, 0x04, 0x05] [1, 0] false DECODE_ERROR = true := by decide +kernel

example : (tlvs [0x02, 0x03, 0x04, 0x05, 0x06, 0x7f, 0x00] [1, 2, 0] true true).map (·.2) = some (some [none, some [0x04, 0x05, 0x06]]) := by decide +kernel

/-- The case `unknown_tag/fail/1` has 70 tags; the array of the test isn't terminated by zero (lines 724-732), which the first of those calls doesn't notice and the second one does. -/
example : (tlvs [0x02, 0x03, 0x04, 0x05, 0x06, 0x7f, 0x00] (List.range' 1 70) false false).map (·.1) = some UNKNOWN_TAG ∧
    (tlvs [0x02, 0x03, 0x04, 0x05, 0x06, 0x7f, 0x00] (List.range' 1 70) true false).isNone = true ∧
    tlvsReturn [0x02, 0x03, 0x04, 0x05, 0x06, 0x7f, 0x00] (List.range' 1 70 ++ [0]) false UNKNOWN_TAG = true := by decide +kernel

end Verif.Check.Datapack
