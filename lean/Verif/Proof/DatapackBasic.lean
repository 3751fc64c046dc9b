import Verif.Model.Datapack
import Verif.Spec.DatapackRange

namespace Verif.Datapack
open Verif.C Spec

/-! ## Bytes and words -/

theorem byte_cont (b : Byte) : b &&& 0x80#8 ≠ 0#8 ↔ 128 ≤ b.toNat := by
  revert b; decide

theorem byte_nocont (b : Byte) : b &&& 0x80#8 = 0#8 ↔ b.toNat < 128 := by
  revert b; decide

theorem byte_and7f (b : Byte) : (b &&& 0x7f#8).toNat = b.toNat % 128 := by
  revert b; decide

theorem shl_or_toNat (v : BitVec 64) (b : BitVec 64) (hb : b.toNat < 128) :
    ((v <<< 7) ||| b).toNat = (v.toNat * 128 + b.toNat) % 2 ^ 64 := by
  rw [BitVec.toNat_or, BitVec.toNat_shiftLeft]
  have h1 : v.toNat <<< 7 % 2 ^ 64 = ((v.toNat % 2 ^ 57) <<< 7) := by
    simp only [Nat.shiftLeft_eq]; omega
  rw [h1, ← Nat.shiftLeft_add_eq_or_of_lt (by simpa using hb), Nat.shiftLeft_eq]
  omega

theorem setWidth_byte_toNat (b : Byte) : (b.setWidth 64).toNat = b.toNat := by
  simp [BitVec.toNat_setWidth]; omega

theorem val128_append (xs ys : List Byte) :
    val128 (xs ++ ys) = val128 xs * 128 ^ ys.length + val128 ys := by
  induction xs with
  | nil => simp [val128]
  | cons b bs ih =>
    simp only [List.cons_append, val128, ih, List.length_append, Nat.pow_add, Nat.add_mul, Nat.mul_assoc]
    omega

theorem val128_lt (xs : List Byte) : val128 xs < 128 ^ xs.length := by
  induction xs with
  | nil => simp [val128]
  | cons b bs ih =>
    simp only [val128, List.length_cons, Nat.pow_succ]
    have : b.toNat % 128 ≤ 127 := by omega
    have := Nat.mul_le_mul_right (128 ^ bs.length) this
    omega

/-! ## Memory -/

theorem Range.length_bytes {r : Range} (h : r.Valid) :
    (r.bytes.length : Int) = r.fin - r.ptr := by
  obtain ⟨h0, h1, h2⟩ := h
  simp only [bytes, List.length_take, List.length_drop]
  omega

theorem Range.rd_bytes {r : Range} (h : r.Valid) (k : Nat) (b : Byte)
    (hk : r.bytes[k]? = some b) : rd r.mem (r.ptr + k) = .ok b := by
  obtain ⟨h0, h1, h2⟩ := h
  have hlt : k < r.bytes.length := by
    rcases Nat.lt_or_ge k r.bytes.length with h | h
    · exact h
    · rw [List.getElem?_eq_none h] at hk; cases hk
  simp only [bytes, List.length_take, List.length_drop] at hlt
  simp only [bytes, List.getElem?_take, List.getElem?_drop] at hk
  rw [if_pos (by omega)] at hk
  unfold rd
  rw [if_pos (by omega)]
  have : (r.ptr + k).toNat = r.ptr.toNat + k := by omega
  rw [this, hk]

end Verif.Datapack
