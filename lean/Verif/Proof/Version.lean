import Verif.Model.Version

namespace Verif.Version

theorem and_lt {a : BitVec 32} {k : Nat} (h : a.toNat < 2 ^ k) (hk : k < 32) : a &&& BitVec.ofNat 32 (2 ^ k - 1) = a := by
  apply BitVec.eq_of_toNat_eq
  have : (2 ^ k - 1) % 2 ^ 32 = 2 ^ k - 1 := by
    apply Nat.mod_eq_of_lt
    have := Nat.pow_lt_pow_right (a := 2) (by omega) hk
    omega
  rw [BitVec.toNat_and, BitVec.toNat_ofNat, this, Nat.and_two_pow_sub_one_eq_mod, Nat.mod_eq_of_lt h]

theorem pack_toNat {a b c : BitVec 32} (ha : a.toNat < 128) (hb : b.toNat < 4096) (hc : c.toNat < 4096) :
    (pack a b c).toNat = a.toNat * 2 ^ 24 + b.toNat * 2 ^ 12 + c.toNat := by
  unfold pack
  have e1 := and_lt (k := 7) ha (by omega)
  have e2 := and_lt (k := 12) hb (by omega)
  have e3 := and_lt (k := 12) hc (by omega)
  have e1' : a &&& 127#32 = a := e1
  have e2' : b &&& 4095#32 = b := e2
  have e3' : c &&& 4095#32 = c := e3
  rw [e1', e2', e3', BitVec.toNat_or, BitVec.toNat_or, BitVec.toNat_shiftLeft, BitVec.toNat_shiftLeft, Nat.shiftLeft_eq, Nat.shiftLeft_eq,
    Nat.mod_eq_of_lt (by omega), Nat.mod_eq_of_lt (by omega)]
  have h1 : a.toNat * 2 ^ 24 ||| b.toNat * 2 ^ 12 = 2 ^ 24 * a.toNat + b.toNat * 2 ^ 12 := by
    rw [Nat.mul_comm (a.toNat)]
    rw [Nat.two_pow_add_eq_or_of_lt (by omega)]
  rw [h1]
  have h2 : 2 ^ 24 * a.toNat + b.toNat * 2 ^ 12 = 2 ^ 12 * (2 ^ 12 * a.toNat + b.toNat) := by omega
  rw [h2, ← Nat.two_pow_add_eq_or_of_lt (by omega)]
  omega

theorem unpack_toNat {v : BitVec 32} :
    (majorOf v).toNat = v.toNat / 2 ^ 24 % 2 ^ 7 ∧ (minorOf v).toNat = v.toNat / 2 ^ 12 % 2 ^ 12 ∧ (microOf v).toNat = v.toNat % 2 ^ 12 := by
  unfold majorOf minorOf microOf
  refine ⟨?_, ?_, ?_⟩
  · rw [BitVec.toNat_and, BitVec.toNat_ushiftRight, Nat.shiftRight_eq_div_pow]
    exact Nat.and_two_pow_sub_one_eq_mod _ 7
  · rw [BitVec.toNat_and, BitVec.toNat_ushiftRight, Nat.shiftRight_eq_div_pow]
    exact Nat.and_two_pow_sub_one_eq_mod _ 12
  · rw [BitVec.toNat_and]
    exact Nat.and_two_pow_sub_one_eq_mod _ 12

end Verif.Version
