import Verif.Model.Macros

namespace Verif.Macros

/-- Clearing `k` lower bits -/
theorem and_not_toNat {w k : Nat} (x : BitVec w) (hk : k ≤ w) :
    (x &&& ~~~(BitVec.ofNat w (2 ^ k - 1))).toNat = x.toNat / 2 ^ k * 2 ^ k := by
  have e : x &&& ~~~(BitVec.ofNat w (2 ^ k - 1)) = (x >>> k) <<< k := by
    apply BitVec.eq_of_getLsbD_eq
    intro i hi
    simp only [BitVec.getLsbD_and, BitVec.getLsbD_not, BitVec.getLsbD_ofNat, BitVec.getLsbD_shiftLeft, BitVec.getLsbD_ushiftRight,
      Nat.testBit_two_pow_sub_one, hi, decide_true, Bool.true_and]
    by_cases h : i < k
    · simp [h]
    · simp [h, Nat.add_sub_cancel' (Nat.le_of_not_lt h)]
  rw [e, BitVec.toNat_shiftLeft, BitVec.toNat_ushiftRight, Nat.shiftLeft_eq, Nat.shiftRight_eq_div_pow]
  apply Nat.mod_eq_of_lt
  exact Nat.lt_of_le_of_lt (Nat.div_mul_le_self _ _) x.isLt

theorem align_toNat {w k : Nat} (x : BitVec w) (hk : k ≤ w) (h : x.toNat + (2 ^ k - 1) < 2 ^ w) :
    ((x + BitVec.ofNat w (2 ^ k - 1)) &&& ~~~(BitVec.ofNat w (2 ^ k - 1))).toNat = (x.toNat + (2 ^ k - 1)) / 2 ^ k * 2 ^ k := by
  rw [and_not_toNat _ hk, BitVec.toNat_add, BitVec.toNat_ofNat, Nat.add_mod_mod, Nat.mod_eq_of_lt h]

theorem and_not_toInt {w k : Nat} (x : BitVec w) (hk : k < w) :
    (x &&& ~~~(BitVec.ofNat w (2 ^ k - 1))).toInt = x.toInt / 2 ^ k * 2 ^ k := by
  have e1 := and_not_toNat x (Nat.le_of_lt hk)
  have hp : (2 : Nat) ^ w = 2 ^ (w - 1) * 2 := by
    rw [← Nat.pow_succ]
    congr 1
    omega
  have hq : (2 : Nat) ^ (w - 1) = 2 ^ k * 2 ^ (w - 1 - k) := by
    rw [← Nat.pow_add]
    congr 1
    omega
  have hlt := x.isLt
  generalize hm : (2 : Nat) ^ (w - 1 - k) = m at hq
  have hpos : 0 < 2 ^ k := Nat.two_pow_pos k
  rw [BitVec.toInt_eq_toNat_cond, BitVec.toInt_eq_toNat_cond, e1]
  have hd : x.toNat / 2 ^ k * 2 ^ k ≤ x.toNat := Nat.div_mul_le_self _ _
  have hc : 2 * (x.toNat / 2 ^ k * 2 ^ k) < 2 ^ w ↔ 2 * x.toNat < 2 ^ w := by
    rw [hp]
    constructor
    · intro h
      have : x.toNat / 2 ^ k * 2 ^ k < m * 2 ^ k := by rw [Nat.mul_comm m, ← hq]; omega
      have := Nat.lt_of_mul_lt_mul_right this
      have := (Nat.div_lt_iff_lt_mul hpos).1 this
      rw [Nat.mul_comm m, ← hq] at this
      omega
    · intro h; omega
  have hz : ((2 : Int) ^ k) = ((2 ^ k : Nat) : Int) := by simp
  by_cases h : 2 * x.toNat < 2 ^ w
  · rw [if_pos h, if_pos (hc.2 h), hz]
    simp
  · rw [if_neg h, if_neg (fun h' => h (hc.1 h')), hz]
    have hw : ((2 ^ w : Nat) : Int) = (m * 2 : Nat) * ((2 ^ k : Nat) : Int) := by
      rw [← Int.natCast_mul]
      congr 1
      rw [hp, hq]
      simp [Nat.mul_comm, Nat.mul_assoc, Nat.mul_left_comm]
    have hpz : ((2 ^ k : Nat) : Int) ≠ 0 := by omega
    have e2 : (x.toNat : Int) - ((2 ^ w : Nat) : Int) = x.toNat + (-((m * 2 : Nat) : Int)) * ((2 ^ k : Nat) : Int) := by
      rw [hw, Int.neg_mul]
      omega
    rw [e2, Int.add_mul_ediv_right _ _ hpz, Int.add_mul, hw, Int.natCast_mul, Int.natCast_ediv, Int.neg_mul]
    omega

theorem align_toInt {w k : Nat} (x : BitVec w) (hk : k < w) (h : x.toInt + (2 ^ k - 1) < 2 ^ (w - 1)) :
    ((x + BitVec.ofNat w (2 ^ k - 1)) &&& ~~~(BitVec.ofNat w (2 ^ k - 1))).toInt = (x.toInt + (2 ^ k - 1)) / 2 ^ k * 2 ^ k := by
  rw [and_not_toInt _ hk]
  have : (x + BitVec.ofNat w (2 ^ k - 1)).toInt = x.toInt + (2 ^ k - 1) := by
    rw [BitVec.toInt_add, BitVec.toInt_eq_toNat_bmod (BitVec.ofNat w (2 ^ k - 1)), BitVec.toNat_ofNat]
    have h1 := BitVec.le_toInt x
    have hpos : 0 < 2 ^ k := Nat.two_pow_pos k
    have hz : ((2 : Int) ^ k) = ((2 ^ k : Nat) : Int) := by simp
    have hy : ((2 : Int) ^ (w - 1)) = ((2 ^ (w - 1) : Nat) : Int) := by simp
    have hle : (2 : Nat) ^ k ≤ 2 ^ (w - 1) := Nat.pow_le_pow_right (by omega) (by omega)
    have hp : (2 : Nat) ^ w = 2 ^ (w - 1) * 2 := by
      rw [← Nat.pow_succ]
      congr 1
      omega
    rw [hz, hy] at h
    rw [hy] at h1
    rw [Nat.mod_eq_of_lt (by omega), hz, Int.add_bmod_bmod]
    rw [Int.bmod_eq_of_le (by omega) (by omega)]
    omega
  rw [this]

end Verif.Macros
