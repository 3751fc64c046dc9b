import Verif.Proof.Macros

/-!
# Properties of the alignment macros (C78)

For every integer type of at least 4 bits.
-/

namespace Verif.Macros

/-- `r` is the least multiple of `n` which is not less than `x` -/
def LeastMultiple (n x r : Int) : Prop := (∃ k, r = k * n) ∧ x ≤ r ∧ ∀ y, (∃ k, y = k * n) → x ≤ y → r ≤ y

theorem least {n : Int} (hn : 0 < n) (x : Int) : LeastMultiple n x ((x + (n - 1)) / n * n) := by
  have h1 := Int.emod_add_mul_ediv (x + (n - 1)) n
  have h2 := Int.emod_lt_of_pos (x + (n - 1)) hn
  have h3 := Int.emod_nonneg (x + (n - 1)) (by omega : n ≠ 0)
  rw [Int.mul_comm] at h1
  refine ⟨⟨_, rfl⟩, by omega, ?_⟩
  rintro y ⟨k, rfl⟩ hy
  apply Int.mul_le_mul_of_nonneg_right _ (by omega)
  have : (x + (n - 1)) / n < k + 1 := by
    apply Int.ediv_lt_of_lt_mul hn
    rw [Int.add_mul]
    omega
  omega

/-- Unsigned types, if the addition doesn't overflow -/
theorem C78_unsigned {w : Nat} (hw : 4 ≤ w) (x : BitVec w) :
    (x.toNat + 1 < 2 ^ w → LeastMultiple 2 x.toNat (align2 x).toNat) ∧
    (x.toNat + 3 < 2 ^ w → LeastMultiple 4 x.toNat (align4 x).toNat) ∧
    (x.toNat + 7 < 2 ^ w → LeastMultiple 8 x.toNat (align8 x).toNat) := by
  refine ⟨fun h => ?_, fun h => ?_, fun h => ?_⟩
  · have e := align_toNat (k := 1) x (by omega) h
    have e : (align2 x).toNat = (x.toNat + 1) / 2 * 2 := e
    rw [e]
    exact least (n := 2) (by omega) x.toNat
  · have e := align_toNat (k := 2) x (by omega) h
    have e : (align4 x).toNat = (x.toNat + 3) / 4 * 4 := e
    rw [e]
    exact least (n := 4) (by omega) x.toNat
  · have e := align_toNat (k := 3) x (by omega) h
    have e : (align8 x).toNat = (x.toNat + 7) / 8 * 8 := e
    rw [e]
    exact least (n := 8) (by omega) x.toNat

example : align8 4294967281#32 = 4294967288#32 ∧ (4294967281#32).toNat + 7 < 2 ^ 32 := by decide

/-- Signed types, if the addition doesn't overflow -/
theorem C78_signed {w : Nat} (hw : 4 ≤ w) (x : BitVec w) :
    (x.toInt + 1 < 2 ^ (w - 1) → LeastMultiple 2 x.toInt (align2 x).toInt) ∧
    (x.toInt + 3 < 2 ^ (w - 1) → LeastMultiple 4 x.toInt (align4 x).toInt) ∧
    (x.toInt + 7 < 2 ^ (w - 1) → LeastMultiple 8 x.toInt (align8 x).toInt) := by
  refine ⟨fun h => ?_, fun h => ?_, fun h => ?_⟩
  · have e := align_toInt (k := 1) x (by omega) h
    have e : (align2 x).toInt = (x.toInt + 1) / 2 * 2 := e
    rw [e]
    exact least (n := 2) (by omega) x.toInt
  · have e := align_toInt (k := 2) x (by omega) h
    have e : (align4 x).toInt = (x.toInt + 3) / 4 * 4 := e
    rw [e]
    exact least (n := 4) (by omega) x.toInt
  · have e := align_toInt (k := 3) x (by omega) h
    have e : (align8 x).toInt = (x.toInt + 7) / 8 * 8 := e
    rw [e]
    exact least (n := 8) (by omega) x.toInt

example : (align4 (-5 : BitVec 32)).toInt = -4 := by decide

/-- If the addition overflows then the result is zero (unsigned types) -/
theorem C78_overflow {w : Nat} (hw : 4 ≤ w) (x : BitVec w) :
    (2 ^ w ≤ x.toNat + 1 → align2 x = 0) ∧ (2 ^ w ≤ x.toNat + 3 → align4 x = 0) ∧ (2 ^ w ≤ x.toNat + 7 → align8 x = 0) := by
  have hlt := x.isLt
  have h16 : 2 ^ 4 ≤ 2 ^ w := Nat.pow_le_pow_right (by omega) hw
  have key : ∀ k, k ≤ 3 → 2 ^ w ≤ x.toNat + (2 ^ k - 1) →
      (x + BitVec.ofNat w (2 ^ k - 1)) &&& ~~~(BitVec.ofNat w (2 ^ k - 1)) = 0 := by
    intro k hk h
    apply BitVec.eq_of_toNat_eq
    have hk8 : 2 ^ k ≤ 2 ^ 3 := Nat.pow_le_pow_right (by omega) hk
    rw [and_not_toNat _ (by omega), BitVec.toNat_add, BitVec.toNat_ofNat, Nat.add_mod_mod]
    have : (x.toNat + (2 ^ k - 1)) % 2 ^ w = x.toNat + (2 ^ k - 1) - 2 ^ w := by
      rw [Nat.mod_eq_sub_mod h, Nat.mod_eq_of_lt (by omega)]
    rw [this, Nat.div_eq_of_lt (by omega)]
    simp
  exact ⟨key 1 (by omega), key 2 (by omega), key 3 (by omega)⟩

example : align4 4294967293#32 = 0 := by decide

end Verif.Macros
