import Verif.C.Basic

namespace Verif.C

theorem chk32_ok {x : Int} (h1 : -2147483648 ≤ x) (h2 : x ≤ 2147483647) : chk32 x = .ok x := by
  simp [chk32, intMin, intMax, h1, h2]

theorem cMod_ok {a b : Int} (ha : 0 ≤ a) (hab : a < 2 * b) :
    cMod a b = .ok (if a < b then a else a - b) := by
  have hb : b ≠ 0 := by omega
  simp only [cMod, hb, if_false]
  rw [Int.tmod_eq_emod_of_nonneg ha]
  congr 1
  split
  · exact Int.emod_eq_of_lt ha (by omega)
  · rw [← Int.sub_emod_right, Int.emod_eq_of_lt (by omega) (by omega)]

theorem rd_ok {α : Type} {l : List α} {i : Int} {x : α} (h0 : 0 ≤ i) (h : l[i.toNat]? = some x) :
    rd l i = .ok x := by
  simp [rd, h0, h]

theorem chk64_ok {x : Int} (h1 : int64Min ≤ x) (h2 : x ≤ int64Max) : chk64 x = .ok x := by
  simp [chk64, h1, h2]

theorem toInt32_ok {x : Int} (h1 : -2147483648 ≤ x) (h2 : x ≤ 2147483647) : toInt32 x = x := by
  rw [toInt32, BitVec.toInt_ofInt]
  apply Int.bmod_eq_of_le <;> omega

theorem toInt64_ok {x : Int} (h1 : int64Min ≤ x) (h2 : x ≤ int64Max) : toInt64 x = x := by
  rw [toInt64, BitVec.toInt_ofInt]
  unfold int64Min at h1
  unfold int64Max at h2
  apply Int.bmod_eq_of_le <;> omega

theorem toInt32_range (x : Int) : -2147483648 ≤ toInt32 x ∧ toInt32 x ≤ 2147483647 := by
  have h1 := BitVec.le_toInt (BitVec.ofInt 32 x)
  have h2 := BitVec.toInt_lt (x := BitVec.ofInt 32 x)
  unfold toInt32
  constructor <;> omega

theorem arith32_ok {x : Int} (mode : Mode) (h1 : -2147483648 ≤ x) (h2 : x ≤ 2147483647) :
    arith32 mode x = .ok x := by
  cases mode with
  | strict => exact chk32_ok h1 h2
  | wrap => rw [arith32, toInt32_ok h1 h2]

theorem arith64_ok {x : Int} (mode : Mode) (h1 : int64Min ≤ x) (h2 : x ≤ int64Max) :
    arith64 mode x = .ok x := by
  cases mode with
  | strict => exact chk64_ok h1 h2
  | wrap => rw [arith64, toInt64_ok h1 h2]

theorem wr_ok {α : Type} {l : List α} {i : Nat} (x : α) (h : i < l.length) :
    wr l i x = .ok (l.set i x) := by
  simp [wr, h]

/-- Index of the `i`-th element of a ring of `a` slots starting at `s`. -/
def idx (s a : Int) (i : Nat) : Nat := (if s + i < a then s + i else s + i - a).toNat

theorem idx_nat {s a : Int} {i : Nat} (h : 0 ≤ s) (_ : s < a) (_ : (i : Int) ≤ a) :
    ((idx s a i : Nat) : Int) = if s + i < a then s + i else s + i - a := by
  unfold idx
  split <;> omega

end Verif.C
