import Verif.Proof.DatapackDecode

namespace Verif.Datapack
open Verif.C Spec

/-! ## Sizes -/

theorem shiftRight7_toNat (v : BitVec 64) : (v >>> 7).toNat = v.toNat / 128 := by
  simp [BitVec.toNat_ushiftRight, Nat.shiftRight_eq_div_pow]

theorem unsignedSizeLoop_spec (v : BitVec 64) (n : Nat) : ∃ k, unsignedSizeLoop v n = n + k ∧
    v.toNat < 128 ^ k ∧ (∀ m, v.toNat < 128 ^ m → k ≤ m) := by
  fun_induction unsignedSizeLoop v n with
  | case1 n => exact ⟨0, rfl, by simp, by simp⟩
  | case2 v n h ih =>
    obtain ⟨k, h1, h2, h3⟩ := ih
    have hv : v.toNat ≠ 0 := fun h0 => h (BitVec.eq_of_toNat_eq (by simpa using h0))
    rw [shiftRight7_toNat] at h2 h3
    refine ⟨k + 1, by omega, by rw [Nat.pow_succ]; omega, ?_⟩
    intro m hm
    cases m with
    | zero => simp at hm; omega
    | succ m =>
      have := h3 m (by rw [Nat.pow_succ] at hm; omega)
      omega

theorem unsignedSize_spec (v : BitVec 64) : 1 ≤ unsignedSize v ∧ v.toNat < 128 ^ unsignedSize v ∧
    (∀ m, 1 ≤ m → v.toNat < 128 ^ m → unsignedSize v ≤ m) := by
  obtain ⟨k, h1, h2, h3⟩ := unsignedSizeLoop_spec (v >>> 7) 1
  rw [shiftRight7_toNat] at h2 h3
  rw [unsignedSize, h1]
  refine ⟨by omega, by rw [Nat.add_comm, Nat.pow_succ]; omega, ?_⟩
  intro m hm hlt
  obtain ⟨m, rfl⟩ : ∃ m', m = m' + 1 := ⟨m - 1, by omega⟩
  have := h3 m (by rw [Nat.pow_succ] at hlt; omega)
  omega

theorem unsignedSize_le (v : BitVec 64) : unsignedSize v ≤ 10 :=
  (unsignedSize_spec v).2.2 10 (by omega) (by have := v.isLt; omega)

/-! ## Unsigned encoder -/

theorem drop_set_self {α : Type} (l : List α) (n : Nat) (x : α) (h : n < l.length) :
    (l.set n x).drop n = x :: l.drop (n + 1) := by
  rw [List.drop_set, if_neg (by omega), Nat.sub_self, List.drop_eq_getElem_cons h, List.set_cons_zero]

theorem wr_ok {α : Type} {l : List α} {n : Nat} (x : α) (h : n < l.length) :
    wr l n x = .ok (l.set n x) := by
  simp [wr, h]

theorem or80 (v : BitVec 64) : 128 ≤ ((v ||| 0x80#64).setWidth 8).toNat ∧
    ((v ||| 0x80#64).setWidth 8).toNat % 128 = v.toNat % 128 := by
  have : ((v ||| 0x80#64).setWidth 8) = (v.setWidth 8) ||| 0x80#8 := by
    rw [BitVec.setWidth_or]; rfl
  rw [this]
  have h : ∀ b : Byte, 128 ≤ (b ||| 0x80#8).toNat ∧ (b ||| 0x80#8).toNat % 128 = b.toNat % 128 := by
    decide
  refine ⟨(h _).1, ?_⟩
  rw [(h _).2, BitVec.toNat_setWidth]
  omega

theorem and7f (v : BitVec 64) : ((v &&& 0x7f#64).setWidth 8).toNat = v.toNat % 128 := by
  have : ((v &&& 0x7f#64).setWidth 8) = (v.setWidth 8) &&& 0x7f#8 := by
    rw [BitVec.setWidth_and]; rfl
  rw [this, byte_and7f, BitVec.toNat_setWidth]
  omega

theorem mod_pow_succ' (a n : Nat) : a % 128 ^ (n + 1) = (a / 128 % 128 ^ n) * 128 + a % 128 := by
  rw [Nat.pow_succ, Nat.mul_comm, Nat.mod_mul]
  omega

theorem unsignedEncodeLoop_spec (n : Nat) : ∀ (buf : List Byte) (v : BitVec 64), n ≤ buf.length →
    ∃ f, f.length = n ∧ (∀ b ∈ f, 128 ≤ b.toNat) ∧ val128 f = v.toNat % 128 ^ n ∧
      unsignedEncodeLoop buf v n = .ok (f ++ buf.drop n) := by
  induction n with
  | zero => intro buf v _; exact ⟨[], rfl, by simp, by simp [val128, Nat.mod_one], rfl⟩
  | succ n ih =>
    intro buf v hn
    obtain ⟨f, h1, h2, h3, h4⟩ := ih (buf.set n ((v ||| 0x80#64).setWidth 8)) (v >>> 7) (by simp; omega)
    obtain ⟨o1, o2⟩ := or80 v
    refine ⟨f ++ [(v ||| 0x80#64).setWidth 8], by simp [h1], ?_, ?_, ?_⟩
    · intro b hb
      rcases List.mem_append.1 hb with h | h
      · exact h2 b h
      · rw [List.mem_singleton.1 h]; exact o1
    · rw [val128_append, h3, mod_pow_succ', shiftRight7_toNat]
      simp only [List.length_singleton, val128, o2, List.length_nil]
      omega
    · rw [unsignedEncodeLoop, wr_ok _ (by omega)]
      simp only [bind, Except.bind, h4, drop_set_self _ _ _ (show n < buf.length by omega)]
      simp

theorem unsignedEncode2_spec (buf : List Byte) (v : BitVec 64) (size : Nat) (h1 : 1 ≤ size)
    (h2 : size ≤ buf.length) :
    ∃ f, f.length = size ∧ IsFrame f ∧ val128 f = v.toNat % 128 ^ size ∧
      unsignedEncode2 buf v size = .ok (f ++ buf.drop size, size) := by
  obtain ⟨n, rfl⟩ : ∃ m', size = m' + 1 := ⟨size - 1, by omega⟩
  obtain ⟨f, g1, g2, g3, g4⟩ := unsignedEncodeLoop_spec n
    (buf.set n ((v &&& 0x7f#64).setWidth 8)) (v >>> 7) (by simp; omega)
  have o := and7f v
  refine ⟨f ++ [(v &&& 0x7f#64).setWidth 8], by simp [g1], ⟨f, _, rfl, g2, by omega⟩, ?_, ?_⟩
  · rw [val128_append, g3, mod_pow_succ', shiftRight7_toNat]
    simp only [List.length_singleton, val128, o, List.length_nil]
    omega
  · rw [unsignedEncode2]
    simp only [wr_ok _ (show n < buf.length by omega), bind, Except.bind, g4,
      drop_set_self _ _ _ (show n < buf.length by omega)]
    simp

theorem unsignedEncode2_overflow (buf : List Byte) (v : BitVec 64) (size : Nat)
    (h2 : buf.length < size) : unsignedEncode2 buf v size = .error .oobWrite := by
  obtain ⟨n, rfl⟩ : ∃ m', size = m' + 1 := ⟨size - 1, by omega⟩
  simp only [unsignedEncode2, wr, show ¬ n < buf.length by omega, if_false, bind, Except.bind]

theorem unsignedEncode_spec (buf : List Byte) (v : BitVec 64) (h : unsignedSize v ≤ buf.length) :
    ∃ f, f.length = unsignedSize v ∧ UFrame f v.toNat ∧
      unsignedEncode buf v = .ok (f ++ buf.drop (unsignedSize v), unsignedSize v) := by
  obtain ⟨s1, s2, _⟩ := unsignedSize_spec v
  obtain ⟨f, h1, h2, h3, h4⟩ := unsignedEncode2_spec buf v (unsignedSize v) s1 h
  rw [Nat.mod_eq_of_lt s2] at h3
  exact ⟨f, h1, ⟨h2, by have := unsignedSize_le v; omega, h3, v.isLt⟩, h4⟩

/-! ## Signed encoder -/

theorem ofInt8_toNat (v : Int) : ((BitVec.ofInt 8 v).toNat : Int) = v % 256 := by
  rw [BitVec.toNat_ofInt]; omega

theorem sor80 (v : Int) : 128 ≤ (BitVec.ofInt 8 v ||| 0x80#8).toNat ∧
    (((BitVec.ofInt 8 v ||| 0x80#8).toNat % 128 : Nat) : Int) = v % 128 := by
  have h : ∀ b : Byte, 128 ≤ (b ||| 0x80#8).toNat ∧ (b ||| 0x80#8).toNat % 128 = b.toNat % 128 := by
    decide
  refine ⟨(h _).1, ?_⟩
  have := ofInt8_toNat v
  rw [(h _).2]
  omega

theorem sand7f (v : Int) : ((BitVec.ofInt 8 v &&& 0x7f#8).toNat : Int) = v % 128 := by
  have := ofInt8_toNat v
  rw [byte_and7f]
  omega

theorem int_shr7 (v : Int) : v >>> 7 = v / 128 := by
  rw [Int.shiftRight_eq_div_pow]; rfl

theorem int_mod_pow_succ (a : Int) (n : Nat) :
    a % (128 : Int) ^ (n + 1) = (a / 128 % (128 : Int) ^ n) * 128 + a % 128 := by
  have hp : (0 : Int) < 128 ^ n := Int.pow_pos (by omega)
  have e1 := Int.mul_ediv_add_emod a 128
  have e2 := Int.mul_ediv_add_emod (a / 128) (128 ^ n)
  have b1 := Int.emod_nonneg (a / 128) (show (128 : Int) ^ n ≠ 0 by omega)
  have b2 := Int.emod_lt_of_pos (a / 128) hp
  generalize hq : a / 128 / 128 ^ n = q at *
  generalize hr : a / 128 % 128 ^ n = r at *
  have : a = (128 : Int) ^ (n + 1) * q + (r * 128 + a % 128) := by
    rw [Int.pow_succ, Int.mul_comm (128 ^ n) 128, Int.mul_assoc]
    omega
  rw [this, Int.mul_add_emod_self_left, ← this]
  apply Int.emod_eq_of_lt
  · omega
  · rw [Int.pow_succ]; omega

theorem signedEncodeLoop_spec (n : Nat) : ∀ (buf : List Byte) (v : Int), n ≤ buf.length →
    ∃ f, f.length = n ∧ (∀ b ∈ f, 128 ≤ b.toNat) ∧ (val128 f : Int) = v % (128 : Int) ^ n ∧
      signedEncodeLoop buf v n = .ok (f ++ buf.drop n, v / (128 : Int) ^ n) := by
  induction n with
  | zero =>
    intro buf v _
    exact ⟨[], rfl, by simp, by simp [val128], by simp [signedEncodeLoop]⟩
  | succ n ih =>
    intro buf v hn
    obtain ⟨f, h1, h2, h3, h4⟩ := ih (buf.set n (BitVec.ofInt 8 v ||| 0x80#8)) (v >>> 7) (by simp; omega)
    obtain ⟨o1, o2⟩ := sor80 v
    rw [int_shr7] at h3 h4
    refine ⟨f ++ [BitVec.ofInt 8 v ||| 0x80#8], by simp [h1], ?_, ?_, ?_⟩
    · intro b hb
      rcases List.mem_append.1 hb with h | h
      · exact h2 b h
      · rw [List.mem_singleton.1 h]; exact o1
    · rw [val128_append, int_mod_pow_succ, ← h3]
      simp only [List.length_singleton, val128, List.length_nil]
      omega
    · rw [signedEncodeLoop, wr_ok _ (by omega)]
      simp only [bind, Except.bind, int_shr7, h4, drop_set_self _ _ _ (show n < buf.length by omega)]
      rw [Int.ediv_ediv_of_nonneg (by omega), Int.pow_succ, Int.mul_comm 128]
      simp

/-- `sval128` is the only number of `7 * length` bits congruent to `val128`. -/
theorem sval128_eq {f : List Byte} {v : Int} (hl : 1 ≤ f.length)
    (hv : (val128 f : Int) = v % (128 : Int) ^ f.length)
    (h1 : -2 ^ (7 * f.length - 1) ≤ v) (h2 : v < 2 ^ (7 * f.length - 1)) : sval128 f = v := by
  have hp : (2 : Int) ^ (7 * f.length) = 2 * 2 ^ (7 * f.length - 1) := by
    rw [← Int.pow_succ']; congr 1; omega
  have h128 : (128 : Int) ^ f.length = 2 ^ (7 * f.length) := by
    rw [Int.pow_mul]; rfl
  rw [h128] at hv
  have hc : ((2 ^ (7 * f.length - 1) : Nat) : Int) = (2 : Int) ^ (7 * f.length - 1) := by
    simp
  generalize (2 : Int) ^ (7 * f.length - 1) = p at *
  unfold sval128
  by_cases hn : v < 0
  · have : v % 2 ^ (7 * f.length) = v + 2 ^ (7 * f.length) := by
      rw [← Int.add_emod_right, hp]
      exact Int.emod_eq_of_lt (by omega) (by omega)
    rw [if_neg (by omega)]; omega
  · have : v % 2 ^ (7 * f.length) = v := by
      rw [hp]
      exact Int.emod_eq_of_lt (by omega) (by omega)
    rw [if_pos (by omega)]; omega

end Verif.Datapack
