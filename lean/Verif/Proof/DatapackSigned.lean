import Verif.Proof.DatapackEncode

namespace Verif.Datapack
open Verif.C Spec

/-! ## Signed size -/

theorem ediv_neg_one_sub (w : Int) : (-1 - w) / 128 = -1 - w / 128 := by omega

theorem signedSizeLoopPos_spec (value : Int) (h : 0 ≤ value) (msc : Byte) (n : Nat) :
    ∀ w : Int, 0 ≤ w → value = w / 128 → (msc.toNat : Int) = w % 128 →
    ∃ k, (signedSizeLoopPos value h msc n).2 = n + k ∧ w < 128 ^ (k + 1) ∧
      (k = 0 ∨ (128 : Int) ^ k ≤ w) ∧
      ((signedSizeLoopPos value h msc n).1.toNat : Int) = w / 128 ^ k := by
  fun_induction signedSizeLoopPos value h msc n with
  | case1 value h msc n h1 ih =>
    intro w hw hv hm
    obtain ⟨k, i1, i2, i3, i4⟩ := ih value h (int_shr7 value) (sand7f value)
    refine ⟨k + 1, by omega, ?_, .inr ?_, ?_⟩
    · rw [Int.pow_succ]; omega
    · rw [Int.pow_succ]
      rcases i3 with rfl | i3
      · simp; omega
      · omega
    · rw [i4, hv, Int.ediv_ediv_of_nonneg (by omega), Int.pow_succ, Int.mul_comm 128]
  | case2 value h msc n h1 =>
    intro w hw hv hm
    have : value = 0 := by simpa using h1
    exact ⟨0, rfl, by simp; omega, .inl rfl, by simp; omega⟩

theorem signedSizeLoopNeg_spec (value : Int) (h : value < 0) (msc : Byte) (n : Nat) :
    ∀ w : Int, w < 0 → value = w / 128 → (msc.toNat : Int) = w % 128 →
    ∃ k, (signedSizeLoopNeg value h msc n).2 = n + k ∧ -1 - w < 128 ^ (k + 1) ∧
      (k = 0 ∨ (128 : Int) ^ k ≤ -1 - w) ∧
      ((signedSizeLoopNeg value h msc n).1.toNat : Int) = 127 - (-1 - w) / 128 ^ k := by
  fun_induction signedSizeLoopNeg value h msc n with
  | case1 value h msc n h1 ih =>
    intro w hw hv hm
    obtain ⟨k, i1, i2, i3, i4⟩ := ih value h (int_shr7 value) (sand7f value)
    refine ⟨k + 1, by omega, ?_, .inr ?_, ?_⟩
    · rw [Int.pow_succ]; omega
    · rw [Int.pow_succ]
      rcases i3 with rfl | i3
      · simp; omega
      · omega
    · rw [i4, hv, ← ediv_neg_one_sub, Int.ediv_ediv_of_nonneg (by omega), Int.pow_succ,
        Int.mul_comm 128]
  | case2 value h msc n h1 =>
    intro w hw hv hm
    have : value = -1 := by simpa using h1
    exact ⟨0, rfl, by simp; omega, .inl rfl, by simp; omega⟩

theorem byte40 (b : Byte) (hb : b.toNat < 128) : b &&& 0x40#8 ≠ 0#8 ↔ 64 ≤ b.toNat := by
  revert b; decide

theorem byte40' (b : Byte) (hb : b.toNat < 128) : b &&& 0x40#8 = 0#8 ↔ b.toNat < 64 := by
  revert b; decide

theorem pow128 (k : Nat) : (128 : Int) ^ k = 2 ^ (7 * k) := by rw [Int.pow_mul]; rfl

theorem pow_half (k : Nat) : (2 : Int) ^ (7 * (k + 1) - 1) = 64 * 128 ^ k := by
  rw [pow128, show (64 : Int) = 2 ^ 6 by rfl, ← Int.pow_add]; congr 1; omega

theorem pow_mono {a b : Nat} (h : a ≤ b) : (2 : Int) ^ a ≤ 2 ^ b := by
  exact_mod_cast Nat.pow_le_pow_right (by omega) h

/-- The arithmetic core: `u` is `v` or `-1 - v`, whichever isn't negative. -/
theorem size_core (u : Int) (k : Nat) (_hu : 0 ≤ u) (h1 : u < 128 ^ (k + 1))
    (h2 : k = 0 ∨ (128 : Int) ^ k ≤ u) (m : Nat) (hm : 1 ≤ m) :
    let n := if u / 128 ^ k < 64 then 1 + k else 1 + k + 1
    1 ≤ n ∧ u < 2 ^ (7 * n - 1) ∧ (u < 2 ^ (7 * m - 1) → n ≤ m) := by
  have hp : (0 : Int) < 128 ^ k := Int.pow_pos (by omega)
  have hdiv : u / 128 ^ k < 64 ↔ u < 64 * 128 ^ k := Int.ediv_lt_iff_lt_mul hp
  by_cases hc : u / 128 ^ k < 64
  · rw [if_pos hc]
    have hlt := hdiv.1 hc
    refine ⟨by omega, by rw [Nat.add_comm 1 k, pow_half]; exact hlt, ?_⟩
    intro hmu
    rcases h2 with rfl | h2
    · omega
    · rcases Nat.lt_or_ge m (1 + k) with h | h
      · have h3 : (2 : Int) ^ (7 * m - 1) ≤ 2 ^ (7 * k) := pow_mono (by omega)
        rw [← pow128] at h3
        omega
      · exact h
  · rw [if_neg hc]
    have hge : 64 * 128 ^ k ≤ u := by
      have : ¬ u < 64 * 128 ^ k := fun h => hc (hdiv.2 h)
      omega
    refine ⟨by omega, ?_, ?_⟩
    · rw [show 1 + k + 1 = (k + 1) + 1 by omega, pow_half, Int.pow_succ]
      rw [Int.pow_succ] at h1; omega
    · intro hmu
      rcases Nat.lt_or_ge m (1 + k + 1) with h | h
      · have h3 : (2 : Int) ^ (7 * m - 1) ≤ 2 ^ (7 * (k + 1) - 1) := pow_mono (by omega)
        rw [pow_half] at h3
        omega
      · exact h

theorem signedSize_spec (v : Int) : 1 ≤ signedSize v ∧ Fits v (signedSize v) ∧
    (∀ m, 1 ≤ m → Fits v m → signedSize v ≤ m) := by
  unfold signedSize Fits
  by_cases hv : v >>> 7 < 0
  · have hneg : v < 0 := by rw [int_shr7] at hv; omega
    obtain ⟨k, h1, h2, h3, h4⟩ := signedSizeLoopNeg_spec (v >>> 7) hv
      (BitVec.ofInt 8 v &&& 0x7f#8) 1 v hneg (int_shr7 v) (sand7f v)
    have hp : (0 : Int) < 128 ^ k := Int.pow_pos (by omega)
    have hd0 : 0 ≤ (-1 - v) / 128 ^ k := Int.ediv_nonneg (by omega) (by omega)
    have hd1 : (-1 - v) / 128 ^ k < 128 := by
      rw [Int.ediv_lt_iff_lt_mul hp]; rw [Int.pow_succ] at h2; omega
    simp only [dif_pos hv]
    have hb := byte40' (signedSizeLoopNeg (v >>> 7) hv (BitVec.ofInt 8 v &&& 0x7f#8) 1).1 (by omega)
    have e : (if (signedSizeLoopNeg (v >>> 7) hv (BitVec.ofInt 8 v &&& 0x7f#8) 1).1 &&& 0x40#8 = 0#8
        then (signedSizeLoopNeg (v >>> 7) hv (BitVec.ofInt 8 v &&& 0x7f#8) 1).2 + 1
        else (signedSizeLoopNeg (v >>> 7) hv (BitVec.ofInt 8 v &&& 0x7f#8) 1).2)
        = if (-1 - v) / 128 ^ k < 64 then 1 + k else 1 + k + 1 := by
      rw [h1]
      by_cases hc : (-1 - v) / 128 ^ k < 64
      · rw [if_pos hc, if_neg (by rw [hb]; omega)]
      · rw [if_neg hc, if_pos (by rw [hb]; omega)]
    rw [e]
    refine ⟨(size_core _ k (by omega) h2 h3 1 (by omega)).1, ⟨?_, ?_⟩, ?_⟩
    · have := (size_core _ k (by omega) h2 h3 1 (by omega)).2.1
      omega
    · have := (size_core _ k (by omega) h2 h3 1 (by omega)).2.1
      omega
    · intro m hm hf
      exact (size_core _ k (by omega) h2 h3 m hm).2.2 (by omega)
  · have hneg : 0 ≤ v := by rw [int_shr7] at hv; omega
    obtain ⟨k, h1, h2, h3, h4⟩ := signedSizeLoopPos_spec (v >>> 7) (by omega)
      (BitVec.ofInt 8 v &&& 0x7f#8) 1 v hneg (int_shr7 v) (sand7f v)
    have hp : (0 : Int) < 128 ^ k := Int.pow_pos (by omega)
    have hd0 : 0 ≤ v / 128 ^ k := Int.ediv_nonneg (by omega) (by omega)
    have hd1 : v / 128 ^ k < 128 := by
      rw [Int.ediv_lt_iff_lt_mul hp]; rw [Int.pow_succ] at h2; omega
    simp only [dif_neg hv]
    have hb := byte40 (signedSizeLoopPos (v >>> 7) (by omega) (BitVec.ofInt 8 v &&& 0x7f#8) 1).1 (by omega)
    have e : (if (signedSizeLoopPos (v >>> 7) (by omega) (BitVec.ofInt 8 v &&& 0x7f#8) 1).1 &&& 0x40#8 ≠ 0#8
        then (signedSizeLoopPos (v >>> 7) (by omega) (BitVec.ofInt 8 v &&& 0x7f#8) 1).2 + 1
        else (signedSizeLoopPos (v >>> 7) (by omega) (BitVec.ofInt 8 v &&& 0x7f#8) 1).2)
        = if v / 128 ^ k < 64 then 1 + k else 1 + k + 1 := by
      rw [h1]
      by_cases hc : v / 128 ^ k < 64
      · rw [if_pos hc, if_neg (by rw [hb]; omega)]
      · rw [if_neg hc, if_pos (by rw [hb]; omega)]
    rw [e]
    refine ⟨(size_core _ k (by omega) h2 h3 1 (by omega)).1, ⟨?_, ?_⟩, ?_⟩
    · have := (size_core _ k (by omega) h2 h3 1 (by omega)).2.1
      omega
    · have := (size_core _ k (by omega) h2 h3 1 (by omega)).2.1
      omega
    · intro m hm hf
      exact (size_core _ k (by omega) h2 h3 m hm).2.2 (by omega)

theorem signedSize_le (v : Int) (h1 : -2 ^ 63 ≤ v) (h2 : v < 2 ^ 63) : signedSize v ≤ 10 :=
  (signedSize_spec v).2.2 10 (by omega) ⟨by omega, by omega⟩

/-! ## Signed encoder -/

theorem int_lt_pow128 {v : Int} (h0 : 0 ≤ v) (h : v < 2 ^ 63) : ∀ {n : Nat}, 9 ≤ n → v < (128 : Int) ^ n
  | n, hn => by
    have : (128 : Int) ^ 9 ≤ 128 ^ n := by
      obtain ⟨k, rfl⟩ : ∃ k, n = 9 + k := ⟨n - 9, by omega⟩
      rw [Int.pow_add]
      have : (0 : Int) < 128 ^ k := Int.pow_pos (by decide)
      omega
    omega

theorem signedEncode2_oversized (buf : List Byte) (v : Int) (size : Nat) (h10 : 10 < size) (h29 : size < 2 ^ 29)
    (h2 : size ≤ buf.length) (hv1 : -2 ^ 63 ≤ v) (hv2 : v < 2 ^ 63) :
    (0 ≤ v → ∃ f, f.length = size ∧ IsFrame f ∧ (val128 f : Int) = v ∧ signedEncode2 buf v size = .ok (f ++ buf.drop size, size)) ∧
    (v < 0 → signedEncode2 buf v size = .error .badShift) := by
  obtain ⟨n, rfl⟩ : ∃ m', size = m' + 1 := ⟨size - 1, by omega⟩
  obtain ⟨f, g1, g2, g3, g4⟩ := signedEncodeLoop_spec n
    (buf.set n (BitVec.ofInt 8 v &&& 0x7f#8)) (v >>> 7) (by simp; omega)
  rw [int_shr7] at g3 g4
  have o := sand7f v
  have hval : (val128 (f ++ [BitVec.ofInt 8 v &&& 0x7f#8]) : Int) = v % (128 : Int) ^ (n + 1) := by
    rw [val128_append, int_mod_pow_succ, ← g3]
    simp only [List.length_singleton, val128, List.length_nil]
    omega
  have hp : (0 : Int) < 128 ^ n := Int.pow_pos (by decide)
  constructor
  · intro h0
    have hlt := int_lt_pow128 h0 hv2 (n := n + 1) (by omega)
    refine ⟨f ++ [BitVec.ofInt 8 v &&& 0x7f#8], by simp [g1], ⟨f, _, rfl, g2, by omega⟩, by rw [hval, Int.emod_eq_of_lt h0 hlt], ?_⟩
    rw [signedEncode2]
    simp only [wr_ok _ (show n < buf.length by omega), bind, Except.bind, int_shr7, g4,
        drop_set_self _ _ _ (show n < buf.length by omega)]
    have hq : 0 ≤ v / 128 / 128 ^ n := Int.ediv_nonneg (by omega) (by omega)
    rw [if_neg (by omega)]
    simp
  · intro h0
    rw [signedEncode2]
    simp only [wr_ok _ (show n < buf.length by omega), bind, Except.bind, int_shr7, g4,
        drop_set_self _ _ _ (show n < buf.length by omega)]
    have hq : v / 128 / 128 ^ n < 0 := Int.ediv_neg_of_neg_of_pos (by omega) hp
    have e1 : (BitVec.ofNat 32 (n + 1) * 7#32).toNat = (n + 1) * 7 := by
      rw [BitVec.toNat_mul, BitVec.toNat_ofNat]
      rw [show (7#32).toNat = 7 by rfl, Nat.mod_eq_of_lt (show n + 1 < 2 ^ 32 by omega), Nat.mod_eq_of_lt (by omega)]
    have e2 : (64#32 - BitVec.ofNat 32 n * 7#32).toNat = 2 ^ 32 + 64 - n * 7 := by
      rw [BitVec.toNat_sub, BitVec.toNat_mul, BitVec.toNat_ofNat, show (7#32).toNat = 7 by rfl, show (64#32).toNat = 64 by rfl,
        Nat.mod_eq_of_lt (show n < 2 ^ 32 by omega), Nat.mod_eq_of_lt (show n * 7 < 2 ^ 32 by omega)]
      omega
    rw [if_pos ⟨hq, by omega⟩]
    simp only [e2]
    rw [if_neg (by omega)]

theorem signedEncode2_spec (buf : List Byte) (v : Int) (size : Nat) (h1 : 1 ≤ size)
    (h2 : size ≤ buf.length) (h10 : size ≤ 10) (hv1 : -2 ^ 63 ≤ v) (hv2 : v < 2 ^ 63) :
    ∃ f, f.length = size ∧ IsFrame f ∧ (val128 f : Int) = v % (128 : Int) ^ size ∧
      signedEncode2 buf v size = .ok (f ++ buf.drop size, size) := by
  obtain ⟨n, rfl⟩ : ∃ m', size = m' + 1 := ⟨size - 1, by omega⟩
  obtain ⟨f, g1, g2, g3, g4⟩ := signedEncodeLoop_spec n
    (buf.set n (BitVec.ofInt 8 v &&& 0x7f#8)) (v >>> 7) (by simp; omega)
  rw [int_shr7] at g3 g4
  have o := sand7f v
  have hval : (val128 (f ++ [BitVec.ofInt 8 v &&& 0x7f#8]) : Int) = v % (128 : Int) ^ (n + 1) := by
    rw [val128_append, int_mod_pow_succ, ← g3]
    simp only [List.length_singleton, val128, List.length_nil]
    omega
  refine ⟨f ++ [BitVec.ofInt 8 v &&& 0x7f#8], by simp [g1], ⟨f, _, rfl, g2, by omega⟩, hval, ?_⟩
  rw [signedEncode2]
  simp only [wr_ok _ (show n < buf.length by omega), bind, Except.bind, int_shr7, g4,
      drop_set_self _ _ _ (show n < buf.length by omega)]
  by_cases hc : v / 128 / 128 ^ n < 0 ∧ 64 < (BitVec.ofNat 32 (n + 1) * 7#32).toNat
  · rw [if_pos hc]
    have hn : n = 9 := by
      have hc2 := hc.2
      have : n + 1 < 10 → False := by
        intro hlt
        have : (BitVec.ofNat 32 (n + 1) * 7#32).toNat = (n + 1) * 7 := by
          rw [BitVec.toNat_mul, BitVec.toNat_ofNat]
          rw [show (7#32).toNat = 7 by rfl, Nat.mod_eq_of_lt (show n + 1 < 2 ^ 32 by omega),
            Nat.mod_eq_of_lt (by omega)]
        omega
      rcases Nat.lt_or_ge (n + 1) 10 with h | h
      · exact (this h).elim
      · omega
    subst hn
    have hcnt : (64#32 - BitVec.ofNat 32 9 * 7#32).toNat = 1 := by decide
    have hneg : v < 0 := by have := hc.1; omega
    simp only [hcnt]
    cases f with
    | nil => simp at g1
    | cons b f =>
      -- the leading byte is already 0xff
      have hb : b = 0xff#8 := by
        have hd : (b.toNat % 128 : Nat) = 127 := by
          rw [val128] at g3
          simp only [List.length_cons] at g1
          have hfl : f.length = 8 := by omega
          have hlt := val128_lt f
          rw [hfl] at hlt g3
          have : v / 128 % 128 ^ 9 = v / 128 + 128 ^ 9 := by
            rw [← Int.add_emod_right]
            exact Int.emod_eq_of_lt (by omega) (by omega)
          rw [this] at g3
          omega
        have hb128 := g2 b (by simp)
        have : b.toNat = 255 := by have := b.isLt; omega
        exact BitVec.eq_of_toNat_eq (by simpa using this)
      subst hb
      simp [rd, wr]
  · rw [if_neg hc]
    simp

theorem signedEncode_spec (buf : List Byte) (v : Int) (h : signedSize v ≤ buf.length)
    (hv1 : -2 ^ 63 ≤ v) (hv2 : v < 2 ^ 63) :
    ∃ f, f.length = signedSize v ∧ SFrame f v ∧
      signedEncode buf v = .ok (f ++ buf.drop (signedSize v), signedSize v) := by
  obtain ⟨s1, s2, _⟩ := signedSize_spec v
  have s3 := signedSize_le v hv1 hv2
  obtain ⟨f, h1, h2, h3, h4⟩ := signedEncode2_spec buf v (signedSize v) s1 h s3 hv1 hv2
  rw [← h1] at h3 s2 s1
  exact ⟨f, h1, ⟨h2, by omega, sval128_eq s1 h3 s2.1 s2.2, hv1, hv2⟩, h4⟩

/-! ## Signed decoder -/

theorem sign_extend (v : BitVec 64) (c : Nat) (hc : c ≤ 63) (hv : v.toNat < 2 ^ c) :
    (v ||| ~~~((1#64 <<< c) - 1#64)).toInt = (v.toNat : Int) - 2 ^ c := by
  have hpow : 2 ^ c ≤ 2 ^ 63 := Nat.pow_le_pow_right (by omega) hc
  have hpos : 0 < 2 ^ c := Nat.pow_pos (by omega)
  have e1 : (1#64 <<< c).toNat = 2 ^ c := by
    rw [BitVec.toNat_shiftLeft, Nat.shiftLeft_eq]
    simp; omega
  have e2 : (~~~((1#64 <<< c) - 1#64)).toNat = 2 ^ 64 - 2 ^ c := by
    rw [BitVec.toNat_not, BitVec.toNat_sub, e1]
    have : (2 ^ 64 - (1#64).toNat + 2 ^ c) % 2 ^ 64 = 2 ^ c - 1 := by
      simp; omega
    rw [this]; omega
  have e3 : 2 ^ 64 - 2 ^ c = (2 ^ (64 - c) - 1) <<< c := by
    rw [Nat.shiftLeft_eq, Nat.sub_mul, ← Nat.pow_add, show 64 - c + c = 64 by omega]; simp
  have e4 : (v ||| ~~~((1#64 <<< c) - 1#64)).toNat = 2 ^ 64 - 2 ^ c + v.toNat := by
    rw [BitVec.toNat_or, e2, e3, Nat.or_comm, ← Nat.shiftLeft_add_eq_or_of_lt hv]
  rw [BitVec.toInt_eq_toNat_cond, e4]
  rw [if_neg (by omega)]
  have hcast : ((2 ^ c : Nat) : Int) = (2 : Int) ^ c := by simp
  omega

theorem byte40cont (b : Byte) : b &&& 0x40#8 ≠ 0#8 ↔ 64 ≤ b.toNat % 128 := by
  revert b; decide

/-- The top digit decides about the sign. -/
theorem sign_digit (b : Byte) (bs : List Byte) :
    val128 (b :: bs) < 2 ^ (7 * (bs.length + 1) - 1) ↔ b.toNat % 128 < 64 := by
  have hp : 2 ^ (7 * (bs.length + 1) - 1) = 64 * 128 ^ bs.length := by
    rw [show (128 : Nat) = 2 ^ 7 by rfl, show (64 : Nat) = 2 ^ 6 by rfl, ← Nat.pow_mul, ← Nat.pow_add]
    congr 1; omega
  rw [hp, val128]
  have hlt := val128_lt bs
  constructor
  · intro h
    rcases Nat.lt_or_ge (b.toNat % 128) 64 with h1 | h1
    · exact h1
    · have := Nat.mul_le_mul_right (128 ^ bs.length) h1
      omega
  · intro h
    have := Nat.mul_le_mul_right (128 ^ bs.length) (show b.toNat % 128 ≤ 63 by omega)
    omega

theorem npow128 (k : Nat) : (128 : Nat) ^ k = 2 ^ (7 * k) := by rw [Nat.pow_mul]

theorem frame_cases {f : List Byte} (hf : IsFrame f) :
    (∃ b, f = [b] ∧ b.toNat < 128) ∨
    (∃ msc init last, f = msc :: (init ++ [last]) ∧ 128 ≤ msc.toNat ∧
      (∀ b ∈ init, 128 ≤ b.toNat) ∧ last.toNat < 128) := by
  obtain ⟨init, last, rfl, hi, hl⟩ := hf
  cases init with
  | nil => exact .inl ⟨last, rfl, hl⟩
  | cons msc init =>
    exact .inr ⟨msc, init, last, rfl, hi msc (by simp), fun b hb => hi b (by simp [hb]), hl⟩

/-- Single byte. -/
theorem signedDecode_single {r : Range} (h : r.Valid) (mode : Mode) (w : Bool) {b : Byte}
    {rest : List Byte} (hb : r.bytes = b :: rest) (hlt : b.toNat < 128) :
    signedDecode mode w r = .ok ⟨true, { r with ptr := r.ptr + 1 },
      if w then some (sval128 [b]) else none⟩ := by
  obtain ⟨h1, h2⟩ := rd_head h hb
  have hn : ¬ (b &&& 0x80#8 ≠ 0#8) := by rw [byte_cont]; omega
  simp only [signedDecode, h1, if_true, h2, bind, Except.bind, hn, if_false]
  have : (if b.setWidth 64 &&& 0x40#64 ≠ 0#64
            then (b.setWidth 64 ||| (-1#64 ^^^ 0x7f#64)).toInt
            else (b.setWidth 64).toInt) = sval128 [b] := by
    have key : ∀ b : Byte, b.toNat < 128 → (if b.setWidth 64 &&& 0x40#64 ≠ 0#64
            then (b.setWidth 64 ||| (-1#64 ^^^ 0x7f#64)).toInt
            else (b.setWidth 64).toInt) = sval128 [b] := by decide
    exact key b hlt
  rw [this]

/-- A frame of up to 8 bytes, a non-negative one of 9 bytes, or any one of 9 bytes if
    there's no complaint about the overflow. -/
theorem signedDecode_multi9 {r : Range} (h : r.Valid) (mode : Mode) (w : Bool) {msc : Byte}
    {init : List Byte} {last : Byte} {rest : List Byte}
    (hb : r.bytes = msc :: (init ++ last :: rest)) (hm : 128 ≤ msc.toNat)
    (hi : ∀ b ∈ init, 128 ≤ b.toNat) (hl : last.toNat < 128) (hil : init.length ≤ 7)
    (hmode : mode = .strict → w = true → init.length = 7 → msc.toNat % 128 < 64) :
    signedDecode mode w r = .ok ⟨true, { r with ptr := r.ptr + (init.length + 2 : Nat) },
      if w then some (sval128 (msc :: (init ++ [last]))) else none⟩ := by
  obtain ⟨h1, h2⟩ := rd_head h hb
  have hc : msc &&& 0x80#8 ≠ 0#8 := (byte_cont _).2 hm
  have hlc : last &&& 0x80#8 = 0#8 := (byte_nocont _).2 hl
  have hloop := decodeLoop_frame h msc init last rest hb hi hl
  rw [if_pos (by omega)] at hloop
  have hn : 7 * (init.length + 1) + 7 < 64 := by omega
  have hsd := sign_digit msc (init ++ [last])
  have hlen : (init ++ [last]).length = init.length + 1 := by simp
  rw [hlen] at hsd
  have hasm := assembled_toNat msc init last hl
  have hvlt := val128_lt (msc :: (init ++ [last]))
  rw [npow128, List.length_cons, hlen] at hvlt
  have hv63 : 2 ^ (7 * (init.length + 1 + 1)) ≤ 2 ^ 63 := Nat.pow_le_pow_right (by omega) (by omega)
  rw [Nat.mod_eq_of_lt (by omega)] at hasm
  by_cases hs : msc &&& 0x40#8 ≠ 0#8
  · have hs' := hs
    rw [byte40cont] at hs'
    cases w with
    | false =>
      simp only [signedDecode, h1, if_true, h2, bind, Except.bind, hc, hloop, hlc, hs, hn, ne_eq,
        not_false_eq_true]
      simp
    | true =>
      have hmask : signMask mode (7 * (init.length + 1) + 7) =
          .ok ((1#64 <<< (7 * (init.length + 1) + 7)) - 1#64) := by
        unfold signMask
        rw [if_neg]
        rintro ⟨rfl, hge⟩
        have := hmode rfl rfl (by omega)
        omega
      simp only [signedDecode, h1, if_true, h2, bind, Except.bind, hc, hloop, hlc, hs, hn, ne_eq,
        not_false_eq_true, hmask]
      have hsx := sign_extend ((acc 0#64 (msc :: init) <<< 7) ||| last.setWidth 64)
        (7 * (init.length + 1) + 7) (by omega) (by rw [hasm]; exact hvlt)
      rw [hsx, hasm, sval128, if_neg]
      · simp only [List.length_cons, hlen]
        rfl
      · simp only [List.length_cons, hlen]
        rw [hsd]; omega
  · have hs' := hs
    rw [byte40cont] at hs'
    simp only [signedDecode, h1, if_true, h2, bind, Except.bind, hc, hloop, hlc, hs, hn, ne_eq,
        not_false_eq_true, true_or, if_false]
    have hsv : sval128 (msc :: (init ++ [last])) = (val128 (msc :: (init ++ [last])) : Int) := by
      rw [sval128, if_pos (by simp only [List.length_cons, hlen]; rw [hsd]; omega)]
    rw [hsv]
    have : ((acc 0#64 (msc :: init) <<< 7) ||| last.setWidth 64).toInt =
        (val128 (msc :: (init ++ [last])) : Int) := by
      rw [BitVec.toInt_eq_toNat_cond, hasm, if_pos (by omega)]
    rw [this]

/-- Undefined behaviour for a negative number of 9 bytes. -/
theorem signedDecode_multi9_ub {r : Range} (h : r.Valid) {msc : Byte}
    {init : List Byte} {last : Byte} {rest : List Byte}
    (hb : r.bytes = msc :: (init ++ last :: rest)) (hm : 128 ≤ msc.toNat)
    (hi : ∀ b ∈ init, 128 ≤ b.toNat) (hl : last.toNat < 128) (hil : init.length = 7)
    (hs' : 64 ≤ msc.toNat % 128) :
    signedDecode .strict true r = .error .signedOverflow := by
  obtain ⟨h1, h2⟩ := rd_head h hb
  have hc : msc &&& 0x80#8 ≠ 0#8 := (byte_cont _).2 hm
  have hlc : last &&& 0x80#8 = 0#8 := (byte_nocont _).2 hl
  have hloop := decodeLoop_frame h msc init last rest hb hi hl
  rw [if_pos (by omega)] at hloop
  have hs : msc &&& 0x40#8 ≠ 0#8 := (byte40cont _).2 hs'
  rw [hil] at hloop
  simp only [signedDecode, h1, if_true, h2, bind, Except.bind, hc, hloop, hlc, hs, ne_eq,
        not_false_eq_true, signMask]
  rfl

/-- A frame of 10 bytes. -/
theorem signedDecode_multi10 {r : Range} (h : r.Valid) (mode : Mode) (w : Bool) {msc : Byte}
    {init : List Byte} {last : Byte} {rest : List Byte}
    (hb : r.bytes = msc :: (init ++ last :: rest)) (hm : 128 ≤ msc.toNat)
    (hi : ∀ b ∈ init, 128 ≤ b.toNat) (hl : last.toNat < 128) (hil : init.length = 8) :
    signedDecode mode w r =
      if msc = 0x80#8 ∨ msc = 0x81#8 ∨ msc = 0xfe#8 ∨ msc = 0xff#8 then
        .ok ⟨true, { r with ptr := r.ptr + 10 },
          if w then some (BitVec.ofNat 64 (val128 (msc :: (init ++ [last])))).toInt else none⟩
      else .ok ⟨false, r, none⟩ := by
  obtain ⟨h1, h2⟩ := rd_head h hb
  have hc : msc &&& 0x80#8 ≠ 0#8 := (byte_cont _).2 hm
  have hlc : last &&& 0x80#8 = 0#8 := (byte_nocont _).2 hl
  have hloop := decodeLoop_frame h msc init last rest hb hi hl
  rw [if_pos (by omega)] at hloop
  rw [hil] at hloop
  have hasm := assembled_toNat msc init last hl
  have hw : (acc 0#64 (msc :: init) <<< 7) ||| last.setWidth 64 =
      BitVec.ofNat 64 (val128 (msc :: (init ++ [last]))) := by
    apply BitVec.eq_of_toNat_eq; rw [hasm, BitVec.toNat_ofNat]
  simp only [show 7 * (8 + 1) = 63 by rfl] at hloop
  have hn : ¬ (63 + 7 < 64) := by omega
  have hmp := msc_pos msc
  have hmn := msc_neg msc
  have hcs : ∀ b : Byte, b &&& 0x40#8 ≠ 0#8 →
      ((b = 0x80#8 ∨ b = 0x81#8 ∨ b = 0xfe#8 ∨ b = 0xff#8) ↔ (b = 0xfe#8 ∨ b = 0xff#8)) := by decide
  have hcs' : ∀ b : Byte, ¬ (b &&& 0x40#8 ≠ 0#8) →
      ((b = 0x80#8 ∨ b = 0x81#8 ∨ b = 0xfe#8 ∨ b = 0xff#8) ↔ (b = 0x80#8 ∨ b = 0x81#8)) := by decide
  by_cases hs : msc &&& 0x40#8 ≠ 0#8
  · simp only [hcs msc hs]
    by_cases hx : msc = 0xfe#8 ∨ msc = 0xff#8
    · have hx' := hmn.2 hx
      simp only [signedDecode, h1, if_true, h2, bind, Except.bind, hc, hloop, hlc, hs, hn, ne_eq,
        not_false_eq_true, if_false, hx', hw, if_pos hx]
      rfl
    · have hx' := mt hmn.1 hx
      simp only [signedDecode, h1, if_true, h2, bind, Except.bind, hc, hloop, hlc, hs, hn, ne_eq,
        not_false_eq_true, if_false, hx', if_neg hx]
  · simp only [hcs' msc hs]
    by_cases hx : msc = 0x80#8 ∨ msc = 0x81#8
    · have hx' := hmp.2 hx
      simp only [signedDecode, h1, if_true, h2, bind, Except.bind, hc, hloop, hlc, hs, hn, ne_eq,
        not_false_eq_true, if_false, hx', hw, if_pos hx, false_or]
      rfl
    · have hx' := mt hmp.1 hx
      simp only [signedDecode, h1, if_true, h2, bind, Except.bind, hc, hloop, hlc, hs, hn, ne_eq,
        not_false_eq_true, if_false, hx', if_neg hx, false_or]

theorem sval_bounds {f : List Byte} (hl : 1 ≤ f.length) :
    -2 ^ (7 * f.length - 1) ≤ sval128 f ∧ sval128 f < 2 ^ (7 * f.length - 1) := by
  have hp : (2 : Int) ^ (7 * f.length) = 2 * 2 ^ (7 * f.length - 1) := by
    rw [← Int.pow_succ']; congr 1; omega
  have hc : ((2 ^ (7 * f.length - 1) : Nat) : Int) = (2 : Int) ^ (7 * f.length - 1) := by simp
  have hc2 : ((2 ^ (7 * f.length) : Nat) : Int) = (2 : Int) ^ (7 * f.length) := by simp
  have hv := val128_lt f
  rw [npow128] at hv
  unfold sval128
  split <;> omega

theorem sval_bounds64 {f : List Byte} (hl : 1 ≤ f.length) (h9 : f.length ≤ 9) :
    -2 ^ 63 ≤ sval128 f ∧ sval128 f < 2 ^ 63 := by
  obtain ⟨h1, h2⟩ := sval_bounds hl
  have : (2 : Int) ^ (7 * f.length - 1) ≤ 2 ^ 63 := pow_mono (by omega)
  omega

/-- 10-byte frames: when the value fits in 64 bits. -/
theorem sframe10 {msc : Byte} {init : List Byte} {last : Byte} (hm : 128 ≤ msc.toNat)
    (hil : init.length = 8) :
    (-2 ^ 63 ≤ sval128 (msc :: (init ++ [last])) ∧ sval128 (msc :: (init ++ [last])) < 2 ^ 63 ↔
      msc = 0x80#8 ∨ msc = 0xff#8) ∧
    (msc = 0x80#8 ∨ msc = 0xff#8 →
      (BitVec.ofNat 64 (val128 (msc :: (init ++ [last])))).toInt =
        sval128 (msc :: (init ++ [last]))) := by
  have hv := val128_multi msc init last
  rw [hil] at hv
  have hlt := val128_lt init
  rw [hil] at hlt
  have hlast : last.toNat % 128 < 128 := Nat.mod_lt _ (by omega)
  have e1 : msc = 0x80#8 ↔ msc.toNat = 128 := by rw [← BitVec.toNat_inj]; rfl
  have e2 : msc = 0xff#8 ↔ msc.toNat = 255 := by rw [← BitVec.toNat_inj]; rfl
  have hm2 := msc.isLt
  have hlen : (msc :: (init ++ [last])).length = 10 := by simp [hil]
  rw [e1, e2]
  unfold sval128
  rw [hlen, BitVec.toInt_eq_toNat_cond, BitVec.toNat_ofNat]
  constructor
  · split <;> omega
  · intro h
    split <;> split <;> omega

end Verif.Datapack
