import Verif.Props.DatapackShort

/-!
# The order of encoded numbers: C155
-/

namespace Verif.Datapack
open Verif.C Spec

/-- The digits of frames are compared the way numbers are -/
theorem frame_order : ∀ f g : List Byte, IsFrame f → IsFrame g → f.length = g.length → (f < g ↔ val128 f < val128 g)
  | [], _, hf, _, _ => by obtain ⟨i, l, h, _⟩ := hf; simp at h
  | _, [], _, hg, _ => by obtain ⟨i, l, h, _⟩ := hg; simp at h
  | a :: f, b :: g, hf, hg, hl => by
    have hl : f.length = g.length := by simpa using hl
    rw [List.cons_lt_cons_iff, BitVec.lt_def, ← BitVec.toNat_inj, val128, val128, ← hl]
    have h1 := val128_lt f
    have h2 := val128_lt g
    rw [← hl] at h2
    have ha := a.isLt
    have hb := b.isLt
    rcases frame_cases hf with ⟨x, e, hx⟩ | ⟨x, i, l, e, hx, hi, hll⟩
    · injection e with e1 e2
      subst e1 e2
      have hg0 : g = [] := List.length_eq_zero_iff.1 hl.symm
      subst hg0
      obtain ⟨j, m, e, _, hm⟩ := hg
      cases j with
      | nil =>
        injection e with e _
        subst e
        simp [val128]
        omega
      | cons _ j => simp at e
    · injection e with e1 e2
      subst e1 e2
      rcases frame_cases hg with ⟨y, e, hy⟩ | ⟨y, j, m, e, hy, hj, hm⟩
      · injection e with e1 e2
        subst e2
        simp at hl
      · injection e with e1 e2
        subst e1 e2
        have ih := frame_order (i ++ [l]) (j ++ [m]) ⟨i, l, rfl, hi, hll⟩ ⟨j, m, rfl, hj, hm⟩ hl
        rw [ih]
        generalize val128 (i ++ [l]) = p at *
        generalize val128 (j ++ [m]) = q at *
        generalize 128 ^ (i ++ [l]).length = k at *
        constructor
        · rintro (h | ⟨h, h'⟩)
          · have : (a.toNat % 128 + 1) * k ≤ b.toNat % 128 * k := Nat.mul_le_mul_right _ (by omega)
            rw [Nat.add_mul] at this
            omega
          · rw [h]; omega
        · intro h
          rcases Nat.lt_trichotomy a.toNat b.toNat with h3 | h3 | h3
          · exact .inl h3
          · rw [h3] at h; exact .inr ⟨h3, by omega⟩
          · have : (b.toNat % 128 + 1) * k ≤ a.toNat % 128 * k := Nat.mul_le_mul_right _ (by omega)
            rw [Nat.add_mul] at this
            omega

/-- **C155** Unsigned numbers have the same order as what they are encoded to: the one which takes less bytes is less, and if the number of bytes is the
same, then the one whose bytes are less (the way `memcmp` compares them). -/
theorem C155_unsigned (v w : BitVec 64) (buf buf' : List Byte) (h : unsignedSize v ≤ buf.length) (h' : unsignedSize w ≤ buf'.length) :
    ∃ f g x y, unsignedEncode buf v = .ok (f ++ x, f.length) ∧ unsignedEncode buf' w = .ok (g ++ y, g.length) ∧
      (v.toNat < w.toNat ↔ f.length < g.length ∨ f.length = g.length ∧ f < g) := by
  obtain ⟨f, f1, ⟨f2, _, f3, _⟩, f4⟩ := unsignedEncode_spec buf v h
  obtain ⟨g, g1, ⟨g2, _, g3, _⟩, g4⟩ := unsignedEncode_spec buf' w h'
  refine ⟨f, g, _, _, by rw [f4, f1], by rw [g4, g1], ?_⟩
  obtain ⟨a1, a2, a3⟩ := unsignedSize_spec v
  obtain ⟨b1, b2, b3⟩ := unsignedSize_spec w
  rw [f1, g1]
  constructor
  · intro hlt
    have h1 := a3 _ b1 (by omega)
    by_cases he : unsignedSize v = unsignedSize w
    · exact .inr ⟨he, (frame_order f g f2 g2 (by omega)).2 (by omega)⟩
    · left; omega
  · rintro (hlt | ⟨he, hlt⟩)
    · refine Classical.byContradiction fun hn => ?_
      have := b3 _ a1 (by omega)
      omega
    · have := (frame_order f g f2 g2 (by omega)).1 hlt
      omega

/-- **C155** If the same number of bytes is requested for both, and both numbers fit, then the order of bytes is the order of numbers. -/
theorem C155_fixed (v w : BitVec 64) (size : Nat) (h1 : 1 ≤ size) (hv : v.toNat < 128 ^ size) (hw : w.toNat < 128 ^ size) (buf buf' : List Byte)
    (h : size ≤ buf.length) (h' : size ≤ buf'.length) :
    ∃ f g x y, unsignedEncode2 buf v size = .ok (f ++ x, size) ∧ unsignedEncode2 buf' w size = .ok (g ++ y, size) ∧ f.length = size ∧ g.length = size ∧
      (v.toNat < w.toNat ↔ f < g) := by
  obtain ⟨f, f1, f2, f3, f4⟩ := unsignedEncode2_spec buf v size h1 h
  obtain ⟨g, g1, g2, g3, g4⟩ := unsignedEncode2_spec buf' w size h1 h'
  refine ⟨f, g, _, _, f4, g4, f1, g1, ?_⟩
  rw [frame_order f g f2 g2 (by omega), f3, g3, Nat.mod_eq_of_lt hv, Nat.mod_eq_of_lt hw]

/-- Frames of the same length of numbers of the same sign -/
theorem sframe_order {f g : List Byte} {v w : Int} (hf : SFrame f v) (hg : SFrame g w) (hl : f.length = g.length) (hs : v < 0 ↔ w < 0) :
    f < g ↔ v < w := by
  obtain ⟨f2, _, f3, _⟩ := hf
  obtain ⟨g2, _, g3, _⟩ := hg
  rw [frame_order f g f2 g2 hl]
  have a1 := val128_lt f
  have b1 := val128_lt g
  unfold sval128 at f3 g3
  rw [← hl] at g3 b1
  have e : (128 : Nat) ^ f.length = 2 ^ (7 * f.length) := by rw [Nat.pow_mul]
  rw [e] at a1 b1
  have e' : ((2 ^ (7 * f.length) : Nat) : Int) = 2 ^ (7 * f.length) := by simp
  rw [← e'] at f3 g3
  generalize 2 ^ (7 * f.length - 1) = k at *
  generalize 2 ^ (7 * f.length) = m at *
  split at f3 <;> split at g3 <;> omega

/-- **C155** The same for signed numbers of the same sign, except that the negative number which takes more bytes is the one which is less. -/
theorem C155_signed (v w : Int) (hv1 : -2 ^ 63 ≤ v) (hv2 : v < 2 ^ 63) (hw1 : -2 ^ 63 ≤ w) (hw2 : w < 2 ^ 63) (buf buf' : List Byte)
    (h : signedSize v ≤ buf.length) (h' : signedSize w ≤ buf'.length) :
    ∃ f g x y, signedEncode buf v = .ok (f ++ x, f.length) ∧ signedEncode buf' w = .ok (g ++ y, g.length) ∧
      (0 ≤ v → 0 ≤ w → (v < w ↔ f.length < g.length ∨ f.length = g.length ∧ f < g)) ∧
      (v < 0 → w < 0 → (v < w ↔ g.length < f.length ∨ f.length = g.length ∧ f < g)) := by
  obtain ⟨f, f1, f2, f4⟩ := signedEncode_spec buf v h hv1 hv2
  obtain ⟨g, g1, g2, g4⟩ := signedEncode_spec buf' w h' hw1 hw2
  obtain ⟨a1, a2, a3⟩ := signedSize_spec v
  obtain ⟨b1, b2, b3⟩ := signedSize_spec w
  unfold Fits at a2 a3 b2 b3
  have p1 : (0 : Int) < 2 ^ (7 * signedSize v - 1) := Int.pow_pos (by omega)
  have p2 : (0 : Int) < 2 ^ (7 * signedSize w - 1) := Int.pow_pos (by omega)
  refine ⟨f, g, _, _, by rw [f4, f1], by rw [g4, g1], ?_, ?_⟩
  · intro s1 s2
    rw [f1, g1]
    constructor
    · intro hlt
      have := a3 _ b1 ⟨by omega, by omega⟩
      by_cases he : signedSize v = signedSize w
      · exact .inr ⟨he, (sframe_order f2 g2 (by omega) (by omega)).2 hlt⟩
      · left; omega
    · rintro (hlt | ⟨he, hlt⟩)
      · refine Classical.byContradiction fun hn => ?_
        have := b3 _ a1 ⟨by omega, by omega⟩
        omega
      · exact (sframe_order f2 g2 (by omega) (by omega)).1 hlt
  · intro s1 s2
    rw [f1, g1]
    constructor
    · intro hlt
      have := b3 _ a1 ⟨by omega, by omega⟩
      by_cases he : signedSize v = signedSize w
      · exact .inr ⟨he, (sframe_order f2 g2 (by omega) (by omega)).2 hlt⟩
      · left; omega
    · rintro (hlt | ⟨he, hlt⟩)
      · refine Classical.byContradiction fun hn => ?_
        have := a3 _ b1 ⟨by omega, by omega⟩
        omega
      · exact (sframe_order f2 g2 (by omega) (by omega)).1 hlt

/-- The hypotheses are met. 128 takes more bytes than 127, and its bytes are less than those of 255. -/
example : unsignedEncode [0, 0, 0] 128#64 = .ok ([0x81, 0, 0], 2) ∧ unsignedEncode [0, 0, 0] 127#64 = .ok ([0x7f, 0, 0], 1) ∧
    unsignedEncode [0, 0, 0] 255#64 = .ok ([0x81, 0x7f, 0], 2) ∧ ([0x81, 0] : List Byte) < [0x81, 0x7f] := ⟨by decide +kernel, by decide +kernel, by decide +kernel, by decide +kernel⟩

/-- Two bytes for both 300 and 8 -/
example : unsignedEncode2 [0, 0] 300#64 2 = .ok ([0x82, 0x2c], 2) ∧ unsignedEncode2 [0, 0] 8#64 2 = .ok ([0x80, 8], 2) ∧ ([0x80, 8] : List Byte) < [0x82, 0x2c] :=
  ⟨by decide +kernel, by decide +kernel, by decide +kernel⟩

/-- That's why the signs have to be the same: -1 is encoded as 0x7f and 1 as 0x01. -/
example : signedEncode [0, 0] (-1) = .ok ([0x7f, 0], 1) ∧ signedEncode [0, 0] 1 = .ok ([1, 0], 1) ∧ ([1] : List Byte) < [0x7f] ∧
    signedEncode [0, 0] (-65) = .ok ([0xff, 0x3f], 2) := ⟨by decide +kernel, by decide +kernel, by decide +kernel, by decide +kernel⟩

end Verif.Datapack
