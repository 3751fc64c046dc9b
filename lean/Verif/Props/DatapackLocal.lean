import Verif.Props.DatapackTlv
import Verif.Props.DatapackMbn

/-!
# Decoding depends only on the bytes which are decoded: C144
-/

namespace Verif.Datapack
open Verif.C Spec

theorem take_prefix {f rest b : List Byte} (h1 : f.length ≤ b.length) (h2 : b.take f.length = (f ++ rest).take f.length) : b = f ++ b.drop f.length := by
  rw [List.take_left] at h2
  calc b = b.take f.length ++ b.drop f.length := (List.take_append_drop _ _).symm
    _ = f ++ b.drop f.length := by rw [h2]

/-- **C144** If an unsigned number has been decoded then only its own bytes matter: it's decoded to the same number wherever these bytes are, and whatever
comes before and after them, and the decoder moves past the same number of bytes. -/
theorem C144_unsigned (r r' : Range) (hr : r.Valid) (wantOut : Bool) (v : Option (BitVec 64)) (h : unsignedDecode wantOut r = .ok ⟨true, r', v⟩) :
    ∃ n : Nat, 0 < n ∧ n ≤ r.bytes.length ∧ r' = { r with ptr := r.ptr + n } ∧
      ∀ q : Range, q.Valid → n ≤ q.bytes.length → q.bytes.take n = r.bytes.take n →
        unsignedDecode wantOut q = .ok ⟨true, { q with ptr := q.ptr + n }, v⟩ := by
  by_cases hx : ∃ f rest w, r.bytes = f ++ rest ∧ UFrame f w
  · obtain ⟨f, rest, w, hb, hf⟩ := hx
    have hd := unsignedDecode_frame hr wantOut hb hf
    rw [h] at hd
    simp only [Except.ok.injEq, DecodeResult.mk.injEq, true_and] at hd
    obtain ⟨rfl, rfl⟩ := hd
    refine ⟨f.length, ?_, by rw [hb, List.length_append]; omega, rfl, ?_⟩
    · obtain ⟨init, last, rfl, _⟩ := hf.1; simp
    · intro q hq hl ht
      rw [hb] at ht
      exact unsignedDecode_frame hq wantOut (take_prefix hl ht) hf
  · rw [unsignedDecode_fail hr wantOut hx] at h
    cases h

theorem signed_local_wrap (r r' : Range) (hr : r.Valid) (wantOut : Bool) (v : Option Int) (h : signedDecode .wrap wantOut r = .ok ⟨true, r', v⟩) :
    ∃ f rest, IsFrame f ∧ r.bytes = f ++ rest ∧ r' = r.advance f.length ∧
      ∀ q : Range, q.Valid → f.length ≤ q.bytes.length → q.bytes.take f.length = r.bytes.take f.length →
        signedDecode .wrap wantOut q = .ok ⟨true, q.advance f.length, v⟩ := by
  obtain ⟨d1, d2, d3⟩ := C08_signed_decode_exact_partial r hr wantOut
  by_cases hx : ∃ f rest, r.bytes = f ++ rest ∧ ((∃ v, SFrame f v) ∨ Quirk f)
  · obtain ⟨f, rest, hb, ⟨w, hf⟩ | hf⟩ := hx
    · have hd := d1 f rest w hb hf
      rw [h] at hd
      simp only [Except.ok.injEq, DecodeResult.mk.injEq, true_and] at hd
      obtain ⟨rfl, rfl⟩ := hd
      refine ⟨f, rest, hf.1, hb, rfl, fun q hq hl ht => ?_⟩
      rw [hb] at ht
      exact (C08_signed_decode_exact_partial q hq wantOut).1 f _ w (take_prefix hl ht) hf
    · have hd := d2 f rest hb hf
      rw [h] at hd
      simp only [Except.ok.injEq, DecodeResult.mk.injEq, true_and] at hd
      obtain ⟨rfl, rfl⟩ := hd
      refine ⟨f, rest, hf.1, hb, rfl, fun q hq hl ht => ?_⟩
      rw [hb] at ht
      exact (C08_signed_decode_exact_partial q hq wantOut).2.1 f _ (take_prefix hl ht) hf
  · rw [d3 hx] at h
    cases h

/-- **C144** The same is true of signed numbers. -/
theorem C144_signed (mode : Mode) (r r' : Range) (hr : r.Valid) (wantOut : Bool) (v : Option Int)
    (h : signedDecode mode wantOut r = .ok ⟨true, r', v⟩) :
    ∃ n : Nat, 0 < n ∧ n ≤ r.bytes.length ∧ r' = { r with ptr := r.ptr + n } ∧
      ∀ q : Range, q.Valid → n ≤ q.bytes.length → q.bytes.take n = r.bytes.take n →
        signedDecode mode wantOut q = .ok ⟨true, { q with ptr := q.ptr + n }, v⟩ := by
  have hw : signedDecode .wrap wantOut r = .ok ⟨true, r', v⟩ := by
    cases mode with
    | wrap => exact h
    | strict =>
      obtain ⟨i1, i2⟩ := C08_iso_c_partial r hr wantOut
      by_cases hu : wantOut = true ∧ ∃ f rest, r.bytes = f ++ rest ∧ IsFrame f ∧ f.length = 9 ∧ sval128 f < 0
      · rw [i1 hu] at h
        cases h
      · rw [← i2 hu]
        exact h
  obtain ⟨f, rest, hf, hb, rfl, hq⟩ := signed_local_wrap r r' hr wantOut v hw
  refine ⟨f.length, ?_, by rw [hb, List.length_append]; omega, rfl, fun q hv hl ht => ?_⟩
  · obtain ⟨init, last, rfl, _⟩ := hf; simp
  · have hx := hq q hv hl ht
    cases mode with
    | wrap => exact hx
    | strict =>
      have hp : q.bytes = f ++ q.bytes.drop f.length := by rw [hb] at ht; exact take_prefix hl ht
      refine ((C08_iso_c_partial q hv wantOut).2 ?_).trans hx
      rintro ⟨hw, g, rest', hg, hgf, h9, hneg⟩
      rw [hp] at hg
      obtain ⟨rfl, -⟩ := C02_frame_unique hf hgf hg
      rw [(C08_iso_c_partial r hr wantOut).1 ⟨hw, f, rest, hb, hf, h9, hneg⟩] at h
      cases h

/-- **C144** TLVs are also decoded in the same way wherever their `k` bytes are. (If the length is 2^63 or more then only the tag and the length matter,
and the range isn't moved to the end of the TLV, see C12.) -/
theorem C144_tlv (mode : Mode) (r r' : Range) (hr : r.Valid) (hm : r.mem.length < 2 ^ 63) (tag : Nat) (v : Val)
    (h : tlvDecode mode r = .ok ⟨tag, r', some v⟩) :
    ∃ (k : Nat) (n m : Int), k ≤ r.bytes.length ∧ r' = { r with ptr := r.ptr + n } ∧ v.off = r.ptr + m ∧
      (¬ HugeHeader r.bytes → n = k ∧ 0 < m ∧ m + v.size = k) ∧
      ∀ q : Range, q.Valid → q.mem.length < 2 ^ 63 → k ≤ q.bytes.length → q.bytes.take k = r.bytes.take k →
        tlvDecode mode q = .ok ⟨tag, { q with ptr := q.ptr + n }, some ⟨q.ptr + m, v.size⟩⟩ := by
  by_cases hx : ∃ b rest tag value, r.bytes = b ++ rest ∧ IsTlv b tag value
  · obtain ⟨b, rest, tag', value, hb, ht⟩ := hx
    obtain ⟨w, h1, h2, h3, h4, h5⟩ := tlvDecode_ok hr hm mode hb ht
    rw [h] at h1
    simp only [Except.ok.injEq, TlvResult.mk.injEq, Option.some.injEq] at h1
    obtain ⟨rfl, rfl, rfl⟩ := h1
    have hl : value.length + 2 ≤ b.length := by
      obtain ⟨t, l, ht1, -, hl1, rfl⟩ := ht
      have a1 : 1 ≤ t.length := by obtain ⟨init, last, rfl, _⟩ := ht1.1; simp
      have a2 : 1 ≤ l.length := by obtain ⟨init, last, e, _⟩ := hl1.1; rw [e]; simp
      simp only [List.length_append]
      omega
    refine ⟨b.length, b.length, v.off - r.ptr, by rw [hb, List.length_append]; omega, rfl, by omega, fun _ => ⟨rfl, by omega, by omega⟩, ?_⟩
    intro q hq hqm hql hqt
    rw [hb] at hqt
    obtain ⟨w, g1, g2, g3, g4, g5⟩ := tlvDecode_ok hq hqm mode (take_prefix hql hqt) ht
    have e : w = ⟨q.ptr + (v.off - r.ptr), v.size⟩ := by
      cases w with
      | mk off size =>
        dsimp only at *
        rw [Val.mk.injEq]
        exact ⟨by omega, by omega⟩
    rw [g1, e]
    rfl
  · by_cases hh : HugeHeader r.bytes
    · obtain ⟨t, l, rest, tag', len, h1, h2, h3, h4, hb⟩ := id hh
      have hd := tlvDecode_huge hr hm mode hb h1 h2 h3 h4
      rw [h] at hd
      cases mode with
      | strict => cases hd
      | wrap =>
        dsimp only at hd
        simp only [Except.ok.injEq, TlvResult.mk.injEq, Option.some.injEq] at hd
        obtain ⟨rfl, rfl, rfl⟩ := hd
        have hk : (t ++ l).length = t.length + l.length := List.length_append
        refine ⟨t.length + l.length, (t.length + l.length : Nat) + len - 2 ^ 64, (t.length + l.length : Nat), ?_, ?_, rfl, fun hn => absurd hh hn, ?_⟩
        · rw [hb, List.length_append, List.length_append]; omega
        · congr 1; omega
        · intro q hq hqm hql hqt
          rw [hb, ← hk] at hqt
          have := tlvDecode_huge hq hqm .wrap (take_prefix (by omega) hqt) h1 h2 h3 h4
          dsimp only at this
          rw [this]
          congr 3; omega
    · rw [tlvDecode_fail hr mode hx hh] at h
      cases h

/-- The conditions are met: the same number and the same TLV in two places. -/
example : unsignedDecode true (Range.whole [0x85#8, 0x01#8, 7#8]) = .ok ⟨true, ⟨[0x85#8, 0x01#8, 7#8], 2, 3⟩, some 641⟩ ∧
    (Range.mk [9#8, 0x85#8, 0x01#8] 1 3).Valid ∧ (Range.mk [9#8, 0x85#8, 0x01#8] 1 3).bytes.take 2 = (Range.whole [0x85#8, 0x01#8, 7#8]).bytes.take 2 ∧
    tlvDecode .strict (Range.whole [1#8, 2#8, 3#8, 4#8, 5#8]) = .ok ⟨1, ⟨[1#8, 2#8, 3#8, 4#8, 5#8], 4, 5⟩, some ⟨2, 2⟩⟩ ∧
    tlvDecode .strict ⟨[7#8, 1#8, 2#8, 3#8, 4#8], 1, 5⟩ = .ok ⟨1, ⟨[7#8, 1#8, 2#8, 3#8, 4#8], 5, 5⟩, some ⟨3, 2⟩⟩ := by decide +kernel

end Verif.Datapack
