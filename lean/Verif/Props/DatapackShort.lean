import Verif.Proof.DatapackShort
import Verif.Props.DatapackTlv
import Verif.Model.DatapackSeq

/-!
# C133: encoding what has been decoded

`Spec.Short`, `Spec.SShort`, `Spec.ShortTlv` and `Spec.ShortSeq` say which encodings are the shortest ones.
-/

namespace Verif.Datapack
open Verif.C Spec

/-- **C133** (partial: if it's short). If a number has been decoded then there's enough room for it in the bytes it was decoded from, and encoding it
yields the same bytes if and only if these were the shortest ones. -/
theorem C133_unsigned_partial (r r' : Range) (hr : r.Valid) (v : BitVec 64) (h : unsignedDecode true r = .ok ⟨true, r', some v⟩) :
    ∃ f, r.bytes = f ++ r'.bytes ∧ ∀ buf : List Byte, f.length ≤ buf.length →
      ∃ enc, unsignedEncode buf v = .ok (enc ++ buf.drop enc.length, enc.length) ∧ enc.length ≤ f.length ∧ (enc = f ↔ Short f) := by
  by_cases hx : ∃ f rest w, r.bytes = f ++ rest ∧ UFrame f w
  · obtain ⟨f, rest, w, hb, hf⟩ := hx
    have hd := unsignedDecode_frame hr true hb hf
    rw [h] at hd
    simp only [Except.ok.injEq, DecodeResult.mk.injEq, true_and, if_true, Option.some.injEq] at hd
    obtain ⟨rfl, rfl⟩ := hd
    have hw : UFrame f (BitVec.ofNat 64 w).toNat := by
      rw [BitVec.toNat_ofNat, Nat.mod_eq_of_lt hf.2.2.2]
      exact hf
    refine ⟨f, ?_, ?_⟩
    · show r.bytes = f ++ (r.advance f.length).bytes
      rw [Range.advance_bytes hr hb]
      exact hb
    · intro buf hl
      have h1 : 1 ≤ f.length := by obtain ⟨init, last, rfl, _⟩ := hf.1; simp
      have hlt := val128_lt f
      rw [hw.2.2.1] at hlt
      have hs := (unsignedSize_spec (BitVec.ofNat 64 w)).2.2 _ h1 hlt
      obtain ⟨enc, e1, e2, e3⟩ := unsignedEncode_spec buf (BitVec.ofNat 64 w) (by omega)
      exact ⟨enc, by rw [e1]; exact e3, short_iff hw e2 e1⟩
  · have hd := unsignedDecode_fail hr true hx
    rw [h] at hd
    cases hd

example : unsignedDecode true (Range.whole [0x80#8, 0x85#8, 0x01#8, 7#8]) = .ok ⟨true, ⟨[0x80#8, 0x85#8, 0x01#8, 7#8], 3, 4⟩, some 641⟩ ∧
    unsignedEncode [0#8, 0#8, 0#8] 641 = .ok ([0x85#8, 0x01#8, 0#8], 2) := by decide +kernel

/-- **C133** doesn't hold for all numbers: if there are fewer than 64 bits then there's more than one way to encode them. -/
theorem C133_unsigned_refuted (v : BitVec 64) (hv : v.toNat < 2 ^ 63) : ∃ f g : List Byte, f ≠ g ∧
    unsignedDecode true (Range.whole f) = .ok ⟨true, (Range.whole f).advance f.length, some v⟩ ∧
    unsignedDecode true (Range.whole g) = .ok ⟨true, (Range.whole g).advance g.length, some v⟩ := by
  have valid : ∀ l : List Byte, (Range.whole l).Valid := fun l => ⟨by simp [Range.whole], by simp [Range.whole], by simp [Range.whole]⟩
  obtain ⟨f, h1, h2, _⟩ := unsignedEncode_spec (List.replicate 10 0#8) v (by simpa using unsignedSize_le v)
  have h9 : f.length ≤ 9 := by
    rw [h1]
    exact (unsignedSize_spec v).2.2 9 (by omega) (by omega)
  have h3 : UFrame (0x80#8 :: f) v.toNat := by
    obtain ⟨⟨init, last, e, hi, hl⟩, _, h5, h6⟩ := h2
    refine ⟨⟨0x80#8 :: init, last, by rw [e]; rfl, ?_, hl⟩, by simp; omega, ?_, h6⟩
    · intro b hb
      cases hb with
      | head => decide
      | tail _ hb => exact hi b hb
    · simp only [val128, h5]
      show 128 % 128 * _ + _ = _
      omega
  have e : BitVec.ofNat 64 v.toNat = v := by simp
  refine ⟨f, 0x80#8 :: f, ?_, ?_, ?_⟩
  · intro h
    have := congrArg List.length h
    simp at this
  · have := unsignedDecode_frame (valid f) true (f := f) (rest := []) (by simp [whole_bytes]) h2
    rw [e] at this
    exact this
  · have := unsignedDecode_frame (valid (0x80#8 :: f)) true (f := 0x80#8 :: f) (rest := []) (by simp [whole_bytes]) h3
    rw [e] at this
    exact this

/-- **C133** (partial: if it's short) for signed numbers. Frames of ten bytes beginning with 0x81 and 0xfe (see C08) are decoded to numbers which have other encodings. -/
theorem C133_signed_partial (mode : Mode) (r r' : Range) (hr : r.Valid) (v : Int) (h : signedDecode mode true r = .ok ⟨true, r', some v⟩) :
    ∃ f, r.bytes = f ++ r'.bytes ∧ ∀ buf : List Byte, f.length ≤ buf.length →
      ∃ enc, signedEncode buf v = .ok (enc ++ buf.drop enc.length, enc.length) ∧ enc.length ≤ f.length ∧ (enc = f ↔ SShort f ∧ ¬ Quirk f) := by
  have h : signedDecode .wrap true r = .ok ⟨true, r', some v⟩ := by
    cases mode with
    | wrap => exact h
    | strict =>
      obtain ⟨i1, i2⟩ := C08_iso_c_partial r hr true
      by_cases hu : true = true ∧ ∃ f rest, r.bytes = f ++ rest ∧ IsFrame f ∧ f.length = 9 ∧ sval128 f < 0
      · rw [i1 hu] at h
        cases h
      · rw [← i2 hu]
        exact h
  obtain ⟨d1, d2, d3⟩ := C08_signed_decode_exact_partial r hr true
  by_cases hx : ∃ f rest w, r.bytes = f ++ rest ∧ SFrame f w
  · obtain ⟨f, rest, w, hb, hf⟩ := hx
    have hd := d1 f rest w hb hf
    rw [h] at hd
    simp only [Except.ok.injEq, DecodeResult.mk.injEq, true_and, if_true, Option.some.injEq] at hd
    obtain ⟨rfl, rfl⟩ := hd
    refine ⟨f, by rw [Range.advance_bytes hr hb]; exact hb, ?_⟩
    intro buf hl
    have h1 : 1 ≤ f.length := by obtain ⟨init, last, rfl, _⟩ := hf.1; simp
    have hfit : Fits v f.length := by
      have := sval_bounds h1
      rw [hf.2.2.1] at this
      exact this
    have hs := (signedSize_spec v).2.2 _ h1 hfit
    obtain ⟨enc, e1, e2, e3⟩ := signedEncode_spec buf v (by omega) hf.2.2.2.1 hf.2.2.2.2
    obtain ⟨s1, s2⟩ := sshort_iff hf e2 e1
    refine ⟨enc, by rw [e1]; exact e3, s1, s2.trans ⟨fun h => ⟨h, ?_⟩, fun h => h.1⟩⟩
    rintro ⟨q1, q2, q3⟩
    rcases frame_cases q1 with ⟨b, rfl, _⟩ | ⟨msc, init, last, rfl, hm, hi, hla⟩
    · simp at q2
    · have h8 : init.length = 8 := by simpa using q2
      have := (sframe10 (last := last) hm h8).1.1 (by rw [hf.2.2.1]; exact hf.2.2.2)
      simp only [List.head?_cons, Option.some.injEq] at q3
      grind
  · by_cases hq : ∃ f rest, r.bytes = f ++ rest ∧ Quirk f
    · obtain ⟨f, rest, hb, hq⟩ := hq
      have hd := d2 f rest hb hq
      rw [h] at hd
      simp only [Except.ok.injEq, DecodeResult.mk.injEq, true_and, if_true, Option.some.injEq] at hd
      obtain ⟨rfl, rfl⟩ := hd
      refine ⟨f, by rw [Range.advance_bytes hr hb]; exact hb, ?_⟩
      intro buf hl
      have b1 := BitVec.le_toInt (BitVec.ofNat 64 (val128 f))
      have b2 := BitVec.toInt_lt (x := BitVec.ofNat 64 (val128 f))
      generalize (BitVec.ofNat 64 (val128 f)).toInt = v at *
      have b1 : -2 ^ 63 ≤ v := b1
      have b2 : v < 2 ^ 63 := b2
      have hs := signedSize_le v b1 b2
      have h10 := hq.2.1
      obtain ⟨enc, e1, e2, e3⟩ := signedEncode_spec buf v (by omega) b1 b2
      refine ⟨enc, by rw [e1]; exact e3, by omega, ⟨?_, fun h => (h.2 hq).elim⟩⟩
      intro h
      exact (hx ⟨f, rest, v, hb, h ▸ e2⟩).elim
    · have hd := d3 (by
        rintro ⟨f, rest, hb, ⟨w, hf⟩ | hf⟩
        · exact hx ⟨f, rest, w, hb, hf⟩
        · exact hq ⟨f, rest, hb, hf⟩)
      rw [h] at hd
      cases hd

/-- Numbers which take two bytes while one is enough, and one which takes all the ten -/
example : signedDecode .strict true (Range.whole [0xff#8, 0x7f#8]) = .ok ⟨true, ⟨[0xff#8, 0x7f#8], 2, 2⟩, some (-1)⟩ ∧
    signedEncode [0#8, 0#8] (-1) = .ok ([0x7f#8, 0#8], 1) ∧
    signedDecode .strict true (Range.whole [0x80#8, 0x40#8]) = .ok ⟨true, ⟨[0x80#8, 0x40#8], 2, 2⟩, some 64⟩ ∧
    signedEncode [0#8, 0#8] 64 = .ok ([0x80#8, 0x40#8], 2) ∧
    signedDecode .strict true (Range.whole (0x81#8 :: (List.replicate 8 0x80#8 ++ [0#8]))) =
      .ok ⟨true, ⟨0x81#8 :: (List.replicate 8 0x80#8 ++ [0#8]), 10, 10⟩, some (-2 ^ 63)⟩ ∧
    signedEncode (List.replicate 10 0#8) (-2 ^ 63) = .ok (0xff#8 :: (List.replicate 8 0x80#8 ++ [0#8]), 10) := by decide +kernel

/-- What's written by `gutil_tlv_encode` is the shortest TLV; it's not longer than any other one, and the same if that's the shortest too. -/
theorem tlv_short {buf b value : List Byte} {tag : Nat} (ht : IsTlv b tag value) (hl : b.length ≤ buf.length) :
    ∃ enc, tlvEncode buf (BitVec.ofNat 32 tag) (some value) = .ok (enc ++ buf.drop enc.length, enc.length) ∧ ShortTlv enc tag value ∧
      enc.length ≤ b.length ∧ (enc = b ↔ ShortTlv b tag value) := by
  obtain ⟨t, l, h1, h2, h3, rfl⟩ := ht
  have hv := h3.2.2.2
  have n1 : (BitVec.ofNat 32 tag).toNat = tag := by rw [BitVec.toNat_ofNat]; exact Nat.mod_eq_of_lt (by omega)
  have n2 : ((BitVec.ofNat 32 tag).setWidth 64).toNat = tag := by
    rw [BitVec.toNat_setWidth, n1]
    exact Nat.mod_eq_of_lt (by omega)
  have n3 : (BitVec.ofNat 64 value.length).toNat = value.length := by rw [BitVec.toNat_ofNat]; exact Nat.mod_eq_of_lt hv
  have k1 : UFrame t ((BitVec.ofNat 32 tag).setWidth 64).toNat := by rw [n2]; exact h1
  have k3 : UFrame l (BitVec.ofNat 64 value.length).toNat := by rw [n3]; exact h3
  have size : ∀ (f : List Byte) (v : BitVec 64), UFrame f v.toNat → unsignedSize v ≤ f.length := by
    intro f v hf
    have hlt := val128_lt f
    rw [hf.2.2.1] at hlt
    exact (unsignedSize_spec v).2.2 _ (by obtain ⟨init, last, rfl, _⟩ := hf.1; simp) hlt
  have z1 := size _ _ k1
  have z3 := size _ _ k3
  simp only [List.length_append] at hl
  obtain ⟨enc, ⟨t', l', g1, _, g3, rfl⟩, e2, e3⟩ := C10_tlv_encode buf (BitVec.ofNat 32 tag) (by omega) (some value) value (.inl rfl) hv (by omega)
  rw [n1] at g1
  have j1 : UFrame t' ((BitVec.ofNat 32 tag).setWidth 64).toNat := by rw [n2]; exact g1
  have j3 : UFrame l' (BitVec.ofNat 64 value.length).toNat := by rw [n3]; exact g3
  have y1 := size _ _ j1
  have y3 := size _ _ j3
  simp only [List.length_append] at e2
  have p1 : t'.length = unsignedSize ((BitVec.ofNat 32 tag).setWidth 64) := by omega
  have p3 : l'.length = unsignedSize (BitVec.ofNat 64 value.length) := by omega
  obtain ⟨q1, q2⟩ := short_iff k1 j1 p1
  obtain ⟨q3, q4⟩ := short_iff k3 j3 p3
  have hs : ShortTlv (t' ++ l' ++ value) tag value := ⟨t', l', g1, h2, g3, (short_iff j1 j1 p1).2.1 rfl, (short_iff j3 j3 p3).2.1 rfl, rfl⟩
  refine ⟨t' ++ l' ++ value, e3, hs, by simp only [List.length_append]; omega, ?_, ?_⟩
  · intro h
    rw [← h]
    exact hs
  · rintro ⟨u, m, u1, _, u3, u4, u5, u6⟩
    have c : t ++ (l ++ value) = u ++ (m ++ value) := by simpa using u6
    obtain ⟨rfl, c2⟩ := frame_unique h1.1 u1.1 c
    obtain ⟨rfl, _⟩ := frame_unique h3.1 u3.1 c2
    rw [q2.2 u4, q4.2 u5]

/-- **C133** (partial: if it's short, and the length isn't impossible, see C12) for TLVs. -/
theorem C133_tlv_partial (mode : Mode) (r r' : Range) (hr : r.Valid) (hm : r.mem.length < 2 ^ 63) (hh : ¬ HugeHeader r.bytes) (tag : Nat) (v : Val)
    (h : tlvDecode mode r = .ok ⟨tag, r', some v⟩) :
    ∃ b, r.bytes = b ++ r'.bytes ∧ ∀ buf : List Byte, b.length ≤ buf.length →
      ∃ enc, tlvEncode buf (BitVec.ofNat 32 tag) (some (v.bytes r.mem)) = .ok (enc ++ buf.drop enc.length, enc.length) ∧
        enc.length ≤ b.length ∧ (enc = b ↔ ShortTlv b tag (v.bytes r.mem)) := by
  by_cases hx : ∃ b rest tag value, r.bytes = b ++ rest ∧ IsTlv b tag value
  · obtain ⟨b, rest, tag', value, hb, ht⟩ := hx
    obtain ⟨v', v1, v2, v3, v4⟩ := tlvDecode_ok hr hm mode hb ht
    rw [h] at v1
    simp only [Except.ok.injEq, TlvResult.mk.injEq, Option.some.injEq] at v1
    obtain ⟨rfl, rfl, rfl⟩ := v1
    refine ⟨b, by rw [Range.advance_bytes hr hb]; exact hb, ?_⟩
    intro buf hl
    rw [v3]
    obtain ⟨enc, e1, _, e2, e3⟩ := tlv_short (buf := buf) ht hl
    exact ⟨enc, e1, e2, e3⟩
  · rw [tlvDecode_fail hr mode hx hh] at h
    cases h

example : tlvDecode .strict (Range.whole [5#8, 0x80#8, 1#8, 9#8]) = .ok ⟨5, ⟨[5#8, 0x80#8, 1#8, 9#8], 4, 4⟩, some ⟨3, 1⟩⟩ ∧
    tlvEncode (List.replicate 4 0#8) 5 (some [9#8]) = .ok ([5#8, 1#8, 9#8, 0#8], 3) := by decide +kernel

/-- **C133** (partial: if they are short) for sequences of TLVs: if these are encoded again then they don't take more room, and they are the same if and only if each one was the
shortest one. -/
theorem C133_sequence_partial (cs : List Byte) (es : List Entry) (h : IsSeq cs es) : ∀ buf : List Byte, cs.length ≤ buf.length →
    ∃ bs, tlvsEncode buf es = .ok (bs ++ buf.drop bs.length, bs.length) ∧ IsSeq bs es ∧ bs.length ≤ cs.length ∧ (bs = cs ↔ ShortSeq cs es) := by
  induction h with
  | nil => intro buf _; exact ⟨[], by simp [tlvsEncode], .nil, Nat.le_refl _, ⟨fun _ => .nil, fun _ => rfl⟩⟩
  | @cons b bs e es ht h0 hs ih =>
    intro buf hl
    simp only [List.length_append] at hl
    obtain ⟨enc, e1, e2, e3, e4⟩ := tlv_short (buf := buf) ht (by omega)
    obtain ⟨bs', i1, i2, i3, i4⟩ := ih (buf.drop enc.length) (by rw [List.length_drop]; omega)
    have isTlv : IsTlv enc e.tag e.value := by
      obtain ⟨t, l, g1, g2, g3, _, _, g4⟩ := e2
      exact ⟨t, l, g1, g2, g3, g4⟩
    refine ⟨enc ++ bs', ?_, .cons isTlv h0 i2, by simp only [List.length_append]; omega, ?_⟩
    · unfold tlvsEncode
      rw [e1, ok_bind]
      dsimp only
      rw [List.drop_left, i1, ok_bind, List.take_left]
      simp
    · constructor
      · intro hc
        obtain ⟨rfl, _, _, rfl⟩ := tlv_unique isTlv ht hc
        exact .cons (e4.1 rfl) h0 (i4.1 rfl)
      · intro hc
        generalize hx : b ++ bs = x at hc
        cases hc with
        | @cons b2 bs2 _ _ c1 c2 c3 =>
          have t2 : IsTlv b2 e.tag e.value := by
            obtain ⟨t, l, g1, g2, g3, _, _, g4⟩ := c1
            exact ⟨t, l, g1, g2, g3, g4⟩
          obtain ⟨rfl, _, _, rfl⟩ := tlv_unique ht t2 hx
          rw [e4.2 c1, i4.2 c3]

example : IsSeq [5#8, 0x80#8, 1#8, 9#8, 6#8, 0#8] [⟨5, [9#8]⟩, ⟨6, []⟩] ∧
    tlvsEncode (List.replicate 6 0#8) [⟨5, [9#8]⟩, ⟨6, []⟩] = .ok ([5#8, 1#8, 9#8, 6#8, 0#8, 0#8], 5) := by
  refine ⟨?_, by decide +kernel⟩
  have f1 : UFrame [5#8] 5 := ⟨isFrame_single (by decide), by decide, by decide, by decide⟩
  have f2 : UFrame [0x80#8, 1#8] 1 := ⟨⟨[0x80#8], 1#8, rfl, by decide, by decide⟩, by decide, by decide, by decide⟩
  have f3 : UFrame [6#8] 6 := ⟨isFrame_single (by decide), by decide, by decide, by decide⟩
  have f4 : UFrame [0#8] 0 := ⟨isFrame_single (by decide), by decide, by decide, by decide⟩
  exact .cons (b := [5#8, 0x80#8, 1#8, 9#8]) (bs := [6#8, 0#8]) (e := ⟨5, [9#8]⟩) ⟨_, _, f1, by decide, f2, rfl⟩ (by decide)
    (.cons (b := [6#8, 0#8]) (bs := []) (e := ⟨6, []⟩) ⟨_, _, f3, by decide, f4, rfl⟩ (by decide) .nil)

end Verif.Datapack
