import Verif.Proof.DatapackSigned

/-!
# C01-C09: multi-byte numbers

`Spec.IsFrame`, `Spec.UFrame`, `Spec.SFrame`, `Spec.val128`, `Spec.sval128` say what an
encoded number is; `Range.Valid` and `Range.bytes` say what a `GUtilRange` stands for.
A result `.ok` means that there was no undefined behaviour, in particular that nothing
outside of the buffer or of the range's object was accessed.
-/

namespace Verif.Datapack
open Verif.C Spec

/-- **C01** Encoding any 64-bit number and decoding it yields the number, consumes exactly
the encoded bytes and leaves alone whatever follows. -/
theorem C01_unsigned_round_trip (v : BitVec 64) (buf : List Byte)
    (hbuf : unsignedSize v ≤ buf.length) :
    ∃ enc, unsignedEncode buf v = .ok (enc ++ buf.drop enc.length, enc.length) ∧
      enc.length = unsignedSize v ∧
      ∀ (r : Range) (tail : List Byte), r.Valid → r.bytes = enc ++ tail →
        unsignedDecode true r = .ok ⟨true, r.advance enc.length, some v⟩ ∧
        (r.advance enc.length).bytes = tail := by
  obtain ⟨f, h1, h2, h3⟩ := unsignedEncode_spec buf v hbuf
  refine ⟨f, by rw [h1]; exact h3, h1, ?_⟩
  intro r tail hr hb
  refine ⟨?_, ?_⟩
  · rw [unsignedDecode_frame hr true hb h2]
    simp [Range.advance]
  · have hl := Range.length_bytes hr
    obtain ⟨r0, r1, r2⟩ := hr
    have hd : (r.advance f.length).bytes = r.bytes.drop f.length := by
      rw [hb] at hl
      simp only [List.length_append] at hl
      simp only [Range.bytes, Range.advance, List.drop_take, List.drop_drop]
      congr 2 <;> omega
    rw [hd, hb]; simp

/-- The hypothesis is met by every buffer of 10 bytes: that's what `unsignedSize` is at
most. -/
theorem C01_buffer_of_ten_is_enough (v : BitVec 64) : unsignedSize v ≤ 10 := unsignedSize_le v

/-- **C02** The decoder accepts exactly the frames of at most 10 bytes whose value fits in
64 bits, returns that value and moves past the frame; otherwise it returns FALSE and
neither the range nor the output change. It doesn't read outside of the range. -/
theorem C02_unsigned_decode_exact (r : Range) (hr : r.Valid) (wantOut : Bool) :
    (∀ f rest v, r.bytes = f ++ rest → UFrame f v →
      unsignedDecode wantOut r = .ok ⟨true, r.advance f.length,
        if wantOut then some (BitVec.ofNat 64 v) else none⟩) ∧
    ((¬ ∃ f rest v, r.bytes = f ++ rest ∧ UFrame f v) →
      unsignedDecode wantOut r = .ok ⟨false, r, none⟩) :=
  ⟨fun _ _ _ hb hf => unsignedDecode_frame hr wantOut hb hf, unsignedDecode_fail hr wantOut⟩

/-- Two frames starting the same range are the same frame, so that C02 determines the
result. -/
theorem C02_frame_unique {f g x y : List Byte} (hf : IsFrame f) (hg : IsFrame g)
    (h : f ++ x = g ++ y) : f = g ∧ x = y := frame_unique hf hg h

/-- Both alternatives of C02 occur: -/
example : UFrame [0x81#8, 0x01#8] 129 := ⟨⟨[0x81#8], 0x01#8, rfl, by decide, by decide⟩, by decide, by decide, by decide⟩
example : ¬ ∃ f rest v, (Range.whole [0xff#8]).bytes = f ++ rest ∧ UFrame f v := by
  rintro ⟨f, rest, v, hb, hf⟩
  exact frame_not_cont (init := [0xff#8]) (by decide) hf.1 hb
example : (Range.whole [0x81#8, 0x01#8, 0x7f#8]).Valid := by decide

/-- **C03** The size is the least `n ≥ 1` such that the value has at most `n` base-128
digits; the encoder returns that size and writes exactly that many bytes; and no shorter
sequence of bytes decodes to that value. -/
theorem C03_unsigned_size_minimal (v : BitVec 64) :
    (1 ≤ unsignedSize v ∧ v.toNat < 128 ^ unsignedSize v ∧
      ∀ m, 1 ≤ m → v.toNat < 128 ^ m → unsignedSize v ≤ m) ∧
    (∀ buf : List Byte, unsignedSize v ≤ buf.length → ∃ enc,
      enc.length = unsignedSize v ∧
      unsignedEncode buf v = .ok (enc ++ buf.drop (unsignedSize v), unsignedSize v)) ∧
    (∀ bs : List Byte, bs.length < unsignedSize v → ∀ x,
      unsignedDecode true (Range.whole bs) = .ok x → x.out ≠ some v) := by
  refine ⟨unsignedSize_spec v, fun buf h => ?_, fun bs hlt x hx hv => ?_⟩
  · obtain ⟨f, h1, _, h3⟩ := unsignedEncode_spec buf v h
    exact ⟨f, h1, h3⟩
  · have hr : (Range.whole bs).Valid := ⟨by simp [Range.whole], by simp [Range.whole],
      by simp [Range.whole]⟩
    have hbytes : (Range.whole bs).bytes = bs := by simp [Range.whole, Range.bytes]
    by_cases h : ∃ f rest w, (Range.whole bs).bytes = f ++ rest ∧ UFrame f w
    · obtain ⟨f, rest, w, hb, hf⟩ := h
      have := unsignedDecode_frame hr true hb hf
      rw [hx] at this
      cases this
      rw [if_pos rfl, Option.some.injEq] at hv
      have h1 := val128_lt f
      rw [hf.2.2.1] at h1
      have h2 : v.toNat = w := by
        rw [← hv, BitVec.toNat_ofNat, Nat.mod_eq_of_lt hf.2.2.2]
      have hlen : f.length ≤ bs.length := by
        rw [← hbytes, hb]; simp
      have h3 : 1 ≤ f.length := by
        obtain ⟨init, last, rfl, _⟩ := hf.1; simp
      have := (unsignedSize_spec v).2.2 f.length h3 (by omega)
      omega
    · have := unsignedDecode_fail hr true h
      rw [hx] at this
      cases this
      simp at hv

example : unsignedSize 127 = 1 ∧ unsignedSize 128 = 2 ∧ unsignedSize (-1) = 10 := by decide +kernel

/-- **C04** Encoding with an explicit size: exactly `size` bytes are written, they form a
frame which spells the value modulo `128 ^ size`; in particular any size between the
minimal one and 10 decodes to the value itself. A zero size writes nothing. A buffer which
is too small is written past its end. -/
theorem C04_unsigned_encode2 (v : BitVec 64) (size : Nat) (buf : List Byte) :
    (1 ≤ size → size ≤ buf.length → ∃ enc, enc.length = size ∧ IsFrame enc ∧
      val128 enc = v.toNat % 128 ^ size ∧
      unsignedEncode2 buf v size = .ok (enc ++ buf.drop size, size) ∧
      (unsignedSize v ≤ size → size ≤ 10 → UFrame enc v.toNat) ∧
      (unsignedSize v ≤ size → size ≤ 10 → ∀ (r : Range) (tail : List Byte), r.Valid →
        r.bytes = enc ++ tail →
        unsignedDecode true r = .ok ⟨true, r.advance size, some v⟩)) ∧
    unsignedEncode2 buf v 0 = .ok (buf, 0) ∧
    (buf.length < size → unsignedEncode2 buf v size = .error .oobWrite) := by
  refine ⟨fun h1 h2 => ?_, rfl, unsignedEncode2_overflow buf v size⟩
  obtain ⟨f, g1, g2, g3, g4⟩ := unsignedEncode2_spec buf v size h1 h2
  have key : unsignedSize v ≤ size → size ≤ 10 → UFrame f v.toNat := by
    intro hs h10
    have hlt : v.toNat < 128 ^ size :=
      Nat.lt_of_lt_of_le (unsignedSize_spec v).2.1 (Nat.pow_le_pow_right (by omega) hs)
    exact ⟨g2, by omega, by rw [g3, Nat.mod_eq_of_lt hlt], v.isLt⟩
  refine ⟨f, g1, g2, g3, g4, key, fun hs h10 r tail hr hb => ?_⟩
  rw [unsignedDecode_frame hr true hb (key hs h10), g1]
  simp [Range.advance]

/-- **C04** With any size up to 10, the bytes decode to the value modulo 128^size. -/
theorem C04_decodes_modulo (v : BitVec 64) (size : Nat) (h1 : 1 ≤ size) (h10 : size ≤ 10) (buf : List Byte) (hb : size ≤ buf.length) :
    ∃ enc, enc.length = size ∧ unsignedEncode2 buf v size = .ok (enc ++ buf.drop size, size) ∧
      ∀ (r : Range) (tail : List Byte), r.Valid → r.bytes = enc ++ tail →
        unsignedDecode true r = .ok ⟨true, r.advance size, some (BitVec.ofNat 64 (v.toNat % 128 ^ size))⟩ := by
  obtain ⟨f, g1, g2, g3, g4⟩ := unsignedEncode2_spec buf v size h1 hb
  have key : UFrame f (v.toNat % 128 ^ size) :=
    ⟨g2, by omega, g3, Nat.lt_of_le_of_lt (Nat.mod_le _ _) v.isLt⟩
  refine ⟨f, g1, g4, fun r tail hr hb => ?_⟩
  rw [unsignedDecode_frame hr true hb key, g1]
  simp [Range.advance]

example : unsignedEncode2 [0#8, 0#8, 0#8, 7#8] 0x81 3 = .ok ([0x80#8, 0x81#8, 0x01#8, 7#8], 3) := by
  decide +kernel
example : unsignedEncode2 [0#8] 0x81 1 = .ok ([0x01#8], 1) := by decide +kernel

/-- **C05** (wrap-around arithmetic) Encoding any `gint64` and decoding it yields the
number, consumes exactly the encoded bytes and leaves alone whatever follows. -/
theorem C05_signed_round_trip_wrap (v : Int) (h1 : -2 ^ 63 ≤ v) (h2 : v < 2 ^ 63)
    (buf : List Byte) (hbuf : signedSize v ≤ buf.length) :
    ∃ enc, signedEncode buf v = .ok (enc ++ buf.drop enc.length, enc.length) ∧
      enc.length = signedSize v ∧
      ∀ (r : Range) (tail : List Byte), r.Valid → r.bytes = enc ++ tail →
        signedDecode .wrap true r = .ok ⟨true, r.advance enc.length, some v⟩ := by
  obtain ⟨f, g1, g2, g3⟩ := signedEncode_spec buf v hbuf h1 h2
  refine ⟨f, by rw [g1]; exact g3, g1, ?_⟩
  intro r tail hr hb
  obtain ⟨hfr, h10, hsv, _, _⟩ := g2
  rcases frame_cases hfr with ⟨b, rfl, hlt⟩ | ⟨msc, init, last, rfl, hm, hi, hl⟩
  · rw [signedDecode_single hr .wrap true (by simpa using hb) hlt, hsv]; rfl
  · simp only [List.length_cons, List.length_append, List.length_nil] at h10
    have hb' : r.bytes = msc :: (init ++ last :: tail) := by simpa using hb
    rcases Nat.lt_or_ge init.length 8 with h | h
    · rw [signedDecode_multi9 hr .wrap true hb' hm hi hl (by omega) (by intro h; cases h), hsv]
      simp [Range.advance]; omega
    · have h8 : init.length = 8 := by omega
      obtain ⟨s1, s2⟩ := sframe10 (last := last) hm h8
      have hmsc := s1.1 (by rw [hsv]; exact ⟨h1, h2⟩)
      rw [signedDecode_multi10 hr .wrap true hb' hm hi hl h8, if_pos (by grind), s2 hmsc, hsv]
      simp [Range.advance, h8]

/-- **C05** (ISO C) The same, without undefined behaviour, for all the numbers except those
which take 9 bytes and are negative, ... -/
theorem C05_signed_round_trip_partial (v : Int) (h1 : -2 ^ 63 ≤ v) (h2 : v < 2 ^ 63)
    (hv : ¬ (-2 ^ 62 ≤ v ∧ v < -2 ^ 55))
    (buf : List Byte) (hbuf : signedSize v ≤ buf.length) :
    ∃ enc, signedEncode buf v = .ok (enc ++ buf.drop enc.length, enc.length) ∧
      enc.length = signedSize v ∧
      ∀ (r : Range) (tail : List Byte), r.Valid → r.bytes = enc ++ tail →
        signedDecode .strict true r = .ok ⟨true, r.advance enc.length, some v⟩ := by
  obtain ⟨f, g1, g2, g3⟩ := signedEncode_spec buf v hbuf h1 h2
  refine ⟨f, by rw [g1]; exact g3, g1, ?_⟩
  intro r tail hr hb
  obtain ⟨hfr, h10, hsv, _, _⟩ := g2
  rcases frame_cases hfr with ⟨b, rfl, hlt⟩ | ⟨msc, init, last, rfl, hm, hi, hl⟩
  · rw [signedDecode_single hr .strict true (by simpa using hb) hlt, hsv]; rfl
  · have hlen9 : signedSize v = init.length + 2 := by rw [← g1]; simp
    simp only [List.length_cons, List.length_append, List.length_nil] at h10
    have hb' : r.bytes = msc :: (init ++ last :: tail) := by simpa using hb
    rcases Nat.lt_or_ge init.length 8 with h | h
    · rw [signedDecode_multi9 hr .strict true hb' hm hi hl (by omega), hsv]
      · simp [Range.advance]; omega
      · intro _ _ h7
        rcases Nat.lt_or_ge (msc.toNat % 128) 64 with hc | hc
        · exact hc
        · exfalso
          have hsd := sign_digit msc (init ++ [last])
          have hneg : v < 0 := by
            rw [← hsv, sval128, if_neg]
            · have := val128_lt (msc :: (init ++ [last]))
              rw [npow128] at this
              have hcast : ((2 ^ (7 * (msc :: (init ++ [last])).length) : Nat) : Int) =
                2 ^ (7 * (msc :: (init ++ [last])).length) := by simp
              omega
            · simp only [List.length_cons] at hsd ⊢
              rw [hsd]; omega
          have hf := (signedSize_spec v).2.1
          have hmin := (signedSize_spec v).2.2 8 (by omega)
          rw [hlen9, h7] at hf hmin
          have : ¬ Fits v 8 := fun hfit => by have := hmin hfit; omega
          unfold Fits at hf this
          omega
    · have h8 : init.length = 8 := by omega
      obtain ⟨s1, s2⟩ := sframe10 (last := last) hm h8
      have hmsc := s1.1 (by rw [hsv]; exact ⟨h1, h2⟩)
      rw [signedDecode_multi10 hr .strict true hb' hm hi hl h8, if_pos (by grind), s2 hmsc, hsv]
      simp [Range.advance, h8]

/-- ... and for those, the decoder does run into undefined behaviour (signed overflow in
`(G_GINT64_CONSTANT(1) << 63) - 1`), every time. -/
theorem C05_signed_round_trip_ub (v : Int) (h1 : -2 ^ 62 ≤ v) (h2 : v < -2 ^ 55)
    (buf : List Byte) (hbuf : signedSize v ≤ buf.length) :
    ∃ enc, signedEncode buf v = .ok (enc ++ buf.drop enc.length, enc.length) ∧
      ∀ (r : Range) (tail : List Byte), r.Valid → r.bytes = enc ++ tail →
        signedDecode .strict true r = .error .signedOverflow := by
  obtain ⟨f, g1, g2, g3⟩ := signedEncode_spec buf v hbuf (by omega) (by omega)
  refine ⟨f, by rw [g1]; exact g3, ?_⟩
  intro r tail hr hb
  obtain ⟨hfr, h10, hsv, _, _⟩ := g2
  have hs9 : signedSize v = 9 := by
    obtain ⟨a, b, c⟩ := signedSize_spec v
    have h9 := c 9 (by omega) ⟨by omega, by omega⟩
    have : ∀ k, k ≤ 8 → signedSize v = k → False := by
      intro k hk e
      rw [e] at b
      have : (2 : Int) ^ (7 * k - 1) ≤ 2 ^ 55 := pow_mono (by omega)
      have := b.1
      omega
    rcases Nat.lt_or_ge (signedSize v) 9 with h | h
    · exact (this _ (by omega) rfl).elim
    · omega
  rw [hs9] at g1
  rcases frame_cases hfr with ⟨b, rfl, hlt⟩ | ⟨msc, init, last, rfl, hm, hi, hl⟩
  · simp at g1
  · have h7 : init.length = 7 := by simpa using g1
    have hb' : r.bytes = msc :: (init ++ last :: tail) := by simpa using hb
    refine signedDecode_multi9_ub hr hb' hm hi hl h7 ?_
    rcases Nat.lt_or_ge (msc.toNat % 128) 64 with hc | hc
    · have hsd := (sign_digit msc (init ++ [last])).2 hc
      rw [sval128, if_pos (by simpa using hsd)] at hsv
      omega
    · exact hc

example : signedDecode .strict true (Range.whole [0xc0#8, 0x80#8, 0x80#8, 0x80#8, 0x80#8, 0x80#8,
    0x80#8, 0x80#8, 0x00#8]) = .error .signedOverflow := by decide +kernel
example : signedEncode (List.replicate 9 0#8) (-2 ^ 62) = .ok ([0xc0#8, 0x80#8, 0x80#8, 0x80#8,
    0x80#8, 0x80#8, 0x80#8, 0x80#8, 0x00#8], 9) := by decide +kernel

/-- **C06** The size is the least `n ≥ 1` such that the value fits in `7 * n` bits of two's
complement; the encoder returns that size and writes exactly that many bytes. -/
theorem C06_signed_size_minimal (v : Int) (h1 : -2 ^ 63 ≤ v) (h2 : v < 2 ^ 63) :
    (1 ≤ signedSize v ∧ Fits v (signedSize v) ∧
      ∀ m, 1 ≤ m → Fits v m → signedSize v ≤ m) ∧
    signedSize v ≤ 10 ∧
    (∀ buf : List Byte, signedSize v ≤ buf.length → ∃ enc,
      enc.length = signedSize v ∧ SFrame enc v ∧
      signedEncode buf v = .ok (enc ++ buf.drop (signedSize v), signedSize v)) :=
  ⟨signedSize_spec v, signedSize_le v h1 h2, fun buf h => signedEncode_spec buf v h h1 h2⟩

example : signedSize 63 = 1 ∧ signedSize 64 = 2 ∧ signedSize (-64) = 1 ∧ signedSize (-65) = 2 ∧
    signedSize (2 ^ 63 - 1) = 10 ∧ signedSize (-2 ^ 63) = 10 := by decide +kernel

/-- Fixed size signed encoding (part of **C06**): exactly `size` bytes are written, and they
spell the value if it fits. -/
theorem C06_signed_encode2 (v : Int) (h1 : -2 ^ 63 ≤ v) (h2 : v < 2 ^ 63) (size : Nat)
    (buf : List Byte) (hs1 : 1 ≤ size) (hs2 : size ≤ buf.length) (hs10 : size ≤ 10) :
    ∃ enc, enc.length = size ∧ IsFrame enc ∧ (val128 enc : Int) = v % 128 ^ size ∧
      signedEncode2 buf v size = .ok (enc ++ buf.drop size, size) ∧
      (signedSize v ≤ size → SFrame enc v) := by
  obtain ⟨f, g1, g2, g3, g4⟩ := signedEncode2_spec buf v size hs1 hs2 hs10 h1 h2
  refine ⟨f, g1, g2, g3, g4, fun hs => ?_⟩
  have hfit := (signedSize_spec v).2.1
  have hmono : (2 : Int) ^ (7 * signedSize v - 1) ≤ 2 ^ (7 * size - 1) := pow_mono (by omega)
  rw [← g1] at g3 hmono hs1
  exact ⟨g2, by omega, sval128_eq hs1 g3 (by have := hfit.1; omega) (by have := hfit.2; omega),
    h1, h2⟩

/-- **C06** With sizes over 10 ("must be a programming error", src/gutil_datapack.c:105) numbers which aren't negative still are
encoded, and negative ones are an undefined shift. -/
theorem C06_oversized (v : Int) (h1 : -2 ^ 63 ≤ v) (h2 : v < 2 ^ 63) (size : Nat) (buf : List Byte) (hs : 10 < size) (hs' : size < 2 ^ 29)
    (hb : size ≤ buf.length) :
    (0 ≤ v → ∃ enc, enc.length = size ∧ IsFrame enc ∧ (val128 enc : Int) = v ∧ signedEncode2 buf v size = .ok (enc ++ buf.drop size, size)) ∧
    (v < 0 → signedEncode2 buf v size = .error .badShift) :=
  signedEncode2_oversized buf v size hs hs' hb h1 h2

/-- An oversized signed encoding of a negative number ("must be a programming error",
src/gutil_datapack.c:105) is undefined behaviour rather than a failure. -/
example : signedEncode2 (List.replicate 11 0#8) (-1) 11 = .error .badShift := by decide +kernel

/-- The header's claim about signed numbers, at full strength: whenever the decoder
succeeds, the result is the two's complement number spelled by the bytes and it's negative
iff bit 0x40 of the first byte is set. -/
def C07_claim (mode : Mode) : Prop :=
  ∀ (r : Range), r.Valid → ∀ x, signedDecode mode true r = .ok x → x.ret = true →
    ∃ f rest v, r.bytes = f ++ rest ∧ IsFrame f ∧ x.out = some v ∧ v = sval128 f ∧
      (v < 0 ↔ ∃ b bs, f = b :: bs ∧ b &&& 0x40#8 ≠ 0#8)

/-- **C07** is false: the 10-byte frame `fe ff..ff 7f` has the sign bit set and decodes to a
positive number. -/
theorem C07_refuted (mode : Mode) : ¬ C07_claim mode := by
  intro h
  have hv : (Range.whole [0xfe#8, 0xff#8, 0xff#8, 0xff#8, 0xff#8, 0xff#8, 0xff#8, 0xff#8,
    0xff#8, 0x7f#8]).Valid := by decide
  have hx : signedDecode mode true (Range.whole [0xfe#8, 0xff#8, 0xff#8, 0xff#8, 0xff#8, 0xff#8,
    0xff#8, 0xff#8, 0xff#8, 0x7f#8]) = .ok ⟨true, ⟨[0xfe#8, 0xff#8, 0xff#8, 0xff#8, 0xff#8, 0xff#8,
    0xff#8, 0xff#8, 0xff#8, 0x7f#8], 10, 10⟩, some 9223372036854775807⟩ := by
    cases mode <;> decide +kernel
  obtain ⟨f, rest, v, hb, hf, ho, _, hs⟩ := h _ hv _ hx rfl
  have hv : v = 9223372036854775807 := by simpa using ho.symm
  have hbytes : (Range.whole [0xfe#8, 0xff#8, 0xff#8, 0xff#8, 0xff#8, 0xff#8, 0xff#8, 0xff#8,
    0xff#8, 0x7f#8]).bytes = [0xfe#8, 0xff#8, 0xff#8, 0xff#8, 0xff#8, 0xff#8, 0xff#8, 0xff#8,
    0xff#8, 0x7f#8] := by decide
  rw [hbytes] at hb
  have : v < 0 := by
    rw [hs]
    cases f with
    | nil => obtain ⟨i, l, e, _⟩ := hf; simp at e
    | cons b bs =>
      rw [List.cons_append, List.cons.injEq] at hb
      exact ⟨b, bs, rfl, by rw [← hb.1]; decide⟩
  omega

/-- **C07**, what holds: the claim is true of everything the decoder accepts except the
10-byte frames starting with 0x81 or 0xfe (`Quirk`). -/
theorem C07_signed_decode_sign_partial (mode : Mode) (r : Range) (hr : r.Valid)
    (x : DecodeResult Int) (hx : signedDecode mode true r = .ok x) (hret : x.ret = true) :
    ∃ f rest v, r.bytes = f ++ rest ∧ IsFrame f ∧ x.out = some v ∧
      (Quirk f ∨ (v = sval128 f ∧ (v < 0 ↔ ∃ b bs, f = b :: bs ∧ b &&& 0x40#8 ≠ 0#8))) := by
  have sgn : ∀ b bs, IsFrame (b :: bs) → (sval128 (b :: bs) < 0 ↔
      ∃ b' bs', b :: bs = b' :: bs' ∧ b' &&& 0x40#8 ≠ 0#8) := by
    intro b bs hf
    have hsd := sign_digit b bs
    have hlt := val128_lt (b :: bs)
    rw [npow128] at hlt
    have hcast : ((2 ^ (7 * (b :: bs).length) : Nat) : Int) = 2 ^ (7 * (b :: bs).length) := by simp
    have h40 := byte40cont b
    constructor
    · intro h
      refine ⟨b, bs, rfl, ?_⟩
      rw [h40]
      rcases Nat.lt_or_ge (b.toNat % 128) 64 with hc | hc
      · rw [sval128, if_pos (by simpa using hsd.2 hc)] at h; omega
      · exact hc
    · rintro ⟨b', bs', e, h⟩
      rw [List.cons.injEq] at e
      rw [← e.1, h40] at h
      rw [sval128, if_neg (by simp only [List.length_cons]; rw [hsd]; omega)]
      omega
  rcases bytes_cases r.bytes with hb | ⟨b, rest, hb, hlt⟩ | ⟨msc, init, last, rest, hb, hm, hi, hl⟩ |
    ⟨msc, init, hb, hm, hi⟩
  · rw [bytes_nil_iff hr] at hb
    simp only [signedDecode, hb, if_false] at hx
    cases hx; cases hret
  · rw [signedDecode_single hr mode true hb hlt] at hx
    cases hx
    exact ⟨[b], rest, _, by simpa using hb, isFrame_single hlt, rfl,
      .inr ⟨rfl, sgn b [] (isFrame_single hlt)⟩⟩
  · have hfr := isFrame_multi hm hi hl
    rcases Nat.lt_or_ge init.length 8 with h | h
    · by_cases hub : mode = .strict ∧ init.length = 7 ∧ 64 ≤ msc.toNat % 128
      · obtain ⟨rfl, h7, hs⟩ := hub
        rw [signedDecode_multi9_ub hr hb hm hi hl h7 hs] at hx
        cases hx
      · rw [signedDecode_multi9 hr mode true hb hm hi hl (by omega) (by
          intro h1 _ h3
          rcases Nat.lt_or_ge (msc.toNat % 128) 64 with hc | hc
          · exact hc
          · exact (hub ⟨h1, h3, hc⟩).elim)] at hx
        cases hx
        exact ⟨msc :: (init ++ [last]), rest, _, by simp [hb], hfr, rfl, .inr ⟨rfl, sgn _ _ hfr⟩⟩
    · rcases Nat.lt_or_ge 8 init.length with h9 | h9
      · obtain ⟨h1, h2⟩ := rd_head hr hb
        have hc : msc &&& 0x80#8 ≠ 0#8 := (byte_cont _).2 hm
        have hloop := decodeLoop_frame hr msc init last rest hb hi hl
        rw [if_neg (by omega)] at hloop
        simp only [signedDecode, h1, if_true, h2, bind, Except.bind, hc, hloop, ne_eq,
          not_false_eq_true] at hx
        cases hx; cases hret
      · have h8 : init.length = 8 := by omega
        rw [signedDecode_multi10 hr mode true hb hm hi hl h8] at hx
        by_cases hmsc : msc = 0x80#8 ∨ msc = 0x81#8 ∨ msc = 0xfe#8 ∨ msc = 0xff#8
        · rw [if_pos hmsc] at hx
          cases hx
          refine ⟨msc :: (init ++ [last]), rest, _, by simp [hb], hfr, rfl, ?_⟩
          by_cases hq : msc = 0x81#8 ∨ msc = 0xfe#8
          · exact .inl ⟨hfr, by simp [h8], by simpa using hq⟩
          · have hg : msc = 0x80#8 ∨ msc = 0xff#8 := by grind
            rw [(sframe10 hm h8).2 hg]
            exact .inr ⟨rfl, sgn _ _ hfr⟩
        · rw [if_neg hmsc] at hx
          cases hx; cases hret
  · obtain ⟨h1, h2⟩ := rd_head hr hb
    have hc : msc &&& 0x80#8 ≠ 0#8 := (byte_cont _).2 hm
    rcases decodeLoop_cont hr msc init hb hm hi with hloop | ⟨y, hloop, hy⟩
    · simp only [signedDecode, h1, if_true, h2, bind, Except.bind, hc, hloop, ne_eq,
        not_false_eq_true] at hx
      cases hx; cases hret
    · have hxc : ¬ y.last &&& 0x80#8 = 0#8 := by rw [byte_nocont]; omega
      simp only [signedDecode, h1, if_true, h2, bind, Except.bind, hc, hloop, ne_eq,
        not_false_eq_true, hxc, if_false] at hx
      cases hx; cases hret

/-- **C08**, what holds (with wrap-around arithmetic; see C05 for what is undefined in ISO
C): the decoder accepts exactly the frames of at most 10 bytes spelling a number which fits
in 64 bits, plus the 10-byte frames starting with 0x81 or 0xfe, which it takes modulo 2^64;
anything else leaves the range and the output alone. -/
theorem C08_signed_decode_exact_partial (r : Range) (hr : r.Valid) (wantOut : Bool) :
    (∀ f rest v, r.bytes = f ++ rest → SFrame f v →
      signedDecode .wrap wantOut r = .ok ⟨true, r.advance f.length,
        if wantOut then some v else none⟩) ∧
    (∀ f rest, r.bytes = f ++ rest → Quirk f →
      signedDecode .wrap wantOut r = .ok ⟨true, r.advance f.length,
        if wantOut then some (BitVec.ofNat 64 (val128 f)).toInt else none⟩) ∧
    ((¬ ∃ f rest, r.bytes = f ++ rest ∧ ((∃ v, SFrame f v) ∨ Quirk f)) →
      signedDecode .wrap wantOut r = .ok ⟨false, r, none⟩) := by
  refine ⟨?_, ?_, ?_⟩
  · intro f rest v hb hf
    obtain ⟨hfr, h10, hsv, hv1, hv2⟩ := hf
    rcases frame_cases hfr with ⟨b, rfl, hlt⟩ | ⟨msc, init, last, rfl, hm, hi, hl⟩
    · rw [signedDecode_single hr .wrap wantOut (by simpa using hb) hlt, hsv]; rfl
    · simp only [List.length_cons, List.length_append, List.length_nil] at h10
      have hb' : r.bytes = msc :: (init ++ last :: rest) := by simpa using hb
      rcases Nat.lt_or_ge init.length 8 with h | h
      · rw [signedDecode_multi9 hr .wrap wantOut hb' hm hi hl (by omega) (by intro h; cases h), hsv]
        simp [Range.advance]; omega
      · have h8 : init.length = 8 := by omega
        obtain ⟨s1, s2⟩ := sframe10 (last := last) hm h8
        have hmsc := s1.1 (by rw [hsv]; exact ⟨hv1, hv2⟩)
        rw [signedDecode_multi10 hr .wrap wantOut hb' hm hi hl h8, if_pos (by grind), s2 hmsc, hsv]
        simp [Range.advance, h8]
  · intro f rest hb hq
    obtain ⟨hfr, h10, hq⟩ := hq
    rcases frame_cases hfr with ⟨b, rfl, hlt⟩ | ⟨msc, init, last, rfl, hm, hi, hl⟩
    · simp at h10
    · have h8 : init.length = 8 := by simpa using h10
      have hb' : r.bytes = msc :: (init ++ last :: rest) := by simpa using hb
      have hq' : msc = 0x81#8 ∨ msc = 0xfe#8 := by simpa using hq
      rw [signedDecode_multi10 hr .wrap wantOut hb' hm hi hl h8, if_pos (by grind)]
      simp [Range.advance, h8]
  · intro hno
    rcases bytes_cases r.bytes with hb | ⟨b, rest, hb, hlt⟩ |
      ⟨msc, init, last, rest, hb, hm, hi, hl⟩ | ⟨msc, init, hb, hm, hi⟩
    · rw [bytes_nil_iff hr] at hb
      simp only [signedDecode, hb, if_false]
    · refine (hno ⟨[b], rest, by simpa using hb, .inl ⟨_, isFrame_single hlt, by simp, rfl, ?_⟩⟩).elim
      exact sval_bounds64 (by simp) (by simp)
    · have hfr := isFrame_multi hm hi hl
      have hbf : r.bytes = (msc :: (init ++ [last])) ++ rest := by simp [hb]
      rcases Nat.lt_or_ge init.length 8 with h | h
      · refine (hno ⟨_, rest, hbf, .inl ⟨_, hfr, by simp; omega, rfl, ?_⟩⟩).elim
        exact sval_bounds64 (by simp) (by simp; omega)
      · rcases Nat.lt_or_ge 8 init.length with h9 | h9
        · obtain ⟨h1, h2⟩ := rd_head hr hb
          have hc : msc &&& 0x80#8 ≠ 0#8 := (byte_cont _).2 hm
          have hloop := decodeLoop_frame hr msc init last rest hb hi hl
          rw [if_neg (by omega)] at hloop
          simp only [signedDecode, h1, if_true, h2, bind, Except.bind, hc, hloop, ne_eq,
            not_false_eq_true]
        · have h8 : init.length = 8 := by omega
          rw [signedDecode_multi10 hr .wrap wantOut hb hm hi hl h8, if_neg]
          intro hmsc
          by_cases hq : msc = 0x81#8 ∨ msc = 0xfe#8
          · exact hno ⟨_, rest, hbf, .inr ⟨hfr, by simp [h8], by simpa using hq⟩⟩
          · have hg : msc = 0x80#8 ∨ msc = 0xff#8 := by grind
            exact hno ⟨_, rest, hbf, .inl ⟨_, hfr, by simp [h8], rfl, (sframe10 hm h8).1.2 hg⟩⟩
    · obtain ⟨h1, h2⟩ := rd_head hr hb
      have hc : msc &&& 0x80#8 ≠ 0#8 := (byte_cont _).2 hm
      rcases decodeLoop_cont hr msc init hb hm hi with hloop | ⟨y, hloop, hy⟩
      · simp only [signedDecode, h1, if_true, h2, bind, Except.bind, hc, hloop, ne_eq,
          not_false_eq_true]
      · have hxc : ¬ y.last &&& 0x80#8 = 0#8 := by rw [byte_nocont]; omega
        simp only [signedDecode, h1, if_true, h2, bind, Except.bind, hc, hloop, ne_eq,
          not_false_eq_true, hxc, if_false]

/-- **C08** in ISO C, where signed overflow is undefined: decoding a negative number of nine
bytes (the value being asked for) is undefined behaviour; anything else is decoded as above. -/
theorem C08_iso_c_partial (r : Range) (hr : r.Valid) (wantOut : Bool) :
    ((wantOut = true ∧ ∃ f rest, r.bytes = f ++ rest ∧ IsFrame f ∧ f.length = 9 ∧ sval128 f < 0) →
      signedDecode .strict wantOut r = .error .signedOverflow) ∧
    ((¬ (wantOut = true ∧
        ∃ f rest, r.bytes = f ++ rest ∧ IsFrame f ∧ f.length = 9 ∧ sval128 f < 0)) →
      signedDecode .strict wantOut r = signedDecode .wrap wantOut r) := by
  have hneg : ∀ (b : Byte) (bs : List Byte), sval128 (b :: bs) < 0 ↔ 64 ≤ b.toNat % 128 := by
    intro b bs
    have h1 := sign_digit b bs
    have h2 := val128_lt (b :: bs)
    rw [npow128] at h2
    rw [sval128]
    rw [List.length_cons] at *
    have h3 : (val128 (b :: bs) : Int) < 2 ^ (7 * (bs.length + 1)) := by exact_mod_cast h2
    split <;> omega
  constructor
  · rintro ⟨rfl, f, rest, hb, hf, h9, hs⟩
    rcases frame_cases hf with ⟨b, rfl, hlt⟩ | ⟨msc, init, last, rfl, hm, hi, hl⟩
    · simp at h9
    · exact signedDecode_multi9_ub hr (by simpa using hb) hm hi hl (by simpa using h9)
        ((hneg _ _).1 hs)
  · intro hno
    rcases bytes_cases r.bytes with hb | ⟨b, rest, hb, hlt⟩ |
      ⟨msc, init, last, rest, hb, hm, hi, hl⟩ | ⟨msc, init, hb, hm, hi⟩
    · rw [bytes_nil_iff hr] at hb
      simp only [signedDecode, hb, if_false]
    · rw [signedDecode_single hr _ _ hb hlt, signedDecode_single hr _ _ hb hlt]
    · rcases Nat.lt_or_ge init.length 8 with h | h
      · rw [signedDecode_multi9 hr .strict wantOut hb hm hi hl (by omega),
          signedDecode_multi9 hr .wrap wantOut hb hm hi hl (by omega) (by intro h; cases h)]
        intro _ hw h7
        refine Classical.byContradiction fun hc => hno ⟨hw, msc :: (init ++ [last]), rest, by simp [hb],
          isFrame_multi hm hi hl, by simp [h7], (hneg _ _).2 (by omega)⟩
      · rcases Nat.lt_or_ge 8 init.length with h9 | h9
        · obtain ⟨h1, h2⟩ := rd_head hr hb
          have hc : msc &&& 0x80#8 ≠ 0#8 := (byte_cont _).2 hm
          have hloop := decodeLoop_frame hr msc init last rest hb hi hl
          rw [if_neg (by omega)] at hloop
          simp only [signedDecode, h1, if_true, h2, bind, Except.bind, hc, hloop, ne_eq,
            not_false_eq_true]
        · have h8 : init.length = 8 := by omega
          rw [signedDecode_multi10 hr .wrap wantOut hb hm hi hl h8,
            signedDecode_multi10 hr .strict wantOut hb hm hi hl h8]
    · obtain ⟨h1, h2⟩ := rd_head hr hb
      have hc : msc &&& 0x80#8 ≠ 0#8 := (byte_cont _).2 hm
      rcases decodeLoop_cont hr msc init hb hm hi with hloop | ⟨y, hloop, hy⟩
      · simp only [signedDecode, h1, if_true, h2, bind, Except.bind, hc, hloop, ne_eq,
          not_false_eq_true]
      · have hxc : ¬ y.last &&& 0x80#8 = 0#8 := by rw [byte_nocont]; omega
        simp only [signedDecode, h1, if_true, h2, bind, Except.bind, hc, hloop, ne_eq,
          not_false_eq_true, hxc, if_false]

/-- A negative number of nine bytes, and a smaller one. -/
example : IsFrame [0xc0#8, 0x80#8, 0x80#8, 0x80#8, 0x80#8, 0x80#8, 0x80#8, 0x80#8, 0#8] ∧
    sval128 [0xc0#8, 0x80#8, 0x80#8, 0x80#8, 0x80#8, 0x80#8, 0x80#8, 0x80#8, 0#8] = -2 ^ 62 ∧
    signedDecode .strict true (.whole [0xc0#8, 0x80#8, 0x80#8, 0x80#8, 0x80#8, 0x80#8, 0x80#8,
      0x80#8, 0#8]) = .error .signedOverflow ∧
    signedDecode .strict true (.whole [0xff#8, 0x7e#8]) =
      .ok ⟨true, ⟨[0xff#8, 0x7e#8], 2, 2⟩, some (-2)⟩ :=
  ⟨⟨[0xc0#8, 0x80#8, 0x80#8, 0x80#8, 0x80#8, 0x80#8, 0x80#8, 0x80#8], 0#8, rfl, by decide, by decide⟩,
    by decide +kernel, by decide +kernel, by decide +kernel⟩

/-- **C08** at full strength (only numbers which fit are accepted) is false. -/
theorem C08_refuted : ∃ r : Range, r.Valid ∧ (¬ ∃ f rest v, r.bytes = f ++ rest ∧ SFrame f v) ∧
    ∃ x, signedDecode .wrap true r = .ok x ∧ x.ret = true ∧ x.out = some (-2 ^ 63) := by
  refine ⟨Range.whole [0x81#8, 0x80#8, 0x80#8, 0x80#8, 0x80#8, 0x80#8, 0x80#8, 0x80#8, 0x80#8, 0x00#8],
    by decide, ?_,
    ⟨true, ⟨[0x81#8, 0x80#8, 0x80#8, 0x80#8, 0x80#8, 0x80#8, 0x80#8, 0x80#8, 0x80#8, 0x00#8], 10, 10⟩,
      some (-2 ^ 63)⟩, by decide +kernel, rfl, rfl⟩
  rintro ⟨f, rest, v, hb, hf⟩
  have hbytes : (Range.whole [0x81#8, 0x80#8, 0x80#8, 0x80#8, 0x80#8, 0x80#8, 0x80#8, 0x80#8, 0x80#8,
    0x00#8]).bytes = [0x81#8, 0x80#8, 0x80#8, 0x80#8, 0x80#8, 0x80#8, 0x80#8, 0x80#8, 0x80#8, 0x00#8] ++ [] := by
    decide
  rw [hbytes] at hb
  have hq : IsFrame [0x81#8, 0x80#8, 0x80#8, 0x80#8, 0x80#8, 0x80#8, 0x80#8, 0x80#8, 0x80#8, 0x00#8] :=
    ⟨[0x81#8, 0x80#8, 0x80#8, 0x80#8, 0x80#8, 0x80#8, 0x80#8, 0x80#8, 0x80#8], 0#8, rfl, by decide, by decide⟩
  obtain ⟨rfl, _⟩ := frame_unique hq hf.1 hb
  have h1 := hf.2.2.1
  have h2 := hf.2.2.2.2
  have : sval128 [0x81#8, 0x80#8, 0x80#8, 0x80#8, 0x80#8, 0x80#8, 0x80#8, 0x80#8, 0x80#8, 0x00#8] =
    2 ^ 63 := by decide +kernel
  omega

/-- **C09** `gutil_unsigned_mbn_decode2` accepts exactly the blocks consisting of a single
frame (nothing before it, nothing after it), never NULL. -/
theorem C09_unsigned_decode2 (wantOut : Bool) :
    unsignedDecode2 wantOut none = .ok (false, none) ∧
    (∀ (bs : List Byte) (v : Nat), UFrame bs v → unsignedDecode2 wantOut (some bs) =
      .ok (true, if wantOut then some (BitVec.ofNat 64 v) else none)) ∧
    (∀ bs : List Byte, (¬ ∃ v, UFrame bs v) →
      unsignedDecode2 wantOut (some bs) = .ok (false, none)) := by
  refine ⟨rfl, ?_, ?_⟩
  · intro bs v hf
    have hr : (Range.whole bs).Valid := ⟨by simp [Range.whole], by simp [Range.whole],
      by simp [Range.whole]⟩
    have hbytes : (Range.whole bs).bytes = bs ++ [] := by simp [Range.whole, Range.bytes]
    have hlen : bs.length ≠ 0 := by obtain ⟨i, l, rfl, _⟩ := hf.1; simp
    have := unsignedDecode_frame hr true hbytes hf
    simp only [Range.whole] at this
    simp only [unsignedDecode2, hlen, ne_eq, not_false_eq_true, if_true, this, bind, Except.bind]
    simp
  · intro bs hno
    have hr : (Range.whole bs).Valid := ⟨by simp [Range.whole], by simp [Range.whole],
      by simp [Range.whole]⟩
    have hbytes : (Range.whole bs).bytes = bs := by simp [Range.whole, Range.bytes]
    by_cases hlen : bs.length ≠ 0
    · by_cases h : ∃ f rest w, (Range.whole bs).bytes = f ++ rest ∧ UFrame f w
      · obtain ⟨f, rest, w, hb, hf⟩ := h
        have := unsignedDecode_frame hr true hb hf
        simp only [Range.whole] at this
        simp only [unsignedDecode2, hlen, ne_eq, not_false_eq_true, if_true, this, bind, Except.bind]
        rw [if_neg]
        rintro ⟨_, he⟩
        have he' : f.length = bs.length := by simp at he; omega
        have hbs : bs = f ++ rest := by rw [← hbytes]; exact hb
        have : rest = [] := by
          rw [hbs, List.length_append] at he'
          exact List.length_eq_zero_iff.1 (by omega)
        rw [this, List.append_nil] at hbs
        exact hno ⟨w, hbs ▸ hf⟩
      · have := unsignedDecode_fail hr true h
        simp only [Range.whole] at this
        simp only [unsignedDecode2, hlen, ne_eq, not_false_eq_true, if_true, this, bind, Except.bind]
        simp
    · simp only [unsignedDecode2, hlen, if_false]

/-- **C09** the same for `gutil_signed_mbn_decode2`. -/
theorem C09_signed_decode2 (wantOut : Bool) :
    signedDecode2 .wrap wantOut none = .ok (false, none) ∧
    (∀ (bs : List Byte) (v : Int), SFrame bs v → signedDecode2 .wrap wantOut (some bs) =
      .ok (true, if wantOut then some v else none)) ∧
    (∀ bs : List Byte, Quirk bs → signedDecode2 .wrap wantOut (some bs) =
      .ok (true, if wantOut then some (BitVec.ofNat 64 (val128 bs)).toInt else none)) ∧
    (∀ bs : List Byte, (¬ ∃ v, SFrame bs v) → ¬ Quirk bs →
      signedDecode2 .wrap wantOut (some bs) = .ok (false, none)) := by
  refine ⟨rfl, ?_, ?_, ?_⟩
  · intro bs v hf
    have hr : (Range.whole bs).Valid := ⟨by simp [Range.whole], by simp [Range.whole],
      by simp [Range.whole]⟩
    have hbytes : (Range.whole bs).bytes = bs ++ [] := by simp [Range.whole, Range.bytes]
    have hlen : bs.length ≠ 0 := by obtain ⟨i, l, rfl, _⟩ := hf.1; simp
    have := (C08_signed_decode_exact_partial _ hr true).1 _ _ _ hbytes hf
    simp only [Range.whole, Range.advance] at this
    simp only [signedDecode2, hlen, ne_eq, not_false_eq_true, if_true, this, bind, Except.bind]
    simp
  · intro bs hf
    have hr : (Range.whole bs).Valid := ⟨by simp [Range.whole], by simp [Range.whole],
      by simp [Range.whole]⟩
    have hbytes : (Range.whole bs).bytes = bs ++ [] := by simp [Range.whole, Range.bytes]
    have hlen : bs.length ≠ 0 := by rw [hf.2.1]; decide
    have := (C08_signed_decode_exact_partial _ hr true).2.1 _ _ hbytes hf
    simp only [Range.whole, Range.advance] at this
    simp only [signedDecode2, hlen, ne_eq, not_false_eq_true, if_true, this, bind, Except.bind]
    simp
  · intro bs hno hnq
    have hr : (Range.whole bs).Valid := ⟨by simp [Range.whole], by simp [Range.whole],
      by simp [Range.whole]⟩
    have hbytes : (Range.whole bs).bytes = bs := by simp [Range.whole, Range.bytes]
    have partialFrame : ∀ f rest : List Byte, bs = f ++ rest → ((∃ v, SFrame f v) ∨ Quirk f) →
        f.length ≠ bs.length := by
      intro f rest hbs hf he
      have : rest = [] := by
        rw [hbs, List.length_append] at he
        exact List.length_eq_zero_iff.1 (by omega)
      rw [this, List.append_nil] at hbs
      subst hbs
      rcases hf with h | h
      · exact hno h
      · exact hnq h
    by_cases hlen : bs.length ≠ 0
    · by_cases h : ∃ f rest, (Range.whole bs).bytes = f ++ rest ∧ ((∃ v, SFrame f v) ∨ Quirk f)
      · obtain ⟨f, rest, hb, hf⟩ := h
        have hne := partialFrame f rest (by rw [← hbytes]; exact hb) hf
        rcases hf with ⟨v, hf⟩ | hf
        · have := (C08_signed_decode_exact_partial _ hr true).1 _ _ _ hb hf
          simp only [Range.whole, Range.advance] at this
          simp only [signedDecode2, hlen, ne_eq, not_false_eq_true, if_true, this, bind, Except.bind]
          rw [if_neg]
          rintro ⟨_, he⟩
          simp at he; omega
        · have := (C08_signed_decode_exact_partial _ hr true).2.1 _ _ hb hf
          simp only [Range.whole, Range.advance] at this
          simp only [signedDecode2, hlen, ne_eq, not_false_eq_true, if_true, this, bind, Except.bind]
          rw [if_neg]
          rintro ⟨_, he⟩
          simp at he; omega
      · have := (C08_signed_decode_exact_partial _ hr true).2.2 h
        simp only [Range.whole] at this
        simp only [signedDecode2, hlen, ne_eq, not_false_eq_true, if_true, this, bind, Except.bind]
        simp
    · simp only [signedDecode2, hlen, if_false]

example : SFrame [0xff#8, 0x3f#8] (-65) :=
  ⟨⟨[0xff#8], 0x3f#8, rfl, by decide, by decide⟩, by decide, by decide, by decide, by decide⟩
example : Quirk [0x81#8, 0x80#8, 0x80#8, 0x80#8, 0x80#8, 0x80#8, 0x80#8, 0x80#8, 0x80#8, 0x00#8] :=
  ⟨⟨[0x81#8, 0x80#8, 0x80#8, 0x80#8, 0x80#8, 0x80#8, 0x80#8, 0x80#8, 0x80#8], 0#8, rfl, by decide, by decide⟩,
    rfl, .inl rfl⟩

end Verif.Datapack
