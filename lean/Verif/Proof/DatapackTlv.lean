import Verif.Proof.DatapackSigned

namespace Verif.Datapack
open Verif.C Spec

theorem Range.advance_valid {r : Range} (h : r.Valid) {n : Nat} (hn : n ≤ r.bytes.length) :
    (r.advance n).Valid := by
  have hl := Range.length_bytes h
  obtain ⟨h0, h1, h2⟩ := h
  refine ⟨?_, ?_, ?_⟩ <;> simp only [Range.advance] <;> omega

theorem Range.advance_bytes {r : Range} (h : r.Valid) {x y : List Byte} (hb : r.bytes = x ++ y) :
    (r.advance x.length).bytes = y := by
  have hl := Range.length_bytes h
  obtain ⟨r0, r1, r2⟩ := h
  have hd : (r.advance x.length).bytes = r.bytes.drop x.length := by
    rw [hb] at hl
    simp only [List.length_append] at hl
    simp only [Range.bytes, Range.advance, List.drop_take, List.drop_drop]
    congr 2 <;> omega
  rw [hd, hb]; simp

theorem Range.advance_valid' {r : Range} (h : r.Valid) {x y : List Byte} (hb : r.bytes = x ++ y) :
    (r.advance x.length).Valid :=
  Range.advance_valid h (by rw [hb]; simp)

theorem Range.advance_advance (r : Range) (a b : Nat) :
    (r.advance a).advance b = r.advance (a + b) := by
  simp only [Range.advance, Range.mk.injEq, true_and, and_true]; omega

/-- The common part of decoding the header of a TLV. -/
theorem tlvDecode_header {r : Range} (h : r.Valid) (mode : Mode) {t l rest : List Byte}
    {tag len : Nat} (hb : r.bytes = t ++ l ++ rest) (ht : UFrame t tag) (hmax : tag ≤ 2147483647)
    (hl : UFrame l len) :
    tlvDecode mode r =
      if (rest.length : Int) ≥ (BitVec.ofNat 64 len).toInt then
        (ptrAdd mode r.mem (r.ptr + (t.length + l.length : Nat)) (BitVec.ofNat 64 len)).bind fun p =>
          .ok ⟨tag, { r with ptr := p }, some ⟨r.ptr + (t.length + l.length : Nat), len⟩⟩
      else .ok ⟨0, r, none⟩ := by
  have hb1 : r.bytes = t ++ (l ++ rest) := by rw [hb, List.append_assoc]
  have d1 := unsignedDecode_frame h true hb1 ht
  have hr1 := Range.advance_valid' h hb1
  have hb2 := Range.advance_bytes h hb1
  have d2 := unsignedDecode_frame hr1 true hb2 hl
  have htn : (BitVec.ofNat 64 tag).toNat = tag := by
    rw [BitVec.toNat_ofNat, Nat.mod_eq_of_lt ht.2.2.2]
  have hln : (BitVec.ofNat 64 len).toNat = len := by
    rw [BitVec.toNat_ofNat, Nat.mod_eq_of_lt hl.2.2.2]
  have hlen := Range.length_bytes (Range.advance_valid' hr1 hb2)
  rw [Range.advance_bytes hr1 hb2] at hlen
  simp only [Range.advance] at d1 d2 hlen
  simp only [tlvDecode, d1, bind, Except.bind, if_true, htn, hmax, d2, hln, ← hlen]
  have hp : r.ptr + ↑t.length + ↑l.length = r.ptr + (t.length + l.length : Nat) := by omega
  rw [hp]

theorem tlvDecode_ok {r : Range} (h : r.Valid) (hmem : r.mem.length < 2 ^ 63) (mode : Mode)
    {b rest value : List Byte} {tag : Nat} (hb : r.bytes = b ++ rest) (ht : IsTlv b tag value) :
    ∃ v : Val, tlvDecode mode r = .ok ⟨tag, r.advance b.length, some v⟩ ∧
      v.size = value.length ∧ v.bytes r.mem = value ∧
      r.ptr ≤ v.off ∧ v.off + v.size = r.ptr + b.length := by
  obtain ⟨t, l, h1, h2, h3, rfl⟩ := ht
  have hb1 : r.bytes = t ++ l ++ (value ++ rest) := by simp [hb]
  have hlen := Range.length_bytes h
  rw [hb1] at hlen
  simp only [List.length_append] at hlen
  have hfin := h.2.2
  have h0 := h.1
  have hi : (BitVec.ofNat 64 value.length).toInt = value.length := by
    rw [BitVec.toInt_eq_toNat_cond, BitVec.toNat_ofNat, Nat.mod_eq_of_lt h3.2.2.2, if_pos (by omega)]
  have hn : (BitVec.ofNat 64 value.length).toNat = value.length := by
    rw [BitVec.toNat_ofNat, Nat.mod_eq_of_lt h3.2.2.2]
  refine ⟨⟨r.ptr + (t.length + l.length : Nat), value.length⟩, ?_, rfl, ?_, ?_, ?_⟩
  · rw [tlvDecode_header h mode hb1 h1 h2 h3, if_pos (by rw [hi]; simp; omega)]
    have hp : ptrAdd mode r.mem (r.ptr + (t.length + l.length : Nat))
        (BitVec.ofNat 64 value.length) = .ok (r.ptr + (t.length + l.length : Nat) + value.length) := by
      cases mode with
      | strict => simp only [ptrAdd, hn]; rw [if_pos (by omega)]
      | wrap => simp only [ptrAdd, hi]
    rw [hp]
    simp only [Except.bind, Range.advance, List.length_append]
    congr 3
    omega
  · have hbb : (r.advance (t ++ l).length).bytes = value ++ rest := Range.advance_bytes h hb1
    simp only [Range.bytes, Range.advance, List.length_append] at hbb
    simp only [Val.bytes]
    have := congrArg (List.take value.length) hbb
    rw [List.take_take, List.take_left'] at this
    · refine Eq.trans ?_ this
      congr 1
      omega
    · rfl
  · simp only; omega
  · simp only [List.length_append]; omega

theorem tlvDecode_fail {r : Range} (h : r.Valid) (mode : Mode)
    (h1 : ¬ ∃ b rest tag value, r.bytes = b ++ rest ∧ IsTlv b tag value)
    (h2 : ¬ HugeHeader r.bytes) : tlvDecode mode r = .ok ⟨0, r, none⟩ := by
  by_cases ht : ∃ f rest v, r.bytes = f ++ rest ∧ UFrame f v
  · obtain ⟨t, rest, tag, hb, ht⟩ := ht
    by_cases hmax : tag ≤ 2147483647
    · have hr1 := Range.advance_valid' h hb
      have hb2 := Range.advance_bytes h hb
      by_cases hl : ∃ f rest' v, rest = f ++ rest' ∧ UFrame f v
      · obtain ⟨l, rest', len, rfl, hl⟩ := hl
        have hb3 : r.bytes = t ++ l ++ rest' := by rw [hb, List.append_assoc]
        rw [tlvDecode_header h mode hb3 ht hmax hl, if_neg]
        intro hge
        rcases Nat.lt_or_ge len (2 ^ 63) with hlt | hlt
        · have hi : (BitVec.ofNat 64 len).toInt = len := by
            rw [BitVec.toInt_eq_toNat_cond, BitVec.toNat_ofNat, Nat.mod_eq_of_lt hl.2.2.2,
              if_pos (by omega)]
          rw [hi] at hge
          refine h1 ⟨t ++ l ++ rest'.take len, rest'.drop len, tag, rest'.take len, ?_,
            t, l, ht, hmax, ?_, rfl⟩
          · rw [hb3]; simp
          · rw [List.length_take, Nat.min_eq_left (by omega)]; exact hl
        · exact h2 ⟨t, l, rest', tag, len, ht, hmax, hl, hlt, hb3⟩
      · have d1 := unsignedDecode_frame h true hb ht
        have d2 := unsignedDecode_fail hr1 true (by rw [hb2]; exact hl)
        have htn : (BitVec.ofNat 64 tag).toNat = tag := by
          rw [BitVec.toNat_ofNat, Nat.mod_eq_of_lt ht.2.2.2]
        simp only [Range.advance] at d2
        simp only [tlvDecode, d1, bind, Except.bind, if_true, htn, hmax, d2]
    · have d1 := unsignedDecode_frame h true hb ht
      have htn : (BitVec.ofNat 64 tag).toNat = tag := by
        rw [BitVec.toNat_ofNat, Nat.mod_eq_of_lt ht.2.2.2]
      simp only [tlvDecode, d1, bind, Except.bind, if_true, htn, hmax, if_false]
  · have d1 := unsignedDecode_fail h true ht
    simp only [tlvDecode, d1, bind, Except.bind]

/-- A header of an impossibly long TLV. -/
theorem tlvDecode_huge {r : Range} (h : r.Valid) (hmem : r.mem.length < 2 ^ 63) (mode : Mode)
    {t l rest : List Byte} {tag len : Nat}
    (hb : r.bytes = t ++ l ++ rest) (ht : UFrame t tag) (hmax : tag ≤ 2147483647)
    (hl : UFrame l len) (hlen : 2 ^ 63 ≤ len) :
    tlvDecode mode r =
      match mode with
      | .strict => .error .badPtr
      | .wrap => .ok ⟨tag, { r with ptr := r.ptr + (t.length + l.length : Nat) + len - 2 ^ 64 },
          some ⟨r.ptr + (t.length + l.length : Nat), len⟩⟩ := by
  have hlt := hl.2.2.2
  have hn : (BitVec.ofNat 64 len).toNat = len := by
    rw [BitVec.toNat_ofNat, Nat.mod_eq_of_lt hlt]
  have hi : (BitVec.ofNat 64 len).toInt = len - 2 ^ 64 := by
    rw [BitVec.toInt_eq_toNat_cond, hn, if_neg (by omega)]; rfl
  rw [tlvDecode_header h mode hb ht hmax hl, if_pos (by rw [hi]; omega)]
  have h0 := h.1
  cases mode with
  | strict => simp only [ptrAdd, hn]; rw [if_neg (by omega)]; rfl
  | wrap =>
    simp only [ptrAdd, hi, Except.bind]
    congr 3
    omega

/-- A TLV and a huge header exclude each other. -/
theorem tlv_not_huge {b rest : List Byte} {tag : Nat} {value : List Byte} (ht : IsTlv b tag value)
    (hv : value.length < 2 ^ 63) : ¬ HugeHeader (b ++ rest) := by
  rintro ⟨t', l', rest', tag', len', h1', h2', h3', h4', hb⟩
  obtain ⟨t, l, h1, h2, h3, rfl⟩ := ht
  have e : t ++ (l ++ (value ++ rest)) = t' ++ (l' ++ rest') := by simpa using hb
  obtain ⟨rfl, e2⟩ := frame_unique h1.1 h1'.1 e
  obtain ⟨rfl, e3⟩ := frame_unique h3.1 h3'.1 e2
  have := h3.2.2.1
  have := h3'.2.2.1
  omega

/-- A TLV is determined by what it is a prefix of. -/
theorem tlv_unique {b c x y : List Byte} {t u : Nat} {v w : List Byte} (h : IsTlv b t v)
    (h' : IsTlv c u w) (e : b ++ x = c ++ y) : b = c ∧ t = u ∧ v = w ∧ x = y := by
  obtain ⟨f, l, h1, h2, h3, rfl⟩ := h
  obtain ⟨f', l', h1', h2', h3', rfl⟩ := h'
  have e : f ++ (l ++ (v ++ x)) = f' ++ (l' ++ (w ++ y)) := by simpa using e
  obtain ⟨rfl, e2⟩ := frame_unique h1.1 h1'.1 e
  obtain ⟨rfl, e3⟩ := frame_unique h3.1 h3'.1 e2
  have hlen : v.length = w.length := by rw [← h3.2.2.1, ← h3'.2.2.1]
  obtain ⟨rfl, rfl⟩ := List.append_inj e3 hlen
  exact ⟨rfl, by rw [← h1.2.2.1, ← h1'.2.2.1], rfl, rfl⟩

/-! ## Encoding -/

theorem memcpyTo_append (x y src : List Byte) (h : src.length ≤ y.length) :
    memcpyTo (x ++ y) x.length src = .ok (x ++ src ++ y.drop src.length) := by
  unfold memcpyTo
  rw [if_pos (by simp; omega), List.take_left' rfl, ← List.drop_drop, List.drop_left' rfl]

theorem wr_append (x y : List Byte) (b : Byte) (h : 1 ≤ y.length) :
    wr (x ++ y) x.length b = .ok (x ++ [b] ++ y.drop 1) := by
  rw [wr_ok _ (by simp; omega)]
  cases y with
  | nil => simp at h
  | cons a y => simp

theorem atOffset_append (f : List Byte → M (List Byte × Nat)) (x y y' : List Byte) (n : Nat)
    (h : f y = .ok (y', n)) : atOffset f (x ++ y) x.length = .ok (x ++ y', n) := by
  unfold atOffset
  rw [if_pos (by simp), List.drop_left' rfl, List.take_left' rfl, h]
  rfl

theorem tlvEncode_nil (buf : List Byte) (tag : BitVec 32) (htag : tag.toNat ≤ 2147483647)
    (val : DataArg) (hval : val = none ∨ val = some [])
    (hbuf : unsignedSize (tag.setWidth 64) + 1 ≤ buf.length) :
    ∃ enc, IsTlv enc tag.toNat [] ∧ enc.length = unsignedSize (tag.setWidth 64) + 1 ∧
      tlvEncode buf tag val = .ok (enc ++ buf.drop enc.length, enc.length) := by
  have htn : (tag.setWidth 64).toNat = tag.toNat := by
    rw [BitVec.toNat_setWidth]; have := tag.isLt; omega
  obtain ⟨t, t1, t2, t3⟩ := unsignedEncode_spec buf (tag.setWidth 64) (by omega)
  rw [htn] at t2
  refine ⟨t ++ [0#8] ++ [], ⟨t, [0#8], t2, htag, ⟨isFrame_single (by decide), by decide, by decide,
      by decide⟩, rfl⟩, by simp [t1], ?_⟩
  rw [← t1] at t3
  have hw := wr_append t (buf.drop t.length) 0#8 (by simp; omega)
  rcases hval with rfl | rfl
  · simp only [tlvEncode, t3, bind, Except.bind, hw]
    simp [List.drop_drop]
  · simp only [tlvEncode, t3, bind, Except.bind, hw]
    simp [List.drop_drop]

theorem tlvEncode_cons (buf : List Byte) (tag : BitVec 32) (htag : tag.toNat ≤ 2147483647)
    (v : List Byte) (hne : v ≠ []) (hval : v.length < 2 ^ 64)
    (hbuf : unsignedSize (tag.setWidth 64) + unsignedSize (BitVec.ofNat 64 v.length) +
      v.length ≤ buf.length) :
    ∃ enc, IsTlv enc tag.toNat v ∧
      enc.length = unsignedSize (tag.setWidth 64) + unsignedSize (BitVec.ofNat 64 v.length) +
        v.length ∧
      tlvEncode buf tag (some v) = .ok (enc ++ buf.drop enc.length, enc.length) := by
  have htn : (tag.setWidth 64).toNat = tag.toNat := by
    rw [BitVec.toNat_setWidth]; have := tag.isLt; omega
  obtain ⟨t, t1, t2, t3⟩ := unsignedEncode_spec buf (tag.setWidth 64) (by omega)
  rw [htn] at t2
  obtain ⟨l, l1, l2, l3⟩ := unsignedEncode_spec (buf.drop t.length)
    (BitVec.ofNat 64 v.length) (by simp; omega)
  rw [BitVec.toNat_ofNat, Nat.mod_eq_of_lt hval] at l2
  refine ⟨t ++ l ++ v, ⟨t, l, t2, htag, l2, rfl⟩, by simp [t1, l1]; omega, ?_⟩
  rw [← t1] at t3
  rw [← l1] at l3
  have ha := atOffset_append (unsignedEncode · (BitVec.ofNat 64 v.length)) t _ _ _ l3
  have hm := memcpyTo_append (t ++ l) ((buf.drop t.length).drop l.length) v (by simp; omega)
  rw [List.length_append, List.append_assoc] at hm
  cases v with
  | nil => exact (hne rfl).elim
  | cons c cs =>
    simp only [tlvEncode, t3, bind, Except.bind, ha, hm]
    simp [List.drop_drop, Nat.add_assoc]

end Verif.Datapack
