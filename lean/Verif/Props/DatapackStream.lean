import Verif.Proof.DatapackStream

/-!
# C136: truncated data

What's decoded if only the first bytes of encoded data are there, for example because whoever wrote the data has been interrupted.
-/

namespace Verif.Datapack
open Verif.C Spec

/-- **C136** An incomplete unsigned number is never accepted, and the range isn't changed. -/
theorem C136_unsigned (f p q : List Byte) (v : Nat) (hf : UFrame f v) (e : f = p ++ q) (hq : q ≠ []) (r : Range) (hr : r.Valid) (hb : r.bytes = p) (w : Bool) :
    unsignedDecode w r = .ok ⟨false, r, none⟩ :=
  unsigned_cut hf e hq hr hb w

/-- **C136** Neither is an incomplete signed one. -/
theorem C136_signed (mode : Mode) (f p q : List Byte) (hf : (∃ v, SFrame f v) ∨ Quirk f) (e : f = p ++ q) (hq : q ≠ []) (r : Range) (hr : r.Valid)
    (hb : r.bytes = p) (w : Bool) : signedDecode mode w r = .ok ⟨false, r, none⟩ := by
  have hff : IsFrame f := by
    rcases hf with ⟨v, hf⟩ | hf
    · exact hf.1
    · exact hf.1
  have hw : signedDecode .wrap w r = .ok ⟨false, r, none⟩ := by
    refine (C08_signed_decode_exact_partial r hr w).2.2 ?_
    rintro ⟨g, rest, hg, ⟨v, hv⟩ | hv⟩
    · exact frame_cut hff e hq hv.1 (hb ▸ hg)
    · exact frame_cut hff e hq hv.1 (hb ▸ hg)
  cases mode with
  | wrap => exact hw
  | strict =>
    rw [(C08_iso_c_partial r hr w).2, hw]
    rintro ⟨-, g, rest, hg, hg', -⟩
    exact frame_cut hff e hq hg' (hb ▸ hg)

/-- **C136** Neither is an incomplete TLV. -/
theorem C136_tlv (mode : Mode) (b p q value : List Byte) (tag : Nat) (ht : IsTlv b tag value) (hl : b.length < 2 ^ 63) (e : b = p ++ q) (hq : q ≠ []) (r : Range)
    (hr : r.Valid) (hb : r.bytes = p) : tlvDecode mode r = .ok ⟨0, r, none⟩ := by
  refine tlvDecode_fail hr mode ?_ ?_
  · rintro ⟨c, rest, u, w, hc, hw⟩
    exact tlv_cut ht e hq hw (hb ▸ hc)
  · rw [hb]
    exact tlv_cut_huge ht e hl

/-- **C136** If numbers are encoded one after another and only the first `k` bytes of that are there, then what's decoded are those numbers (`j` of them) which
are entirely there, and the rest of the range is what follows these. -/
theorem C136_numbers (vs : List (BitVec 64)) (buf : List Byte) (hbuf : (vs.map unsignedSize).sum ≤ buf.length) :
    ∃ bs, unsignedsEncode buf vs = .ok (bs ++ buf.drop bs.length, bs.length) ∧ bs.length = (vs.map unsignedSize).sum ∧
      ∀ k, k ≤ bs.length → ∃ j, j ≤ vs.length ∧ ((vs.take j).map unsignedSize).sum ≤ k ∧
        (j < vs.length → k < ((vs.take (j + 1)).map unsignedSize).sum) ∧
        ∀ r : Range, r.Valid → r.bytes = bs.take k → ∀ fuel, j < fuel →
          unsignedsDecode fuel r = .ok (vs.take j, r.advance ((vs.take j).map unsignedSize).sum) := by
  obtain ⟨bs, h1, h2⟩ := stream_encode vs buf hbuf
  exact ⟨bs, h1, stream_length h2, stream_decode h2⟩

/-- Three numbers, the last byte is missing. -/
example : unsignedsEncode (List.replicate 6 0#8) [5, 300, 70000] = .ok ([5#8, 0x82#8, 0x2c#8, 0x84#8, 0xa2#8, 0x70#8], 6) ∧
    unsignedsDecode 4 (Range.whole [5#8, 0x82#8, 0x2c#8, 0x84#8, 0xa2#8]) = .ok ([5, 300], ⟨[5#8, 0x82#8, 0x2c#8, 0x84#8, 0xa2#8], 3, 5⟩) := by decide +kernel

/-- **C136** If there are only the first bytes `p` of a sequence of TLVs (a clean one, see C14), then exactly the TLVs which are entirely there are decoded. If
there are more bytes then it's an error, otherwise the sequence of these TLVs is accepted. -/
theorem C136_sequence (mode : Mode) (cs p q : List Byte) (es : List Entry) (hseq : IsSeq cs es) (e : cs = p ++ q) (hlen : cs.length < 2 ^ 63)
    (tagsMem tags : List Nat) (htags : TagsArray tagsMem tags) (vals : Option (List (Option Val))) (hvals : ValsRoom tags vals)
    (skip : Bool) (hclean : Clean tags skip es) :
    ∃ es1 es2 p1 p2 m vals', es = es1 ++ es2 ∧ p = p1 ++ p2 ∧ IsSeq p1 es1 ∧
      (∀ fuel, es.length < fuel → tlvsDecode mode fuel p tagsMem vals skip = .ok (some (m, vals'))) ∧ ValsState p tags es1 vals vals' ∧
      (p2 = [] → IsMask m (fun i => ∃ e ∈ es1, TagAt tags e.tag i)) ∧
      (p2 ≠ [] → m = -1 ∧ ∃ d es3 rest, es2 = d :: es3 ∧ rest ≠ [] ∧ IsTlv (p2 ++ rest) d.tag d.value) := by
  have hpl : p.length < 2 ^ 63 := by rw [e, List.length_append] at hlen; omega
  rcases seq_cut hseq p q e with ⟨es1, es2, rfl, h2⟩ | ⟨es1, d, es2, p1, p2, rest, rfl, rfl, h3, h4, h5, h6, h7⟩
  · obtain ⟨m, vals', r1, r2, r3⟩ := C14_tlvs_decode_exact mode p es1 h2 hpl tagsMem tags htags vals hvals skip (clean_prefix hclean)
    exact ⟨es1, es2, p, [], m, vals', rfl, by simp, h2, fun fuel hf => r1 fuel (by rw [List.length_append] at hf; omega), r3, fun _ => r2,
      fun h => absurd rfl h⟩
  · obtain ⟨vals', r1, r2⟩ := C15_decode_error mode p1 p2 es1 h3 hpl tagsMem tags htags vals hvals skip (clean_prefix hclean) h5
      (by rintro ⟨c, x, u, w, hc, hw⟩; exact tlv_cut h4 rfl h6 hw hc) (tlv_cut_huge h4 rfl (by omega))
    exact ⟨es1, d :: es2, p1, p2, -1, vals', rfl, rfl, h3, fun fuel hf => r1 fuel (by rw [List.length_append] at hf; omega), r2, fun h => absurd h h5,
      fun _ => ⟨rfl, d, es2, rest, rfl, h6, h4⟩⟩

/-- A sequence of two TLVs, the last byte of which is missing: the first one is there, and it's an error. -/
example : tlvsDecode .strict 3 [1#8, 1#8, 0xaa#8, 3#8, 2#8, 0xbb#8, 0xcc#8] [1, 2, 3, 0] (some [none, none, none]) false =
      .ok (some (5, some [some ⟨2, 1⟩, none, some ⟨5, 2⟩])) ∧
    tlvsDecode .strict 3 [1#8, 1#8, 0xaa#8, 3#8, 2#8, 0xbb#8] [1, 2, 3, 0] (some [none, none, none]) false =
      .ok (some (-1, some [some ⟨2, 1⟩, none, none])) ∧
    tlvsDecode .strict 3 [1#8, 1#8, 0xaa#8] [1, 2, 3, 0] (some [none, none, none]) false = .ok (some (1, some [some ⟨2, 1⟩, none, none])) :=
  ⟨by decide +kernel, by decide +kernel, by decide +kernel⟩

/-- Numbers and a TLV which are cut. -/
example : UFrame [0x82#8, 0x2c#8] 300 ∧ SFrame [0xff#8, 0x00#8] (-128) ∧ IsTlv [3#8, 2#8, 0xbb#8, 0xcc#8] 3 [0xbb#8, 0xcc#8] := by
  have f1 : UFrame [3#8] 3 := ⟨isFrame_single (by decide), by decide, by decide, by decide⟩
  have f2 : UFrame [2#8] 2 := ⟨isFrame_single (by decide), by decide, by decide, by decide⟩
  exact ⟨⟨⟨[0x82#8], 0x2c#8, rfl, by decide, by decide⟩, by decide, by decide, by decide⟩,
    ⟨⟨[0xff#8], 0x00#8, rfl, by decide, by decide⟩, by decide, by decide +kernel, by decide, by decide⟩, _, _, f1, by decide, f2, rfl⟩

end Verif.Datapack
