import Verif.Proof.DatapackTlvs

/-!
# C10-C16: TLVs

`Spec.IsTlv`, `Spec.IsSeq`, `Spec.TagAt`, `Spec.Known`, `Spec.Clean`, `Spec.HugeHeader`
and (in `Spec/DatapackRange.lean`) `TagsArray`, `ValsRoom`, `ValsState`, `IsMask` are the
vocabulary.  Objects are assumed to be smaller than 2^63 bytes, as they are on every
platform.
-/

namespace Verif.Datapack
open Verif.C Spec

theorem whole_bytes (l : List Byte) : (Range.whole l).bytes = l := by
  simp [Range.whole, Range.bytes]

/-- **C10** `gutil_tlv_encode` writes a TLV with the given tag and value at the beginning of
the buffer, touches nothing else and returns its size ... -/
theorem C10_tlv_encode (buf : List Byte) (tag : BitVec 32) (htag : tag.toNat ≤ 2147483647)
    (val : DataArg) (value : List Byte) (hvalue : val = some value ∨ (val = none ∧ value = []))
    (hval : value.length < 2 ^ 64)
    (hbuf : unsignedSize (tag.setWidth 64) + unsignedSize (BitVec.ofNat 64 value.length) +
      value.length ≤ buf.length) :
    ∃ enc, IsTlv enc tag.toNat value ∧
      enc.length = unsignedSize (tag.setWidth 64) + unsignedSize (BitVec.ofNat 64 value.length) +
        value.length ∧
      tlvEncode buf tag val = .ok (enc ++ buf.drop enc.length, enc.length) := by
  have hs0 : unsignedSize (BitVec.ofNat 64 0) = 1 := by decide +kernel
  rcases hvalue with rfl | ⟨rfl, rfl⟩
  · cases value with
    | nil =>
      simp only [List.length_nil, hs0] at hbuf ⊢
      exact tlvEncode_nil buf tag htag (some []) (.inr rfl) hbuf
    | cons c cs => exact tlvEncode_cons buf tag htag _ (by simp) hval hbuf
  · simp only [List.length_nil, hs0] at hbuf ⊢
    exact tlvEncode_nil buf tag htag none (.inl rfl) hbuf

/-- ... and **C10** `gutil_tlv_decode` applied to any TLV (followed by anything) returns its
tag, a value which is exactly the encoded one, lying inside of the TLV, and moves the range
past the TLV. -/
theorem C10_tlv_decode (mode : Mode) (r : Range) (hr : r.Valid) (hmem : r.mem.length < 2 ^ 63)
    (b rest value : List Byte) (tag : Nat) (hb : r.bytes = b ++ rest) (ht : IsTlv b tag value) :
    ∃ v : Val, tlvDecode mode r = .ok ⟨tag, r.advance b.length, some v⟩ ∧
      v.bytes r.mem = value ∧ v.size = value.length ∧
      r.ptr ≤ v.off ∧ v.off + v.size = r.ptr + b.length ∧
      (r.advance b.length).bytes = rest := by
  obtain ⟨v, h1, h2, h3, h4, h5⟩ := tlvDecode_ok hr hmem mode hb ht
  exact ⟨v, h1, h3, h2, h4, h5, Range.advance_bytes hr hb⟩

/-- **C10** The two combined. -/
theorem C10_tlv_round_trip (mode : Mode) (tag : BitVec 32) (h1 : 1 ≤ tag.toNat)
    (h2 : tag.toNat ≤ 2147483647) (value : List Byte) (buf : List Byte)
    (hval : value.length < 2 ^ 64)
    (hbuf : unsignedSize (tag.setWidth 64) + unsignedSize (BitVec.ofNat 64 value.length) +
      value.length ≤ buf.length) :
    ∃ enc, tlvEncode buf tag (some value) = .ok (enc ++ buf.drop enc.length, enc.length) ∧
      ∀ (r : Range) (rest : List Byte), r.Valid → r.mem.length < 2 ^ 63 → r.bytes = enc ++ rest →
        ∃ v : Val, tlvDecode mode r = .ok ⟨tag.toNat, r.advance enc.length, some v⟩ ∧
          tag.toNat ≠ 0 ∧ v.bytes r.mem = value ∧ v.size = value.length ∧
          (r.advance enc.length).bytes = rest := by
  obtain ⟨enc, e1, e2, e3⟩ := C10_tlv_encode buf tag h2 (some value) value (.inl rfl) hval hbuf
  refine ⟨enc, e3, fun r rest hr hm hb => ?_⟩
  obtain ⟨v, v1, v2, v3, _, _, v4⟩ := C10_tlv_decode mode r hr hm enc rest value _ hb e1
  exact ⟨v, v1, by omega, v2, v3, v4⟩

example : tlvEncode (List.replicate 6 0xee#8) 5#32 (some [7#8, 8#8, 9#8]) =
    .ok ([5#8, 3#8, 7#8, 8#8, 9#8, 0xee#8], 5) := by decide +kernel
example : tlvDecode .strict (Range.whole [5#8, 3#8, 7#8, 8#8, 9#8, 0xee#8]) =
    .ok ⟨5, ⟨[5#8, 3#8, 7#8, 8#8, 9#8, 0xee#8], 5, 6⟩, some ⟨2, 3⟩⟩ := by decide +kernel

/-- **C11** `gutil_tlv_size` predicts the number of bytes that `gutil_tlv_encode` writes, as
long as that number fits in 32 bits ... -/
theorem C11_tlv_size_partial (buf : List Byte) (tag : BitVec 32) (htag : tag.toNat ≤ 2147483647)
    (value : List Byte)
    (hfit : unsignedSize (tag.setWidth 64) + unsignedSize (BitVec.ofNat 64 value.length) +
      value.length < 2 ^ 32)
    (hbuf : tlvSize tag (BitVec.ofNat 64 value.length) ≤ buf.length) :
    ∃ buf', tlvEncode buf tag (some value) = .ok (buf', tlvSize tag (BitVec.ofNat 64 value.length)) := by
  have hsz : tlvSize tag (BitVec.ofNat 64 value.length) =
      unsignedSize (tag.setWidth 64) + unsignedSize (BitVec.ofNat 64 value.length) + value.length := by
    simp only [tlvSize, BitVec.toNat_setWidth, BitVec.toNat_add, BitVec.toNat_ofNat]
    omega
  rw [hsz] at hbuf ⊢
  obtain ⟨enc, _, e2, e3⟩ := C10_tlv_encode buf tag htag (some value) value (.inl rfl) (by omega) hbuf
  exact ⟨_, by rw [e3, e2]⟩

/-- ... which is what it always predicts the remainder of. -/
theorem C11_tlv_size_mod (tag : BitVec 32) (len : Nat) :
    tlvSize tag (BitVec.ofNat 64 len) =
      (unsignedSize (tag.setWidth 64) + unsignedSize (BitVec.ofNat 64 len) + len) % 2 ^ 32 := by
  have h1 := unsignedSize_le (tag.setWidth 64)
  have h2 := unsignedSize_le (BitVec.ofNat 64 len)
  simp only [tlvSize, BitVec.toNat_setWidth, BitVec.toNat_add, BitVec.toNat_ofNat]
  omega

/-- **C11** at full strength is false: a value of 4 GiB is claimed to take 6 bytes. -/
theorem C11_refuted : ∀ value : List Byte, value.length = 2 ^ 32 →
    tlvSize 1#32 (BitVec.ofNat 64 value.length) = 6 ∧
    ∀ buf : List Byte, 2 ^ 32 + 20 ≤ buf.length → ∃ buf' n, tlvEncode buf 1#32 (some value) = .ok (buf', n) ∧
      n = 2 ^ 32 + 6 := by
  intro value hv
  rw [hv]
  have h1 : tlvSize 1#32 (BitVec.ofNat 64 (2 ^ 32)) = 6 := by decide +kernel
  refine ⟨h1, fun buf hbuf => ?_⟩
  have hsz : unsignedSize ((1#32).setWidth 64) + unsignedSize (BitVec.ofNat 64 (2 ^ 32)) = 6 := by
    decide +kernel
  obtain ⟨enc, _, e2, e3⟩ := C10_tlv_encode buf 1#32 (by decide) (some value) value (.inl rfl)
    (by omega) (by rw [hv, hsz]; omega)
  exact ⟨_, _, e3, by rw [e2, hv, hsz]⟩

/-- The claim of **C12**: decoding never leaves the input and never moves backwards. -/
def C12_claim (mode : Mode) : Prop :=
  ∀ r : Range, r.Valid → r.mem.length < 2 ^ 63 → ∃ x, tlvDecode mode r = .ok x ∧
    r.ptr ≤ x.range.ptr ∧ x.range.ptr ≤ r.fin ∧ x.range.fin = r.fin ∧ x.range.mem = r.mem ∧
    ∀ v, x.val = some v → r.ptr ≤ v.off ∧ v.off + v.size ≤ r.fin

/-- The 12 bytes `01 81 ff ff ff ff ff ff ff ff 75` followed by one more: a TLV with tag 1
and length 2^64 - 11. -/
def hugeTlv : List Byte :=
  [0x01#8, 0x81#8, 0xff#8, 0xff#8, 0xff#8, 0xff#8, 0xff#8, 0xff#8, 0xff#8, 0xff#8, 0x75#8]

/-- **C12** is false: a length of 2^63 or more becomes negative when cast to `gssize`, the
check passes and the pointer leaves the object (undefined behaviour) or, in a flat address
space, goes back to where it was. -/
theorem C12_refuted (mode : Mode) : ¬ C12_claim mode := by
  intro h
  have hv : (Range.whole (0x55#8 :: hugeTlv)).Valid := by decide
  obtain ⟨x, hx, h1, h2, _, _, h3⟩ := h ⟨hugeTlv, 0, 11⟩ (by decide) (by decide)
  cases mode with
  | strict =>
    have : tlvDecode .strict ⟨hugeTlv, 0, 11⟩ = .error .badPtr := by decide +kernel
    rw [this] at hx; cases hx
  | wrap =>
    have : tlvDecode .wrap ⟨hugeTlv, 0, 11⟩ =
        .ok ⟨1, ⟨hugeTlv, 0, 11⟩, some ⟨11, 2 ^ 64 - 11⟩⟩ := by decide +kernel
    rw [this] at hx; cases hx
    have := h3 _ rfl
    simp at this

/-- **C12**, what holds: it is true of all the inputs which don't start with a tag followed
by a length of 2^63 or more; on these, `gutil_tlv_decode` returns a TLV iff there is one, and
otherwise zero without changing the range. -/
theorem C12_tlv_decode_within_partial (mode : Mode) (r : Range) (hr : r.Valid)
    (hmem : r.mem.length < 2 ^ 63) (hno : ¬ HugeHeader r.bytes) :
    ∃ x, tlvDecode mode r = .ok x ∧
      r.ptr ≤ x.range.ptr ∧ x.range.ptr ≤ r.fin ∧ x.range.fin = r.fin ∧ x.range.mem = r.mem ∧
      (∀ v, x.val = some v → r.ptr ≤ v.off ∧ v.off + v.size ≤ r.fin) ∧
      ((∃ b rest tag value, r.bytes = b ++ rest ∧ IsTlv b tag value) ∨
        (x.tag = 0 ∧ x.range = r ∧ x.val = none)) := by
  by_cases h : ∃ b rest tag value, r.bytes = b ++ rest ∧ IsTlv b tag value
  · obtain ⟨b, rest, tag, value, hb, ht⟩ := h
    obtain ⟨v, h1, h2, h3, h4, h5⟩ := tlvDecode_ok hr hmem mode hb ht
    have hl := Range.length_bytes hr
    rw [hb, List.length_append] at hl
    refine ⟨_, h1, by simp only [Range.advance]; omega, by simp only [Range.advance]; omega, rfl, rfl, ?_,
      .inl ⟨b, rest, tag, value, hb, ht⟩⟩
    rintro v' ⟨⟩
    exact ⟨h4, by omega⟩
  · refine ⟨_, tlvDecode_fail hr mode h hno, Int.le_refl _, hr.2.1, rfl, rfl, by simp, .inr ⟨rfl, rfl, rfl⟩⟩

/-- **C12** for every input which does start like that, it goes wrong. -/
theorem C12_every_huge_header_breaks (r : Range) (hr : r.Valid)
    (hmem : r.mem.length < 2 ^ 63) (h : HugeHeader r.bytes) :
    tlvDecode .strict r = .error .badPtr ∧
    ∃ x v, tlvDecode .wrap r = .ok x ∧ x.val = some v ∧ r.fin < v.off + v.size := by
  obtain ⟨t, l, rest, tag, len, h1, h2, h3, h4, hb⟩ := h
  refine ⟨tlvDecode_huge hr hmem .strict hb h1 h2 h3 h4, _, _,
    tlvDecode_huge hr hmem .wrap hb h1 h2 h3 h4, rfl, ?_⟩
  have := hr.1
  have := hr.2.2
  simp only
  omega

example : (Range.whole hugeTlv).Valid ∧ HugeHeader (Range.whole hugeTlv).bytes := by
  refine ⟨by decide, [0x01#8], [0x81#8, 0xff#8, 0xff#8, 0xff#8, 0xff#8, 0xff#8, 0xff#8, 0xff#8,
    0xff#8, 0x75#8], [], 1, 2 ^ 64 - 11, ⟨isFrame_single (by decide), by decide, by decide, by decide⟩,
    by decide, ⟨⟨[0x81#8, 0xff#8, 0xff#8, 0xff#8, 0xff#8, 0xff#8, 0xff#8, 0xff#8,
    0xff#8], 0x75#8, rfl, by decide, by decide⟩, by decide, by decide +kernel, by decide⟩, by decide, by decide⟩

/-- The claim of **C13**: decoding a sequence terminates for every input. -/
def C13_claim (mode : Mode) : Prop :=
  ∀ (input : List Byte) (tags : List Nat) (vals : Option (List (Option Val))) (skip : Bool),
    ∃ fuel, tlvsDecode mode fuel input tags vals skip ≠ .ok none

/-- **C13** is false in a flat address space: with unknown tags skipped, the 11 bytes above
are decoded over and over again, forever. -/
theorem C13_refuted : ¬ C13_claim .wrap := by
  intro h
  obtain ⟨fuel, hf⟩ := h hugeTlv [0] none true
  apply hf
  have key : ∀ fuel, tlvsLoop .wrap [0] true fuel ⟨⟨hugeTlv, 0, hugeTlv.length⟩, 0#32, none⟩ = .ok none := by
    intro fuel
    induction fuel with
    | zero => rfl
    | succ n ih =>
      have hs : tlvsStep .wrap [0] true ⟨⟨hugeTlv, 0, hugeTlv.length⟩, 0#32, none⟩ =
          .ok (.inr ⟨⟨hugeTlv, 0, hugeTlv.length⟩, 0#32, none⟩) := by decide +kernel
      rw [tlvsLoop, hs]
      exact ih
  exact key fuel

/-- One iteration either finishes or makes the input shorter. -/
theorem tlvsStep_progress (mode : Mode) (tags : List Nat) (skip : Bool) (s : TlvsState)
    (hv : s.range.Valid) (hmem : s.range.mem.length < 2 ^ 63)
    (hok : mode = .strict ∨ ¬ HugeHeader s.range.bytes) (s' : TlvsState)
    (h : tlvsStep mode tags skip s = .ok (.inr s')) :
    s'.range.Valid ∧ s'.range.mem = s.range.mem ∧
      ∃ b, b ≠ [] ∧ s.range.bytes = b ++ s'.range.bytes := by
  have hrange : ∀ t, tlvDecode mode s.range = .ok t → t.tag ≠ 0 → s'.range = t.range := by
    intro t ht hne
    simp only [tlvsStep, ht, bind, Except.bind, hne, ne_eq, not_false_eq_true, if_true] at h
    split at h
    · cases h
    · split at h
      · split at h
        · cases h
        · split at h
          · split at h
            · cases h
            · cases h; rfl
          · cases h; rfl
      · split at h
        · cases h; rfl
        · cases h
  have hzero : ∀ t, tlvDecode mode s.range = .ok t → t.tag = 0 → False := by
    intro t ht he
    simp only [tlvsStep, ht, bind, Except.bind, he, ne_eq, not_true_eq_false, if_false] at h
    cases h
  by_cases hh : HugeHeader s.range.bytes
  · rcases hok with rfl | hok
    · rw [tlvsStep, (C12_every_huge_header_breaks _ hv hmem hh).1] at h
      cases h
    · exact (hok hh).elim
  · by_cases ht : ∃ b rest tag value, s.range.bytes = b ++ rest ∧ IsTlv b tag value
    · obtain ⟨b, rest, tag, value, hb, ht⟩ := ht
      obtain ⟨v, h1, _⟩ := tlvDecode_ok hv hmem mode hb ht
      have hne : tag ≠ 0 := fun h0 => hzero _ h1 h0
      have hr := hrange _ h1 hne
      rw [hr]
      refine ⟨Range.advance_valid' hv hb, rfl, b, ?_, ?_⟩
      · rintro rfl
        obtain ⟨t, l, ⟨⟨i, l, rfl, _⟩, _⟩, _, _, e⟩ := ht
        simp at e
      · rw [Range.advance_bytes hv hb]; exact hb
    · exact (hzero _ (tlvDecode_fail hv mode ht hh) rfl).elim

/-- **C13**, what holds: if no suffix of the input starts with a length of 2^63 or more, or
if leaving the object is an error rather than a wrap-around, decoding takes at most as many
iterations as there are bytes, plus one. -/
theorem C13_tlvs_decode_terminates_partial (mode : Mode) (input : List Byte)
    (hlen : input.length < 2 ^ 63) (tags : List Nat) (vals : Option (List (Option Val)))
    (skip : Bool)
    (hok : mode = .strict ∨ ∀ x y, input = x ++ y → ¬ HugeHeader y)
    (fuel : Nat) (hfuel : input.length < fuel) :
    tlvsDecode mode fuel input tags vals skip ≠ .ok none := by
  have key : ∀ (fuel : Nat) (s : TlvsState), s.range.Valid → s.range.mem.length < 2 ^ 63 →
      (mode = .strict ∨ ∀ x y, s.range.bytes = x ++ y → ¬ HugeHeader y) →
      s.range.bytes.length < fuel → tlvsLoop mode tags skip fuel s ≠ .ok none := by
    intro fuel
    induction fuel with
    | zero => intro s _ _ _ h; omega
    | succ n ih =>
      intro s hv hm hok hlt
      rw [tlvsLoop]
      cases hs : tlvsStep mode tags skip s with
      | error e => simp [bind, Except.bind]
      | ok r =>
        cases r with
        | inl res => simp [bind, Except.bind]
        | inr s' =>
          have hok1 : mode = .strict ∨ ¬ HugeHeader s.range.bytes :=
            hok.imp id (fun h => h [] _ rfl)
          obtain ⟨h1, h2, b, h3, h4⟩ := tlvsStep_progress mode tags skip s hv hm hok1 s' hs
          simp only [bind, Except.bind]
          apply ih s' h1 (by rw [h2]; exact hm)
          · refine hok.imp id (fun h x y e => h (b ++ x) y ?_)
            rw [h4, e, List.append_assoc]
          · have hb : 0 < b.length := by
              cases b with
              | nil => exact (h3 rfl).elim
              | cons => simp
            rw [h4, List.length_append] at hlt
            omega
  have hv : (Range.whole input).Valid := ⟨by simp [Range.whole], by simp [Range.whole],
      by simp [Range.whole]⟩
  have hb : (Range.whole input).bytes = input := by simp [Range.whole, Range.bytes]
  have hk := fun v => key fuel ⟨Range.whole input, 0#32, v⟩ hv hlen (by rw [hb]; exact hok)
    (by rw [hb]; exact hfuel)
  cases vals with
  | none => exact hk none
  | some v =>
    simp only [tlvsDecode, bind, Except.bind]
    cases hc : clearVals tags v with
    | error e => simp [Functor.map, Except.map]
    | ok w =>
      simp only [Functor.map, Except.map]
      exact hk (some w)

/-- **C14** A clean sequence of TLVs (which may be in a non-minimal encoding, see
`Spec.Clean`: unknown tags only if they are to be skipped, no known tag twice) is decoded to
the mask of exactly the known tags present, with the right values; missing ones are zeroed,
and nothing else is written. It takes one iteration per TLV plus one. -/
theorem C14_tlvs_decode_exact (mode : Mode) (input : List Byte) (es : List Entry)
    (hseq : IsSeq input es) (hlen : input.length < 2 ^ 63)
    (tagsMem tags : List Nat) (htags : TagsArray tagsMem tags)
    (vals : Option (List (Option Val))) (hvals : ValsRoom tags vals)
    (skip : Bool) (hclean : Clean tags skip es) :
    ∃ m vals', (∀ fuel, es.length < fuel →
        tlvsDecode mode fuel input tagsMem vals skip = .ok (some (m, vals'))) ∧
      IsMask m (fun i => ∃ e ∈ es, TagAt tags e.tag i) ∧
      ValsState input tags es vals vals' := by
  obtain ⟨s, hinv, hrange, hrun⟩ := tlvsDecode_init (input := input) htags hvals mode skip
  have hb : s.range.bytes = input ++ [] := by rw [hrange]; simp [whole_bytes]
  obtain ⟨s', h1, h2, h3, h4⟩ := run_clean hlen htags hvals mode skip hseq hinv hb (by simpa using hclean)
  rw [List.nil_append] at h1
  refine ⟨s'.mask.toInt, s'.vals, ?_, mask_isMask h1, h1.vals⟩
  intro fuel hf
  obtain ⟨k, rfl⟩ : ∃ k, fuel = es.length + (k + 1) := ⟨fuel - es.length - 1, by omega⟩
  rw [hrun, h4, tlvsLoop]
  have hno : ¬ ∃ b rest tag v, s'.range.bytes = b ++ rest ∧ IsTlv b tag v := by
    rintro ⟨b, rest, tag, v, hb, t, l, ⟨⟨i, x, rfl, _⟩, _⟩, _, _, rfl⟩
    rw [h3] at hb; simp at hb
  have hnh : ¬ HugeHeader s'.range.bytes := by
    rintro ⟨t, l, rest, tag, len, ⟨⟨i, x, rfl, _⟩, _⟩, _, _, _, hb⟩
    rw [h3] at hb; simp at hb
  rw [(step_end hlen h1 mode tagsMem skip).2 hno hnh, if_pos h3]
  rfl

/-- **C15** The first offending TLV determines the error: a repeated known tag ... -/
theorem C15_duplicate_tag (mode : Mode) (bs b rest : List Byte) (es : List Entry) (e : Entry)
    (hseq : IsSeq bs es) (he : IsTlv b e.tag e.value) (hnz : e.tag ≠ 0)
    (hlen : (bs ++ (b ++ rest)).length < 2 ^ 63)
    (tagsMem tags : List Nat) (htags : TagsArray tagsMem tags)
    (vals : Option (List (Option Val))) (hvals : ValsRoom tags vals)
    (skip : Bool) (hclean : Clean tags skip es)
    (hk : Known tags e.tag) (hdup : ∃ d ∈ es, d.tag = e.tag) :
    ∃ vals', (∀ fuel, es.length < fuel →
      tlvsDecode mode fuel (bs ++ (b ++ rest)) tagsMem vals skip = .ok (some (-2, vals'))) ∧
      ValsState (bs ++ (b ++ rest)) tags es vals vals' := by
  obtain ⟨s, hinv, hrange, hrun⟩ := tlvsDecode_init (input := bs ++ (b ++ rest)) htags hvals mode skip
  have hb : s.range.bytes = bs ++ (b ++ rest) := by rw [hrange]; simp [whole_bytes]
  obtain ⟨s', h1, h2, h3, h4⟩ := run_clean hlen htags hvals mode skip hseq hinv hb (by simpa using hclean)
  rw [List.nil_append] at h1
  refine ⟨s'.vals, ?_, h1.vals⟩
  intro fuel hf
  obtain ⟨k, rfl⟩ : ∃ k, fuel = es.length + (k + 1) := ⟨fuel - es.length - 1, by omega⟩
  rw [hrun, h4, tlvsLoop, (step_offend hlen htags h1 mode skip h3 he hnz).1 hk hdup]
  rfl

/-- ... an unknown tag if these aren't to be skipped ... -/
theorem C15_unknown_tag (mode : Mode) (bs b rest : List Byte) (es : List Entry) (e : Entry)
    (hseq : IsSeq bs es) (he : IsTlv b e.tag e.value) (hnz : e.tag ≠ 0)
    (hlen : (bs ++ (b ++ rest)).length < 2 ^ 63)
    (tagsMem tags : List Nat) (htags : TagsArray tagsMem tags)
    (vals : Option (List (Option Val))) (hvals : ValsRoom tags vals)
    (hclean : Clean tags false es) (hk : ¬ Known tags e.tag) :
    ∃ vals', (∀ fuel, es.length < fuel →
      tlvsDecode mode fuel (bs ++ (b ++ rest)) tagsMem vals false = .ok (some (-3, vals'))) ∧
      ValsState (bs ++ (b ++ rest)) tags es vals vals' := by
  obtain ⟨s, hinv, hrange, hrun⟩ := tlvsDecode_init (input := bs ++ (b ++ rest)) htags hvals mode false
  have hb : s.range.bytes = bs ++ (b ++ rest) := by rw [hrange]; simp [whole_bytes]
  obtain ⟨s', h1, h2, h3, h4⟩ := run_clean hlen htags hvals mode false hseq hinv hb (by simpa using hclean)
  rw [List.nil_append] at h1
  refine ⟨s'.vals, ?_, h1.vals⟩
  intro fuel hf
  obtain ⟨k, rfl⟩ : ∃ k, fuel = es.length + (k + 1) := ⟨fuel - es.length - 1, by omega⟩
  rw [hrun, h4, tlvsLoop, (step_offend hlen htags h1 mode false h3 he hnz).2 hk rfl]
  rfl

/-- ... or trailing bytes which don't start with a TLV. -/
theorem C15_decode_error (mode : Mode) (bs rest : List Byte) (es : List Entry)
    (hseq : IsSeq bs es) (hlen : (bs ++ rest).length < 2 ^ 63)
    (tagsMem tags : List Nat) (htags : TagsArray tagsMem tags)
    (vals : Option (List (Option Val))) (hvals : ValsRoom tags vals)
    (skip : Bool) (hclean : Clean tags skip es) (hne : rest ≠ [])
    (hno : ¬ ∃ b r tag v, rest = b ++ r ∧ IsTlv b tag v) (hnh : ¬ HugeHeader rest) :
    ∃ vals', (∀ fuel, es.length < fuel →
      tlvsDecode mode fuel (bs ++ rest) tagsMem vals skip = .ok (some (-1, vals'))) ∧
      ValsState (bs ++ rest) tags es vals vals' := by
  obtain ⟨s, hinv, hrange, hrun⟩ := tlvsDecode_init (input := bs ++ rest) htags hvals mode skip
  have hb : s.range.bytes = bs ++ rest := by rw [hrange]; simp [whole_bytes]
  obtain ⟨s', h1, h2, h3, h4⟩ := run_clean hlen htags hvals mode skip hseq hinv hb (by simpa using hclean)
  rw [List.nil_append] at h1
  refine ⟨s'.vals, ?_, h1.vals⟩
  intro fuel hf
  obtain ⟨k, rfl⟩ : ∃ k, fuel = es.length + (k + 1) := ⟨fuel - es.length - 1, by omega⟩
  rw [hrun, h4, tlvsLoop, (step_end hlen h1 mode tagsMem skip).2 (by rw [h3]; exact hno)
    (by rw [h3]; exact hnh), if_neg (by rw [h3]; exact hne)]
  rfl

/-- A sequence, an array of tags and an output array meeting the hypotheses of C14. -/
example : IsSeq [1#8, 1#8, 0xaa#8, 3#8, 0#8] [⟨1, [0xaa#8]⟩, ⟨3, []⟩] ∧
    TagsArray [1, 2, 3, 0] [1, 2, 3] ∧ ValsRoom [1, 2, 3] (some [none, none, none]) ∧
    Clean [1, 2, 3] false [⟨1, [0xaa#8]⟩, ⟨3, []⟩] := by
  refine ⟨?_, ⟨by decide, [], rfl⟩, by show 3 ≤ 3; decide, ?_, ?_⟩
  · refine IsSeq.cons (b := [1#8, 1#8, 0xaa#8]) (e := ⟨1, [0xaa#8]⟩) ?_ (by decide)
      (IsSeq.cons (b := [3#8, 0#8]) (e := ⟨3, []⟩) ?_ (by decide) .nil)
    · exact ⟨[1#8], [1#8], ⟨isFrame_single (by decide), by decide, by decide, by decide⟩, by decide,
        ⟨isFrame_single (by decide), by decide, by decide, by decide⟩, rfl⟩
    · exact ⟨[3#8], [0#8], ⟨isFrame_single (by decide), by decide, by decide, by decide⟩, by decide,
        ⟨isFrame_single (by decide), by decide, by decide, by decide⟩, rfl⟩
  · right
    intro e he
    simp only [List.mem_cons, List.not_mem_nil, or_false] at he
    rcases he with rfl | rfl
    · exact ⟨0, by decide, by decide, by intro j hj; omega⟩
    · refine ⟨2, by decide, by decide, ?_⟩
      intro j hj
      match j, hj with
      | 0, _ => decide
      | 1, _ => decide
  · intro i j a b hij ha hb _
    match i, j, hij with
    | 0, 1, _ =>
      simp only [List.getElem?_cons_zero, List.getElem?_cons_succ, Option.some.injEq] at ha hb
      subst ha; subst hb; decide
    | 0, j + 2, _ => simp at hb
    | 1, j + 2, _ => simp at hb
    | i + 2, j, _ => simp at ha

example : tlvsDecode .strict 3 [1#8, 1#8, 0xaa#8, 3#8, 0#8] [1, 2, 3, 0]
    (some [none, none, none]) false =
    .ok (some (5, some [some ⟨2, 1⟩, none, some ⟨5, 0⟩])) := by decide +kernel
example : tlvsDecode .strict 3 [1#8, 0#8, 1#8, 0#8] [1, 0] none false = .ok (some (-2, none)) := by
  decide +kernel
example : tlvsDecode .strict 3 [1#8, 0#8, 2#8, 0#8] [1, 0] none false = .ok (some (-3, none)) := by
  decide +kernel
example : tlvsDecode .strict 3 [1#8, 0#8, 2#8] [1, 0] none false = .ok (some (-1, none)) := by
  decide +kernel

/-- The claim of **C16**: whatever is accepted is a sequence of TLVs with non-zero tags. -/
def C16_claim (mode : Mode) : Prop :=
  ∀ (input : List Byte) (tags : List Nat) (vals : Option (List (Option Val))) (skip : Bool)
    (fuel : Nat) (m : Int) (vals' : Option (List (Option Val))),
    tlvsDecode mode fuel input tags vals skip = .ok (some (m, vals')) → 0 ≤ m →
    ∃ es, IsSeq input es

/-- **C16** is false: two zero bytes (a TLV with tag zero and no value) are accepted. -/
theorem C16_refuted (mode : Mode) : ¬ C16_claim mode := by
  intro h
  have hx : tlvsDecode mode 1 [0#8, 0#8] [1, 0] none false = .ok (some (0, none)) := by
    cases mode <;> decide +kernel
  obtain ⟨es, hs⟩ := h _ _ _ _ _ _ _ hx (by decide)
  generalize hi : [0#8, 0#8] = input at hs
  cases hs with
  | nil => cases hi
  | @cons b bs e es ht hnz hs =>
    have hz : IsTlv [0#8, 0#8] 0 [] := ⟨[0#8], [0#8], ⟨isFrame_single (by decide), by decide, by decide, by decide⟩,
      by decide, ⟨isFrame_single (by decide), by decide, by decide, by decide⟩, rfl⟩
    obtain ⟨_, h0, _⟩ := tlv_unique (x := []) hz ht (by rw [List.append_nil]; exact hi)
    exact hnz h0.symm

/-- Every input is a sequence of TLVs with non-zero tags followed by something which doesn't
start with one. -/
theorem parse_exists (n : Nat) : ∀ input : List Byte, input.length ≤ n →
    ∃ bs es rest, input = bs ++ rest ∧ IsSeq bs es ∧
      ¬ ∃ b r tag v, rest = b ++ r ∧ IsTlv b tag v ∧ tag ≠ 0 := by
  induction n with
  | zero =>
    intro input h
    have : input = [] := List.length_eq_zero_iff.1 (by omega)
    subst this
    refine ⟨[], [], [], rfl, .nil, ?_⟩
    rintro ⟨b, r, tag, v, e, ⟨t, l, ⟨⟨i, x, rfl, _⟩, _⟩, _, _, rfl⟩, _⟩
    simp at e
  | succ n ih =>
    intro input h
    by_cases hb : ∃ b r tag v, input = b ++ r ∧ IsTlv b tag v ∧ tag ≠ 0
    · obtain ⟨b, r, tag, v, rfl, ht, hne⟩ := hb
      have hlen : 1 ≤ b.length := by
        obtain ⟨t, l, ⟨⟨i, x, rfl, _⟩, _⟩, _, _, rfl⟩ := ht
        simp; omega
      rw [List.length_append] at h
      obtain ⟨bs, es, rest, rfl, hs, hno⟩ := ih r (by omega)
      exact ⟨b ++ bs, ⟨tag, v⟩ :: es, rest, by simp, .cons ht hne hs, hno⟩
    · exact ⟨[], [], input, rfl, .nil, hb⟩

/-- Any sequence of entries is clean or has a first offending one. -/
theorem clean_or_offending (tags : List Nat) (skip : Bool) (es : List Entry) :
    Clean tags skip es ∨ ∃ pre e post, es = pre ++ e :: post ∧ Clean tags skip pre ∧
      ((Known tags e.tag ∧ ∃ d ∈ pre, d.tag = e.tag) ∨ (¬ Known tags e.tag ∧ skip = false)) := by
  have key : ∀ (post pre : List Entry), Clean tags skip pre →
      Clean tags skip (pre ++ post) ∨ ∃ p e q, pre ++ post = p ++ e :: q ∧ Clean tags skip p ∧
      ((Known tags e.tag ∧ ∃ d ∈ p, d.tag = e.tag) ∨ (¬ Known tags e.tag ∧ skip = false)) := by
    intro post
    induction post with
    | nil => intro pre h; left; simpa using h
    | cons e post ih =>
      intro pre h
      by_cases ho : (Known tags e.tag ∧ ∃ d ∈ pre, d.tag = e.tag) ∨ (¬ Known tags e.tag ∧ skip = false)
      · exact .inr ⟨pre, e, post, rfl, h, ho⟩
      · have hc : Clean tags skip (pre ++ [e]) := by
          refine ⟨?_, ?_⟩
          · rcases h.1 with h1 | h1
            · exact .inl h1
            · cases skip with
              | true => exact .inl rfl
              | false =>
                right
                intro x hx
                rcases List.mem_append.1 hx with hx | hx
                · exact h1 x hx
                · rw [List.mem_singleton.1 hx]
                  apply Classical.byContradiction
                  intro hk
                  exact ho (.inr ⟨hk, rfl⟩)
          · intro i j a b hij ha hb hk he
            rcases Nat.lt_or_ge j pre.length with hj | hj
            · rw [List.getElem?_append_left (by omega)] at ha
              rw [List.getElem?_append_left hj] at hb
              exact h.2 i j a b hij ha hb hk he
            · rw [List.getElem?_append_right hj] at hb
              have hj0 : j - pre.length = 0 := by
                rcases Nat.eq_zero_or_pos (j - pre.length) with h0 | h0
                · exact h0
                · rw [List.getElem?_eq_none (by simp; omega)] at hb; cases hb
              rw [hj0] at hb
              simp only [List.getElem?_cons_zero, Option.some.injEq] at hb
              subst hb
              rw [List.getElem?_append_left (by omega)] at ha
              exact ho (.inl ⟨he ▸ hk, a, List.mem_of_getElem? ha, he⟩)
        have := ih (pre ++ [e]) hc
        simpa using this
  have := key es [] ⟨.inr (by simp), by simp⟩
  simpa using this

theorem tlvsLoop_mono (mode : Mode) (tags : List Nat) (skip : Bool) (fuel : Nat) :
    ∀ (s : TlvsState) (x : Int × Option (List (Option Val))),
      tlvsLoop mode tags skip fuel s = .ok (some x) →
      ∀ k, tlvsLoop mode tags skip (fuel + k) s = .ok (some x) := by
  induction fuel with
  | zero => intro s x h; simp [tlvsLoop] at h
  | succ n ih =>
    intro s x h k
    rw [show n + 1 + k = (n + k) + 1 by omega]
    rw [tlvsLoop] at h ⊢
    cases hs : tlvsStep mode tags skip s with
    | error e => rw [hs] at h; simp [bind, Except.bind] at h
    | ok r =>
      rw [hs] at h
      cases r with
      | inl res => simpa [bind, Except.bind] using h
      | inr s' =>
        simp only [bind, Except.bind] at h ⊢
        exact ih s' x h k

/-- **C16**, what holds (if leaving the object is an error, or no suffix of the input starts
with a length of 2^63 or more): whatever is accepted is a
clean sequence of TLVs with non-zero tags, possibly followed by a single TLV with tag zero;
the mask and the values are then those of C14. -/
theorem C16_accepted_partial (mode : Mode) (input : List Byte) (hlen : input.length < 2 ^ 63)
    (hok : mode = .strict ∨ ∀ x y, input = x ++ y → ¬ HugeHeader y)
    (tagsMem tags : List Nat) (htags : TagsArray tagsMem tags)
    (vals : Option (List (Option Val))) (hvals : ValsRoom tags vals) (skip : Bool)
    (fuel : Nat) (m : Int) (vals' : Option (List (Option Val)))
    (h : tlvsDecode mode fuel input tagsMem vals skip = .ok (some (m, vals'))) (hm : 0 ≤ m) :
    ∃ bs es z, input = bs ++ z ∧ IsSeq bs es ∧ Clean tags skip es ∧
      (z = [] ∨ ∃ v, IsTlv z 0 v) ∧
      IsMask m (fun i => ∃ e ∈ es, TagAt tags e.tag i) ∧ ValsState input tags es vals vals' := by
  obtain ⟨bs, es, rest, rfl, hseq, hno⟩ := parse_exists input.length input (Nat.le_refl _)
  have hmono : ∀ k, tlvsDecode mode (fuel + k) (bs ++ rest) tagsMem vals skip =
      .ok (some (m, vals')) := by
    obtain ⟨s, _, _, hrun⟩ := tlvsDecode_init (input := bs ++ rest) htags hvals mode skip
    intro k
    rw [hrun] at h ⊢
    exact tlvsLoop_mono _ _ _ _ _ _ h k
  rcases clean_or_offending tags skip es with hc | ⟨pre, e, post, rfl, hc, ho⟩
  · obtain ⟨s, hinv, hrange, hrun⟩ := tlvsDecode_init (input := bs ++ rest) htags hvals mode skip
    have hb : s.range.bytes = bs ++ rest := by rw [hrange]; simp [whole_bytes]
    obtain ⟨s', h1, h2, h3, h4⟩ := run_clean hlen htags hvals mode skip hseq hinv hb (by simpa using hc)
    rw [List.nil_append] at h1
    have hrun' := hmono (es.length + 1)
    rw [hrun, show fuel + (es.length + 1) = es.length + (fuel + 1) by omega, h4, tlvsLoop] at hrun'
    have hmem := h1.hmem
    by_cases hh : HugeHeader rest
    · have hst : mode = .strict := by
        rcases hok with hok | hok
        · exact hok
        · exact absurd hh (hok bs rest rfl)
      subst hst
      rw [tlvsStep, (C12_every_huge_header_breaks s'.range h1.valid (by rw [hmem]; exact hlen)
        (by rw [h3]; exact hh)).1] at hrun'
      cases hrun'
    · by_cases hz : ∃ b r v, rest = b ++ r ∧ IsTlv b 0 v
      · obtain ⟨b, r, v, rfl, hz⟩ := hz
        rw [(step_end hlen h1 mode tagsMem skip).1 b r v h3 hz] at hrun'
        by_cases hr : r = []
        · subst hr
          rw [if_pos rfl] at hrun'
          simp only [bind, Except.bind, Except.ok.injEq, Option.some.injEq, Prod.mk.injEq] at hrun'
          rw [List.append_nil] at *
          exact ⟨bs, es, b, rfl, hseq, hc, .inr ⟨v, hz⟩, hrun'.1 ▸ mask_isMask h1, hrun'.2 ▸ h1.vals⟩
        · rw [if_neg hr] at hrun'
          simp only [bind, Except.bind, Except.ok.injEq, Option.some.injEq, Prod.mk.injEq,
            DECODE_ERROR] at hrun'
          omega
      · have hno' : ¬ ∃ b r tag v, s'.range.bytes = b ++ r ∧ IsTlv b tag v := by
          rintro ⟨b, r, tag, v, e, ht⟩
          rw [h3] at e
          by_cases h0 : tag = 0
          · subst h0; exact hz ⟨b, r, v, e, ht⟩
          · exact hno ⟨b, r, tag, v, e, ht, h0⟩
        rw [(step_end hlen h1 mode tagsMem skip).2 hno' (by rw [h3]; exact hh), h3] at hrun'
        by_cases hr : rest = []
        · subst hr
          rw [if_pos rfl] at hrun'
          simp only [bind, Except.bind, Except.ok.injEq, Option.some.injEq, Prod.mk.injEq] at hrun'
          exact ⟨bs, es, [], rfl, hseq, hc, .inl rfl, hrun'.1 ▸ mask_isMask h1, hrun'.2 ▸ h1.vals⟩
        · rw [if_neg hr] at hrun'
          simp only [bind, Except.bind, Except.ok.injEq, Option.some.injEq, Prod.mk.injEq,
            DECODE_ERROR] at hrun'
          omega
  · -- an offending entry: the result would be negative
    have split : ∀ (pre : List Entry) (bs : List Byte), IsSeq bs (pre ++ e :: post) →
        ∃ b1 b2 b3, bs = b1 ++ (b2 ++ b3) ∧ IsSeq b1 pre ∧ IsTlv b2 e.tag e.value ∧ e.tag ≠ 0 := by
      intro pre
      induction pre with
      | nil =>
        intro bs hs
        cases hs with
        | @cons b bs' _ _ ht hnz hs => exact ⟨[], b, bs', rfl, .nil, ht, hnz⟩
      | cons p pre ih =>
        intro bs hs
        cases hs with
        | @cons b bs' _ _ ht hnz hs =>
          obtain ⟨b1, b2, b3, rfl, g1, g2, g3⟩ := ih bs' hs
          exact ⟨b ++ b1, b2, b3, by simp, .cons ht hnz g1, g2, g3⟩
    obtain ⟨b1, b2, b3, rfl, g1, g2, g3⟩ := split pre bs hseq
    have e1 : b1 ++ (b2 ++ b3) ++ rest = b1 ++ (b2 ++ (b3 ++ rest)) := by simp
    rw [e1] at hlen hmono
    rcases ho with ⟨hk, hd⟩ | ⟨hk, rfl⟩
    · obtain ⟨v, hv, _⟩ := C15_duplicate_tag mode b1 b2 (b3 ++ rest) pre e g1 g2 g3 hlen tagsMem tags htags
        vals hvals skip hc hk hd
      have h1 := hv (fuel + (pre.length + 1)) (by omega)
      rw [hmono] at h1
      simp only [Except.ok.injEq, Option.some.injEq, Prod.mk.injEq] at h1
      omega
    · obtain ⟨v, hv, _⟩ := C15_unknown_tag mode b1 b2 (b3 ++ rest) pre e g1 g2 g3 hlen tagsMem tags htags
        vals hvals hc hk
      have h1 := hv (fuel + (pre.length + 1)) (by omega)
      rw [hmono] at h1
      simp only [Except.ok.injEq, Option.some.injEq, Prod.mk.injEq] at h1
      omega

/-- **C16**, what happens to a zero tag: if there's nothing after it then it's ignored together with its value, otherwise it's an error. -/
theorem C16_zero_tag (mode : Mode) (bs z rest v : List Byte) (es : List Entry) (hseq : IsSeq bs es) (hz : IsTlv z 0 v)
    (hlen : (bs ++ (z ++ rest)).length < 2 ^ 63) (tagsMem tags : List Nat) (htags : TagsArray tagsMem tags)
    (vals : Option (List (Option Val))) (hvals : ValsRoom tags vals) (skip : Bool) (hclean : Clean tags skip es) :
    ∃ m vals', (∀ fuel, es.length < fuel →
        tlvsDecode mode fuel (bs ++ (z ++ rest)) tagsMem vals skip = .ok (some (if rest = [] then m else -1, vals'))) ∧
      IsMask m (fun i => ∃ e ∈ es, TagAt tags e.tag i) ∧ ValsState (bs ++ (z ++ rest)) tags es vals vals' := by
  obtain ⟨s, hinv, hrange, hrun⟩ := tlvsDecode_init (input := bs ++ (z ++ rest)) htags hvals mode skip
  have hb : s.range.bytes = bs ++ (z ++ rest) := by rw [hrange]; simp [whole_bytes]
  obtain ⟨s', h1, h2, h3, h4⟩ := run_clean hlen htags hvals mode skip hseq hinv hb (by simpa using hclean)
  rw [List.nil_append] at h1
  refine ⟨s'.mask.toInt, s'.vals, ?_, mask_isMask h1, h1.vals⟩
  intro fuel hf
  obtain ⟨k, rfl⟩ : ∃ k, fuel = es.length + (k + 1) := ⟨fuel - es.length - 1, by omega⟩
  rw [hrun, h4, tlvsLoop, (step_end hlen h1 mode tagsMem skip).1 z rest v h3 hz]
  rfl

theorem IsMask.nonneg {m : Int} {P : Nat → Prop} (h : IsMask m P) : 0 ≤ m := by
  unfold IsMask at h
  omega

/-- **C16**, exactly what is accepted: sequences of TLVs without unknown (unless these are to be skipped) and repeated tags, which may be followed by
one more TLV whose tag is zero. -/
theorem C16_exactly (mode : Mode) (input : List Byte) (hlen : input.length < 2 ^ 63)
    (hok : mode = .strict ∨ ∀ x y, input = x ++ y → ¬ HugeHeader y)
    (tagsMem tags : List Nat) (htags : TagsArray tagsMem tags)
    (vals : Option (List (Option Val))) (hvals : ValsRoom tags vals) (skip : Bool) :
    (∃ fuel m vals', tlvsDecode mode fuel input tagsMem vals skip = .ok (some (m, vals')) ∧ 0 ≤ m) ↔
      ∃ bs es z, input = bs ++ z ∧ IsSeq bs es ∧ Clean tags skip es ∧ (z = [] ∨ ∃ v, IsTlv z 0 v) := by
  constructor
  · rintro ⟨fuel, m, vals', h, hm⟩
    obtain ⟨bs, es, z, h1, h2, h3, h4, -⟩ := C16_accepted_partial mode input hlen hok tagsMem tags htags vals hvals skip fuel m vals' h hm
    exact ⟨bs, es, z, h1, h2, h3, h4⟩
  · rintro ⟨bs, es, z, rfl, h2, h3, rfl | ⟨v, hv⟩⟩
    · rw [List.append_nil] at hlen ⊢
      obtain ⟨m, vals', q1, q2, -⟩ := C14_tlvs_decode_exact mode bs es h2 hlen tagsMem tags htags vals hvals skip h3
      exact ⟨_, m, vals', q1 _ (Nat.lt_succ_self _), q2.nonneg⟩
    · obtain ⟨m, vals', q1, q2, -⟩ := C16_zero_tag mode bs z [] v es h2 hv (by rw [List.append_nil]; exact hlen) tagsMem tags htags vals hvals skip h3
      have q3 := q1 _ (Nat.lt_succ_self _)
      rw [List.append_nil, if_pos rfl] at q3
      exact ⟨_, m, vals', q3, q2.nonneg⟩

example : tlvsDecode .strict 9 [1#8, 1#8, 0xaa#8, 0#8, 1#8, 0xbb#8] [1, 2, 0] none false = .ok (some (1, none)) := by decide +kernel

example : tlvsDecode .strict 9 [1#8, 1#8, 0xaa#8, 0#8, 1#8, 0xbb#8, 2#8, 0#8] [1, 2, 0] none false = .ok (some (-1, none)) := by decide +kernel

end Verif.Datapack
