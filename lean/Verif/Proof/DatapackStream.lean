import Verif.Props.DatapackMbn
import Verif.Props.DatapackTlv
import Verif.Model.DatapackStream

namespace Verif.Datapack
open Verif.C Spec

/-- There's no frame at the beginning of an incomplete one. -/
theorem frame_cut {f p q g rest : List Byte} (hf : IsFrame f) (e : f = p ++ q) (hq : q ≠ []) (hg : IsFrame g) (hb : p = g ++ rest) : False := by
  have h : f ++ [] = g ++ (rest ++ q) := by rw [List.append_nil, e, hb, List.append_assoc]
  have := (frame_unique hf hg h).2
  exact hq (List.append_eq_nil_iff.1 this.symm).2

/-- There's no TLV at the beginning of an incomplete one. -/
theorem tlv_cut {b p q c rest value w : List Byte} {t u : Nat} (hb : IsTlv b t value) (e : b = p ++ q) (hq : q ≠ []) (hc : IsTlv c u w) (hp : p = c ++ rest) : False := by
  have h : b ++ [] = c ++ (rest ++ q) := by rw [List.append_nil, e, hp, List.append_assoc]
  have := (tlv_unique hb hc h).2.2.2
  exact hq (List.append_eq_nil_iff.1 this.symm).2

theorem tlv_cut_huge {b p q value : List Byte} {t : Nat} (hb : IsTlv b t value) (e : b = p ++ q) (hl : b.length < 2 ^ 63) : ¬ HugeHeader p := by
  rintro ⟨t', l, rest, tag, len, h1, h2, h3, h4, hp⟩
  refine tlv_not_huge (rest := []) hb ?_ ⟨t', l, rest ++ q, tag, len, h1, h2, h3, h4, ?_⟩
  · obtain ⟨x, y, _, _, _, rfl⟩ := hb
    simp only [List.length_append] at hl
    omega
  · rw [List.append_nil, e, hp]
    simp

/-- Where a sequence of TLVs is cut: after some of them, or inside of one. -/
theorem seq_cut {cs : List Byte} {es : List Entry} (h : IsSeq cs es) : ∀ p q : List Byte, cs = p ++ q →
    (∃ es1 es2, es = es1 ++ es2 ∧ IsSeq p es1) ∨
    (∃ es1 e es2 p1 p2 rest, es = es1 ++ e :: es2 ∧ p = p1 ++ p2 ∧ IsSeq p1 es1 ∧ IsTlv (p2 ++ rest) e.tag e.value ∧ p2 ≠ [] ∧ rest ≠ [] ∧
      (p2 ++ rest).length ≤ cs.length) := by
  induction h with
  | nil =>
    intro p q e
    obtain ⟨rfl, -⟩ := List.append_eq_nil_iff.1 e.symm
    exact .inl ⟨[], [], rfl, .nil⟩
  | @cons b bs e es ht h0 hs ih =>
    intro p q heq
    rcases List.append_eq_append_iff.1 heq with ⟨x, hx1, hx2⟩ | ⟨x, hx1, hx2⟩
    · rcases ih x q hx2 with ⟨es1, es2, r1, r2⟩ | ⟨es1, d, es2, p1, p2, rest, r1, r2, r3, r4, r5, r6, r7⟩
      · exact .inl ⟨e :: es1, es2, by rw [r1]; rfl, by rw [hx1]; exact .cons ht h0 r2⟩
      · exact .inr ⟨e :: es1, d, es2, b ++ p1, p2, rest, by rw [r1]; rfl, by rw [hx1, r2, List.append_assoc], .cons ht h0 r3, r4, r5, r6,
          by rw [List.length_append (as := b)]; omega⟩
    · by_cases hx : x = []
      · subst hx
        rw [List.append_nil] at hx1
        exact .inl ⟨[e], es, rfl, by rw [← hx1]; simpa using IsSeq.cons ht h0 .nil⟩
      · by_cases hp : p = []
        · exact .inl ⟨[], e :: es, rfl, by rw [hp]; exact .nil⟩
        · exact .inr ⟨[], e, es, [], p, x, rfl, rfl, .nil, by rw [← hx1]; exact ht, hp, hx, by rw [← hx1, List.length_append]; omega⟩

theorem clean_prefix {tags : List Nat} {skip : Bool} {es1 es2 : List Entry} (h : Clean tags skip (es1 ++ es2)) : Clean tags skip es1 := by
  refine ⟨h.1.imp id (fun q e he => q e (List.mem_append_left _ he)), ?_⟩
  intro i j a b hij ha hb hk
  have hi : i < es1.length := (List.getElem?_eq_some_iff.1 ha).1
  have hj : j < es1.length := (List.getElem?_eq_some_iff.1 hb).1
  exact h.2 i j a b hij (by rw [List.getElem?_append_left hi]; exact ha) (by rw [List.getElem?_append_left hj]; exact hb) hk

/-- How many bytes the numbers take. -/
def sizes (vs : List (BitVec 64)) : Nat := (vs.map unsignedSize).sum

theorem sizes_cons (v : BitVec 64) (vs : List (BitVec 64)) : sizes (v :: vs) = unsignedSize v + sizes vs := by simp [sizes]

/-- The numbers one after another. -/
inductive IsStream : List Byte → List (BitVec 64) → Prop
  | nil : IsStream [] []
  | cons {f bs : List Byte} {v : BitVec 64} {vs : List (BitVec 64)} :
      UFrame f v.toNat → f.length = unsignedSize v → IsStream bs vs → IsStream (f ++ bs) (v :: vs)

theorem stream_encode : ∀ (vs : List (BitVec 64)) (buf : List Byte), sizes vs ≤ buf.length →
    ∃ bs, unsignedsEncode buf vs = .ok (bs ++ buf.drop bs.length, bs.length) ∧ IsStream bs vs
  | [], buf, _ => ⟨[], by simp [unsignedsEncode], .nil⟩
  | v :: vs, buf, h => by
    rw [sizes_cons] at h
    obtain ⟨f, h1, h2, h3⟩ := unsignedEncode_spec buf v (by omega)
    obtain ⟨bs, h4, h5⟩ := stream_encode vs (buf.drop f.length) (by rw [List.length_drop]; omega)
    refine ⟨f ++ bs, ?_, .cons h2 h1 h5⟩
    unfold unsignedsEncode
    rw [h3, ← h1, ok_bind]
    dsimp only
    rw [List.drop_left, h4, ok_bind, List.take_left]
    simp

theorem stream_length {bs : List Byte} {vs : List (BitVec 64)} (h : IsStream bs vs) : bs.length = sizes vs := by
  induction h with
  | nil => rfl
  | cons _ h _ ih => rw [List.length_append, sizes_cons, h, ih]

theorem unsigned_cut {f p q : List Byte} {v : Nat} (hf : UFrame f v) (e : f = p ++ q) (hq : q ≠ []) {r : Range} (hr : r.Valid) (hb : r.bytes = p) (w : Bool) :
    unsignedDecode w r = .ok ⟨false, r, none⟩ := by
  refine unsignedDecode_fail hr w ?_
  rintro ⟨g, rest, u, hg, hu⟩
  exact frame_cut hf.1 e hq hu.1 (hb ▸ hg)

theorem stream_decode {bs : List Byte} {vs : List (BitVec 64)} (h : IsStream bs vs) : ∀ k, k ≤ bs.length →
    ∃ j, j ≤ vs.length ∧ sizes (vs.take j) ≤ k ∧ (j < vs.length → k < sizes (vs.take (j + 1))) ∧
      ∀ r : Range, r.Valid → r.bytes = bs.take k → ∀ fuel, j < fuel →
        unsignedsDecode fuel r = .ok (vs.take j, r.advance (sizes (vs.take j))) := by
  have stop : ∀ (r : Range) (fuel : Nat), 0 < fuel → unsignedDecode true r = .ok ⟨false, r, none⟩ → unsignedsDecode fuel r = .ok ([], r.advance 0) := by
    intro r fuel hf e
    obtain ⟨n, rfl⟩ : ∃ n, fuel = n + 1 := ⟨fuel - 1, by omega⟩
    rw [unsignedsDecode, e, ok_bind]
    simp [Range.advance]
  induction h with
  | nil =>
    intro k hk
    refine ⟨0, Nat.le_refl _, Nat.zero_le _, fun h => absurd h (by simp), ?_⟩
    intro r hr hb fuel hf
    simp only [List.take_nil] at hb ⊢
    refine stop r fuel hf (unsignedDecode_fail hr true ?_)
    rintro ⟨g, rest, u, hg, ⟨⟨i, x, rfl, _⟩, _⟩⟩
    rw [hb] at hg
    simp at hg
  | @cons f bs v vs h1 h2 h3 ih =>
    intro k hk
    rw [List.length_append] at hk
    rcases Nat.lt_or_ge k f.length with hlt | hge
    · refine ⟨0, Nat.zero_le _, Nat.zero_le _, fun _ => ?_, ?_⟩
      · simp only [List.take_succ_cons, List.take_zero, sizes_cons]
        omega
      · intro r hr hb fuel hf
        refine stop r fuel hf (unsigned_cut h1 (p := f.take k) (q := f.drop k) (by simp) ?_ hr ?_ true)
        · intro e
          have := congrArg List.length e
          rw [List.length_drop, List.length_nil] at this
          omega
        · rw [hb, List.take_append_of_le_length (by omega)]
    · obtain ⟨j, j1, j2, j3, j4⟩ := ih (k - f.length) (by omega)
      refine ⟨j + 1, by simp only [List.length_cons]; omega, ?_, ?_, ?_⟩
      · rw [List.take_succ_cons, sizes_cons]
        omega
      · intro hj
        have := j3 (by simp only [List.length_cons] at hj; omega)
        rw [List.take_succ_cons, sizes_cons]
        omega
      · intro r hr hb fuel hf
        obtain ⟨n, rfl⟩ : ∃ n, fuel = n + 1 := ⟨fuel - 1, by omega⟩
        have hb' : r.bytes = f ++ bs.take (k - f.length) := by
          rw [hb, List.take_append, List.take_of_length_le hge]
        have hd := unsignedDecode_frame hr true hb' h1
        rw [if_pos rfl, BitVec.ofNat_toNat, BitVec.setWidth_eq] at hd
        rw [unsignedsDecode, hd, ok_bind]
        dsimp only
        rw [j4 (r.advance f.length) (Range.advance_valid' hr hb') (Range.advance_bytes hr hb') n (by omega) |> fun h => (show unsignedsDecode n { r with ptr := r.ptr + f.length } = _ from h), ok_bind]
        dsimp only
        rw [Range.advance_advance, List.take_succ_cons, sizes_cons, h2]

end Verif.Datapack
