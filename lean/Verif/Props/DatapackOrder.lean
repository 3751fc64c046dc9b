import Verif.Props.DatapackTlv
import Verif.Spec.DatapackOrder

/-!
# The order of TLVs doesn't matter: C151
-/

namespace Verif.Datapack
open Verif.C Spec

theorem mask_unique {m n : Int} {p q : Nat → Prop} (h : IsMask m p) (g : IsMask n q) (hpq : ∀ i, p i ↔ q i) : m = n := by
  have : m.toNat = n.toNat := by
    apply Nat.eq_of_testBit_eq
    intro i
    rw [Bool.eq_iff_iff, h.2 i, g.2 i, hpq i]
  have h1 := h.1
  have g1 := g.1
  omega

/-- **C151** If two sequences have the same expected TLVs, in whatever order and mixed with whatever other ones, then both are decoded to the same set of
tags and to the same values. Other TLVs are only there if they are to be skipped; that may be different for these two sequences. -/
theorem C151_order (mode mode' : Mode) (cs ds : List Byte) (es fs : List Entry) (hc : IsSeq cs es) (hd : IsSeq ds fs)
    (hcl : cs.length < 2 ^ 63) (hdl : ds.length < 2 ^ 63) (tagsMem tags : List Nat) (htags : TagsArray tagsMem tags)
    (vals : Option (List (Option Val))) (hvals : ValsRoom tags vals) (skip skip' : Bool)
    (hce : Clean tags skip es) (hcf : Clean tags skip' fs) (hsame : ∀ e, Known tags e.tag → (e ∈ es ↔ e ∈ fs)) :
    ∃ m v w, (∀ fuel, es.length < fuel → tlvsDecode mode fuel cs tagsMem vals skip = .ok (some (m, v))) ∧
      (∀ fuel, fs.length < fuel → tlvsDecode mode' fuel ds tagsMem vals skip' = .ok (some (m, w))) ∧ SameVals tags.length cs ds v w := by
  obtain ⟨m, v, a1, a2, a3⟩ := C14_tlvs_decode_exact mode cs es hc hcl tagsMem tags htags vals hvals skip hce
  obtain ⟨n, w, b1, b2, b3⟩ := C14_tlvs_decode_exact mode' ds fs hd hdl tagsMem tags htags vals hvals skip' hcf
  have hiff : ∀ i, (∃ e ∈ es, TagAt tags e.tag i) ↔ ∃ e ∈ fs, TagAt tags e.tag i := by
    intro i
    exact ⟨fun ⟨e, he, ht⟩ => ⟨e, (hsame e ⟨i, ht⟩).1 he, ht⟩, fun ⟨e, he, ht⟩ => ⟨e, (hsame e ⟨i, ht⟩).2 he, ht⟩⟩
  have hmn : m = n := mask_unique a2 b2 hiff
  subst hmn
  refine ⟨m, v, w, a1, b1, ?_⟩
  cases vals with
  | none =>
    cases v with
    | some v => exact a3.elim
    | none =>
      cases w with
      | some w => exact b3.elim
      | none => trivial
  | some old =>
    cases v with
    | none => exact a3.elim
    | some v =>
      cases w with
      | none => exact b3.elim
      | some w =>
        intro i hi
        by_cases he : ∃ e ∈ es, TagAt tags e.tag i
        · obtain ⟨e, he, ht⟩ := he
          obtain ⟨x, x1, x2, x3⟩ := a3.2.2.1 e i he ht
          obtain ⟨y, y1, y2, y3⟩ := b3.2.2.1 e i ((hsame e ⟨i, ht⟩).1 he) ht
          exact .inr ⟨x, y, x1, y1, by rw [x3, y3], by rw [x2, y2]⟩
        · exact .inl ⟨a3.2.2.2 i hi he, b3.2.2.2 i hi (fun h => he ((hiff i).2 h))⟩

theorem seq_append {cs ds : List Byte} {es fs : List Entry} (h : IsSeq cs es) (g : IsSeq ds fs) : IsSeq (cs ++ ds) (es ++ fs) := by
  induction h with
  | nil => exact g
  | cons h1 h2 _ ih => rw [List.append_assoc, List.cons_append]; exact .cons h1 h2 ih

theorem clean_parts {tags : List Nat} {skip : Bool} {es fs : List Entry} (h : Clean tags skip (es ++ fs)) : Clean tags skip es ∧ Clean tags skip fs := by
  refine ⟨⟨?_, fun i j a b hij ha hb => h.2 i j a b hij ?_ ?_⟩, ⟨?_, fun i j a b hij ha hb => h.2 (es.length + i) (es.length + j) a b (by omega) ?_ ?_⟩⟩
  · exact h.1.imp_right fun h e he => h e (List.mem_append_left _ he)
  · rw [List.getElem?_append_left (List.getElem?_eq_some_iff.1 ha).1]; exact ha
  · rw [List.getElem?_append_left (List.getElem?_eq_some_iff.1 hb).1]; exact hb
  · exact h.1.imp_right fun h e he => h e (List.mem_append_right _ he)
  · rw [List.getElem?_append_right (by omega)]; simpa using ha
  · rw [List.getElem?_append_right (by omega)]; simpa using hb

/-- **C151** The tags found in the concatenation of two sequences are those found in either of them, and no tag is found in both. -/
theorem C151_concat (mode : Mode) (cs ds : List Byte) (es fs : List Entry) (hc : IsSeq cs es) (hd : IsSeq ds fs)
    (hl : (cs ++ ds).length < 2 ^ 63) (tagsMem tags : List Nat) (htags : TagsArray tagsMem tags) (vals : Option (List (Option Val)))
    (hvals : ValsRoom tags vals) (skip : Bool) (hclean : Clean tags skip (es ++ fs)) :
    ∃ m n v w u, (∀ fuel, es.length < fuel → tlvsDecode mode fuel cs tagsMem vals skip = .ok (some ((m : Nat), v))) ∧
      (∀ fuel, fs.length < fuel → tlvsDecode mode fuel ds tagsMem vals skip = .ok (some ((n : Nat), w))) ∧
      (∀ fuel, es.length + fs.length < fuel → tlvsDecode mode fuel (cs ++ ds) tagsMem vals skip = .ok (some (((m ||| n : Nat) : Int), u))) ∧
      m &&& n = 0 := by
  rw [List.length_append] at hl
  obtain ⟨h1, h2⟩ := clean_parts hclean
  obtain ⟨m, v, a1, a2, -⟩ := C14_tlvs_decode_exact mode cs es hc (by omega) tagsMem tags htags vals hvals skip h1
  obtain ⟨n, w, b1, b2, -⟩ := C14_tlvs_decode_exact mode ds fs hd (by omega) tagsMem tags htags vals hvals skip h2
  obtain ⟨k, u, c1, c2, -⟩ := C14_tlvs_decode_exact mode (cs ++ ds) (es ++ fs) (seq_append hc hd) (by rw [List.length_append]; omega)
    tagsMem tags htags vals hvals skip hclean
  obtain ⟨m, rfl⟩ := Int.eq_ofNat_of_zero_le a2.1
  obtain ⟨n, rfl⟩ := Int.eq_ofNat_of_zero_le b2.1
  have hk : k = ((m ||| n : Nat) : Int) := by
    refine mask_unique c2 (q := fun i => (m ||| n).testBit i = true) ⟨by omega, fun i => Iff.rfl⟩ fun i => ?_
    have x := a2.2 i
    have y := b2.2 i
    rw [Int.toNat_natCast] at x y
    rw [Nat.testBit_or, Bool.or_eq_true, x, y]
    constructor
    · rintro ⟨e, he, ht⟩
      rcases List.mem_append.1 he with he | he
      · exact .inl ⟨e, he, ht⟩
      · exact .inr ⟨e, he, ht⟩
    · rintro (⟨e, he, ht⟩ | ⟨e, he, ht⟩)
      · exact ⟨e, List.mem_append_left _ he, ht⟩
      · exact ⟨e, List.mem_append_right _ he, ht⟩
  subst hk
  refine ⟨m, n, v, w, u, a1, b1, fun fuel hf => c1 fuel (by rw [List.length_append]; exact hf), ?_⟩
  apply Nat.eq_of_testBit_eq
  intro i
  rw [Nat.testBit_and, Nat.zero_testBit]
  have x := a2.2 i
  have y := b2.2 i
  rw [Int.toNat_natCast] at x y
  rw [Bool.and_eq_false_iff]
  rcases Classical.em (m.testBit i = true) with hm | hm
  · right
    rw [Bool.eq_false_iff]
    intro hn
    obtain ⟨e, he, ht⟩ := x.1 hm
    obtain ⟨f, hf, ht'⟩ := y.1 hn
    have htag : e.tag = f.tag := by
      have := ht.2.1.symm.trans ht'.2.1
      injection this
    obtain ⟨p, hp, rfl⟩ := List.getElem_of_mem he
    obtain ⟨q, hq, rfl⟩ := List.getElem_of_mem hf
    refine hclean.2 p (es.length + q) _ _ (by omega) ?_ ?_ ⟨i, ht⟩ htag
    · rw [List.getElem?_append_left hp, List.getElem?_eq_getElem hp]
    · rw [List.getElem?_append_right (by omega)]; simp [List.getElem?_eq_getElem hq]
  · left
    exact Bool.eq_false_iff.2 hm

/-- Tags 1 and 3 in both orders, and an unknown one (9) in the second sequence: the hypotheses are met -/
example : IsSeq [1#8, 1#8, 0xaa#8, 3#8, 0#8] [⟨1, [0xaa#8]⟩, ⟨3, []⟩] ∧ IsSeq [3#8, 0#8, 9#8, 0#8, 1#8, 1#8, 0xaa#8] [⟨3, []⟩, ⟨9, []⟩, ⟨1, [0xaa#8]⟩] ∧
    (∀ e : Entry, Known [1, 2, 3] e.tag → (e ∈ [⟨1, [0xaa#8]⟩, ⟨3, []⟩] ↔ e ∈ [⟨3, []⟩, ⟨9, []⟩, (⟨1, [0xaa#8]⟩ : Entry)])) := by
  have h1 : IsTlv [1#8, 1#8, 0xaa#8] 1 [0xaa#8] := ⟨[1#8], [1#8], ⟨isFrame_single (by decide), by decide, by decide, by decide⟩, by decide,
    ⟨isFrame_single (by decide), by decide, by decide, by decide⟩, rfl⟩
  have h3 : IsTlv [3#8, 0#8] 3 [] := ⟨[3#8], [0#8], ⟨isFrame_single (by decide), by decide, by decide, by decide⟩, by decide,
    ⟨isFrame_single (by decide), by decide, by decide, by decide⟩, rfl⟩
  have h9 : IsTlv [9#8, 0#8] 9 [] := ⟨[9#8], [0#8], ⟨isFrame_single (by decide), by decide, by decide, by decide⟩, by decide,
    ⟨isFrame_single (by decide), by decide, by decide, by decide⟩, rfl⟩
  refine ⟨.cons (e := ⟨1, [0xaa#8]⟩) h1 (by decide) (.cons (b := [3#8, 0#8]) (bs := []) (e := ⟨3, []⟩) h3 (by decide) .nil),
    .cons (e := ⟨3, []⟩) h3 (by decide) (.cons (e := ⟨9, []⟩) h9 (by decide) (.cons (b := [1#8, 1#8, 0xaa#8]) (bs := []) (e := ⟨1, [0xaa#8]⟩) h1 (by decide) .nil)), ?_⟩
  rintro ⟨t, v⟩ ⟨i, -, hi, -⟩
  have : t = 1 ∨ t = 2 ∨ t = 3 := by
    have := List.mem_of_getElem? hi
    simpa using this
  rcases this with rfl | rfl | rfl <;> simp

example : tlvsDecode .strict 4 [1#8, 1#8, 0xaa#8, 3#8, 0#8] [1, 2, 3, 0] (some [none, none, none]) false = .ok (some (5, some [some ⟨2, 1⟩, none, some ⟨5, 0⟩])) ∧
    tlvsDecode .strict 4 [3#8, 0#8, 9#8, 0#8, 1#8, 1#8, 0xaa#8] [1, 2, 3, 0] (some [none, none, none]) true =
      .ok (some (5, some [some ⟨6, 1⟩, none, some ⟨2, 0⟩])) := ⟨by decide +kernel, by decide +kernel⟩

end Verif.Datapack
