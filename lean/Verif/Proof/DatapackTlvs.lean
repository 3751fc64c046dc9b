import Verif.Proof.DatapackTlv

namespace Verif.Datapack
open Verif.C Spec

theorem findTag_aux (tag : Nat) (junk : List Nat) (tl : List Nat)
    (hnz : ∀ t ∈ tl, t ≠ 0) : ∀ k,
    (∃ i, k + i < 31 ∧ tl[i]? = some tag ∧ (∀ j, j < i → tl[j]? ≠ some tag) ∧
      findTag tag (tl ++ 0 :: junk) k = .ok (some (k + i))) ∨
    ((∀ i, k + i < 31 → tl[i]? ≠ some tag) ∧ findTag tag (tl ++ 0 :: junk) k = .ok none) := by
  induction tl with
  | nil => intro k; right; simp [findTag]
  | cons t tl ih =>
    intro k
    have ht : t ≠ 0 := hnz t (by simp)
    simp only [List.cons_append, findTag]
    by_cases hk : k < 31
    · rw [if_pos ⟨ht, hk⟩]
      by_cases he : t = tag
      · left
        exact ⟨0, by omega, by simp [he], by simp, by rw [if_pos he]; rfl⟩
      · rw [if_neg he]
        rcases ih (fun t ht => hnz t (by simp [ht])) (k + 1) with ⟨i, h1, h2, h3, h4⟩ | ⟨h1, h2⟩
        · left
          refine ⟨i + 1, by omega, by simpa using h2, ?_, by rw [h4]; congr 2; omega⟩
          intro j hj
          cases j with
          | zero => simpa using he
          | succ j => simpa using h3 j (by omega)
        · right
          refine ⟨?_, h2⟩
          intro i hi
          cases i with
          | zero => simpa using he
          | succ i => simpa using h1 i (by omega)
    · rw [if_neg (by omega)]
      right
      exact ⟨fun i hi => by omega, rfl⟩

theorem findTag_spec {mem tags : List Nat} (h : TagsArray mem tags) {tag : Nat} :
    (∃ i, TagAt tags tag i ∧ findTag tag mem 0 = .ok (some i)) ∨
    (¬ Known tags tag ∧ findTag tag mem 0 = .ok none) := by
  obtain ⟨hnz, junk, rfl⟩ := h
  rcases findTag_aux tag junk tags hnz 0 with ⟨i, h1, h2, h3, h4⟩ | ⟨h1, h2⟩
  · left; exact ⟨i, ⟨by omega, h2, h3⟩, by simpa using h4⟩
  · right
    refine ⟨?_, h2⟩
    rintro ⟨i, h3, h4, _⟩
    exact h1 i (by omega) h4

theorem TagAt.index_unique {tags : List Nat} {t i j : Nat} (h : TagAt tags t i)
    (h' : TagAt tags t j) : i = j := by
  obtain ⟨_, a, b⟩ := h
  obtain ⟨_, a', b'⟩ := h'
  rcases Nat.lt_trichotomy i j with hlt | rfl | hlt
  · exact (b' i hlt a).elim
  · rfl
  · exact (b j hlt a').elim

theorem TagAt.tag_unique {tags : List Nat} {t u i : Nat} (h : TagAt tags t i)
    (h' : TagAt tags u i) : t = u := by
  have := h.2.1.symm.trans h'.2.1
  simpa using this

theorem TagAt.lt {tags : List Nat} {t i : Nat} (h : TagAt tags t i) : i < tags.length := by
  rcases Nat.lt_or_ge i tags.length with h1 | h1
  · exact h1
  · have := h.2.1; rw [List.getElem?_eq_none h1] at this; cases this

theorem countTags_spec {mem tags : List Nat} (h : TagsArray mem tags) :
    countTags mem = .ok tags.length := by
  obtain ⟨hnz, junk, rfl⟩ := h
  induction tags with
  | nil => simp [countTags]
  | cons t ts ih =>
    have ht : t ≠ 0 := hnz t (by simp)
    simp only [List.cons_append, countTags, ht, ne_eq, not_false_eq_true, if_true,
      ih (fun t ht => hnz t (by simp [ht]))]
    rfl

/-! ## Bits -/

theorem and_bit_ne (m : BitVec 32) (i : Nat) (hi : i < 31) :
    m &&& (1#32 <<< i) ≠ 0#32 ↔ m.getLsbD i = true := by
  constructor
  · intro h
    cases hb : m.getLsbD i with
    | true => rfl
    | false =>
      exfalso; apply h
      apply BitVec.eq_of_getLsbD_eq
      intro j hj
      simp only [BitVec.getLsbD_and, BitVec.getLsbD_shiftLeft, BitVec.getLsbD_one, BitVec.getLsbD_zero]
      by_cases hij : j = i
      · subst hij; simp [hb]
      · have : (j - i = 0) → j < i := by omega
        by_cases h0 : j < i
        · simp [h0]
        · have : j - i ≠ 0 := by omega
          simp [this]
  · intro h he
    have := congrArg (BitVec.getLsbD · i) he
    simp [h] at this
    omega

theorem or_bit (m : BitVec 32) (i j : Nat) (hi : i < 31) :
    (m ||| (1#32 <<< i)).getLsbD j = true ↔ m.getLsbD j = true ∨ j = i := by
  rw [BitVec.getLsbD_or, Bool.or_eq_true]
  have : (1#32 <<< i).getLsbD j = true ↔ j = i := by
    simp only [BitVec.getLsbD_shiftLeft, BitVec.getLsbD_one]
    constructor
    · intro h
      simp at h
      omega
    · rintro rfl
      simp; omega
  rw [this]

/-! ## The loop -/

/-- Relation between the loop state and the entries processed so far. -/
structure Inv (mem : List Byte) (tags : List Nat) (arg : Option (List (Option Val)))
    (done : List Entry) (s : TlvsState) : Prop where
  hmem : s.range.mem = mem
  valid : s.range.Valid
  mask : ∀ i, s.mask.getLsbD i = true ↔ ∃ e ∈ done, TagAt tags e.tag i
  vals : ValsState mem tags done arg s.vals

theorem step_ok {mem : List Byte} {tagsMem tags : List Nat} {arg : Option (List (Option Val))}
    {done : List Entry} {s : TlvsState} (hmem : mem.length < 2 ^ 63) (htags : TagsArray tagsMem tags)
    (hroom : ValsRoom tags arg) (hinv : Inv mem tags arg done s) (mode : Mode) (skip : Bool)
    {b rest : List Byte} {e : Entry} (hb : s.range.bytes = b ++ rest)
    (ht : IsTlv b e.tag e.value) (hnz : e.tag ≠ 0) (hknown : skip = true ∨ Known tags e.tag)
    (hdup : Known tags e.tag → ∀ d ∈ done, d.tag ≠ e.tag) :
    ∃ s', tlvsStep mode tagsMem skip s = .ok (.inr s') ∧ Inv mem tags arg (done ++ [e]) s' ∧
      s'.range = s.range.advance b.length := by
  obtain ⟨im, iv, imask, ivals⟩ := hinv
  subst im
  obtain ⟨v, hdec, hvs, hvb, _⟩ := tlvDecode_ok iv hmem mode hb ht
  have hval' := Range.advance_valid' iv hb
  rcases findTag_spec (tag := e.tag) htags with ⟨i, hi, hf⟩ | ⟨hunk, hf⟩
  · have hbit : ¬ (s.mask &&& (1#32 <<< i) ≠ 0#32) := by
      rw [and_bit_ne _ _ hi.1, imask]
      rintro ⟨d, hd, hdi⟩
      exact hdup ⟨i, hi⟩ d hd (TagAt.tag_unique hdi hi)
    have hmask : ∀ j, (s.mask ||| (1#32 <<< i)).getLsbD j = true ↔
        ∃ e' ∈ done ++ [e], TagAt tags e'.tag j := by
      intro j
      rw [or_bit _ _ _ hi.1, imask]
      constructor
      · rintro (⟨d, hd, hdi⟩ | rfl)
        · exact ⟨d, by simp [hd], hdi⟩
        · exact ⟨e, by simp, hi⟩
      · rintro ⟨d, hd, hdi⟩
        rcases List.mem_append.1 hd with h | h
        · exact .inl ⟨d, h, hdi⟩
        · rw [List.mem_singleton.1 h] at hdi
          exact .inr (TagAt.index_unique hdi hi)
    match harg : arg, hs : s.vals, ivals, hroom with
    | none, none, _, _ =>
      refine ⟨⟨s.range.advance b.length, s.mask ||| (1#32 <<< i), none⟩, ?_, ⟨rfl, hval', hmask, trivial⟩, rfl⟩
      simp only [tlvsStep, hdec, bind, Except.bind, hnz, ne_eq, not_false_eq_true, if_true, hf,
        hbit, if_false, hs]
    | some old, some cur, hv, hroom =>
      have hroom : tags.length ≤ old.length := hroom
      obtain ⟨v1, v2, v3, v4⟩ := hv
      have hil := TagAt.lt hi
      refine ⟨⟨s.range.advance b.length, s.mask ||| (1#32 <<< i), some (cur.set i (some v))⟩, ?_,
        ⟨rfl, hval', hmask, ?_⟩, rfl⟩
      · simp only [tlvsStep, hdec, bind, Except.bind, hnz, ne_eq, not_false_eq_true, if_true, hf,
          hbit, if_false, hs, wr_ok _ (show i < cur.length by omega)]
      · refine ⟨by simp [v1], ?_, ?_, ?_⟩
        · intro j hj
          rw [List.getElem?_set, if_neg (by omega)]
          exact v2 j hj
        · intro d j hd hdj
          rw [List.getElem?_set]
          rcases List.mem_append.1 hd with h | h
          · have hne : i ≠ j := by
              rintro rfl
              exact hdup ⟨i, hi⟩ d h (TagAt.tag_unique hdj hi)
            rw [if_neg hne]
            exact v3 d j h hdj
          · have := List.mem_singleton.1 h
            subst this
            have := TagAt.index_unique hdj hi
            subst this
            rw [if_pos rfl, if_pos (by omega)]
            exact ⟨v, rfl, hvb, hvs⟩
        · intro j hj hno
          rw [List.getElem?_set]
          have hne : i ≠ j := by
            rintro rfl
            exact hno ⟨e, by simp, hi⟩
          rw [if_neg hne]
          exact v4 j hj (fun ⟨d, hd, hdj⟩ => hno ⟨d, by simp [hd], hdj⟩)
    | none, some _, h, _ => exact h.elim
    | some _, none, h, _ => exact h.elim
  · have hskip : skip = true := by
      rcases hknown with h | h
      · exact h
      · exact (hunk h).elim
    refine ⟨⟨s.range.advance b.length, s.mask, s.vals⟩, ?_, ⟨rfl, hval', ?_, ?_⟩, rfl⟩
    · simp only [tlvsStep, hdec, bind, Except.bind, hnz, ne_eq, not_false_eq_true, if_true, hf, hskip]
    · intro j
      simp only
      rw [imask]
      constructor
      · rintro ⟨d, hd, hdi⟩
        exact ⟨d, by simp [hd], hdi⟩
      · rintro ⟨d, hd, hdi⟩
        rcases List.mem_append.1 hd with h | h
        · exact ⟨d, h, hdi⟩
        · rw [List.mem_singleton.1 h] at hdi
          exact (hunk ⟨j, hdi⟩).elim
    · have notin : ∀ j, ¬ TagAt tags e.tag j := fun j h => hunk ⟨j, h⟩
      match arg, hs : s.vals, ivals with
      | none, none, _ => trivial
      | some old, some cur, hv =>
        obtain ⟨v1, v2, v3, v4⟩ := hv
        refine ⟨v1, v2, ?_, ?_⟩
        · intro d j hd hdj
          rcases List.mem_append.1 hd with h | h
          · exact v3 d j h hdj
          · rw [List.mem_singleton.1 h] at hdj
            exact (notin j hdj).elim
        · intro j hj hno
          exact v4 j hj (fun ⟨d, hd, hdj⟩ => hno ⟨d, by simp [hd], hdj⟩)
      | none, some _, h => exact h.elim
      | some _, none, h => exact h.elim

/-- Offending entries. -/
theorem step_offend {mem : List Byte} {tagsMem tags : List Nat} {arg : Option (List (Option Val))}
    {done : List Entry} {s : TlvsState} (hmem : mem.length < 2 ^ 63) (htags : TagsArray tagsMem tags)
    (hinv : Inv mem tags arg done s) (mode : Mode) (skip : Bool)
    {b rest : List Byte} {e : Entry} (hb : s.range.bytes = b ++ rest)
    (ht : IsTlv b e.tag e.value) (hnz : e.tag ≠ 0) :
    (Known tags e.tag → (∃ d ∈ done, d.tag = e.tag) →
      tlvsStep mode tagsMem skip s = .ok (.inl (DUPLICATE_TAG, s.vals))) ∧
    (¬ Known tags e.tag → skip = false →
      tlvsStep mode tagsMem skip s = .ok (.inl (UNKNOWN_TAG, s.vals))) := by
  obtain ⟨im, iv, imask, ivals⟩ := hinv
  subst im
  obtain ⟨v, hdec, hvs, hvb, _⟩ := tlvDecode_ok iv hmem mode hb ht
  constructor
  · rintro hk ⟨d, hd, hde⟩
    rcases findTag_spec (tag := e.tag) htags with ⟨i, hi, hf⟩ | ⟨hunk, hf⟩
    · have hbit : s.mask &&& (1#32 <<< i) ≠ 0#32 := by
        rw [and_bit_ne _ _ hi.1, imask]
        exact ⟨d, hd, hde ▸ hi⟩
      simp only [tlvsStep, hdec, bind, Except.bind, hnz, ne_eq, not_false_eq_true, if_true, hf, hbit]
    · exact (hunk hk).elim
  · rintro hk rfl
    rcases findTag_spec (tag := e.tag) htags with ⟨i, hi, hf⟩ | ⟨hunk, hf⟩
    · exact (hk ⟨i, hi⟩).elim
    · simp only [tlvsStep, hdec, bind, Except.bind, hnz, ne_eq, not_false_eq_true, if_true, hf]
      simp

/-- Running over a clean sequence of entries. -/
theorem run_clean {mem : List Byte} {tagsMem tags : List Nat} {arg : Option (List (Option Val))}
    (hmem : mem.length < 2 ^ 63) (htags : TagsArray tagsMem tags)
    (hroom : ValsRoom tags arg) (mode : Mode) (skip : Bool) {rest : List Byte}
    {bs : List Byte} {es : List Entry} (hseq : IsSeq bs es) :
    ∀ {done : List Entry} {s : TlvsState}, Inv mem tags arg done s →
      s.range.bytes = bs ++ rest → Clean tags skip (done ++ es) →
      ∃ s', Inv mem tags arg (done ++ es) s' ∧ s'.range = s.range.advance bs.length ∧
        s'.range.bytes = rest ∧
        ∀ fuel, tlvsLoop mode tagsMem skip (es.length + fuel) s = tlvsLoop mode tagsMem skip fuel s' := by
  induction hseq with
  | nil =>
    intro done s hinv hb _
    refine ⟨s, by simpa using hinv, by simp [Range.advance], by simpa using hb, by simp⟩
  | @cons b bs e es ht hnz hseq ih =>
    intro done s hinv hb hclean
    have hb' : s.range.bytes = b ++ (bs ++ rest) := by rw [hb, List.append_assoc]
    obtain ⟨s1, h1, h2, h3⟩ := step_ok hmem htags hroom hinv mode skip hb' ht hnz
      (by rcases hclean.1 with h | h
          · exact .inl h
          · exact .inr (h e (by simp)))
      (by
        intro hk d hd he
        obtain ⟨i, hi⟩ := List.getElem?_of_mem hd
        have hil : i < done.length := by
          rcases Nat.lt_or_ge i done.length with h | h
          · exact h
          · rw [List.getElem?_eq_none h] at hi; cases hi
        refine hclean.2 i done.length d e hil ?_ ?_ (he ▸ hk) he
        · rw [List.getElem?_append_left hil]; exact hi
        · rw [List.getElem?_append_right (Nat.le_refl _)]; simp)
    have hb1 : s1.range.bytes = bs ++ rest := by
      rw [h3]; exact Range.advance_bytes hinv.valid hb'
    obtain ⟨s2, g1, g2, g3, g4⟩ := ih h2 hb1 (by simpa using hclean)
    refine ⟨s2, by simpa using g1, ?_, g3, ?_⟩
    · rw [g2, h3, Range.advance_advance, List.length_append]
    · intro fuel
      rw [List.length_cons, show es.length + 1 + fuel = (es.length + fuel) + 1 by omega, tlvsLoop]
      simp only [h1, bind, Except.bind]
      exact g4 fuel

theorem clearVals_spec {tagsMem tags : List Nat} (h : TagsArray tagsMem tags)
    {v : List (Option Val)} (hroom : tags.length ≤ v.length) :
    clearVals tagsMem v = .ok (List.replicate tags.length none ++ v.drop tags.length) := by
  simp only [clearVals, countTags_spec h, bind, Except.bind, hroom, if_true]

/-- The initial state. -/
theorem tlvsDecode_init {input : List Byte} {tagsMem tags : List Nat}
    {arg : Option (List (Option Val))} (htags : TagsArray tagsMem tags)
    (hroom : ValsRoom tags arg) (mode : Mode) (skip : Bool) :
    ∃ s, Inv input tags arg [] s ∧ s.range = Range.whole input ∧
      ∀ fuel, tlvsDecode mode fuel input tagsMem arg skip = tlvsLoop mode tagsMem skip fuel s := by
  have hv : (Range.whole input).Valid := ⟨by simp [Range.whole], by simp [Range.whole],
      by simp [Range.whole]⟩
  match arg, hroom with
  | none, _ =>
    exact ⟨⟨Range.whole input, 0#32, none⟩, ⟨rfl, hv, by simp, trivial⟩, rfl, fun fuel => rfl⟩
  | some v, hroom =>
    have hroom : tags.length ≤ v.length := hroom
    refine ⟨⟨Range.whole input, 0#32, some (List.replicate tags.length none ++ v.drop tags.length)⟩,
      ⟨rfl, hv, by simp, ?_⟩, rfl, fun fuel => ?_⟩
    · refine ⟨by simp; omega, ?_, by simp, ?_⟩
      · intro i hi
        rw [List.getElem?_append_right (by simpa using hi), List.getElem?_drop]
        congr 1
        simp; omega
      · intro i hi _
        rw [List.getElem?_append_left (by simpa using hi)]
        simp [hi]
    · simp only [tlvsDecode, clearVals_spec htags hroom]
      rfl

theorem mask_isMask {mem : List Byte} {tags : List Nat} {arg : Option (List (Option Val))}
    {done : List Entry} {s : TlvsState} (h : Inv mem tags arg done s) :
    IsMask s.mask.toInt (fun i => ∃ e ∈ done, TagAt tags e.tag i) := by
  have hlt : s.mask.toNat < 2 ^ 31 := by
    have h31 : s.mask.getLsbD 31 = false := by
      cases hb : s.mask.getLsbD 31 with
      | false => rfl
      | true =>
        obtain ⟨e, _, he⟩ := (h.mask 31).1 hb
        have := he.1; omega
    have := BitVec.msb_eq_false_iff_two_mul_lt (x := s.mask)
    rw [BitVec.msb_eq_getLsbD_last] at this
    have := this.1 h31
    omega
  have hi : s.mask.toInt = s.mask.toNat := by
    rw [BitVec.toInt_eq_toNat_cond, if_pos (by omega)]
  rw [hi]
  refine ⟨by omega, fun i => ?_⟩
  rw [Int.toNat_natCast]
  exact h.mask i

/-- What happens when no more TLV can be decoded. -/
theorem step_end {mem : List Byte} {tags : List Nat} {arg : Option (List (Option Val))}
    {done : List Entry} {s : TlvsState} (hmem : mem.length < 2 ^ 63)
    (hinv : Inv mem tags arg done s) (mode : Mode) (tagsMem : List Nat) (skip : Bool) :
    (∀ b rest v, s.range.bytes = b ++ rest → IsTlv b 0 v → tlvsStep mode tagsMem skip s =
      .ok (.inl (if rest = [] then s.mask.toInt else DECODE_ERROR, s.vals))) ∧
    ((¬ ∃ b rest tag v, s.range.bytes = b ++ rest ∧ IsTlv b tag v) → ¬ HugeHeader s.range.bytes →
      tlvsStep mode tagsMem skip s =
        .ok (.inl (if s.range.bytes = [] then s.mask.toInt else DECODE_ERROR, s.vals))) := by
  obtain ⟨im, iv, imask, ivals⟩ := hinv
  subst im
  constructor
  · intro b rest v hb ht
    obtain ⟨v, hdec, hvs, hvb, _⟩ := tlvDecode_ok iv hmem mode hb ht
    have hl := Range.length_bytes iv
    rw [hb, List.length_append] at hl
    simp only [tlvsStep, hdec, bind, Except.bind, ne_eq, not_true_eq_false, if_false]
    have : (s.range.advance b.length).ptr = (s.range.advance b.length).fin ↔ rest = [] := by
      simp only [Range.advance]
      rw [← List.length_eq_zero_iff]; omega
    simp only [this]
  · intro hno hnh
    have hdec := tlvDecode_fail iv mode hno hnh
    have hl := Range.length_bytes iv
    simp only [tlvsStep, hdec, bind, Except.bind, ne_eq, not_true_eq_false, if_false]
    have : s.range.ptr = s.range.fin ↔ s.range.bytes = [] := by
      rw [← List.length_eq_zero_iff]; omega
    simp only [this]

end Verif.Datapack
