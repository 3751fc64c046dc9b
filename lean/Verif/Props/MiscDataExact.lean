import Verif.Props.MiscData

/-!
# What happens in the cases excluded by C54 and C55
-/

namespace Verif.Misc
open Verif.C
open Spec (Valid contents bytesAt Readable Usable)

theorem size_of_null (d : Data) (hv : Valid d) (h : d.bytes = none) : d.size = 0 := by
  unfold Valid Readable at hv
  rw [h] at hv
  exact hv

theorem access_null (p : Ptr) (h : p = none) : access .strict p 0 = .error .badArg := by
  rw [h]
  rfl

theorem memEq_null (p q : Ptr) (h : p = none ∨ q = none) : memEq .strict p q 0 = .error .badArg := by
  unfold memEq
  cases p with
  | none => rfl
  | some l =>
    rcases h with h | h
    · cases h
    · rw [h]
      rfl

/-- C54, where a block of data without any memory is involved, exactly. `gutil_data_equal`,
`gutil_data_has_prefix` and `gutil_data_has_suffix` give `NULL` to `memcmp` (or add zero to it, in
`gutil_data_has_suffix`) if and only if the sizes don't settle the matter by themselves. -/
theorem C54_exactly (a b : Nat) (x y : Data) (hx : Valid x) (hy : Valid y) (hn : x.bytes = none ∨ y.bytes = none) :
    dataEqual .strict (some (a, x)) (some (b, y)) =
      (if a = b then .ok true else if x.size = y.size then .error .badArg else .ok false) ∧
    dataHasPrefix .strict (some x) (some y) = (if y.size ≤ x.size then .error .badArg else .ok false) ∧
    dataHasSuffix .strict (some x) (some y) =
      (if y.size ≤ x.size then .error (if x.bytes = none then .badPtr else .badArg) else .ok false) := by
  have zx := size_of_null x hx
  have zy := size_of_null y hy
  refine ⟨?_, ?_, ?_⟩
  · unfold dataEqual
    simp only []
    by_cases hab : a = b
    · rw [if_pos hab, if_pos hab]
    · rw [if_neg hab, if_neg hab]
      by_cases hs : x.size = y.size
      · have h0 : x.size = 0 := by
          rcases hn with h | h
          · exact zx h
          · rw [hs]
            exact zy h
        rw [if_pos hs, if_pos hs, h0]
        exact memEq_null _ _ hn
      · rw [if_neg hs, if_neg hs]
  · unfold dataHasPrefix
    simp only []
    by_cases hs : y.size ≤ x.size
    · have h0 : y.size = 0 := by
        rcases hn with h | h
        · have := zx h
          omega
        · exact zy h
      rw [if_pos hs, if_pos hs, h0]
      exact memEq_null _ _ hn
    · rw [if_neg hs, if_neg hs]
  · unfold dataHasSuffix
    simp only []
    by_cases hs : y.size ≤ x.size
    · rw [if_pos hs, if_pos hs]
      cases hb : x.bytes with
      | none =>
        rw [if_pos rfl]
        unfold advance
        simp only []
        rw [if_neg (by rintro ⟨-, h⟩; cases h)]
        rfl
      | some l =>
        rw [if_neg (by simp)]
        have hy0 : y.bytes = none := by
          rcases hn with h | h
          · rw [hb] at h
            cases h
          · exact h
        unfold Valid Readable at hx
        rw [hb] at hx
        unfold advance
        simp only []
        rw [zy hy0, if_pos (by simpa using hx), ok_bind]
        exact memEq_null _ _ (Or.inr hy0)
    · rw [if_neg hs, if_neg hs]

/-- In words of equality of contents: the empty block without memory and any other empty block at
another address. -/
example : dataEqual .strict (some (1, ⟨none, 0⟩)) (some (2, ⟨some [7], 0⟩)) = .error .badArg ∧
    dataHasSuffix .strict (some ⟨some [7], 1⟩) (some ⟨none, 0⟩) = .error .badArg ∧
    dataHasSuffix .strict (some ⟨none, 0⟩) (some ⟨some [7], 1⟩) = .ok false := by decide +kernel

theorem concatCopy_over (mode : Mode) (cap : Nat) : ∀ (l : List Data) (out : List Byte), (∀ d ∈ l, Valid d ∧ Usable mode d.bytes) →
    out.length ≤ cap → cap < out.length + (l.map Data.size).sum → concatCopy mode cap l out = .error .oobWrite := by
  intro l
  induction l with
  | nil =>
    intro out _ h h'
    simp only [List.map_nil, List.sum_nil] at h'
    omega
  | cons b t ih =>
    intro out hv h0 hc
    simp only [List.map_cons, List.sum_cons] at hc
    have hb := hv b (by simp)
    rw [concatCopy, append, access_ok mode _ _ hb.1 hb.2, ok_bind]
    have hl := bytesAt_length _ _ hb.1
    by_cases hf : out.length + b.size ≤ cap
    · rw [if_pos hf, ok_bind, ih]
      · exact fun d hd => hv d (by simp [hd])
      · rw [List.length_append, hl]
        exact hf
      · rw [List.length_append, hl]
        omega
    · rw [if_neg hf]
      rfl

theorem concatCopy_null (cap : Nat) : ∀ (l : List Data) (out : List Byte), (∀ d ∈ l, Valid d) → (∃ d ∈ l, d.bytes = none) →
    out.length + (l.map Data.size).sum ≤ cap → concatCopy .strict cap l out = .error .badArg := by
  intro l
  induction l with
  | nil => rintro out _ ⟨d, hd, -⟩ _; simp at hd
  | cons b t ih =>
    intro out hv hn hc
    simp only [List.map_cons, List.sum_cons] at hc
    have hb := hv b (by simp)
    rw [concatCopy, append]
    cases hbb : b.bytes with
    | none =>
      rw [size_of_null b hb hbb]
      rfl
    | some l =>
      have hu : Usable .strict (some l) := Or.inr (by simp)
      have hr : Readable (some l) b.size := by
        have := hb
        unfold Valid at this
        rw [hbb] at this
        exact this
      rw [access_ok .strict _ _ hr hu, ok_bind, if_pos (by omega), ok_bind, ih]
      · exact fun d hd => hv d (by simp [hd])
      · obtain ⟨d, hd, h⟩ := hn
        rcases List.mem_cons.mp hd with e | hd
        · rw [e, hbb] at h
          cases h
        · exact ⟨d, hd, h⟩
      · rw [List.length_append, bytesAt_length _ _ hr]
        omega

/-- C55, concatenation in the excluded cases. If at most one of the arguments isn't empty, the
result is a reference to an argument which contains everything, even if other ones have no memory
for their zero bytes. Otherwise an argument without any memory is given to `memcpy`; and if all of
them together have 2^64 bytes or more, some of that is written past the end of the new block. -/
theorem C55_concat_exactly (mode : Mode) (b : Data) (more : List Data) (hv : ∀ d ∈ b :: more, Valid d)
    (hsz : ∀ d ∈ b :: more, d.size < 2 ^ 64) :
    ((b :: more).countP (fun d => d.size ≠ 0) ≤ 1 → ∃ (i : Nat) (d : Data), bytesConcat mode (some b) more = .ok (some (.ref i)) ∧
      (b :: more)[i]? = some d ∧ contents d = (b :: more).flatMap contents) ∧
    (2 ≤ (b :: more).countP (fun d => d.size ≠ 0) → (∃ d ∈ b :: more, d.bytes = none) →
      ((b :: more).map Data.size).sum < 2 ^ 64 → bytesConcat .strict (some b) more = .error .badArg) ∧
    ((∀ d ∈ b :: more, Usable mode d.bytes) → 2 ^ 64 ≤ ((b :: more).map Data.size).sum →
      bytesConcat mode (some b) more = .error .oobWrite) := by
  have hb64 := hsz b (by simp)
  have hsc := concatScan_spec more [b] b.size (if b.size = 0 then 0 else 1) 0 hb64 (by
    by_cases h : b.size = 0
    · simp [h]
    · simp [h]) (by
    intro h
    refine ⟨b, rfl, ?_⟩
    intro h0
    rw [if_pos h0] at h
    exact h rfl)
  simp only [List.length_cons, List.length_nil, Nat.zero_add] at hsc
  obtain ⟨h1, h2, h3⟩ := hsc
  unfold bytesConcat
  simp only []
  generalize concatScan more 1 b.size (if b.size = 0 then 0 else 1) 0 = r at *
  obtain ⟨total, count, ne⟩ := r
  simp only [List.cons_append, List.nil_append] at h1 h2 h3 ⊢
  rw [← h2]
  refine ⟨?_, ?_, ?_⟩
  · intro hc
    by_cases c0 : count = 0
    · rw [if_pos c0]
      refine ⟨0, b, rfl, rfl, ?_⟩
      have hall : ∀ d ∈ b :: more, contents d = [] := by
        intro d hd
        rw [c0] at h2
        have := List.countP_eq_zero.mp h2.symm d hd
        have hl := contents_length d (hv d hd)
        simp at this
        exact List.length_eq_zero_iff.mp (by omega)
      rw [hall b (by simp)]
      symm
      rw [List.flatMap_eq_nil_iff]
      exact hall
    · rw [if_neg c0, if_pos (by omega)]
      obtain ⟨d, hd, hdz⟩ := h3 c0
      exact ⟨ne, d, rfl, hd, (flatMap_one _ hv (by omega) ne d hd hdz).symm⟩
  · intro hc hn hs
    simp only [List.map_cons, List.sum_cons] at hs
    rw [if_neg (by omega), if_neg (by omega), concatCopy_null total _ [] hv hn (by
      simp only [List.map_cons, List.sum_cons, List.length_nil]
      omega)]
    rfl
  · intro hu hs
    have hc : 2 ≤ count := by
      rcases Nat.lt_or_ge count 2 with h | h
      · exfalso
        have hle : ∀ l : List Data, (∀ d ∈ l, d.size < 2 ^ 64) → l.countP (fun d => d.size ≠ 0) ≤ 1 →
            (l.map Data.size).sum < 2 ^ 64 ∧ (l.countP (fun d => d.size ≠ 0) = 0 → (l.map Data.size).sum = 0) := by
          intro l
          induction l with
          | nil => intro _ _; simp
          | cons c t ih =>
            intro hl hk
            rw [List.countP_cons] at hk ⊢
            have hc64 := hl c (by simp)
            have := ih (fun d hd => hl d (by simp [hd])) (by omega)
            simp only [List.map_cons, List.sum_cons]
            by_cases c0 : c.size = 0
            · simp only [c0, ne_eq, not_true_eq_false, decide_false, Bool.false_eq_true, if_false, Nat.add_zero, Nat.zero_add] at hk ⊢
              exact this
            · simp only [ne_eq, c0, not_false_eq_true, decide_true, if_true] at hk ⊢
              have h0 := this.2 (by simpa using hk)
              omega
        have := (hle (b :: more) hsz (by omega)).1
        omega
      · exact h
    simp only [List.map_cons, List.sum_cons] at hs
    have ht : total < 2 ^ 64 := by
      rw [h1]
      exact Nat.mod_lt _ (by decide)
    rw [if_neg (by omega), if_neg (by omega), concatCopy_over mode total _ [] (fun d hd => ⟨hv d hd, hu d hd⟩) (by simp) (by
      simp only [List.map_cons, List.sum_cons, List.length_nil]
      omega)]
    rfl

example : bytesConcat .strict (some ⟨some [1], 1⟩) [⟨none, 0⟩, ⟨some [2], 1⟩] = .error .badArg ∧
    bytesConcat .strict (some ⟨some [1], 1⟩) [⟨none, 0⟩] = .ok (some (.ref 0)) := by decide +kernel

/-- C55, exclusive or in the excluded case: there's at least a word in common and one of the two
isn't aligned the way `unsigned long` has to be; then an `unsigned long` is read from there. -/
theorem C55_xor_exactly (w a1 a2 : Nat) (b1 b2 : Data) (hw : 0 < w) (h1 : Valid b1) (h2 : Valid b2)
    (hm : w ≤ min b1.size b2.size) (ha : a1 % w ≠ 0 ∨ a2 % w ≠ 0) :
    bytesXor .strict w a1 a2 (some b1) (some b2) = .error .badPtr := by
  have l1 := bytesAt_length _ _ h1
  have l2 := bytesAt_length _ _ h2
  have s1 : ∃ l, b1.bytes = some l ∧ b1.size ≤ l.length := by
    unfold Valid Readable at h1
    cases hb : b1.bytes with
    | none =>
      rw [hb] at h1
      simp only [] at h1
      omega
    | some l =>
      rw [hb] at h1
      exact ⟨l, rfl, h1⟩
  have s2 : ∃ l, b2.bytes = some l := by
    unfold Valid Readable at h2
    cases hb : b2.bytes with
    | none =>
      rw [hb] at h2
      simp only [] at h2
      omega
    | some l => exact ⟨l, rfl⟩
  obtain ⟨x, hx, hxl⟩ := s1
  obtain ⟨y, hy⟩ := s2
  have key : ∀ (n fuel : Nat) (out : List Byte), w ≤ n → xorWords .strict w n a1 a2 b1.bytes b2.bytes (fuel + 1) 0 out = .error .badPtr := by
    intro n fuel out hn
    rw [xorWords, if_pos (by omega), xorWord, hx, hy]
    unfold loadWord
    simp only [Nat.add_zero, true_and]
    by_cases h : a1 % w ≠ 0
    · rw [if_pos h]
      rfl
    · rw [if_neg h, if_pos (by omega), ok_bind, if_pos (by
        rcases ha with ha | ha
        · exact absurd ha h
        · exact ha)]
      rfl
  unfold bytesXor
  simp only []
  rw [if_pos (by omega)]
  rw [key _ _ _ hm]
  rfl

example : bytesXor .strict 8 8 1 (some ⟨some (List.replicate 8 1), 8⟩) (some ⟨some (List.replicate 8 2), 8⟩) = .error .badPtr := by
  decide +kernel

end Verif.Misc
